import Verif.Cleaning.Walk

/-!
# Deleting files: C307 (`delete_existing_files`) and C308 (`remove_files_in_dirs`)
-/

namespace IMT.Cleaning

open IMT.Utils (Files)

/-- The first answer that is a yes or a no is a no. -/
def SaysNo (answers : List String) : Prop :=
  ∃ a b x, answers = a ++ x :: b ∧ x ∈ no ∧ ∀ y ∈ a, y ∉ yes ∧ y ∉ no

/-- The first answer that is a yes or a no is a yes. -/
def SaysYes (answers : List String) : Prop :=
  ∃ a b x, answers = a ++ x :: b ∧ x ∈ yes ∧ ∀ y ∈ a, y ∉ yes ∧ y ∉ no

theorem no_not_yes {x : String} (h : x ∈ no) : x ∉ yes := by
  simp only [no, List.mem_cons, List.not_mem_nil, or_false] at h
  rcases h with rfl | rfl | rfl | rfl | rfl | rfl | rfl | rfl <;> decide

theorem ask_true {answers : List String} : ask answers = .ok true ↔ SaysYes answers := by
  induction answers with
  | nil =>
    constructor
    · intro h; cases h
    · rintro ⟨a, b, x, h, _⟩; simp at h
  | cons y ys ih =>
    unfold ask
    by_cases hy : y ∈ yes
    · rw [if_pos hy]
      exact ⟨fun _ => ⟨[], ys, y, rfl, hy, by simp⟩, fun _ => rfl⟩
    · rw [if_neg hy]
      by_cases hn : y ∈ no
      · rw [if_pos hn]
        constructor
        · intro h; cases h
        · rintro ⟨a, b, x, h, hx, ha⟩
          cases a with
          | nil => simp only [List.nil_append, List.cons.injEq] at h; exact absurd (h.1 ▸ hx) hy
          | cons z zs =>
            simp only [List.cons_append, List.cons.injEq] at h
            exact absurd hn (h.1 ▸ (ha z (by simp)).2)
      · rw [if_neg hn, ih]
        constructor
        · rintro ⟨a, b, x, rfl, hx, ha⟩
          refine ⟨y :: a, b, x, rfl, hx, ?_⟩
          intro z hz
          rcases List.mem_cons.mp hz with rfl | hz
          · exact ⟨hy, hn⟩
          · exact ha z hz
        · rintro ⟨a, b, x, h, hx, ha⟩
          cases a with
          | nil => simp only [List.nil_append, List.cons.injEq] at h; exact absurd (h.1 ▸ hx) hy
          | cons z zs =>
            simp only [List.cons_append, List.cons.injEq] at h
            exact ⟨zs, b, x, h.2, hx, fun w hw => ha w (by simp [hw])⟩

theorem ask_false_of {answers : List String} (h : SaysNo answers) : ask answers = .ok false := by
  obtain ⟨a, b, x, rfl, hx, ha⟩ := h
  induction a with
  | nil => simp [ask, no_not_yes hx, hx]
  | cons y ys ih =>
    have := ha y (by simp)
    simp only [List.cons_append, ask, this.1, this.2, if_false]
    exact ih (fun z hz => ha z (by simp [hz]))

/-! ## C307 -/

/-- `p` is listed by the object as an existing file (`false`) or folder (`true`). -/
def IsListed (s : Files Path) (p : Path) (dir : Bool) : Prop :=
  ∃ i : Nat, s.paths[i]? = some p ∧ s.exist[i]? = some true ∧
    ∃ d, s.isdir[i]? = some d ∧ (d = some true ↔ dir = true)

theorem mem_listed {s : Files Path} {p : Path} {k : Bool} :
    (p, k) ∈ listed s ↔ IsListed s p k := by
  unfold listed IsListed
  rw [List.mem_map]
  constructor
  · rintro ⟨⟨p', e, d⟩, h, he⟩
    obtain ⟨rfl, rfl⟩ : p' = p ∧ decide (d = some true) = k := by simpa using he
    rw [List.mem_filter] at h
    obtain ⟨h, he⟩ := h
    obtain ⟨i, hi⟩ := List.mem_iff_getElem?.mp h
    rw [List.getElem?_zip_eq_some] at hi
    obtain ⟨h1, h2⟩ := hi
    rw [List.getElem?_zip_eq_some] at h2
    simp only at he h1 h2
    subst he
    exact ⟨i, h1, h2.1, d, h2.2, by simp⟩
  · rintro ⟨i, h1, h2, d, h3, h4⟩
    refine ⟨(p, true, d), ?_, by cases k <;> simp_all⟩
    rw [List.mem_filter]
    refine ⟨List.mem_iff_getElem?.mpr ⟨i, ?_⟩, rfl⟩
    rw [List.getElem?_zip_eq_some]
    refine ⟨h1, ?_⟩
    rw [List.getElem?_zip_eq_some]
    exact ⟨h2, h3⟩

theorem mem_listedFiles {s : Files Path} {p : Path} : p ∈ listedFiles s ↔ IsListed s p false := by
  unfold listedFiles
  rw [← mem_listed]
  simp

theorem mem_listedDirs {s : Files Path} {p : Path} : p ∈ listedDirs s ↔ IsListed s p true := by
  unfold listedDirs
  rw [← mem_listed]
  simp

/-- What the deletions do to the disk. -/
theorem deletions_spec (rec : Bool) (s : Files Path) (fs : Forest) (hf : Wf fs) :
    (∀ q k, Has (deletions rec s fs).1 q k → Has fs q k) ∧
    (∀ q k, Has fs q k → ¬ IsListed s q false → (∀ d, IsListed s d true → ¬ d <+: q) →
      Has (deletions rec s fs).1 q k) ∧
    ((deletions rec s fs).2.2 = .ok ⟨⟩ →
      (∀ p k, IsListed s p k → ∀ k', ¬ Has (deletions rec s fs).1 p k') ∧
      (deletions rec s fs).2.1.exist = s.exist.map fun _ => false) := by
  obtain ⟨w1, a1, b1, c1⟩ := each_spec deletes_rmFile .osError (listedFiles s) fs hf
  unfold deletions
  cases h1 : each Forest.rmFile .osError fs (listedFiles s) with
  | mk fs1 r1 =>
    rw [h1] at w1 a1 b1 c1
    simp only at w1 a1 b1 c1
    cases r1 with
    | error e =>
      simp only
      refine ⟨a1, fun q k hq hl _ => b1 q k hq ?_, by simp⟩
      rintro p hp rfl
      exact hl (mem_listedFiles.mp hp)
    | ok u =>
      simp only
      obtain ⟨w2, a2, b2, c2⟩ := each_spec (deletes_rmDir rec)
        (if rec then .osError else .nameError) (listedDirs s) fs1 w1
      have hkeep : ∀ q k, Has fs q k → ¬ IsListed s q false → Has fs1 q k := by
        intro q k hq hl
        refine b1 q k hq ?_
        rintro p hp rfl
        exact hl (mem_listedFiles.mp hp)
      cases h2 : each (Forest.rmDir rec) (if rec then .osError else .nameError) fs1
          (listedDirs s) with
      | mk fs2 r2 =>
        rw [h2] at a2 b2 c2
        simp only at a2 b2 c2
        cases r2 with
        | error e =>
          simp only
          refine ⟨fun q k h => a1 q k (a2 q k h), ?_, by simp⟩
          intro q k hq hl hd
          exact b2 q k (hkeep q k hq hl) (fun p hp => hd p (mem_listedDirs.mp hp))
        | ok v =>
          simp only
          refine ⟨fun q k h => a1 q k (a2 q k h), ?_, ?_⟩
          · intro q k hq hl hd
            exact b2 q k (hkeep q k hq hl) (fun p hp => hd p (mem_listedDirs.mp hp))
          · intro _
            refine ⟨?_, trivial⟩
            intro p k hl k' hh
            cases k with
            | false => exact c1 rfl p k' (a2 p k' hh) p (mem_listedFiles.mpr hl) rfl
            | true => exact c2 rfl p k' hh p (mem_listedDirs.mpr hl) (List.prefix_refl _)

/-- **C307.**  Whatever the answers and however it ends, `delete_existing_files`
leaves everything that is neither listed as a file nor in a listed folder, and
makes nothing. -/
theorem C307_only_listed (recursive : Bool) (s : Files Path) (fs : Forest) (hf : Wf fs)
    (answers : List String) (q : Path) (k : Bool) :
    (Has (deleteExisting recursive s fs answers).1 q k → Has fs q k) ∧
    (Has fs q k → ¬ IsListed s q false → (∀ d, IsListed s d true → ¬ d <+: q) →
      Has (deleteExisting recursive s fs answers).1 q k) := by
  obtain ⟨h1, h2, _⟩ := deletions_spec recursive s fs hf
  unfold deleteExisting
  by_cases hp : s.paths = []
  · simp only [hp, if_true]
    exact ⟨fun h => h, fun h _ _ => h⟩
  · simp only [hp, if_false]
    cases ask answers with
    | error e => exact ⟨fun h => h, fun h _ _ => h⟩
    | ok b =>
      cases b with
      | false => exact ⟨fun h => h, fun h _ _ => h⟩
      | true => exact ⟨h1 q k, h2 q k⟩

/-- **C307.**  Without `recursive`, no file is deleted but the listed ones,
those of listed folders included. -/
theorem C307_files_kept (s : Files Path) (fs : Forest) (hf : Wf fs)
    (answers : List String) (q : Path) (hq : Has fs q false) (hl : ¬ IsListed s q false) :
    Has (deleteExisting false s fs answers).1 q false := by
  have hloop : ∀ (ps : List Path) (f : Forest) (e : Err), Wf f → Has f q false →
      Has (each (Forest.rmDir false) e f ps).1 q false := by
    intro ps
    induction ps with
    | nil => intro f e _ h; exact h
    | cons p ps ih =>
      intro f e hf h
      unfold each
      cases hop : f.rmDir false p with
      | none => exact h
      | some g =>
        simp only
        obtain ⟨w, hh⟩ := (deletes_rmDir false).spec f hf p g hop
        have hc : CanRm false f p := ((deletes_rmDir false).some_iff f hf p).mp (by rw [hop]; rfl)
        refine ih g e w ((hh q false).mpr ⟨h, fun hpq => ?_⟩)
        have hqp : q = p := by
          rcases hc.2 with h' | h'
          · cases h'
          · exact h' q false h hpq
        subst hqp
        exact has_kind hf hc.1 h
  obtain ⟨w1, _, b1, _⟩ := each_spec deletes_rmFile .osError (listedFiles s) fs hf
  have hk : Has (each Forest.rmFile .osError fs (listedFiles s)).1 q false := by
    refine b1 q false hq ?_
    rintro p hp rfl
    exact hl (mem_listedFiles.mp hp)
  unfold deleteExisting
  by_cases hp : s.paths = []
  · simp only [hp, if_true]; exact hq
  · simp only [hp, if_false]
    cases ask answers with
    | error e => exact hq
    | ok b =>
      cases b with
      | false => exact hq
      | true =>
        simp only
        unfold deletions
        cases h1 : each Forest.rmFile .osError fs (listedFiles s) with
        | mk fs1 r1 =>
          rw [h1] at w1 hk
          cases r1 with
          | error e => exact hk
          | ok u =>
            simp only [Bool.false_eq_true, if_false]
            have := hloop (listedDirs s) fs1 .nameError w1 hk
            cases h2 : each (Forest.rmDir false) .nameError fs1 (listedDirs s) with
            | mk fs2 r2 =>
              rw [h2] at this
              cases r2 <;> exact this

/-- **C307.**  After a no nothing is changed. -/
theorem C307_refused (recursive : Bool) (s : Files Path) (fs : Forest) (answers : List String)
    (hp : s.paths ≠ []) (hn : SaysNo answers) :
    deleteExisting recursive s fs answers = (fs, s, .ok ⟨⟩) := by
  unfold deleteExisting
  rw [if_neg hp, ask_false_of hn]

/-- **C307.**  When it returns after a yes, nothing listed is left and nothing
is said to exist any more. -/
theorem C307_all_gone (recursive : Bool) (s : Files Path) (fs : Forest) (hf : Wf fs)
    (answers : List String) (hy : SaysYes answers)
    (hok : (deleteExisting recursive s fs answers).2.2 = .ok ⟨⟩) :
    (∀ p k, IsListed s p k → ∀ k', ¬ Has (deleteExisting recursive s fs answers).1 p k') ∧
    ∀ b ∈ (deleteExisting recursive s fs answers).2.1.exist, b = false := by
  obtain ⟨_, _, h3⟩ := deletions_spec recursive s fs hf
  unfold deleteExisting at hok ⊢
  by_cases hp : s.paths = []
  · simp [hp] at hok
  · simp only [hp, if_false, ask_true.mpr hy] at hok ⊢
    obtain ⟨h4, h5⟩ := h3 hok
    refine ⟨h4, ?_⟩
    rw [h5]
    intro b hb
    rw [List.mem_map] at hb
    obtain ⟨_, _, rfl⟩ := hb
    rfl

/-- **C307.**  It returns after a yes when the listed files are on the disk,
listed once, and the listed folders are on the disk, none of them in one
listed before it, and `recursive` is asked for. -/
theorem C307_returns_partial (s : Files Path) (fs : Forest) (hf : Wf fs) (hp : s.paths ≠ [])
    (answers : List String) (hy : SaysYes answers)
    (hfn : (listedFiles s).Nodup) (hfd : ∀ p, IsListed s p false → Has fs p false)
    (hdn : (listedDirs s).Pairwise fun d e => ¬ d <+: e)
    (hdd : ∀ d, IsListed s d true → Has fs d true) :
    (deleteExisting true s fs answers).2.2 = .ok ⟨⟩ := by
  have h1 := each_files_ok .osError (listedFiles s) fs hf hfn
    (fun p hp => hfd p (mem_listedFiles.mp hp))
  obtain ⟨w1, _, b1, _⟩ := each_spec deletes_rmFile .osError (listedFiles s) fs hf
  have h2 := each_dirs_ok .osError (listedDirs s)
    (each Forest.rmFile .osError fs (listedFiles s)).1 w1 hdn (by
      intro d hd
      have hdt := hdd d (mem_listedDirs.mp hd)
      refine b1 d true hdt ?_
      rintro p hp rfl
      exact has_kind hf hdt (hfd d (mem_listedFiles.mp hp)))
  unfold deleteExisting
  simp only [hp, if_false, ask_true.mpr hy]
  unfold deletions
  cases he : each Forest.rmFile .osError fs (listedFiles s) with
  | mk fs1 r1 =>
    rw [he] at h1 h2
    simp only at h1 h2
    subst h1
    simp only [if_true]
    cases he2 : each (Forest.rmDir true) .osError fs1 (listedDirs s) with
    | mk fs2 r2 =>
      rw [he2] at h2
      simp only at h2
      subst h2
      rfl

/-- **C307 fails** on folders inside one another, listed as a search lists them,
the outer one first: an exception leaves the object as it was although files
are deleted, with `recursive` or without. -/
theorem C307_nested_violated (recursive : Bool) (s : Files Path) (fs : Forest) (hf : Wf fs)
    (answers : List String) (hy : SaysYes answers) (hp : s.paths ≠ [])
    (hfn : (listedFiles s).Nodup) (hfd : ∀ p, IsListed s p false → Has fs p false)
    (d e : Path) (hde : d <+: e) (hord : [d, e].Sublist (listedDirs s)) :
    (deleteExisting recursive s fs answers).2.2 =
      .error (if recursive then .osError else .nameError) ∧
    (deleteExisting recursive s fs answers).2.1 = s ∧
    ∀ p, IsListed s p false → ¬ Has (deleteExisting recursive s fs answers).1 p false := by
  have h1 := each_files_ok .osError (listedFiles s) fs hf hfn
    (fun p hp => hfd p (mem_listedFiles.mp hp))
  obtain ⟨w1, _, _, c1⟩ := each_spec deletes_rmFile .osError (listedFiles s) fs hf
  have hgone := c1 h1
  unfold deleteExisting
  simp only [hp, if_false, ask_true.mpr hy]
  unfold deletions
  cases he : each Forest.rmFile .osError fs (listedFiles s) with
  | mk fs1 r1 =>
    rw [he] at h1 w1 hgone
    simp only at h1 w1 hgone
    subst h1
    simp only
    have h2 := each_nested_fails recursive (if recursive then .osError else .nameError)
      (listedDirs s) fs1 w1 d e hde hord
    obtain ⟨_, a2, _⟩ := each_spec (deletes_rmDir recursive)
      (if recursive then .osError else .nameError) (listedDirs s) fs1 w1
    cases he2 : each (Forest.rmDir recursive) (if recursive then .osError else .nameError) fs1
        (listedDirs s) with
    | mk fs2 r2 =>
      rw [he2] at h2 a2
      simp only at h2 a2
      subst h2
      refine ⟨rfl, rfl, ?_⟩
      intro p hl hh
      exact hgone p false (a2 p false hh) p (mem_listedFiles.mpr hl) rfl

/-- **C307 fails** on a listed folder that holds a file that is not listed:
without `recursive`, instead of the question there is a `NameError`. -/
theorem C307_full_violated (s : Files Path) (fs : Forest) (hf : Wf fs)
    (answers : List String) (hy : SaysYes answers) (hp : s.paths ≠ [])
    (hfn : (listedFiles s).Nodup) (hfd : ∀ p, IsListed s p false → Has fs p false)
    (d q : Path) (hd : IsListed s d true) (hdq : d <+: q) (hq : Has fs q false)
    (hnl : ¬ IsListed s q false) :
    (deleteExisting false s fs answers).2.2 = .error .nameError := by
  cases hr : (deleteExisting false s fs answers).2.2 with
  | ok u =>
    exfalso
    have hkept := C307_files_kept s fs hf answers q hq hnl
    -- the folder is gone, so is what it holds
    have h1 := each_files_ok .osError (listedFiles s) fs hf hfn
      (fun p hp => hfd p (mem_listedFiles.mp hp))
    obtain ⟨w1, _, _, _⟩ := each_spec deletes_rmFile .osError (listedFiles s) fs hf
    unfold deleteExisting at hr hkept
    simp only [hp, if_false, ask_true.mpr hy] at hr hkept
    unfold deletions at hr hkept
    cases he : each Forest.rmFile .osError fs (listedFiles s) with
    | mk fs1 r1 =>
      rw [he] at h1 w1 hr hkept
      simp only at h1 w1
      subst h1
      simp only [Bool.false_eq_true, if_false] at hr hkept
      obtain ⟨_, _, _, c2⟩ := each_spec (deletes_rmDir false) .nameError (listedDirs s) fs1 w1
      cases he2 : each (Forest.rmDir false) .nameError fs1 (listedDirs s) with
      | mk fs2 r2 =>
        rw [he2] at hr hkept c2
        cases r2 with
        | error e => cases hr
        | ok v =>
          exact c2 rfl q false hkept d (mem_listedDirs.mpr hd) hdq
  | error e =>
    have h1 := each_files_ok .osError (listedFiles s) fs hf hfn
      (fun p hp => hfd p (mem_listedFiles.mp hp))
    unfold deleteExisting at hr
    simp only [hp, if_false, ask_true.mpr hy] at hr
    unfold deletions at hr
    cases he : each Forest.rmFile .osError fs (listedFiles s) with
    | mk fs1 r1 =>
      rw [he] at h1 hr
      simp only at h1
      subst h1
      simp only [Bool.false_eq_true, if_false] at hr
      cases he2 : each (Forest.rmDir false) .nameError fs1 (listedDirs s) with
      | mk fs2 r2 =>
        rw [he2] at hr
        cases r2 with
        | error e' =>
          injection hr with hr
          subst hr
          rw [each_error (congrArg Prod.snd he2)]
        | ok v => cases hr

/-- **C307 fails** on an empty object: there is an exception. -/
theorem C307_empty_violated (recursive : Bool) (fs : Forest) (answers : List String) :
    deleteExisting recursive Files.empty fs answers = (fs, Files.empty, .error .indexError) := rfl

/-! ## C308 -/

/-- What `remove_files_in_dirs` is to delete: the files of the folders at or
below the root whose path is asked for, when their name is. -/
def Asked (root : Path) (dirRe : Path → Bool) (fileRe : String → Bool) (p : Path) : Prop :=
  ∃ folder name, p = folder ++ [name] ∧ root <+: folder ∧ dirRe folder = true ∧ fileRe name = true

theorem mem_chosen (fs : Forest) (hf : Wf fs) (root : Path) (dirRe : Path → Bool)
    (fileRe : String → Bool) (p : Path) :
    p ∈ (walk fs root).flatMap (chosen dirRe fileRe) ↔
      Has fs p false ∧ Asked root dirRe fileRe p := by
  rw [List.mem_flatMap]
  unfold chosen Asked
  constructor
  · rintro ⟨e, he, hp⟩
    by_cases hd : dirRe e.root = true
    · rw [if_pos hd, List.mem_map] at hp
      obtain ⟨n, hn, rfl⟩ := hp
      rw [List.mem_filter] at hn
      obtain ⟨⟨q, hq, hpq⟩, hh⟩ := (walk_holds fs hf root (e.root ++ [n]) false).mp
        ⟨e, he, n, rfl, hn.1⟩
      refine ⟨hh, e.root, n, rfl, ?_, hd, hn.2⟩
      have hpre : root <+: e.root ++ [n] := ⟨q, hpq.symm⟩
      rcases List.prefix_concat_iff.mp hpre with h | h
      · exfalso
        apply hq
        have := congrArg List.length (h ▸ hpq)
        simp at this
        exact this
      · exact h
    · rw [if_neg hd] at hp
      cases hp
  · rintro ⟨hh, folder, n, rfl, ⟨u, rfl⟩, hd, hn⟩
    obtain ⟨e, he, m, hm, hin⟩ := (walk_holds fs hf root (root ++ u ++ [n]) false).mpr
      ⟨⟨u ++ [n], by simp, by simp⟩, hh⟩
    have hroot : e.root = root ++ u := (List.append_inj_left' hm rfl).symm
    have hname : m = n := by
      rw [hroot] at hm
      simpa using hm.symm
    subst hname
    refine ⟨e, he, ?_⟩
    rw [if_pos (by rw [hroot]; exact hd), List.mem_map]
    exact ⟨m, List.mem_filter.mpr ⟨hin, hn⟩, by rw [hroot]⟩

theorem chosen_nodup (fs : Forest) (hf : Wf fs) (root : Path) (dirRe : Path → Bool)
    (fileRe : String → Bool) : ((walk fs root).flatMap (chosen dirRe fileRe)).Nodup := by
  obtain ⟨h1, h2⟩ := walk_order fs hf root
  rw [List.nodup_flatMap]
  refine ⟨?_, h1.imp ?_⟩
  · intro e he
    unfold chosen
    split
    · exact ((h2 e he).2.filter _).map (fun a b h => by simpa using h)
    · exact List.nodup_nil
  · intro a b hab x hx hy
    unfold chosen at hx hy
    split at hx
    · split at hy
      · rw [List.mem_map] at hx hy
        obtain ⟨n, _, rfl⟩ := hx
        obtain ⟨m, _, hm⟩ := hy
        exact hab (List.append_inj_left' hm rfl ▸ List.prefix_refl _)
      · cases hy
    · cases hx

/-- **C308.**  After a yes, exactly the files asked for are deleted, without an
error. -/
theorem C308_exactly (fs : Forest) (hf : Wf fs) (root : Path) (dirRe : Path → Bool)
    (fileRe : String → Bool) (depth : Option Int) (rd rf : Bool) (answers : List String)
    (hy : SaysYes answers) :
    (removeInDirs fs root dirRe fileRe depth rd rf answers).2 = .ok ⟨⟩ ∧
    ∀ p k, Has (removeInDirs fs root dirRe fileRe depth rd rf answers).1 p k ↔
      Has fs p k ∧ ¬ (k = false ∧ Asked root dirRe fileRe p) := by
  unfold removeInDirs
  by_cases he : (walk fs root).flatMap (chosen dirRe fileRe) = []
  · simp only [he, if_true]
    refine ⟨trivial, fun p k => ⟨fun h => ⟨h, ?_⟩, fun h => h.1⟩⟩
    rintro ⟨rfl, ha⟩
    have := (mem_chosen fs hf root dirRe fileRe p).mpr ⟨h, ha⟩
    rw [he] at this
    cases this
  · simp only [he, if_false, ask_true.mpr hy]
    have hok := each_files_ok .osError _ fs hf (chosen_nodup fs hf root dirRe fileRe)
      (fun p hp => ((mem_chosen fs hf root dirRe fileRe p).mp hp).1)
    obtain ⟨_, a, b, c⟩ := each_spec deletes_rmFile .osError
      ((walk fs root).flatMap (chosen dirRe fileRe)) fs hf
    refine ⟨hok, fun p k => ⟨fun h => ⟨a p k h, ?_⟩, ?_⟩⟩
    · rintro ⟨rfl, ha⟩
      exact c hok p false h p ((mem_chosen fs hf root dirRe fileRe p).mpr ⟨a p false h, ha⟩) rfl
    · rintro ⟨h, hne⟩
      refine b p k h ?_
      rintro q hq rfl
      have := (mem_chosen fs hf root dirRe fileRe p).mp hq
      cases k with
      | false => exact hne ⟨rfl, this.2⟩
      | true => exact has_kind hf h this.1

/-- **C308.**  After a no, or without a file to delete, nothing is changed. -/
theorem C308_refused (fs : Forest) (hf : Wf fs) (root : Path) (dirRe : Path → Bool)
    (fileRe : String → Bool) (depth : Option Int) (rd rf : Bool) (answers : List String)
    (h : SaysNo answers ∨ ∀ p, Has fs p false → ¬ Asked root dirRe fileRe p) :
    removeInDirs fs root dirRe fileRe depth rd rf answers = (fs, .ok ⟨⟩) := by
  unfold removeInDirs
  by_cases he : (walk fs root).flatMap (chosen dirRe fileRe) = []
  · simp only [he, if_true]
  · simp only [he, if_false]
    rcases h with h | h
    · rw [ask_false_of h]
    · exfalso
      obtain ⟨p, hp⟩ := List.exists_mem_of_ne_nil _ he
      have := (mem_chosen fs hf root dirRe fileRe p).mp hp
      exact h p this.1 this.2

/-- **C308 fails** for `remove_files=False` and for `depth`: the files are
deleted all the same, however deep they are. -/
theorem C308_arguments_violated (fs : Forest) (hf : Wf fs) (root : Path) (dirRe : Path → Bool)
    (fileRe : String → Bool) (depth : Option Int) (rd : Bool) (answers : List String)
    (hy : SaysYes answers) (p : Path) (ha : Asked root dirRe fileRe p) :
    ¬ Has (removeInDirs fs root dirRe fileRe depth rd false answers).1 p false := by
  rw [(C308_exactly fs hf root dirRe fileRe depth rd false answers hy).2]
  exact fun h => h.2 ⟨rfl, ha⟩

/-! ## A disk -/

/-- `data/{a.txt, b.dat, old/{c.txt, older/{d.txt}}}` and `keep/{a.txt}`. -/
def Forest.sample : Forest :=
  .dir "data" (.file "a.txt" (.file "b.dat" (.dir "old" (.file "c.txt" (.dir "older"
    (.file "d.txt" .nil) .nil)) .nil))) (.dir "keep" (.file "a.txt" .nil) .nil)

example : Wf Forest.sample := by
  simp [Wf, Forest.sample, Forest.names]

example : SaysYes ["perhaps", "oui"] ∧ SaysNo ["?", "No", "yes"] :=
  ⟨⟨["perhaps"], [], "oui", rfl, by decide, by decide⟩, ⟨["?"], ["yes"], "No", rfl, by decide, by decide⟩⟩

example : (removeInDirs Forest.sample ["data"] (fun _ => true) (fun n => n.endsWith ".txt")
    none false true ["y"]).1 =
    .dir "data" (.file "b.dat" (.dir "old" (.dir "older" .nil .nil) .nil))
      (.dir "keep" (.file "a.txt" .nil) .nil) := by
  decide +kernel

/-- Files and folders of the disk above, as a search lists them. -/
def filesSample : Files Path :=
  ⟨[["data", "a.txt"], ["data", "old"], ["data", "old", "older"]], [true, true, true],
    [some false, some true, some true]⟩

example : [["data", "old"], ["data", "old", "older"]].Sublist (listedDirs filesSample) ∧
    (listedFiles filesSample).Nodup ∧
    listedFiles filesSample = [["data", "a.txt"]] := by
  decide +kernel

example : (deleteExisting true ⟨[["data", "a.txt"], ["data", "old"]], [true, true],
    [some false, some true]⟩ Forest.sample ["yes"]).1 =
    .dir "data" (.file "b.dat" .nil) (.dir "keep" (.file "a.txt" .nil) .nil) := by
  decide +kernel

end IMT.Cleaning
