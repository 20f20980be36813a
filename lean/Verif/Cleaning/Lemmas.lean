import Verif.Cleaning.Spec
import Mathlib.Data.List.Nodup

/-!
# Lemmas on deletions and walks
-/

namespace IMT.Cleaning

/-- A deletion of what `gone p` says, that needs `can`. -/
structure Deletes (op : Forest → Path → Option Forest) (can : Forest → Path → Prop)
    (gone : Path → Path → Prop) : Prop where
  some_iff : ∀ f, Wf f → ∀ p, (op f p).isSome ↔ can f p
  spec : ∀ f, Wf f → ∀ p g, op f p = some g → Wf g ∧ ∀ q k, Has g q k ↔ Has f q k ∧ ¬ gone p q

theorem deletes_rmFile : Deletes Forest.rmFile (fun f p => Has f p false) (fun p q => q = p) :=
  ⟨fun f hf p => (rmFile_spec f hf p).1, fun f hf p g hg =>
    ⟨((rmFile_spec f hf p).2 g hg).1, ((rmFile_spec f hf p).2 g hg).2.2⟩⟩

theorem deletes_rmDir (all : Bool) :
    Deletes (Forest.rmDir all) (CanRm all) (fun p q => p <+: q) :=
  ⟨fun f hf p => (rmDir_spec all f hf p).1, fun f hf p g hg =>
    ⟨((rmDir_spec all f hf p).2 g hg).1, ((rmDir_spec all f hf p).2 g hg).2.2⟩⟩

theorem each_spec {op can gone} (hd : Deletes op can gone) (e : Err) (ps : List Path)
    (fs : Forest) (hf : Wf fs) :
    Wf (each op e fs ps).1 ∧
    (∀ q k, Has (each op e fs ps).1 q k → Has fs q k) ∧
    (∀ q k, Has fs q k → (∀ p ∈ ps, ¬ gone p q) → Has (each op e fs ps).1 q k) ∧
    ((each op e fs ps).2 = .ok ⟨⟩ → ∀ q k, Has (each op e fs ps).1 q k → ∀ p ∈ ps, ¬ gone p q) := by
  induction ps generalizing fs with
  | nil => exact ⟨hf, fun _ _ h => h, fun _ _ h _ => h, by simp⟩
  | cons p ps ih =>
    unfold each
    cases hop : op fs p with
    | none =>
      simp only
      exact ⟨hf, fun _ _ h => h, fun _ _ h _ => h, by simp⟩
    | some fs1 =>
      simp only
      obtain ⟨w, hh⟩ := hd.spec fs hf p fs1 hop
      obtain ⟨h1, h2, h3, h4⟩ := ih fs1 w
      refine ⟨h1, fun q k h => ((hh q k).mp (h2 q k h)).1, ?_, ?_⟩
      · intro q k hq hg
        exact h3 q k ((hh q k).mpr ⟨hq, hg p (by simp)⟩) (fun p' hp' => hg p' (by simp [hp']))
      · intro hok q k hq p' hp'
        rcases List.mem_cons.mp hp' with rfl | hp'
        · exact ((hh q k).mp (h2 q k hq)).2
        · exact h4 hok q k hq p' hp'

/-- A loop of deletions fails with its own error. -/
theorem each_error {op e fs ps x} (h : (each op e fs ps).2 = .error x) : x = e := by
  induction ps generalizing fs with
  | nil => cases h
  | cons p ps ih =>
    unfold each at h
    cases hop : op fs p with
    | none => simp only [hop] at h; injection h with h; exact h.symm
    | some fs1 => simp only [hop] at h; exact ih h

/-- A loop of deletions of files on the disk, each once, succeeds. -/
theorem each_files_ok (e : Err) (ps : List Path) (fs : Forest) (hf : Wf fs) (hn : ps.Nodup)
    (hp : ∀ p ∈ ps, Has fs p false) : (each Forest.rmFile e fs ps).2 = .ok ⟨⟩ := by
  induction ps generalizing fs with
  | nil => rfl
  | cons p ps ih =>
    unfold each
    have hs := (deletes_rmFile.some_iff fs hf p).mpr (hp p (by simp))
    obtain ⟨fs1, hfs1⟩ := Option.isSome_iff_exists.mp hs
    rw [hfs1]
    simp only
    obtain ⟨w, hh⟩ := deletes_rmFile.spec fs hf p fs1 hfs1
    rw [List.nodup_cons] at hn
    refine ih fs1 w hn.2 ?_
    intro q hq
    exact (hh q false).mpr ⟨hp q (by simp [hq]), fun h => hn.1 (h ▸ hq)⟩

/-- A loop of deletions of folders that are not inside one another succeeds. -/
theorem each_dirs_ok (e : Err) (ps : List Path) (fs : Forest) (hf : Wf fs)
    (hn : ps.Pairwise (fun p q => ¬ p <+: q)) (hp : ∀ p ∈ ps, Has fs p true) :
    (each (Forest.rmDir true) e fs ps).2 = .ok ⟨⟩ := by
  induction ps generalizing fs with
  | nil => rfl
  | cons p ps ih =>
    unfold each
    have hs := ((deletes_rmDir true).some_iff fs hf p).mpr ⟨hp p (by simp), .inl rfl⟩
    obtain ⟨fs1, hfs1⟩ := Option.isSome_iff_exists.mp hs
    rw [hfs1]
    simp only
    obtain ⟨w, hh⟩ := (deletes_rmDir true).spec fs hf p fs1 hfs1
    rw [List.pairwise_cons] at hn
    refine ih fs1 w hn.2 ?_
    intro q hq
    exact (hh q true).mpr ⟨hp q (by simp [hq]), hn.1 q hq⟩

/-- A loop of deletions fails when it comes to a folder it has deleted. -/
theorem each_nested_fails (all : Bool) (e : Err) (ps : List Path) (fs : Forest) (hf : Wf fs)
    (p q : Path) (hpq : p <+: q) (hs : [p, q].Sublist ps) :
    (each (Forest.rmDir all) e fs ps).2 = .error e := by
  -- once `p` is gone so is `q`
  have hgone : ∀ (ps : List Path) (fs : Forest), Wf fs → q ∈ ps → (¬ Has fs q true) →
      (each (Forest.rmDir all) e fs ps).2 = .error e := by
    intro ps
    induction ps with
    | nil => intro fs _ h _; cases h
    | cons x xs ih =>
      intro fs hf hm hno
      unfold each
      cases hop : fs.rmDir all x with
      | none => rfl
      | some fs1 =>
        simp only
        have hcan : CanRm all fs x :=
          ((deletes_rmDir all).some_iff fs hf x).mp (by rw [hop]; rfl)
        obtain ⟨w, hh⟩ := (deletes_rmDir all).spec fs hf x fs1 hop
        rcases List.mem_cons.mp hm with rfl | hm
        · exact absurd hcan.1 hno
        · exact ih fs1 w hm (fun h => hno ((hh q true).mp h).1)
  induction ps generalizing fs with
  | nil => cases hs
  | cons x xs ih =>
    unfold each
    cases hop : fs.rmDir all x with
    | none => rfl
    | some fs1 =>
      simp only
      obtain ⟨w, hh⟩ := (deletes_rmDir all).spec fs hf x fs1 hop
      cases hs with
      | cons _ hs => exact ih fs1 w hs
      | cons_cons _ hs =>
        refine hgone xs fs1 w (hs.subset (by simp)) ?_
        intro h
        exact ((hh q true).mp h).2 hpq

/-! ## Walks -/

theorem has_single_true {f : Forest} {n : String} (hf : Wf f) : Has f [n] true ↔ n ∈ f.dirs := by
  induction f with
  | nil => simp [Forest.dirs, has_nil]
  | file m r ih => simp [has_file, Forest.dirs, ih hf.2]
  | dir m s r _ ih =>
    rw [has_dir, ih hf.2.2]
    simp only [Forest.dirs, List.mem_cons, List.cons.injEq, and_true]
    constructor
    · rintro (h | ⟨q, ⟨rfl, rfl⟩, h⟩ | h)
      · exact .inl h
      · exact .inl rfl
      · exact .inr h
    · rintro (h | h)
      · exact .inl h
      · exact .inr (.inr h)

theorem has_single_false {f : Forest} {n : String} : Has f [n] false ↔ n ∈ f.files := by
  induction f with
  | nil => simp [Forest.files, has_nil]
  | file m r ih => simp [has_file, Forest.files, ih]
  | dir m s r _ ih =>
    rw [has_dir, ih]
    simp only [Forest.files, List.cons.injEq]
    constructor
    · rintro (⟨_, h⟩ | ⟨q, ⟨rfl, rfl⟩, h⟩ | h)
      · cases h
      · exact absurd rfl (has_ne_nil h)
      · exact h
    · exact fun h => .inr (.inr h)

/-- The names of an entry of a walk, as paths. -/
def Entry.holds (e : Entry) (p : Path) (k : Bool) : Prop :=
  ∃ n, p = e.root ++ [n] ∧ n ∈ (if k then e.dirs else e.files)

theorem top_holds (root : Path) (s : Forest) (hs : Wf s) (n : String) (k : Bool) :
    Entry.holds ⟨root, s.dirs, s.files⟩ (root ++ [n]) k ↔ Has s [n] k := by
  unfold Entry.holds
  constructor
  · rintro ⟨m, he, hm⟩
    have : n = m := by simpa using he
    subst this
    cases k
    · exact has_single_false.mpr hm
    · exact (has_single_true hs).mpr hm
  · intro h
    refine ⟨n, rfl, ?_⟩
    cases k
    · exact has_single_false.mp h
    · exact (has_single_true hs).mp h

theorem walkSubs_holds (root : Path) (s : Forest) (hs : Wf s) (p : Path) (k : Bool) :
    (∃ e ∈ walkSubs root s, e.holds p k) ↔ ∃ q, p = root ++ q ∧ 2 ≤ q.length ∧ Has s q k := by
  induction s generalizing root with
  | nil =>
    simp only [walkSubs, List.not_mem_nil, false_and, exists_false, false_iff]
    rintro ⟨q, _, _, h⟩
    exact has_nil h
  | file n r ih =>
    simp only [walkSubs]
    rw [ih root hs.2]
    constructor
    · rintro ⟨q, h1, h2, h3⟩
      exact ⟨q, h1, h2, has_file.mpr (.inr h3)⟩
    · rintro ⟨q, h1, h2, h3⟩
      rcases has_file.mp h3 with ⟨rfl, _⟩ | h3
      · simp at h2
      · exact ⟨q, h1, h2, h3⟩
  | dir n t r iht ihr =>
    simp only [walkSubs, List.mem_cons, List.mem_append]
    have h1 := iht (root ++ [n]) hs.2.1
    have h2 := ihr root hs.2.2
    constructor
    · rintro ⟨e, rfl | he | he, hp⟩
      · obtain ⟨m, hm, hin⟩ := hp
        refine ⟨[n, m], by simpa using hm, by simp, has_dir.mpr (.inr (.inl ⟨[m], rfl, ?_⟩))⟩
        exact (top_holds (root ++ [n]) t hs.2.1 m k).mp ⟨m, rfl, hin⟩
      · obtain ⟨q, hq, hl, hh⟩ := h1.mp ⟨e, he, hp⟩
        exact ⟨n :: q, by simpa using hq, by simp; omega, has_dir.mpr (.inr (.inl ⟨q, rfl, hh⟩))⟩
      · obtain ⟨q, hq, hl, hh⟩ := h2.mp ⟨e, he, hp⟩
        exact ⟨q, hq, hl, has_dir.mpr (.inr (.inr hh))⟩
    · rintro ⟨q, rfl, hl, hh⟩
      rcases has_dir.mp hh with ⟨rfl, _⟩ | ⟨q', rfl, hh'⟩ | hh
      · simp at hl
      · match q', hh' with
        | [], hh' => exact absurd rfl (has_ne_nil hh')
        | [m], hh' =>
          refine ⟨_, .inl rfl, ?_⟩
          have := (top_holds (root ++ [n]) t hs.2.1 m k).mpr hh'
          simpa using this
        | m :: m' :: q', hh' =>
          obtain ⟨e, he, hp⟩ := h1.mpr ⟨m :: m' :: q', by simp, by simp, hh'⟩
          exact ⟨e, .inr (.inl he), hp⟩
      · obtain ⟨e, he, hp⟩ := h2.mpr ⟨q, rfl, hl, hh⟩
        exact ⟨e, .inr (.inr he), hp⟩

theorem sub_spec {f s : Forest} (hf : Wf f) {root : Path} (h : f.sub root = some s) :
    Wf s ∧ ∀ q k, q ≠ [] → (Has f (root ++ q) k ↔ Has s q k) := by
  induction f generalizing root with
  | nil =>
    cases root with
    | nil => cases h; exact ⟨hf, fun q k _ => Iff.rfl⟩
    | cons => cases h
  | file n r ih =>
    cases root with
    | nil => cases h; exact ⟨hf, fun q k _ => Iff.rfl⟩
    | cons m p =>
      simp only [Forest.sub] at h
      obtain ⟨w, hh⟩ := ih hf.2 h
      refine ⟨w, fun q k hq => ?_⟩
      rw [has_file, ← hh q k hq]
      have : m :: p ++ q ≠ [n] := by
        intro he
        cases p with
        | nil =>
          simp only [List.cons_append, List.nil_append, List.cons.injEq] at he
          exact hq he.2
        | cons => simp at he
      rw [or_iff_right (fun h => this h.1)]
  | dir n t r iht ihr =>
    cases root with
    | nil => cases h; exact ⟨hf, fun q k _ => Iff.rfl⟩
    | cons m p =>
      simp only [Forest.sub] at h
      by_cases hm : m = n
      · subst hm
        rw [if_pos rfl] at h
        obtain ⟨w, hh⟩ := iht hf.2.1 h
        refine ⟨w, fun q k hq => ?_⟩
        rw [has_dir, ← hh q k hq]
        constructor
        · rintro (⟨he, _⟩ | ⟨q', he, h'⟩ | h')
          · simp only [List.cons_append, List.cons.injEq, List.append_eq_nil_iff, true_and] at he
            exact absurd he.2 hq
          · simp only [List.cons_append, List.cons.injEq, true_and] at he
            rw [he]; exact h'
          · exact absurd h' (by simpa using not_has_of_head hf.1)
        · exact fun h' => .inr (.inl ⟨p ++ q, by simp, h'⟩)
      · rw [if_neg hm] at h
        obtain ⟨w, hh⟩ := ihr hf.2.2 h
        refine ⟨w, fun q k hq => ?_⟩
        rw [has_dir, ← hh q k hq]
        simp [hm]

theorem sub_isSome {f : Forest} (hf : Wf f) (root : Path) :
    (f.sub root).isSome ↔ root = [] ∨ Has f root true := by
  induction f generalizing root with
  | nil => cases root <;> simp [Forest.sub, has_nil]
  | file n r ih =>
    cases root with
    | nil => simp [Forest.sub]
    | cons m p => simp [Forest.sub, ih hf.2, has_file]
  | dir n t r iht ihr =>
    cases root with
    | nil => simp [Forest.sub]
    | cons m p =>
      simp only [Forest.sub]
      by_cases hm : m = n
      · subst hm
        rw [if_pos rfl, iht hf.2.1, has_dir]
        simp only [List.cons.injEq, true_and, and_true, reduceCtorEq, false_or]
        constructor
        · rintro (h | h)
          · exact .inl h
          · exact .inr (.inl ⟨p, rfl, h⟩)
        · rintro (h | ⟨q, rfl, h⟩ | h)
          · exact .inl h
          · exact .inr h
          · exact absurd h (not_has_of_head hf.1)
      · rw [if_neg hm, ihr hf.2.2, has_dir]
        simp [hm]

/-- A file or folder below a folder makes it a folder. -/
theorem has_above {f : Forest} {root q : Path} {k : Bool} (hq : q ≠ []) (h : Has f (root ++ q) k) :
    root = [] ∨ Has f root true := by
  generalize hp : root ++ q = p at h
  induction h generalizing root q with
  | file n r =>
    cases root with
    | nil => exact .inl rfl
    | cons m t =>
      simp only [List.cons_append, List.cons.injEq, List.append_eq_nil_iff] at hp
      exact absurd hp.2.2 hq
  | dir n s r =>
    cases root with
    | nil => exact .inl rfl
    | cons m t =>
      simp only [List.cons_append, List.cons.injEq, List.append_eq_nil_iff] at hp
      exact absurd hp.2.2 hq
  | inside n s r p k h ih =>
    cases root with
    | nil => exact .inl rfl
    | cons m t =>
      simp only [List.cons_append, List.cons.injEq] at hp
      obtain ⟨rfl, hp⟩ := hp
      rcases ih hq hp with rfl | h'
      · exact .inr (Has.dir _ _ _)
      · exact .inr (Has.inside _ _ _ _ _ h')
  | afterFile n r p k h ih => exact (ih hq hp).imp_right (Has.afterFile _ _ _ _)
  | afterDir n s r p k h ih => exact (ih hq hp).imp_right (Has.afterDir _ _ _ _ _)

/-- A walk meets what is strictly below its root, and nothing else. -/
theorem walk_holds (fs : Forest) (hf : Wf fs) (root p : Path) (k : Bool) :
    (∃ e ∈ walk fs root, e.holds p k) ↔ (∃ q, q ≠ [] ∧ p = root ++ q) ∧ Has fs p k := by
  unfold walk
  cases hs : fs.sub root with
  | none =>
    simp only [List.not_mem_nil, false_and, exists_false, false_iff]
    rintro ⟨⟨q, hq, rfl⟩, h⟩
    have := (sub_isSome hf root).mpr (has_above hq h)
    rw [hs] at this
    cases this
  | some s =>
    simp only [List.mem_cons]
    obtain ⟨w, hh⟩ := sub_spec hf hs
    constructor
    · rintro ⟨e, rfl | he, hp⟩
      · obtain ⟨n, rfl, hn⟩ := hp
        refine ⟨⟨[n], by simp, rfl⟩, (hh [n] k (by simp)).mpr ?_⟩
        exact (top_holds root s w n k).mp ⟨n, rfl, hn⟩
      · obtain ⟨q, rfl, hl, h⟩ := (walkSubs_holds root s w p k).mp ⟨e, he, hp⟩
        have hq : q ≠ [] := by rintro rfl; simp at hl
        exact ⟨⟨q, hq, rfl⟩, (hh q k hq).mpr h⟩
    · rintro ⟨⟨q, hq, rfl⟩, h⟩
      have h' := (hh q k hq).mp h
      match q, hq, h' with
      | [n], _, h' => exact ⟨_, .inl rfl, (top_holds root s w n k).mpr h'⟩
      | m :: n :: q, _, h' =>
        obtain ⟨e, he, hp⟩ := (walkSubs_holds root s w (root ++ m :: n :: q) k).mpr
          ⟨_, rfl, by simp, h'⟩
        exact ⟨e, .inr he, hp⟩

end IMT.Cleaning
