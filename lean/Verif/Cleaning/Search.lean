import Verif.Cleaning.Delete
import Mathlib.Data.List.TakeWhile

/-!
# Searching files: C309 (`load_files_from_regex`)
-/

namespace IMT.Cleaning

open IMT.Utils (Files)

/-- The paths an object lists, with whether they are folders. -/
def pairs (s : Files Path) : List (Path × Option Bool) := s.paths.zip s.isdir

theorem load_pairs (fs : Forest) (root : Path) (re : Path → Bool) (lf ld : Bool)
    (depth : Option Int) :
    pairs (load Files.empty fs root re lf ld depth) =
      (search root re lf ld depth (walk fs root)).map (fun t => (t.1, some t.2)) := by
  unfold pairs load Files.loadRegex Files.empty
  simp only [List.nil_append]
  rw [List.zip_map', ]

/-- **C309.**  A search at any depth lists exactly the files and folders below
the root whose path is asked for, each once, a folder before what it holds. -/
theorem C309_all (fs : Forest) (hf : Wf fs) (root : Path) (re : Path → Bool) (lf ld : Bool) :
    (∀ p k, (p, some k) ∈ pairs (load Files.empty fs root re lf ld none) ↔
      Has fs p k ∧ root <+: p ∧ p ≠ root ∧ re p = true ∧ (if k then ld else lf) = true) ∧
    (pairs (load Files.empty fs root re lf ld none)).Nodup ∧
    (load Files.empty fs root re lf ld none).paths.Pairwise
      (fun a b => ¬ (b <+: a ∧ b ≠ a)) := by
  obtain ⟨h1, h2⟩ := walk_order fs hf root
  obtain ⟨h3, h4⟩ := gather_order re lf ld (walk fs root) h1 h2
  refine ⟨?_, ?_, ?_⟩
  · intro p k
    rw [load_pairs, search_all]
    simp only [List.mem_map, Prod.mk.injEq, Option.some.injEq, List.mem_flatMap]
    constructor
    · rintro ⟨⟨p', k'⟩, ⟨e, he, hm⟩, rfl, rfl⟩
      obtain ⟨ho, hr, hk⟩ := mem_gather.mp hm
      obtain ⟨⟨q, hq, hpq⟩, hh⟩ := (walk_holds fs hf root p' k').mp ⟨e, he, ho⟩
      refine ⟨hh, ⟨q, hpq.symm⟩, ?_, hr, hk⟩
      intro heq
      apply hq
      simp only at heq
      rw [heq] at hpq
      simpa using hpq
    · rintro ⟨hh, ⟨q, rfl⟩, hne, hr, hk⟩
      obtain ⟨e, he, ho⟩ := (walk_holds fs hf root (root ++ q) k).mpr
        ⟨⟨q, by rintro rfl; simp at hne, rfl⟩, hh⟩
      exact ⟨(root ++ q, k), ⟨e, he, mem_gather.mpr ⟨ho, hr, hk⟩⟩, rfl, rfl⟩
  · rw [load_pairs, search_all]
    exact h3.map (fun a b h => by
      obtain ⟨a1, a2⟩ := a
      obtain ⟨b1, b2⟩ := b
      simpa using h)
  · have : (load Files.empty fs root re lf ld none).paths =
        ((walk fs root).flatMap (gather re lf ld)).map (·.1) := by
      unfold load Files.loadRegex Files.empty
      simp [search_all]
    rw [this, List.pairwise_map]
    exact h4

/-- **C309.**  With a depth, nothing deeper is listed, and nothing that a search
at any depth does not list. -/
theorem C309_depth_bound (fs : Forest) (hf : Wf fs) (root : Path) (re : Path → Bool)
    (lf ld : Bool) (d : Nat) (p : Path) (k : Bool)
    (h : (p, some k) ∈ pairs (load Files.empty fs root re lf ld (some d))) :
    (p, some k) ∈ pairs (load Files.empty fs root re lf ld none) ∧
      p.length ≤ root.length + d + 2 := by
  rw [load_pairs, search_depth] at h
  rw [load_pairs, search_all]
  simp only [List.mem_map, Prod.mk.injEq, Option.some.injEq, List.mem_flatMap] at h ⊢
  obtain ⟨⟨p', k'⟩, ⟨e, he, hm⟩, rfl, rfl⟩ := h
  have hd := List.mem_takeWhile_imp he
  have hw := (List.takeWhile_sublist _).subset he
  refine ⟨⟨(p', k'), ⟨e, hw, hm⟩, rfl, rfl⟩, ?_⟩
  obtain ⟨⟨n, rfl, _⟩, _⟩ := mem_gather.mp hm
  simp only [depthOf, decide_eq_true_eq, Nat.cast_le] at hd
  simp only [List.length_append, List.length_cons, List.length_nil]
  omega

/-- **C309.**  With a depth that no folder exceeds, everything is listed. -/
theorem C309_depth_partial (fs : Forest) (hf : Wf fs) (root : Path) (re : Path → Bool)
    (lf ld : Bool) (d : Nat)
    (hall : ∀ e ∈ walk fs root, e.root.length ≤ root.length + d + 1) :
    load Files.empty fs root re lf ld (some d) = load Files.empty fs root re lf ld none := by
  unfold load
  rw [search_depth, search_all]
  have : (walk fs root).takeWhile (fun e => decide ((depthOf root e.root : Int) ≤ d)) =
      walk fs root := by
    rw [List.takeWhile_eq_self_iff]
    intro e he
    have := hall e he
    simp only [depthOf, decide_eq_true_eq, Nat.cast_le]
    omega
  rw [this]

/-- A folder `a` with a folder `b` in it, and a folder `z` with a file `f`. -/
def twoFolders (a b z f : String) (sub inner more rest : Forest) : Forest :=
  .dir a (.dir b sub inner) (.dir z (.file f more) rest)

/-- **C309 fails** for a depth: the search stops at the first folder that is too
deep, so that the files of folders it has not reached yet are left out although
they are no deeper than what it has listed. -/
theorem C309_depth_violated (a b z f : String) (sub inner more rest : Forest) (re : Path → Bool)
    (hf : Wf (twoFolders a b z f sub inner more rest)) (h1 : re [a, b] = true)
    (h2 : re [z, f] = true) :
    ([a, b], some true) ∈
      pairs (load Files.empty (twoFolders a b z f sub inner more rest) [] re true true (some 0)) ∧
    ([z, f], some false) ∈
      pairs (load Files.empty (twoFolders a b z f sub inner more rest) [] re true true none) ∧
    ∀ k, ([z, f], k) ∉
      pairs (load Files.empty (twoFolders a b z f sub inner more rest) [] re true true (some 0)) := by
  have hza : z ≠ a := by
    rintro rfl
    exact hf.1 (by simp [Forest.names])
  refine ⟨?_, ?_, ?_⟩
  · rw [load_pairs, search_depth]
    simp only [twoFolders, walk, Forest.sub, walkSubs, List.nil_append, List.cons_append,
      List.takeWhile_cons, depthOf, List.length_nil, List.length_cons]
    simp [gather, Forest.dirs, h1]
  · refine ((C309_all _ hf [] re true true).1 [z, f] false).mpr
      ⟨?_, List.nil_prefix, by simp, h2, rfl⟩
    exact Has.afterDir _ _ _ _ _ (Has.inside _ _ _ _ _ (Has.file f more))
  · intro k
    rw [load_pairs, search_depth]
    simp only [twoFolders, walk, Forest.sub, walkSubs, List.nil_append, List.cons_append]
    simp only [List.takeWhile_cons, depthOf, List.length_nil, List.length_cons]
    intro h
    simp only [List.mem_map, List.mem_flatMap] at h
    obtain ⟨⟨p, k'⟩, ⟨e, he, hm⟩, heq⟩ := h
    obtain ⟨⟨n, hp, _⟩, _⟩ := mem_gather.mp hm
    have hpz : e.root ++ [n] = [z, f] := by
      rw [← hp]
      exact (Prod.mk.inj heq).1
    simp at he
    rcases he with rfl | rfl
    · simp at hpz
    · simp only [List.cons_append, List.nil_append, List.cons.injEq] at hpz
      exact hza hpz.1.symm

/-- **C307 fails** after a search: whatever holds two folders in one another that
the search finds, `delete_existing_files` ends with an exception. -/
theorem C307_searched_violated (recursive : Bool) (fs : Forest) (hf : Wf fs) (root : Path)
    (re : Path → Bool) (lf : Bool) (answers : List String) (hy : SaysYes answers)
    (d e : Path) (hd : Has fs d true) (he : Has fs e true) (hrd : root <+: d) (hdr : d ≠ root)
    (hde : d <+: e) (hne : d ≠ e) (h1 : re d = true) (h2 : re e = true) :
    (deleteExisting recursive (load Files.empty fs root re lf true none) fs answers).2.2 =
      .error (if recursive then .osError else .nameError) := by
  set s := load Files.empty fs root re lf true none with hs
  obtain ⟨ha, hb, hc⟩ := C309_all fs hf root re lf true
  rw [← hs] at ha hb hc
  have hlisted : listed s = (search root re lf true none (walk fs root)) := by
    rw [hs]
    unfold listed load Files.loadRegex Files.empty
    simp only [List.nil_append]
    generalize search root re lf true none (walk fs root) = l
    induction l with
    | nil => rfl
    | cons x xs ih =>
      obtain ⟨p, k⟩ := x
      simp only [List.map_cons, List.zip_cons_cons, List.filter_cons_of_pos]
      rw [ih]
      cases k <;> simp
  have hmem : ∀ p k, (p, some k) ∈ pairs s ↔ (p, k) ∈ listed s := by
    intro p k
    rw [hlisted, hs, load_pairs]
    simp
  have hnod : (listed s).Nodup := by
    rw [hlisted]
    obtain ⟨x, y⟩ := walk_order fs hf root
    rw [search_all]
    exact (gather_order re lf true (walk fs root) x y).1
  have hpath : s.paths = (listed s).map (·.1) := by
    rw [hlisted, hs]
    simp [load, Files.loadRegex, Files.empty]
  have hdm : (d, true) ∈ listed s := (hmem d true).mp ((ha d true).mpr ⟨hd, hrd, hdr, h1, rfl⟩)
  have hem : (e, true) ∈ listed s := by
    refine (hmem e true).mp ((ha e true).mpr ⟨he, hrd.trans hde, ?_, h2, rfl⟩)
    intro h
    subst h
    exact hdr (hde.eq_of_length (le_antisymm hde.length_le hrd.length_le))
  refine (C307_nested_violated recursive s fs hf answers hy ?_ ?_ ?_ d e hde ?_).1
  · rw [hpath]
    intro h
    rw [List.map_eq_nil_iff] at h
    rw [h] at hdm
    cases hdm
  · unfold listedFiles
    refine (hnod.filter _).map_on ?_
    intro x hx y hy' hxy
    rw [List.mem_filter] at hx hy'
    obtain ⟨x1, x2⟩ := x
    obtain ⟨y1, y2⟩ := y
    simp_all
  · intro p hp
    exact ((ha p false).mp ((hmem p false).mpr (mem_listed.mpr hp))).1
  · -- the outer folder comes first
    have hord : (listedDirs s).Pairwise (fun a b => ¬ (b <+: a ∧ b ≠ a)) := by
      unfold listedDirs
      rw [List.pairwise_map]
      rw [hpath, List.pairwise_map] at hc
      exact hc.sublist List.filter_sublist
    have hdm' : d ∈ listedDirs s := mem_listedDirs.mpr (mem_listed.mp hdm)
    have hem' : e ∈ listedDirs s := mem_listedDirs.mpr (mem_listed.mp hem)
    generalize listedDirs s = l at hord hdm' hem'
    induction l with
    | nil => cases hdm'
    | cons x xs ih =>
      rw [List.pairwise_cons] at hord
      rcases List.mem_cons.mp hdm' with rfl | hdx
      · rcases List.mem_cons.mp hem' with h | hex
        · exact absurd h.symm hne
        · exact (List.singleton_sublist.mpr hex).cons_cons _
      · rcases List.mem_cons.mp hem' with rfl | hex
        · exact absurd ⟨hde, hne⟩ (hord.1 d hdx)
        · exact (ih hord.2 hdx hex).cons _

example : (load Files.empty Forest.sample ["data"] (fun p => (p.getLast?.getD "").endsWith ".txt")
    true true none).paths = [["data", "a.txt"], ["data", "old", "c.txt"],
      ["data", "old", "older", "d.txt"]] ∧
    (load Files.empty Forest.sample ["data"] (fun _ => true) false true (some 0)).paths =
      [["data", "old"], ["data", "old", "older"]] := by
  decide +kernel

end IMT.Cleaning
