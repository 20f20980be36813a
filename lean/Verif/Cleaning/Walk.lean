import Verif.Cleaning.Lemmas
import Mathlib.Data.List.Pairwise

/-!
# Lemmas on the order of walks
-/

namespace IMT.Cleaning

theorem files_sub_names (f : Forest) : f.files.Sublist f.names := by
  induction f with
  | nil => exact .slnil
  | file n r ih => exact ih.cons_cons n
  | dir n s r _ ih => exact ih.cons n

theorem dirs_sub_names (f : Forest) : f.dirs.Sublist f.names := by
  induction f with
  | nil => exact .slnil
  | file n r ih => exact ih.cons n
  | dir n s r _ ih => exact ih.cons_cons n

theorem names_nodup (f : Forest) (hf : Wf f) : f.names.Nodup := by
  induction f with
  | nil => simp [Forest.names]
  | file n r ih => exact List.nodup_cons.mpr ⟨hf.1, ih hf.2⟩
  | dir n s r _ ih => exact List.nodup_cons.mpr ⟨hf.1, ih hf.2.2⟩

theorem walkSubs_mem (root : Path) (s : Forest) (hs : Wf s) (e : Entry) (he : e ∈ walkSubs root s) :
    (∃ n q, e.root = root ++ n :: q ∧ n ∈ s.names) ∧ e.dirs.Nodup ∧ e.files.Nodup := by
  induction s generalizing root with
  | nil => cases he
  | file n r ih =>
    obtain ⟨⟨m, q, h1, h2⟩, h3⟩ := ih root hs.2 he
    exact ⟨⟨m, q, h1, by simp [Forest.names, h2]⟩, h3⟩
  | dir n t r iht ihr =>
    simp only [walkSubs, List.mem_cons, List.mem_append] at he
    rcases he with rfl | he | he
    · exact ⟨⟨n, [], rfl, by simp [Forest.names]⟩,
        (dirs_sub_names t).nodup (names_nodup t hs.2.1),
        (files_sub_names t).nodup (names_nodup t hs.2.1)⟩
    · obtain ⟨⟨m, q, h1, h2⟩, h3⟩ := iht (root ++ [n]) hs.2.1 he
      exact ⟨⟨n, m :: q, by simpa using h1, by simp [Forest.names]⟩, h3⟩
    · obtain ⟨⟨m, q, h1, h2⟩, h3⟩ := ihr root hs.2.2 he
      exact ⟨⟨m, q, h1, by simp [Forest.names, h2]⟩, h3⟩

/-- A folder comes before the folders inside it, and once. -/
theorem walkSubs_order (root : Path) (s : Forest) (hs : Wf s) :
    (walkSubs root s).Pairwise (fun a b => ¬ b.root <+: a.root) := by
  induction s generalizing root with
  | nil => exact .nil
  | file n r ih => exact ih root hs.2
  | dir n t r iht ihr =>
    simp only [walkSubs]
    have hr : ∀ e ∈ walkSubs root r, ∃ m q, e.root = root ++ m :: q ∧ m ≠ n := by
      intro e he
      obtain ⟨⟨m, q, h1, h2⟩, _⟩ := walkSubs_mem root r hs.2.2 e he
      exact ⟨m, q, h1, fun h => hs.1 (h ▸ h2)⟩
    have hcross : ∀ (u : Path), ∀ e ∈ walkSubs root r, ¬ e.root <+: root ++ n :: u := by
      intro u e he h
      obtain ⟨m, q, h1, h2⟩ := hr e he
      rw [h1, List.prefix_append_right_inj] at h
      obtain ⟨v, hv⟩ := h
      simp only [List.cons_append, List.cons.injEq] at hv
      exact h2 hv.1
    refine List.pairwise_cons.mpr ⟨?_, List.pairwise_append.mpr ⟨iht _ hs.2.1, ihr _ hs.2.2, ?_⟩⟩
    · intro e he h
      rcases List.mem_append.mp he with he | he
      · obtain ⟨⟨m, q, h1, _⟩, _⟩ := walkSubs_mem _ t hs.2.1 e he
        have := h.length_le
        rw [h1] at this
        simp at this
      · exact hcross [] e he h
    · intro a ha b hb
      obtain ⟨⟨m, q, h1, _⟩, _⟩ := walkSubs_mem _ t hs.2.1 a ha
      rw [h1]
      intro h
      exact hcross (m :: q) b hb (by simpa using h)

theorem walk_order (fs : Forest) (hf : Wf fs) (root : Path) :
    (walk fs root).Pairwise (fun a b => ¬ b.root <+: a.root) ∧
    ∀ e ∈ walk fs root, e.dirs.Nodup ∧ e.files.Nodup := by
  unfold walk
  cases hs : fs.sub root with
  | none => exact ⟨.nil, by simp⟩
  | some s =>
    obtain ⟨w, _⟩ := sub_spec hf hs
    simp only
    refine ⟨List.pairwise_cons.mpr ⟨?_, walkSubs_order root s w⟩, ?_⟩
    · intro e he h
      obtain ⟨⟨m, q, h1, _⟩, _⟩ := walkSubs_mem root s w e he
      have := h.length_le
      rw [h1] at this
      simp at this
    · intro e he
      rcases List.mem_cons.mp he with rfl | he
      · exact ⟨(dirs_sub_names s).nodup (names_nodup s w), (files_sub_names s).nodup (names_nodup s w)⟩
      · exact (walkSubs_mem root s w e he).2

theorem mem_gather {re lf ld e p k} : (p, k) ∈ gather re lf ld e ↔
    e.holds p k ∧ re p = true ∧ (if k then ld else lf) = true := by
  unfold gather Entry.holds
  cases k <;> cases ld <;> cases lf <;> simp <;> aesop

theorem gather_nodup {re lf ld e} (h1 : e.dirs.Nodup) (h2 : e.files.Nodup) :
    (gather re lf ld e).Nodup := by
  unfold gather
  have hinj : ∀ (l : List String), l.Nodup → ∀ k : Bool,
      (((l.map (fun d => e.root ++ [d])).filter re).map (·, k)).Nodup := by
    intro l hl k
    refine List.Nodup.map (fun a b h => by simpa using h) (List.Nodup.filter _ ?_)
    exact hl.map (fun a b h => by simpa using h)
  refine List.Nodup.append ?_ ?_ ?_
  · split
    · exact hinj _ h1 true
    · exact List.nodup_nil
  · split
    · exact hinj _ h2 false
    · exact List.nodup_nil
  · intro x hx hy
    have a : x.2 = true := by
      split at hx
      · simp only [List.mem_map] at hx
        obtain ⟨_, _, rfl⟩ := hx
        rfl
      · cases hx
    have b : x.2 = false := by
      split at hy
      · simp only [List.mem_map] at hy
        obtain ⟨_, _, rfl⟩ := hy
        rfl
      · cases hy
    rw [a] at b
    cases b

/-- The order of what a walk gathers: once each, a folder before what is inside. -/
theorem gather_order (re : Path → Bool) (lf ld : Bool) (l : List Entry)
    (hl : l.Pairwise (fun a b => ¬ b.root <+: a.root))
    (hn : ∀ e ∈ l, e.dirs.Nodup ∧ e.files.Nodup) :
    (l.flatMap (gather re lf ld)).Nodup ∧
    (l.flatMap (gather re lf ld)).Pairwise (fun a b => ¬ (b.1 <+: a.1 ∧ b.1 ≠ a.1)) := by
  constructor
  · rw [List.nodup_flatMap]
    refine ⟨fun e he => gather_nodup (hn e he).1 (hn e he).2, hl.imp ?_⟩
    intro a b hab x hx hy
    obtain ⟨p, k⟩ := x
    obtain ⟨⟨n, h1, _⟩, _⟩ := mem_gather.mp hx
    obtain ⟨⟨m, h2, _⟩, _⟩ := mem_gather.mp hy
    have : a.root = b.root := by
      have := h1.symm.trans h2
      exact (List.append_inj_left' this rfl)
    exact hab (this ▸ List.prefix_refl _)
  · rw [List.pairwise_flatMap]
    refine ⟨?_, hl.imp ?_⟩
    · intro e he
      refine List.pairwise_of_forall_mem_list ?_
      intro x hx y hy ⟨h1, h2⟩
      obtain ⟨p, k⟩ := x
      obtain ⟨q, k'⟩ := y
      obtain ⟨⟨n, rfl, _⟩, _⟩ := mem_gather.mp hx
      obtain ⟨⟨m, rfl, _⟩, _⟩ := mem_gather.mp hy
      exact h2 (h1.eq_of_length (by simp))
    · intro a b hab x hx y hy ⟨h1, h2⟩
      obtain ⟨p, k⟩ := x
      obtain ⟨q, k'⟩ := y
      obtain ⟨⟨n, rfl, _⟩, _⟩ := mem_gather.mp hx
      obtain ⟨⟨m, rfl, _⟩, _⟩ := mem_gather.mp hy
      simp only at h1 h2
      rcases List.prefix_concat_iff.mp h1 with h | h
      · exact h2 h
      · exact hab ((List.prefix_append _ _).trans h)

theorem search_all (rootpath : Path) (re : Path → Bool) (lf ld : Bool) (l : List Entry) :
    search rootpath re lf ld none l = l.flatMap (gather re lf ld) := by
  induction l with
  | nil => rfl
  | cons e es ih =>
    simp only [search, Bool.false_eq_true, if_false, List.flatMap_cons, ih]

/-- With a depth, the search is that of the entries before the first one that is too deep. -/
theorem search_depth (rootpath : Path) (re : Path → Bool) (lf ld : Bool) (d : Int) (l : List Entry) :
    search rootpath re lf ld (some d) l =
      (l.takeWhile (fun e => decide ((depthOf rootpath e.root : Int) ≤ d))).flatMap
        (gather re lf ld) := by
  induction l with
  | nil => rfl
  | cons e es ih =>
    simp only [search, List.takeWhile_cons]
    by_cases h : d < (depthOf rootpath e.root : Int)
    · simp [h]
    · simp [h, not_lt.mp h, ih]

end IMT.Cleaning
