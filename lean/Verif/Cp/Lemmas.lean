import Verif.Cp.Model
import Mathlib.Data.List.Perm.Subperm

/-! Helper lemmas for critical point collections. -/

namespace IMT.Cp

variable {Tr : Type}

theorem argsort_perm (t : List Rat) : (argsort t).Perm (List.range t.length) := List.perm_insertionSort _ _

theorem argsort_lt {t : List Rat} {i : Nat} (h : i ∈ argsort t) : i < t.length :=
  List.mem_range.mp ((argsort_perm t).mem_iff.mp h)

theorem argsort_length (t : List Rat) : (argsort t).length = t.length := by
  rw [(argsort_perm t).length_eq, List.length_range]

theorem argsort_sorted (t : List Rat) : (argsort t).Pairwise fun i j => (t[i]?).getD 0 ≤ (t[j]?).getD 0 := by
  have h1 : Std.Total fun i j : Nat => (t[i]?).getD 0 ≤ (t[j]?).getD 0 := ⟨fun _ _ => le_total _ _⟩
  have h2 : IsTrans Nat fun i j : Nat => (t[i]?).getD 0 ≤ (t[j]?).getD 0 := ⟨fun _ _ _ => le_trans⟩
  exact List.pairwise_insertionSort _ _

theorem take_eq {α : Type} {l : List α} {ind : List Nat} (h : ∀ i ∈ ind, i < l.length) :
    (take l ind).map some = ind.map fun i : Nat => l[i]? := by
  induction ind with
  | nil => rfl
  | cons i ind ih =>
    have hi := h i (by simp)
    unfold take
    rw [List.filterMap_cons, List.getElem?_eq_getElem hi]
    simp only [List.map_cons]
    rw [List.getElem?_eq_getElem hi]
    congr 1
    exact ih fun j hj => h j (by simp [hj])

theorem take_length {α : Type} {l : List α} {ind : List Nat} (h : ∀ i ∈ ind, i < l.length) :
    (take l ind).length = ind.length := by
  have := congrArg List.length (take_eq h)
  simpa using this

theorem take_get {α : Type} {l : List α} {ind : List Nat} (h : ∀ i ∈ ind, i < l.length) (j : Nat) :
    (take l ind)[j]? = (ind[j]?).bind fun i => l[i]? := by
  have := congrArg (fun m => m[j]?) (take_eq h)
  simp only [List.getElem?_map] at this
  rcases hj : ind[j]? with _ | i
  · rw [hj] at this
    rcases ht : (take l ind)[j]? with _ | x
    · rfl
    · rw [ht] at this; simp at this
  · rw [hj] at this
    rcases ht : (take l ind)[j]? with _ | x
    · rw [ht] at this; simp at this
    · rw [ht] at this
      simp only [Option.map_some, Option.some.injEq] at this
      simp [this]

theorem take_perm {α : Type} (l : List α) {ind : List Nat} (h : ind.Perm (List.range l.length)) :
    (take l ind).Perm l := by
  have h1 : (take l ind).Perm (take l (List.range l.length)) := h.filterMap _
  have h2 : take l (List.range l.length) = l := by
    have := take_eq (l := l) (ind := List.range l.length) (fun i hi => List.mem_range.mp hi)
    have h3 : (List.range l.length).map (fun i : Nat => l[i]?) = l.map some := by
      apply List.ext_getElem?
      intro i
      rw [List.getElem?_map, List.getElem?_map]
      by_cases hi : i < l.length
      · rw [List.getElem?_range hi, List.getElem?_eq_getElem hi]; simp [hi]
      · rw [List.getElem?_eq_none (by simpa using hi), List.getElem?_eq_none (by simpa using hi)]; rfl
    rw [h3] at this
    exact List.map_injective_iff.mpr (Option.some_injective _) this
  rwa [h2] at h1

theorem take_argsort_sorted (t : List Rat) : (take t (argsort t)).Pairwise (· ≤ ·) := by
  have h := argsort_sorted t
  have hlt : ∀ i ∈ argsort t, i < t.length := fun i hi => argsort_lt hi
  revert h hlt
  generalize argsort t = ind
  intro h hlt
  induction ind with
  | nil => simp [take]
  | cons i ind ih =>
    have hi := hlt i (by simp)
    rw [List.pairwise_cons] at h
    unfold take
    rw [List.filterMap_cons, List.getElem?_eq_getElem hi]
    simp only
    rw [List.pairwise_cons]
    refine ⟨?_, ih h.2 fun j hj => hlt j (by simp [hj])⟩
    intro b hb
    obtain ⟨j, hj, hb⟩ := List.mem_filterMap.mp hb
    have := h.1 j hj
    rw [hb, List.getElem?_eq_getElem hi] at this
    simpa using this

/-- All the arrays have the same length. -/
def SameLen (c : CP Tr) : Prop := ∀ k, (c.pts k).length = c.times.length

theorem at_sort {c : CP Tr} (h : SameLen c) (t : Rat) (k : Kind) (p : Pts) : At (sortByTime c) t k p ↔ At c t k p := by
  have h1 : ∀ i ∈ argsort c.times, i < c.times.length := fun i hi => argsort_lt hi
  have h2 : ∀ i ∈ argsort c.times, i < (c.pts k).length := fun i hi => by rw [h k]; exact argsort_lt hi
  unfold At sortByTime
  simp only
  constructor
  · rintro ⟨j, ht, hp⟩
    rw [take_get h1] at ht
    rw [take_get h2] at hp
    rcases hj : (argsort c.times)[j]? with _ | i
    · rw [hj] at ht; simp at ht
    · rw [hj] at ht hp
      exact ⟨i, ht, hp⟩
  · rintro ⟨i, ht, hp⟩
    have hi : i < c.times.length := by
      by_contra hc
      rw [List.getElem?_eq_none (by omega)] at ht
      simp at ht
    have : i ∈ argsort c.times := (argsort_perm _).mem_iff.mpr (List.mem_range.mpr hi)
    obtain ⟨j, hj⟩ := List.getElem?_of_mem this
    refine ⟨j, ?_, ?_⟩
    · rw [take_get h1, hj]; exact ht
    · rw [take_get h2, hj]; exact hp

theorem sort_sameLen {c : CP Tr} (h : SameLen c) : SameLen (sortByTime c) := by
  intro k
  unfold sortByTime
  simp only
  rw [take_length fun i hi => argsort_lt hi, take_length fun i hi => by rw [h k]; exact argsort_lt hi]

theorem sort_times_perm (c : CP Tr) : (sortByTime c).times.Perm c.times :=
  take_perm _ (argsort_perm _)

theorem sort_times_le (c : CP Tr) : (sortByTime c).times.Pairwise (· ≤ ·) := take_argsort_sorted _

theorem lt_of_le_nodup {l : List Rat} (h1 : l.Pairwise (· ≤ ·)) (h2 : l.Nodup) : l.Pairwise (· < ·) :=
  (h1.and h2).imp fun h => lt_of_le_of_ne h.1 h.2

theorem nodup_of_lt {l : List Rat} (h : l.Pairwise (· < ·)) : l.Nodup := h.imp fun h => ne_of_lt h

theorem sort_valid {c : CP Tr} (h : SameLen c) (hn : c.times.Nodup) : Valid (sortByTime c) :=
  ⟨sort_sameLen h, lt_of_le_nodup (sort_times_le c) ((sort_times_perm c).nodup_iff.mpr hn)⟩

theorem at_mem {c : CP Tr} {t : Rat} {k : Kind} {p : Pts} (h : At c t k p) : t ∈ c.times := by
  obtain ⟨i, h1, -⟩ := h
  exact List.mem_of_getElem? h1

theorem at_of_mem {c : CP Tr} (h : SameLen c) {t : Rat} (k : Kind) (ht : t ∈ c.times) : ∃ p, At c t k p := by
  obtain ⟨i, hi⟩ := List.getElem?_of_mem ht
  have hlt : i < c.times.length := by
    by_contra hc
    rw [List.getElem?_eq_none (by omega)] at hi
    simp at hi
  exact ⟨_, i, hi, List.getElem?_eq_getElem (by rw [h k]; exact hlt)⟩

theorem nodup_index {l : List Rat} (h : l.Nodup) {i j : Nat} {t : Rat} (hi : l[i]? = some t) (hj : l[j]? = some t) :
    i = j := by
  obtain ⟨hi', hi⟩ := List.getElem?_eq_some_iff.mp hi
  obtain ⟨hj', hj⟩ := List.getElem?_eq_some_iff.mp hj
  exact (List.Nodup.getElem_inj_iff h).mp (hi.trans hj.symm)

theorem at_unique {c : CP Tr} (h : c.times.Nodup) {t : Rat} {k : Kind} {p q : Pts} (hp : At c t k p)
    (hq : At c t k q) : p = q := by
  obtain ⟨i, h1, h2⟩ := hp
  obtain ⟨j, h3, h4⟩ := hq
  have := nodup_index h h1 h3
  subst this
  rw [h2] at h4
  exact Option.some.inj h4

/-- Two strictly increasing lists with the same elements are equal. -/
theorem sorted_ext {l m : List Rat} (hl : l.Pairwise (· < ·)) (hm : m.Pairwise (· < ·)) (h : ∀ t, t ∈ l ↔ t ∈ m) :
    l = m := by
  have hp : l.Perm m := (List.perm_ext_iff_of_nodup (nodup_of_lt hl) (nodup_of_lt hm)).mpr h
  exact hp.eq_of_pairwise (le := (· < ·)) (fun a b _ _ h1 h2 => absurd h2 (not_lt.mpr h1.le)) hl hm

/-- A valid collection is determined by what it stores. -/
theorem ext_of_at {c d : CP Tr} (hc : Valid c) (hd : Valid d) (h : ∀ t k p, At c t k p ↔ At d t k p) :
    c.times = d.times ∧ c.pts = d.pts := by
  have ht : c.times = d.times := by
    apply sorted_ext hc.2 hd.2
    intro t
    constructor
    · intro hm
      obtain ⟨p, hp⟩ := at_of_mem hc.1 .foc hm
      exact at_mem ((h _ _ _).mp hp)
    · intro hm
      obtain ⟨p, hp⟩ := at_of_mem hd.1 .foc hm
      exact at_mem ((h _ _ _).mpr hp)
  refine ⟨ht, ?_⟩
  funext k
  apply List.ext_getElem?
  intro i
  by_cases hi : i < c.times.length
  · have h1 : (c.pts k)[i]? = some ((c.pts k)[i]'(by rw [hc.1 k]; exact hi)) := List.getElem?_eq_getElem _
    have hat : At c c.times[i] k ((c.pts k)[i]'(by rw [hc.1 k]; exact hi)) :=
      ⟨i, List.getElem?_eq_getElem hi, h1⟩
    obtain ⟨j, hj1, hj2⟩ := (h _ _ _).mp hat
    have : i = j := by
      rw [← ht] at hj1
      exact nodup_index (nodup_of_lt hc.2) (List.getElem?_eq_getElem hi) hj1
    subst this
    rw [h1, hj2]
  · rw [List.getElem?_eq_none (by rw [hc.1 k]; omega), List.getElem?_eq_none (by rw [hd.1 k, ← ht]; omega)]

theorem at_append {c : CP Tr} (h : SameLen c) (f : Kind → Pts) (t0 t : Rat) (k : Kind) (p : Pts) :
    At (append c f t0) t k p ↔ At c t k p ∨ (t = t0 ∧ p = f k) := by
  unfold At append
  simp only
  constructor
  · rintro ⟨i, h1, h2⟩
    by_cases hi : i < c.times.length
    · left
      rw [List.getElem?_append_left hi] at h1
      rw [List.getElem?_append_left (by rw [h k]; exact hi)] at h2
      exact ⟨i, h1, h2⟩
    · right
      rw [List.getElem?_append_right (by omega)] at h1
      rw [List.getElem?_append_right (by rw [h k]; omega), h k] at h2
      rcases hz : i - c.times.length with _ | n
      · rw [hz] at h1 h2
        simp only [List.getElem?_cons_zero, Option.some.injEq] at h1 h2
        exact ⟨h1.symm, h2.symm⟩
      · rw [hz] at h1; simp at h1
  · rintro (⟨i, h1, h2⟩ | ⟨rfl, rfl⟩)
    · obtain ⟨hi, -⟩ := List.getElem?_eq_some_iff.mp h1
      obtain ⟨hi', -⟩ := List.getElem?_eq_some_iff.mp h2
      exact ⟨i, by rw [List.getElem?_append_left hi]; exact h1, by rw [List.getElem?_append_left hi']; exact h2⟩
    · refine ⟨c.times.length, ?_, ?_⟩
      · rw [List.getElem?_append_right (le_refl _)]; simp
      · rw [List.getElem?_append_right (by rw [h k]), h k]; simp

theorem at_concat {a b : CP Tr} (ha : SameLen a) (t : Rat) (k : Kind) (p : Pts) :
    At (concat a b) t k p ↔ At a t k p ∨ At b t k p := by
  unfold At concat
  simp only
  constructor
  · rintro ⟨i, h1, h2⟩
    by_cases hi : i < a.times.length
    · left
      rw [List.getElem?_append_left hi] at h1
      rw [List.getElem?_append_left (by rw [ha k]; exact hi)] at h2
      exact ⟨i, h1, h2⟩
    · right
      rw [List.getElem?_append_right (by omega)] at h1
      rw [List.getElem?_append_right (by rw [ha k]; omega), ha k] at h2
      exact ⟨_, h1, h2⟩
  · rintro (⟨i, h1, h2⟩ | ⟨i, h1, h2⟩)
    · obtain ⟨hi, -⟩ := List.getElem?_eq_some_iff.mp h1
      obtain ⟨hi', -⟩ := List.getElem?_eq_some_iff.mp h2
      exact ⟨i, by rw [List.getElem?_append_left hi]; exact h1, by rw [List.getElem?_append_left hi']; exact h2⟩
    · refine ⟨a.times.length + i, ?_, ?_⟩
      · rw [List.getElem?_append_right (by omega), Nat.add_sub_cancel_left]; exact h1
      · rw [List.getElem?_append_right (by rw [ha k]; omega), ha k, Nat.add_sub_cancel_left]; exact h2

theorem hasDouble_iff {l : List Rat} (h : l.Pairwise (· ≤ ·)) : hasDouble l = false ↔ l.Nodup := by
  induction l with
  | nil => simp [hasDouble]
  | cons a l ih =>
    rcases l with _ | ⟨b, l⟩
    · simp [hasDouble]
    · rw [List.pairwise_cons] at h
      have hd : hasDouble (a :: b :: l) = (decide (a = b) || hasDouble (b :: l)) := by
        simp [hasDouble]
      rw [hd, Bool.or_eq_false_iff, ih h.2, List.nodup_cons (a := a), decide_eq_false_iff_not]
      constructor
      · rintro ⟨h1, h2⟩
        refine ⟨?_, h2⟩
        intro hm
        rcases List.mem_cons.mp hm with rfl | hm
        · exact h1 rfl
        · have h3 := h.1 b (by simp)
          have h4 := (List.pairwise_cons.mp h.2).1 a hm
          exact h1 (le_antisymm h3 h4)
      · rintro ⟨h1, h2⟩
        exact ⟨fun e => h1 (by simp [e]), h2⟩

end IMT.Cp
