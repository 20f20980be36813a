import Verif.Pbi.StructModel
import Verif.Pbi.Props

/-! C381: the number of structures of a field along each axis. -/

namespace IMT.Pbi

open Finset

variable {K : Type} [Field K] [LinearOrder K] [IsStrictOrderedRing K]

/-- The total index of the column of cells `c` of a field with `n` rows. -/
def column (T : K) (θ : Nat → Nat → K) (n c : Nat) : K := ∑ r ∈ range (n - 1), pbi T (shift θ r c) 2 1

/-- The total index of the row of cells `r` of a field with `m` columns. -/
def row (T : K) (θ : Nat → Nat → K) (m r : Nat) : K := ∑ c ∈ range (m - 1), pbi T (shift θ r c) 2 1

theorem pbiX_sum {T : K} (hT : 0 < T) (θ : Nat → Nat → K) {n : Nat} (hn : 0 < n) (i : Nat) : pbiX T θ n i = ∑ c ∈ range i, column T θ n c := by
  unfold pbiX
  by_cases hi : i = 0
  · rw [if_pos hi, hi]; simp
  · rw [if_neg hi, C57_additive_x hT θ hn (by omega)]
    rfl

theorem jumpsX {T : K} (hT : 0 < T) (θ : Nat → Nat → K) {n : Nat} (hn : 0 < n) (m : Nat) :
    jumps (pbiX T θ n) m = ((range (m - 1)).filter fun c => column T θ n c ≠ 0).card := by
  have : ∀ i, pbiX T θ n (i + 1) - pbiX T θ n i = column T θ n i := by
    intro i
    rw [pbiX_sum hT θ hn, pbiX_sum hT θ hn, sum_range_succ]
    ring
  unfold jumps
  simp only [this]
  rfl

theorem jumpsY {T : K} (hT : 0 < T) (θ : Nat → Nat → K) {m : Nat} (hm : 0 < m) (n : Nat) :
    jumps (pbiY T θ n m) n = ((range (n - 1)).filter fun r => row T θ m r ≠ 0).card := by
  have : ∀ i ∈ List.range (n - 1), decide (pbiY T θ n m (i + 1) - pbiY T θ n m i ≠ 0) = decide (row T θ m i ≠ 0) := by
    intro i hi
    have hi' := List.mem_range.mp hi
    rw [C57_additive_y hT θ hm, C57_additive_y hT θ hm, sum_eq_sum_Ico_succ_bot hi']
    congr 1
    unfold row
    simp
  unfold jumps
  rw [List.filter_congr this]
  rfl

/-- C381: the number of structures along x is the number of columns of cells whose total index is not zero, and along y the number of such rows. -/
theorem C381_count {T : K} (hT : 0 < T) (θ : Nat → Nat → K) {n m : Nat} (hn : 0 < n) (hm : 0 < m) :
    structNumber T θ n m = (((range (m - 1)).filter fun c => ∑ r ∈ range (n - 1), pbi T (shift θ r c) 2 1 ≠ 0).card,
      ((range (n - 1)).filter fun r => ∑ c ∈ range (m - 1), pbi T (shift θ r c) 2 1 ≠ 0).card) := by
  unfold structNumber
  by_cases h : n = 2 ∧ m = 2
  · obtain ⟨rfl, rfl⟩ := h
    rw [if_pos ⟨rfl, rfl⟩, jumpsX hT θ hn]
    simp [column, filter_singleton]
  · rw [if_neg h, jumpsX hT θ hn, jumpsY hT θ hm]
    rfl

/-- C381: one cell has one structure along each axis when its index is not zero, and none else. -/
theorem C381_cell {T : K} (hT : 0 < T) (θ : Nat → Nat → K) :
    structNumber T θ 2 2 = if pbi T θ 2 1 ≠ 0 then (1, 1) else (0, 0) := by
  have e : shift θ 0 0 = θ := by funext a b; simp [shift]
  rw [C381_count hT θ (by decide) (by decide)]
  by_cases h : pbi T θ 2 1 = 0
  · rw [if_neg (not_not.mpr h)]
    simp [e, h]
  · rw [if_pos h]
    simp [e, h, filter_singleton]

/-- C381: a field without any cell of non zero index has no structure.  The converse fails. -/
theorem C381_none_partial {T : K} (hT : 0 < T) (θ : Nat → Nat → K) {n m : Nat} (hn : 0 < n) (hm : 0 < m)
    (h : ∀ r < n - 1, ∀ c < m - 1, pbi T (shift θ r c) 2 1 = 0) : structNumber T θ n m = (0, 0) := by
  rw [C381_count hT θ hn hm]
  ext
  · simp only [card_eq_zero, filter_eq_empty_iff, mem_range, not_not]
    intro c hc
    exact sum_eq_zero fun r hr => h r (mem_range.mp hr) c hc
  · simp only [card_eq_zero, filter_eq_empty_iff, mem_range, not_not]
    intro r hr
    exact sum_eq_zero fun c hc => h r hr c (mem_range.mp hc)

/-- C381 is violated: structures of opposite indices in the columns of a field are not counted along x. -/
theorem C381_hidden_violated {T : K} (hT : 0 < T) (θ : Nat → Nat → K) {n m : Nat} (hn : 0 < n) (hm : 0 < m)
    (h : ∀ c < m - 1, ∑ r ∈ range (n - 1), pbi T (shift θ r c) 2 1 = 0) : (structNumber T θ n m).1 = 0 := by
  rw [C381_count hT θ hn hm]
  simp only [card_eq_zero, filter_eq_empty_iff, mem_range, not_not]
  exact h

/-- Two cells, one above the other, of opposite indices. -/
def pair : Nat → Nat → Rat := fun r c => ((([[0, 1], [3, 2], [0, 1]] : List (List Rat))[r]?.getD [])[c]?).getD 0

example : structNumber 4 pair 3 2 = (0, 2) ∧ pbi 4 (shift pair 0 0) 2 1 = 1 ∧ pbi 4 (shift pair 1 0) 2 1 = -1 := by decide +kernel

example : structNumber 4 pair 2 2 = (1, 1) := by decide +kernel

end IMT.Pbi
