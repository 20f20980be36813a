import Verif.Pbi.Model
import Mathlib.Algebra.BigOperators.Intervals
import Mathlib.Algebra.BigOperators.Ring.Finset
import Mathlib.Tactic.LinearCombination

/-! Helper lemmas for the Poincaré-Bendixson index. -/

namespace IMT.Pbi

open Finset

set_option linter.unusedSectionVars false

variable {K : Type} [Field K] [LinearOrder K] [IsStrictOrderedRing K]

/-- Wrapped angle from `a` to `b`. -/
def W (T a b : K) : K := wrap T (b - a)

theorem wrap_zero {T : K} (hT : 0 < T) : wrap T 0 = 0 := by
  unfold wrap
  simp only [if_neg (by linarith : ¬ (0 : K) > T / 2)]
  rw [if_neg (by linarith)]

theorem W_self {T : K} (hT : 0 < T) (a : K) : W T a a = 0 := by
  unfold W; rw [sub_self, wrap_zero hT]

theorem wrap_neg {T : K} (hT : 0 < T) (d : K) : wrap T (-d) = -wrap T d := by
  unfold wrap
  by_cases h1 : d > T / 2
  · simp only [if_pos h1]
    rw [if_neg (by linarith : ¬ -d > T / 2), if_pos (by linarith : -d < -(T / 2)),
      if_neg (by linarith : ¬ d - T < -(T / 2))]
    ring
  · simp only [if_neg h1]
    by_cases h2 : d < -(T / 2)
    · rw [if_pos h2, if_pos (by linarith : -d > T / 2), if_neg (by linarith : ¬ -d - T < -(T / 2))]
      ring
    · rw [if_neg h2, if_neg (by linarith : ¬ -d > T / 2), if_neg (by linarith : ¬ -d < -(T / 2))]

theorem W_symm {T : K} (hT : 0 < T) (a b : K) : W T a b = -W T b a := by
  unfold W; rw [← wrap_neg hT]; congr 1; ring

/-- A wrapped difference is the difference up to one period. -/
theorem wrap_int {T : K} (d : K) : ∃ z : Int, wrap T d = d + z * T := by
  unfold wrap
  by_cases h1 : d > T / 2
  · simp only [if_pos h1]
    by_cases h2 : d - T < -(T / 2)
    · rw [if_pos h2]; exact ⟨0, by push_cast; ring⟩
    · rw [if_neg h2]; exact ⟨-1, by push_cast; ring⟩
  · simp only [if_neg h1]
    by_cases h2 : d < -(T / 2)
    · rw [if_pos h2]; exact ⟨1, by push_cast; ring⟩
    · rw [if_neg h2]; exact ⟨0, by push_cast; ring⟩

/-- A difference of at most half a period is not changed. -/
theorem wrap_small {T d : K} (h1 : d ≤ T / 2) (h2 : -(T / 2) ≤ d) : wrap T d = d := by
  unfold wrap
  simp only [if_neg (by linarith : ¬ d > T / 2)]
  rw [if_neg (by linarith)]

/-- Sum along an open walk. -/
def ps (T : K) : List K → K
  | a :: b :: l => W T a b + ps T (b :: l)
  | _ => 0

theorem ps_cons (T a b : K) (l : List K) : ps T (a :: b :: l) = W T a b + ps T (b :: l) := by
  simp [ps]

theorem ps_append (T x : K) (l r : List K) : ps T (l ++ x :: r) = ps T (l ++ [x]) + ps T (x :: r) := by
  induction l with
  | nil => simp [ps]
  | cons a l ih =>
    cases l with
    | nil => simp only [List.cons_append, List.nil_append]; rw [ps_cons, ps_cons]; simp [ps]
    | cons b l =>
      simp only [List.cons_append] at ih ⊢
      rw [ps_cons, ps_cons, ih]; ring

theorem ps_reverse {T : K} (hT : 0 < T) (l : List K) : ps T l.reverse = -ps T l := by
  induction l with
  | nil => simp [ps]
  | cons a l ih =>
    cases l with
    | nil => simp [ps]
    | cons b l =>
      have e : (a :: b :: l).reverse = l.reverse ++ b :: [a] := by simp
      rw [e, ps_append, ps_cons, ps_cons, show l.reverse ++ [b] = (b :: l).reverse by simp, ih, W_symm hT b a]
      simp [ps]

theorem ps_range (T : K) (f : Nat → K) (n : Nat) :
    ps T ((List.range (n + 1)).map f) = ∑ r ∈ range n, W T (f r) (f (r + 1)) := by
  induction n with
  | zero => simp [ps]
  | succ n ih =>
    rw [List.range_succ, List.map_append, List.range_succ, List.map_append, List.map_singleton, List.map_singleton,
      List.append_assoc, List.singleton_append, ps_append, ps_cons, sum_range_succ, ← ih, List.range_succ,
      List.map_append, List.map_singleton]
    simp [ps]

/-- The closed sum of the code is the sum along the closed walk. -/
theorem deltas_sum (T a : K) (l : List K) :
    ((deltas (a :: l)).map (wrap T)).sum = ps T (a :: l ++ [a]) := by
  unfold deltas
  simp only [List.tail_cons, List.head?_cons, Option.toList_some]
  have key : ∀ (l : List K) (b : K), ((List.zipWith (fun a b => b - a) (b :: l) (l ++ [a])).map (wrap T)).sum =
      ps T (b :: l ++ [a]) := by
    intro l
    induction l with
    | nil => intro b; simp [ps, W]
    | cons c l ih =>
      intro b
      have := ih c
      simp only [List.cons_append, List.zipWith_cons_cons, List.map_cons, List.sum_cons] at this ⊢
      rw [ps_cons, this]; rfl
  exact key l a

/-- The index times the period, as sums over the four sides. -/
theorem pbi_sides {T : K} (hT : 0 < T) (θ : Nat → Nat → K) {n i : Nat} (hn : 0 < n) (hi : 0 < i) :
    pbi T θ n i * T = -(∑ r ∈ range (n - 1), W T (θ r 0) (θ (r + 1) 0))
      + (∑ c ∈ range i, W T (θ 0 c) (θ 0 (c + 1)))
      + (∑ r ∈ range (n - 1), W T (θ r i) (θ (r + 1) i))
      - (∑ c ∈ range i, W T (θ (n - 1) c) (θ (n - 1) (c + 1))) := by
  obtain ⟨n, rfl⟩ : ∃ m, n = m + 1 := ⟨n - 1, by omega⟩
  obtain ⟨i, rfl⟩ : ∃ m, i = m + 1 := ⟨i - 1, by omega⟩
  have hT' : T ≠ 0 := ne_of_gt hT
  unfold pbi
  rw [div_mul_cancel₀ _ hT']
  -- the four sides
  have hA : (List.range (n + 1)).reverse.map (fun r => θ r 0) =
      θ n 0 :: ((List.range n).reverse.map fun r => θ r 0) := by
    rw [List.range_succ, List.reverse_append]; simp
  have hA2 : (List.range (n + 1)).reverse.map (fun r => θ r 0) =
      (((List.range n).map fun r => θ (r + 1) 0).reverse) ++ [θ 0 0] := by
    rw [List.range_succ_eq_map, List.reverse_cons, List.map_append, List.map_reverse, List.map_map]; rfl
  have hB : (List.range (i + 1)).map (fun c => θ 0 c) = θ 0 0 :: ((List.range i).map fun c => θ 0 (c + 1)) := by
    rw [List.range_succ_eq_map, List.map_cons, List.map_map]; rfl
  have hC : (List.range (n + 1)).map (fun r => θ r (i + 1)) =
      θ 0 (i + 1) :: ((List.range n).map fun r => θ (r + 1) (i + 1)) := by
    rw [List.range_succ_eq_map, List.map_cons, List.map_map]; rfl
  have hC2 : (List.range (n + 1)).map (fun r => θ r (i + 1)) =
      ((List.range n).map fun r => θ r (i + 1)) ++ [θ n (i + 1)] := by
    rw [List.range_succ, List.map_append]; rfl
  have hD : ((List.range (i + 1)).map fun k => θ (n + 1 - 1) (i + 1 - k)) ++ [θ n 0] =
      ((List.range (i + 2)).map fun c => θ n c).reverse := by
    apply List.ext_getElem
    · simp
    · intro k h1 h2
      simp only [List.length_append, List.length_map, List.length_range, List.length_singleton] at h1
      rw [List.getElem_reverse]
      by_cases hk : k < i + 1
      · rw [List.getElem_append_left (by simpa using hk)]
        simp only [List.getElem_map, List.getElem_range, List.length_map, List.length_range]
        congr 1
      · rw [List.getElem_append_right (by simpa using hk)]
        simp only [List.getElem_map, List.getElem_range, List.length_map, List.length_range,
          List.getElem_singleton]
        congr 1; omega
  have hD2 : ((List.range (i + 2)).map fun c => θ n c).reverse =
      θ n (i + 1) :: ((List.range (i + 1)).map fun c => θ n c).reverse := by
    rw [List.range_succ, List.map_append, List.reverse_append]; rfl
  -- the closed walk
  have hwalk : ((deltas (border θ (n + 1) (i + 1))).map (wrap T)).sum =
      ps T (border θ (n + 1) (i + 1) ++ [θ n 0]) := by
    have : border θ (n + 1) (i + 1) = θ n 0 :: (((List.range n).reverse.map fun r => θ r 0) ++
        (((List.range (i + 1)).map fun c => θ 0 c) ++ (((List.range (n + 1)).map fun r => θ r (i + 1)) ++
        ((List.range (i + 1)).map fun k => θ (n + 1 - 1) (i + 1 - k))))) := by
      unfold border
      rw [hA]
      simp only [List.append_assoc, List.cons_append]
    rw [this]
    exact deltas_sum T _ _
  rw [hwalk]
  have hsplit : border θ (n + 1) (i + 1) ++ [θ n 0] =
      ((List.range (n + 1)).reverse.map fun r => θ r 0) ++ (((List.range (i + 1)).map fun c => θ 0 c) ++
        (((List.range (n + 1)).map fun r => θ r (i + 1)) ++ ((List.range (i + 2)).map fun c => θ n c).reverse)) := by
    unfold border
    rw [← hD]
    simp only [List.append_assoc]
  rw [hsplit]
  have e1 : ps T (((List.range (n + 1)).reverse.map fun r => θ r 0) ++ (((List.range (i + 1)).map fun c => θ 0 c) ++
        (((List.range (n + 1)).map fun r => θ r (i + 1)) ++ ((List.range (i + 2)).map fun c => θ n c).reverse))) =
      ps T ((List.range (n + 1)).reverse.map fun r => θ r 0) + ps T (((List.range (i + 1)).map fun c => θ 0 c) ++
        (((List.range (n + 1)).map fun r => θ r (i + 1)) ++ ((List.range (i + 2)).map fun c => θ n c).reverse)) := by
    rw [hA2, hB]
    simp only [List.append_assoc, List.cons_append, List.nil_append]
    rw [ps_append, ps_cons, W_self hT, zero_add]
  have e2 : ps T (((List.range (i + 1)).map fun c => θ 0 c) ++
        (((List.range (n + 1)).map fun r => θ r (i + 1)) ++ ((List.range (i + 2)).map fun c => θ n c).reverse)) =
      ps T ((List.range (i + 2)).map fun c => θ 0 c) +
        ps T (((List.range (n + 1)).map fun r => θ r (i + 1)) ++ ((List.range (i + 2)).map fun c => θ n c).reverse) := by
    rw [hC]
    simp only [List.cons_append]
    rw [ps_append, show (List.range (i + 2)).map (fun c => θ 0 c) =
      (List.range (i + 1)).map (fun c => θ 0 c) ++ [θ 0 (i + 1)] by
        rw [List.range_succ, List.map_append]; rfl]
  have e3 : ps T (((List.range (n + 1)).map fun r => θ r (i + 1)) ++ ((List.range (i + 2)).map fun c => θ n c).reverse) =
      ps T ((List.range (n + 1)).map fun r => θ r (i + 1)) + ps T ((List.range (i + 2)).map fun c => θ n c).reverse := by
    rw [hC2, hD2]
    simp only [List.append_assoc, List.cons_append, List.nil_append]
    rw [ps_append, ps_cons, W_self hT, zero_add]
  rw [e1, e2, e3, List.map_reverse, ps_reverse hT, ps_reverse hT, ps_range, ps_range, ps_range, ps_range]
  simp only [Nat.add_sub_cancel]
  ring

/-- The closed sum of wrapped differences is a whole number of periods. -/
theorem closed_int (T : K) (l : List K) : ∃ z : Int, ((deltas l).map (wrap T)).sum = z * T := by
  cases l with
  | nil => exact ⟨0, by simp [deltas]⟩
  | cons a l =>
    rw [deltas_sum]
    have key : ∀ (l : List K) (a : K), ∃ z : Int, ps T (a :: l) = ((a :: l).getLast (by simp) - a) + z * T := by
      intro l
      induction l with
      | nil => intro a; exact ⟨0, by simp [ps]⟩
      | cons b l ih =>
        intro a
        obtain ⟨z, hz⟩ := ih b
        obtain ⟨w, hw⟩ := wrap_int (T := T) (b - a)
        refine ⟨z + w, ?_⟩
        rw [ps_cons, hz]
        unfold W
        have hl : (a :: b :: l).getLast (by simp) = (b :: l).getLast (by simp) := List.getLast_cons (by simp)
        rw [hw, hl]
        push_cast; ring
    obtain ⟨z, hz⟩ := key (l ++ [a]) a
    refine ⟨z, ?_⟩
    have hlast : (a :: (l ++ [a])).getLast (by simp) = a := by
      rw [List.getLast_cons (by simp)]; simp
    rw [List.cons_append, hz, hlast]; ring

end IMT.Pbi
