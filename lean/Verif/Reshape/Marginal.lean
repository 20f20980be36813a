import Verif.Reshape.Model
import Verif.Profile.History
import Mathlib.Algebra.Order.BigOperators.Group.List

/-! Marginal values of a profile: C228. -/

namespace IMT.Reshape

open IMT.Profile

theorem far_iff {v m f V : Rat} (hf : 0 ≤ f) (hV : 0 ≤ V) :
    ((v : ℝ) < m - f * Real.sqrt V ∨ (v : ℝ) > m + f * Real.sqrt V) ↔ f ^ 2 * V < (v - m) ^ 2 := by
  have hf' : (0 : ℝ) ≤ f := by exact_mod_cast hf
  have hV' : (0 : ℝ) ≤ V := by exact_mod_cast hV
  have hs : 0 ≤ (f : ℝ) * Real.sqrt V := mul_nonneg hf' (Real.sqrt_nonneg _)
  have hq : ((f : ℝ) * Real.sqrt V) ^ 2 = (f : ℝ) ^ 2 * V := by rw [mul_pow, Real.sq_sqrt hV']
  have hc : f ^ 2 * V < (v - m) ^ 2 ↔ ((f : ℝ) ^ 2 * V < ((v : ℝ) - m) ^ 2) := by
    constructor
    · intro h; exact_mod_cast h
    · intro h; exact_mod_cast h
  rw [hc, ← hq, sq_lt_sq, abs_of_nonneg hs, lt_abs]
  constructor
  · rintro (h | h)
    · right; linarith
    · left; linarith
  · rintro (h | h)
    · right; linarith
    · left; linarith

theorem sum_sq_nonneg (l : List Rat) (m : Rat) : 0 ≤ (l.map fun v => (v - m) ^ 2).sum := by
  induction l with
  | nil => simp
  | cons a l ih => rw [List.map_cons, List.sum_cons]; positivity

theorem variance_nonneg (p : Prof) : 0 ≤ variance p := by
  unfold variance
  exact div_nonneg (sum_sq_nonneg _ _) (by positivity)

theorem marginal_iff (p : Prof) {fact : Rat} (hf : 0 ≤ fact) (v : Rat) :
    marginal p fact (some v) = true ↔ fact ^ 2 * variance p < (v - mean p) ^ 2 := by
  rw [← far_iff hf (variance_nonneg p)]
  simp [marginal]

theorem blank_combine (m : List Bool) (y : List F) (g : F → Bool) (h : m = y.map Option.isNone) :
    blank y (List.zipWith (fun b v => b || g v) m y) = y.map fun v => if g v then none else v := by
  subst h
  induction y with
  | nil => rfl
  | cons v y ih =>
    simp only [blank, List.map_cons, List.zipWith_cons_cons] at ih ⊢
    rw [ih]
    congr 1
    cases v with
    | none => simp
    | some v => simp

theorem mask_combine (m : List Bool) (y : List F) (g : F → Bool) (h : m = y.map Option.isNone) :
    List.zipWith (fun b v => b || g v) m y = (y.map fun v => if g v then none else v).map Option.isNone := by
  subst h
  induction y with
  | nil => rfl
  | cons v y ih =>
    simp only [List.map_cons, List.zipWith_cons_cons] at ih ⊢
    rw [ih]
    congr 1
    cases v with
    | none => simp
    | some v => by_cases hv : g (some v) = true <;> simp [hv]

/-- C228: the values farther from the mean of the unmasked values than `fact` times their standard deviation are masked;
everything else stays. -/
theorem C228_masked {p : Prof} (h : Valid p) (hv : ∃ r ∈ pts p, r.2 ≠ none) {fact : Rat} (hf : 0 ≤ fact) :
    ∃ q, removeMarginal p fact = .ok q ∧ Valid q ∧ q.x = p.x ∧ q.ux = p.ux ∧ q.uy = p.uy ∧
      pts q = (pts p).map fun r => match r.2 with
        | none => (r.1, none)
        | some v => (r.1, if fact ^ 2 * variance p < (v - mean p) ^ 2 then none else some v) := by
  have ha : p.m.all id = false := (all_masked h).mpr hv
  have e1 := blank_combine p.m (getY p) (marginal p fact) (by rw [getY_valid h]; exact h.2.1)
  have e2 := mask_combine p.m (getY p) (marginal p fact) (by rw [getY_valid h]; exact h.2.1)
  have hq : Valid { p with
      y := (getY p).map fun v => if marginal p fact v then none else v
      m := ((getY p).map fun v => if marginal p fact v then none else v).map Option.isNone } := by
    refine ⟨?_, rfl, h.2.2⟩
    show (List.map _ _).length = _
    rw [List.length_map, getY_valid h, h.1]
  refine ⟨_, ?_, hq, rfl, rfl, rfl, ?_⟩
  · unfold removeMarginal
    rw [ha, if_neg (by simp), e1, e2]
  · rw [pts_valid hq, pts]
    show p.x.zip ((getY p).map _) = _
    rw [List.zip_map_right]
    apply List.map_congr_left
    rintro ⟨x, v⟩ -
    cases v with
    | none => simp [marginal]
    | some v =>
      simp only [Prod.map, id]
      by_cases hc : fact ^ 2 * variance p < (v - mean p) ^ 2
      · rw [if_pos ((marginal_iff p hf v).2 hc), if_pos hc]
      · rw [if_neg (fun hh => hc ((marginal_iff p hf v).1 hh)), if_neg hc]

/-- Σ over the marginal values. -/
theorem chebyshev (l : List Rat) (m c : Rat) :
    ((l.filter fun v => decide (c < (v - m) ^ 2)).length : Rat) * c ≤ (l.map fun v => (v - m) ^ 2).sum := by
  induction l with
  | nil => simp
  | cons a l ih =>
    rw [List.map_cons, List.sum_cons, List.filter_cons]
    by_cases h : c < (a - m) ^ 2
    · rw [if_pos (by simpa using h), List.length_cons]
      push_cast
      linarith
    · rw [if_neg (by simpa using h)]
      have := sq_nonneg (a - m)
      linarith

theorem chebyshev_strict (l : List Rat) (m c : Rat) (hl : l ≠ []) (h : ∀ v ∈ l, c < (v - m) ^ 2) :
    (l.length : Rat) * c < (l.map fun v => (v - m) ^ 2).sum := by
  induction l with
  | nil => exact absurd rfl hl
  | cons a l ih =>
    have ha := h a (by simp)
    rw [List.map_cons, List.sum_cons, List.length_cons]
    push_cast
    by_cases hn : l = []
    · subst hn; simp; exact ha
    · have := ih hn fun v hv => h v (by simp [hv])
      linarith

theorem vals_ne {p : Prof} (h : Valid p) (hv : ∃ r ∈ pts p, r.2 ≠ none) : vals p ≠ [] := by
  obtain ⟨⟨x, w⟩, hr, hn⟩ := hv
  cases w with
  | none => exact absurd rfl hn
  | some v =>
    have := (mem_valid h).2 hr
    exact List.ne_nil_of_mem (List.mem_map.2 ⟨_, this, rfl⟩)

/-- C228: at most one value out of `fact`² is masked. -/
theorem C228_few {p : Prof} (h : Valid p) (hv : ∃ r ∈ pts p, r.2 ≠ none) {fact : Rat} (hf : 0 ≤ fact) :
    ∃ q, removeMarginal p fact = .ok q ∧
      (((pts p).countP fun r => r.2.isSome : Nat) - ((pts q).countP fun r => r.2.isSome : Nat) : Rat) * fact ^ 2 ≤
        ((pts p).countP fun r => r.2.isSome : Nat) := by
  obtain ⟨q, e, -, -, -, -, hp⟩ := C228_masked h hv hf
  refine ⟨q, e, ?_⟩
  have hvals : vals p = (pts p).filterMap fun r => r.2 := by
    unfold vals
    rw [valid_eq h, List.map_filterMap]
    apply List.filterMap_congr
    rintro ⟨x, v⟩ -
    cases v <;> rfl
  have hn : ((pts p).countP fun r => r.2.isSome) = (vals p).length := by
    rw [hvals]
    induction pts p with
    | nil => rfl
    | cons r l ih =>
      obtain ⟨x, v⟩ := r
      cases v <;> simp [ih]
  have hk : ((pts q).countP fun r => r.2.isSome) +
      ((vals p).filter fun v => decide (fact ^ 2 * variance p < (v - mean p) ^ 2)).length = (vals p).length := by
    rw [hp, hvals]
    generalize mean p = m
    generalize fact ^ 2 * variance p = c
    induction pts p with
    | nil => rfl
    | cons r l ih =>
      obtain ⟨x, v⟩ := r
      cases v with
      | none => simpa using ih
      | some v =>
        by_cases hc : c < (v - m) ^ 2
        · simp [hc] at ih ⊢
          omega
        · simp [hc] at ih ⊢
          omega
  rw [hn]
  have hsub : ((vals p).length : Rat) - ((pts q).countP fun r => r.2.isSome : Nat) =
      (((vals p).filter fun v => decide (fact ^ 2 * variance p < (v - mean p) ^ 2)).length : Rat) := by
    rw [← hk]
    push_cast
    ring
  rw [hsub]
  have hpos : (0 : Rat) < (vals p).length := by
    have := List.length_pos_iff.2 (vals_ne h hv)
    exact_mod_cast this
  have hc := chebyshev (vals p) (mean p) (fact ^ 2 * variance p)
  have hvar : ((vals p).map fun v => (v - mean p) ^ 2).sum = (vals p).length * variance p := by
    unfold variance
    field_simp
  rw [hvar] at hc
  rcases lt_or_eq_of_le (variance_nonneg p) with hV | hV
  · have : ((((vals p).filter fun v => decide (fact ^ 2 * variance p < (v - mean p) ^ 2)).length : Rat) * fact ^ 2) * variance p ≤
        (vals p).length * variance p := by linarith
    exact le_of_mul_le_mul_right this hV
  · -- no dispersion: nothing is marginal
    have hz : ((vals p).map fun v => (v - mean p) ^ 2).sum = 0 := by rw [hvar, ← hV, mul_zero]
    have hnil : ((vals p).filter fun v => decide (fact ^ 2 * variance p < (v - mean p) ^ 2)) = [] := by
      rw [List.filter_eq_nil_iff]
      intro v hmem hc
      rw [← hV, mul_zero] at hc
      have hc : 0 < (v - mean p) ^ 2 := by simpa using hc
      have hle : (v - mean p) ^ 2 ≤ ((vals p).map fun v => (v - mean p) ^ 2).sum := by
        refine List.single_le_sum (fun x hx => ?_) _ (List.mem_map.2 ⟨v, hmem, rfl⟩)
        obtain ⟨w, -, rfl⟩ := List.mem_map.1 hx
        exact sq_nonneg _
      linarith
    rw [hnil]
    simp

/-- C228: with `fact ≥ 1`, some value is left. -/
theorem C228_some_left {p : Prof} (h : Valid p) (hv : ∃ r ∈ pts p, r.2 ≠ none) {fact : Rat} (hf : 1 ≤ fact) :
    ∃ q, removeMarginal p fact = .ok q ∧ ∃ r ∈ pts q, r.2 ≠ none := by
  obtain ⟨q, e, -, -, -, -, hp⟩ := C228_masked h hv (by linarith : 0 ≤ fact)
  refine ⟨q, e, ?_⟩
  by_contra hno
  have hall : ∀ v ∈ vals p, fact ^ 2 * variance p < (v - mean p) ^ 2 := by
    intro v hmem
    obtain ⟨⟨x, w⟩, hr, rfl⟩ := List.mem_map.1 hmem
    by_contra hc
    apply hno
    refine ⟨(x, some w), ?_, by simp⟩
    rw [hp]
    exact List.mem_map.2 ⟨(x, some w), (mem_valid h).1 hr, by simp only; rw [if_neg hc]⟩
  have hs := chebyshev_strict (vals p) (mean p) _ (vals_ne h hv) hall
  have hpos : (0 : Rat) < (vals p).length := by
    have := List.length_pos_iff.2 (vals_ne h hv)
    exact_mod_cast this
  have hvar : ((vals p).map fun v => (v - mean p) ^ 2).sum = (vals p).length * variance p := by
    unfold variance
    field_simp
  rw [hvar] at hs
  have h1 : variance p ≤ fact ^ 2 * variance p := by
    have h2 : 1 ≤ fact ^ 2 := by nlinarith
    nlinarith [variance_nonneg p]
  have := lt_of_mul_lt_mul_left hs hpos.le
  linarith

/-- C228: without any value, TypeError. -/
theorem C228_no_value {p : Prof} (h : Valid p) (hv : ∀ r ∈ pts p, r.2 = none) (fact : Rat) :
    removeMarginal p fact = .error .typeError := by
  have : p.m.all id = true := by
    by_contra hc
    obtain ⟨r, hr, hn⟩ := (all_masked h).mp (by simpa using hc)
    exact hn (hv r hr)
  unfold removeMarginal
  rw [if_pos this]

/-- Seven points, six values, one of them far from the others. -/
def spike : Prof :=
  ⟨[0, 1, 2, 3, 4, 5, 6], [some 1, some 1, some 1, none, some 1, some 1, some 7],
    [false, false, false, true, false, false, false], .m, .s⟩

example : Valid spike ∧ (∃ r ∈ pts spike, r.2 ≠ none) ∧ mean spike = 2 ∧ variance spike = 5 ∧
    (2 : Rat) ^ 2 * variance spike < (7 - mean spike) ^ 2 ∧ ¬ (2 : Rat) ^ 2 * variance spike < (1 - mean spike) ^ 2 := by
  unfold Valid
  decide +kernel

end IMT.Reshape
