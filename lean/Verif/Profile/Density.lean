import Verif.Profile.DensityModel
import Mathlib.MeasureTheory.Integral.Bochner.Set

/-!
C337, C338: densities of probability of the values of a profile.
-/

namespace IMT.Density

open MeasureTheory ProbabilityTheory

variable {k : ℕ}

/-! ### Lemmas -/

theorem lo_le (ys : Fin (k + 1) → ℝ) (i : Fin (k + 1)) : lo ys ≤ ys i := Finset.inf'_le _ (Finset.mem_univ i)

theorem le_hi (ys : Fin (k + 1) → ℝ) (i : Fin (k + 1)) : ys i ≤ hi ys := Finset.le_sup' _ (Finset.mem_univ i)

theorem var_ne {s : ℝ} (hs : s ≠ 0) : (s ^ 2).toNNReal ≠ 0 := (Real.toNNReal_pos.mpr (by positivity)).ne'

theorem kde_pos (ys : Fin (k + 1) → ℝ) {s : ℝ} (hs : s ≠ 0) (x : ℝ) : 0 < kde ys s x := by
  unfold kde
  have : (0 : ℝ) < k + 1 := by positivity
  apply div_pos _ this
  exact Finset.sum_pos (fun i _ => gaussianPDFReal_pos _ _ _ (var_ne hs)) ⟨0, Finset.mem_univ 0⟩

theorem kde_integrable (ys : Fin (k + 1) → ℝ) (s : ℝ) : Integrable (kde ys s) := by
  unfold kde
  apply Integrable.div_const
  exact integrable_finsetSum _ fun i _ => integrable_gaussianPDFReal _ _

theorem kde_integral (ys : Fin (k + 1) → ℝ) {s : ℝ} (hs : s ≠ 0) : ∫ x, kde ys s x = 1 := by
  unfold kde
  rw [integral_div, integral_finsetSum _ fun i _ => integrable_gaussianPDFReal _ _]
  simp only [integral_gaussianPDFReal_eq_one _ (var_ne hs), Finset.sum_const, Finset.card_univ, Fintype.card_fin, nsmul_eq_mul, mul_one]
  have : (0 : ℝ) < k + 1 := by positivity
  push_cast
  exact div_self this.ne'

/-- The mass of a positive density of mass one in an interval is less than one. -/
theorem mass_lt (ys : Fin (k + 1) → ℝ) {s : ℝ} (hs : s ≠ 0) (a b : ℝ) : ∫ x in Set.Icc a b, kde ys s x < 1 := by
  have tot := integral_add_compl (measurableSet_Icc (a := a) (b := b)) (kde_integrable ys s)
  rw [kde_integral ys hs] at tot
  have pos : 0 < ∫ x in (Set.Icc a b)ᶜ, kde ys s x := by
    rw [setIntegral_pos_iff_support_of_nonneg_ae (Filter.Eventually.of_forall fun x => (kde_pos ys hs x).le)
      (kde_integrable ys s).integrableOn]
    have sup : Function.support (kde ys s) = Set.univ := by
      ext x; simp [(kde_pos ys hs x).ne']
    rw [sup, Set.univ_inter]
    have sub : Set.Ioi b ⊆ (Set.Icc a b)ᶜ := fun x hx c => not_lt.mpr c.2 hx
    refine lt_of_lt_of_le ?_ (measure_mono sub)
    rw [Real.volume_Ioi]
    exact ENNReal.zero_lt_top
  linarith

/-! ### C337 -/

/-- C337: the density is given at the asked number of evenly spaced values, from the smallest value to the largest one, and is
the mean of the gaussians centred on the values, which is positive. -/
theorem C337_points_partial (bw : Bw) (n : ℕ) (hn : 1 ≤ n) (ys : Fin (k + 1) → ℝ) (hs : std ys ≠ 0) :
    ∃ l, pdf bw n ys = .ok l ∧ l.length = n ∧ (∀ q ∈ l, 0 < q.2) ∧ ∀ i : ℕ, i < n →
      ∃ x, x = lo ys + i * ((hi ys - lo ys) / (n - 1 : ℝ)) ∧ l[i]? = some (x,
        (∑ j, gaussianPDFReal (ys j) ((((k + 1 : ℕ) : ℝ) ^ (-(1 : ℝ) / 5) * std ys) ^ 2).toNNReal x) / (k + 1)) := by
  unfold pdf
  rw [if_neg (by omega)]
  have f0 : factor k .scott * std ys ≠ 0 := by
    apply mul_ne_zero _ hs
    unfold factor
    positivity
  refine ⟨_, rfl, by simp [linspace], fun q hq => ?_, fun i hi' => ⟨_, rfl, ?_⟩⟩
  · obtain ⟨x, _, rfl⟩ := List.mem_map.mp hq
    exact kde_pos ys f0 x
  · simp [linspace, hi', kde, factor]

/-- C337: the mass of the density over the values that are returned is less than one, whatever the values. -/
theorem C337_mass_violated (bw : Bw) (ys : Fin (k + 1) → ℝ) (hs : std ys ≠ 0) :
    ∃ p : ℝ → ℝ, (∀ n, 1 ≤ n → ∃ l, pdf bw n ys = .ok l ∧ ∀ q ∈ l, q.2 = p q.1) ∧ ∫ x in Set.Icc (lo ys) (hi ys), p x < 1 := by
  have f0 : factor k .scott * std ys ≠ 0 := by
    apply mul_ne_zero _ hs
    unfold factor
    positivity
  refine ⟨kde ys (factor k .scott * std ys), fun n hn => ?_, mass_lt ys f0 _ _⟩
  unfold pdf
  rw [if_neg (by omega)]
  refine ⟨_, rfl, fun q hq => ?_⟩
  obtain ⟨x, _, rfl⟩ := List.mem_map.mp hq
  rfl

/-- C337: the bandwidth asked for has no effect. -/
theorem C337_bandwidth_violated (bw bw' : Bw) (n : ℕ) (ys : Fin (k + 1) → ℝ) : pdf bw n ys = pdf bw' n ys := rfl

/-! ### C338 -/

/-- C338: the four formats are the same density, times one, the number of values, a hundred and the number of values. -/
theorem C338_formats (n : ℕ) (hn : 2 ≤ n) (bw : Bw) (masked : Bool) (wx : ℝ) (uy : Sym) (ys : Fin (k + 1) → ℝ) :
    ∃ l : List (ℝ × ℝ), l.length = n ∧
      distribution .normalized n bw masked wx uy ys = .ok (l, Sym.one) ∧
      distribution .ponderated n bw masked wx uy ys = .ok (l.map fun q => (q.1, q.2 * (k + 1)), Sym.one) ∧
      distribution .percentage n bw masked wx uy ys = .ok (l.map fun q => (q.1, q.2 * 100), Sym.one) ∧
      distribution .concentration n bw masked wx uy ys = .ok (l.map fun q => (q.1, q.2 * (k + 1)), Sym.one.div uy) ∧
      distribution .other n bw masked wx uy ys = .error .valueError := by
  unfold distribution
  simp only [if_neg (show ¬ n < 2 by omega), Format.scale]
  refine ⟨(linspace (window ys (factor k (adBw masked wx (hi ys - lo ys) bw))).1
          (window ys (factor k (adBw masked wx (hi ys - lo ys) bw))).2 n).map
        fun x => (x, kde ys (factor k (adBw masked wx (hi ys - lo ys) bw) * std ys) x), ?_, ?_, ?_, ?_, ?_, trivial⟩
  · simp [linspace]
  all_goals simp [Function.comp_def]

/-- C338: with the rule of Scott, the normalised distribution is the mean of the gaussians centred on the values, at evenly spaced
positions that begin below the smallest value and end above the largest one. -/
theorem C338_points_partial (n : ℕ) (hn : 2 ≤ n) (masked : Bool) (wx : ℝ) (uy : Sym) (ys : Fin (k + 1) → ℝ) :
    ∃ l a b f, distribution .normalized n .scott masked wx uy ys = .ok (l, Sym.one) ∧ l.length = n ∧
      f = ((k + 1 : ℕ) : ℝ) ^ (-(1 : ℝ) / 5) ∧ a = lo ys - |lo ys * f / 2| ∧ b = hi ys + |hi ys * f / 2| ∧ ∀ i : ℕ, i < n →
      ∃ x, x = a + i * ((b - a) / (n - 1 : ℝ)) ∧ l[i]? = some (x,
        (∑ j, gaussianPDFReal (ys j) ((f * std ys) ^ 2).toNNReal x) / (k + 1)) := by
  unfold distribution
  simp only [if_neg (show ¬ n < 2 by omega), Format.scale]
  refine ⟨_, _, _, _, rfl, by simp [linspace], rfl, rfl, rfl, fun i hi' => ⟨_, rfl, ?_⟩⟩
  simp [linspace, hi', kde, factor, adBw, window]

/-- C338: the gaussians follow the values when a number is added to all of them. -/
theorem C338_translated (ys : Fin (k + 1) → ℝ) (s x c : ℝ) : kde (fun i => ys i + c) s (x + c) = kde ys s x := by
  unfold kde
  congr 1
  apply Finset.sum_congr rfl
  intro i _
  simp only [gaussianPDFReal, add_sub_add_right_eq_sub]

theorem lo_add (ys : Fin (k + 1) → ℝ) (c : ℝ) : lo (fun i => ys i + c) = lo ys + c := by
  apply le_antisymm
  · obtain ⟨i, _, hi⟩ := Finset.exists_mem_eq_inf' (⟨0, Finset.mem_univ 0⟩ : (Finset.univ : Finset (Fin (k + 1))).Nonempty) ys
    have : lo ys = ys i := hi
    rw [this]
    exact lo_le (fun i => ys i + c) i
  · apply Finset.le_inf'
    intro i _
    have := lo_le ys i
    linarith

/-- C338: but the positions do not follow them: for every family of values there is a translation that changes what is shown below
the smallest value. -/
theorem C338_window_violated (ys : Fin (k + 1) → ℝ) {f : ℝ} (hf : 0 < f) :
    ∃ c, (window (fun i => ys i + c) f).1 ≠ (window ys f).1 + c := by
  by_cases h : lo ys = 0
  · refine ⟨1, ?_⟩
    unfold window
    simp only [lo_add, h, zero_add, zero_mul, zero_div, abs_zero, sub_zero, one_mul]
    rw [abs_of_pos (by positivity)]
    intro e
    linarith
  · refine ⟨-lo ys, ?_⟩
    unfold window
    simp only [lo_add, add_neg_cancel, zero_mul, zero_div, abs_zero, sub_zero]
    intro e
    have : |lo ys * f / 2| = 0 := by linarith
    rw [abs_eq_zero] at this
    have : lo ys * f = 0 := by linarith
    rcases mul_eq_zero.mp this with c | c
    · exact h c
    · exact hf.ne' c

/-- C338: the mass of the normalised distribution, over all the positions that are returned, is less than one. -/
theorem C338_mass_violated (bw : Bw) (masked : Bool) (wx : ℝ) (uy : Sym) (ys : Fin (k + 1) → ℝ)
    (hs : factor k (adBw masked wx (hi ys - lo ys) bw) * std ys ≠ 0) :
    ∃ (a b : ℝ) (p : ℝ → ℝ), (∀ n, 2 ≤ n → ∃ l, distribution .normalized n bw masked wx uy ys = .ok (l, Sym.one) ∧
      l.map Prod.fst = linspace a b n ∧ ∀ q ∈ l, q.2 = p q.1) ∧ ∫ x in Set.Icc a b, p x < 1 := by
  refine ⟨_, _, kde ys (factor k (adBw masked wx (hi ys - lo ys) bw) * std ys), fun n hn => ?_, mass_lt ys hs
    (window ys (factor k (adBw masked wx (hi ys - lo ys) bw))).1 (window ys (factor k (adBw masked wx (hi ys - lo ys) bw))).2⟩
  unfold distribution
  simp only [if_neg (show ¬ n < 2 by omega), Format.scale]
  refine ⟨_, rfl, by simp [Function.comp_def], fun q hq => ?_⟩
  obtain ⟨x, _, rfl⟩ := List.mem_map.mp hq
  simp

/-- The standard deviation of numbers that are not all equal is less than their width. -/
theorem std_lt (ys : Fin (k + 1) → ℝ) (hk : 1 ≤ k) (hw : lo ys < hi ys) : std ys < hi ys - lo ys := by
  have k0 : (0 : ℝ) < k := by exact_mod_cast hk
  have k1 : (0 : ℝ) < k + 1 := by positivity
  set w := hi ys - lo ys with hwd
  have w0 : 0 < w := by linarith
  have dev : ∀ i, |ys i - mean ys| ≤ k * w / (k + 1) := by
    intro i
    have e : ys i - mean ys = (∑ j ∈ Finset.univ.erase i, (ys i - ys j)) / (k + 1) := by
      have h1 : ∑ j, (ys i - ys j) = (k + 1) * ys i - ∑ j, ys j := by
        rw [Finset.sum_sub_distrib, Finset.sum_const, Finset.card_univ, Fintype.card_fin, nsmul_eq_mul]
        push_cast
        ring
      have h2 : ∑ j, (ys i - ys j) = ∑ j ∈ Finset.univ.erase i, (ys i - ys j) := by
        rw [← Finset.add_sum_erase _ _ (Finset.mem_univ i)]; simp
      rw [← h2, h1]
      unfold mean
      field_simp
    rw [e, abs_div, abs_of_pos k1]
    apply div_le_div_of_nonneg_right _ k1.le
    calc |∑ j ∈ Finset.univ.erase i, (ys i - ys j)| ≤ ∑ j ∈ Finset.univ.erase i, |ys i - ys j| := Finset.abs_sum_le_sum_abs _ _
      _ ≤ ∑ _j ∈ Finset.univ.erase i, w := by
        apply Finset.sum_le_sum
        intro j _
        rw [abs_le]
        constructor <;> linarith [lo_le ys i, lo_le ys j, le_hi ys i, le_hi ys j]
      _ = k * w := by
        rw [Finset.sum_const, Finset.card_erase_of_mem (Finset.mem_univ i), Finset.card_univ, Fintype.card_fin, nsmul_eq_mul]
        simp
  have var : (∑ i, (ys i - mean ys) ^ 2) / k < w ^ 2 := by
    rw [div_lt_iff₀ k0]
    calc ∑ i, (ys i - mean ys) ^ 2 ≤ ∑ _i : Fin (k + 1), (k * w / (k + 1)) ^ 2 := by
          apply Finset.sum_le_sum
          intro i _
          rw [← sq_abs]
          exact pow_le_pow_left₀ (abs_nonneg _) (dev i) 2
      _ = k ^ 2 * w ^ 2 / (k + 1) := by
          rw [Finset.sum_const, Finset.card_univ, Fintype.card_fin, nsmul_eq_mul]
          push_cast
          field_simp
      _ < w ^ 2 * k := by
          rw [div_lt_iff₀ k1]
          have : 0 < w ^ 2 * k := by positivity
          nlinarith
  unfold std
  calc √((∑ i, (ys i - mean ys) ^ 2) / k) < √(w ^ 2) := by
        apply Real.sqrt_lt_sqrt _ var
        apply div_nonneg (Finset.sum_nonneg fun i _ => sq_nonneg _) k0.le
    _ = w := Real.sqrt_sq w0.le

/-- C338: a number given as bandwidth is not the standard deviation of the gaussians: when no point is masked and the values are not
more spread than the positions, the gaussians are always narrower than asked. -/
theorem C338_bandwidth_violated (ys : Fin (k + 1) → ℝ) (hk : 1 ≤ k) (hw : lo ys < hi ys) (wx : ℝ) (hx : hi ys - lo ys ≤ wx) {b : ℝ}
    (hb : 0 < b) : factor k (adBw false wx (hi ys - lo ys) (.num b)) * std ys < b := by
  have w0 : 0 < hi ys - lo ys := by linarith
  have ad : adLen false wx (hi ys - lo ys) = hi ys - lo ys := by
    unfold adLen
    simp only [Bool.false_eq_true, if_false]
    split
    · rfl
    · linarith
  simp only [adBw, factor, ad]
  have s := std_lt ys hk hw
  calc b / (hi ys - lo ys) * std ys < b / (hi ys - lo ys) * (hi ys - lo ys) := by
        apply mul_lt_mul_of_pos_left s
        positivity
    _ = b := by field_simp

/-- C338: and when a point is masked, it is divided by the width of the positions, whatever the values. -/
theorem C338_masked_violated (wx wy b : ℝ) (k : ℕ) : factor k (adBw true wx wy (.num b)) = b / wx := by
  simp [adBw, factor, adLen]

/-- C338: a density is in the inverse of the unit of the values, but only the concentration is given so. -/
theorem C338_unit_violated (n : ℕ) (hn : 2 ≤ n) (bw : Bw) (masked : Bool) (wx : ℝ) (uy : Sym) (hu : Sym.one.div uy ≠ Sym.one)
    (ys : Fin (k + 1) → ℝ) : ∃ l u, distribution .normalized n bw masked wx uy ys = .ok (l, u) ∧ u ≠ Sym.one.div uy := by
  obtain ⟨l, -, h, -⟩ := C338_formats n hn bw masked wx uy ys
  exact ⟨l, _, h, hu.symm⟩

/-- Two values: their standard deviation is not null. -/
example : std (![0, 2] : Fin 2 → ℝ) ≠ 0 ∧ (![0, 2] : Fin 2 → ℝ) 0 < (![0, 2] : Fin 2 → ℝ) 1 := by
  refine ⟨?_, by simp⟩
  have : std (![0, 2] : Fin 2 → ℝ) = √2 := by
    unfold std mean
    simp [Fin.sum_univ_succ]
    norm_num
  rw [this]
  positivity

end IMT.Density
