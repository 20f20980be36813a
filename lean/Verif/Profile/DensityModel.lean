import Verif.Units
import Mathlib.Probability.Distributions.Gaussian.Real

/-!
Model of `Profile.get_pdf` and `Profile.get_distribution` (`/repo/IMTreatment/core/profile.py`), over the reals.  The unmasked values are a
family `ys` of `k + 1` numbers.  `scipy.stats.gaussian_kde` is the mean of the gaussians centred on the values, whose standard deviation
is its factor times the one of the values.
-/

namespace IMT.Density

variable {k : ℕ}

/-- `np.min(y)`. -/
noncomputable def lo (ys : Fin (k + 1) → ℝ) : ℝ := Finset.univ.inf' ⟨0, Finset.mem_univ 0⟩ ys

/-- `np.max(y)`. -/
noncomputable def hi (ys : Fin (k + 1) → ℝ) : ℝ := Finset.univ.sup' ⟨0, Finset.mem_univ 0⟩ ys

/-- `np.linspace(a, b, n)`. -/
noncomputable def linspace (a b : ℝ) (n : ℕ) : List ℝ := (List.range n).map fun i : ℕ => a + i * ((b - a) / (n - 1 : ℝ))

/-- The mean of the values. -/
noncomputable def mean (ys : Fin (k + 1) → ℝ) : ℝ := (∑ i, ys i) / (k + 1)

/-- The standard deviation of the values, as `np.cov` defines it: one is taken from their number. -/
noncomputable def std (ys : Fin (k + 1) → ℝ) : ℝ := √((∑ i, (ys i - mean ys) ^ 2) / k)

/-- The argument `bw_method`. -/
inductive Bw where
  | scott
  | silverman
  | num (b : ℝ)

/-- The factor of `gaussian_kde` for one dimension and `k + 1` values. -/
noncomputable def factor (k : ℕ) : Bw → ℝ
  | .scott => ((k + 1 : ℕ) : ℝ) ^ (-(1 : ℝ) / 5)
  | .silverman => (((k + 1 : ℕ) : ℝ) * 3 / 4) ^ (-(1 : ℝ) / 5)
  | .num b => b

/-- `gaussian_kde(y)(x)`: gaussians with the standard deviation `s`. -/
noncomputable def kde (ys : Fin (k + 1) → ℝ) (s x : ℝ) : ℝ :=
  (∑ i, ProbabilityTheory.gaussianPDFReal (ys i) (s ^ 2).toNNReal x) / (k + 1)

/-- `get_pdf(bw_method, resolution)`, profile.py:870-912: the points of the profile.  `bw_method` is not given to `gaussian_kde`. -/
noncomputable def pdf (_bw : Bw) (n : ℕ) (ys : Fin (k + 1) → ℝ) : Res (List (ℝ × ℝ)) :=
  if n < 1 then .error .valueError
  else .ok ((linspace (lo ys) (hi ys) n).map fun x => (x, kde ys (factor k .scott * std ys) x))

open Classical in
/-- `ad_len`, profile.py:1041-1049.  The width along y is taken with the masked points, whose values are NaN; then the comparison is
false. -/
noncomputable def adLen (masked : Bool) (wx wy : ℝ) : ℝ := if masked then wx else if wx > wy then wy else wx

/-- `ad_bw_method`, profile.py:1044-1051. -/
noncomputable def adBw (masked : Bool) (wx wy : ℝ) : Bw → Bw
  | .num b => .num (b / adLen masked wx wy)
  | bw => bw

/-- The argument `output_format`. -/
inductive Format where
  | normalized | ponderated | percentage | concentration | other

/-- The factor of the values and the unit, profile.py:1063-1076. -/
noncomputable def Format.scale (k : ℕ) (uy : Sym) : Format → Res (ℝ × Sym)
  | .normalized => .ok (1, Sym.one)
  | .ponderated => .ok (k + 1, Sym.one)
  | .percentage => .ok (100, Sym.one)
  | .concentration => .ok (k + 1, Sym.one.div uy)
  | .other => .error .valueError

/-- The positions, profile.py:1057-1059. -/
noncomputable def window (ys : Fin (k + 1) → ℝ) (f : ℝ) : ℝ × ℝ := (lo ys - |lo ys * f / 2|, hi ys + |hi ys * f / 2|)

/-- `get_distribution(output_format, resolution, bw_method)`, profile.py:1003-1080: the points of the profile and the unit of its
values; `wx` is the width of the profile along x, `masked` tells whether it has masked points. -/
noncomputable def distribution (fmt : Format) (n : ℕ) (bw : Bw) (masked : Bool) (wx : ℝ) (uy : Sym) (ys : Fin (k + 1) → ℝ) :
    Res (List (ℝ × ℝ) × Sym) :=
  if n < 2 then .error .valueError
  else match fmt.scale k uy with
    | .error e => .error e
    | .ok (c, u) =>
      .ok ((linspace (window ys (factor k (adBw masked wx (hi ys - lo ys) bw))).1
          (window ys (factor k (adBw masked wx (hi ys - lo ys) bw))).2 n).map
        fun x => (x, kde ys (factor k (adBw masked wx (hi ys - lo ys) bw) * std ys) x * c), u)

end IMT.Density
