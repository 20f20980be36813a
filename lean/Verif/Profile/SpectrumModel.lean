import Verif.Units
import Mathlib.Analysis.SpecialFunctions.Trigonometric.Basic
import Mathlib.Algebra.BigOperators.Group.Finset.Basic

/-!
Model of `Profile.get_spectrum` and `Profile.spectral_filtering` (`/repo/IMTreatment/core/profile.py`), over the reals, for the values
of a profile once filled.  `scipy.signal.periodogram` is written out (boxcar window, one-sided); `scipy.signal.welch` and the
Butterworth filter are parameters.
-/

namespace IMT.Spectrum

open Real

/-- `np.mean` of the `n` values. -/
noncomputable def mean (n : ℕ) (y : ℕ → ℝ) : ℝ := (∑ m ∈ Finset.range n, y m) / n

/-- `detrend(y, type='constant')` of scipy. -/
noncomputable def constant (n : ℕ) (y : ℕ → ℝ) (m : ℕ) : ℝ := y m - mean n y

/-- The slope of the least-squares line of `y` against the indices. -/
noncomputable def slope (n : ℕ) (y : ℕ → ℝ) : ℝ :=
  (∑ m ∈ Finset.range n, ((m : ℝ) - mean n fun k => (k : ℝ)) * (y m - mean n y)) /
    ∑ m ∈ Finset.range n, ((m : ℝ) - mean n fun k => (k : ℝ)) ^ 2

/-- `detrend(y, type='linear')` of scipy: what is left by the least-squares line. -/
noncomputable def linear (n : ℕ) (y : ℕ → ℝ) (m : ℕ) : ℝ := y m - mean n y - slope n y * ((m : ℝ) - mean n fun k => (k : ℝ))

/-- The squared modulus of the coefficient `k` of `np.fft.rfft(y)`. -/
noncomputable def power (n : ℕ) (y : ℕ → ℝ) (k : ℕ) : ℝ :=
  (∑ m ∈ Finset.range n, y m * cos (2 * π * k * m / n)) ^ 2 + (∑ m ∈ Finset.range n, y m * sin (2 * π * k * m / n)) ^ 2

/-- The coefficients with a conjugate out of the one-sided spectrum are doubled by `periodogram`. -/
noncomputable def twice (n k : ℕ) : ℝ := if k = 0 ∨ 2 * k = n then 1 else 2

/-- The argument `scaling`. -/
inductive Scaling where
  | base | spectrum | density | other

/-- The argument `detrend`. -/
inductive Trend where
  | none | constant | linear | other

/-- profile.py:759-767. -/
noncomputable def detrended (d : Trend) (n : ℕ) (y : ℕ → ℝ) : Res (ℕ → ℝ) :=
  match d with
  | .constant => .ok (constant n y)
  | .linear => .ok (linear n y)
  | .none => .ok y
  | .other => .error .valueError

/-- `periodogram(values, fs, scaling, detrend='linear')` of scipy, and the root of profile.py:772-775 for 'base'. -/
noncomputable def periodogram (s : Scaling) (n : ℕ) (fs : ℝ) (y : ℕ → ℝ) : Res (List (ℝ × ℝ)) :=
  match s with
  | .base => .ok ((List.range (n / 2 + 1)).map fun k : ℕ => (k * fs / n, √(twice n k * power n (linear n y) k / (n : ℝ) ^ 2)))
  | .spectrum => .ok ((List.range (n / 2 + 1)).map fun k : ℕ => (k * fs / n, twice n k * power n (linear n y) k / (n : ℝ) ^ 2))
  | .density => .ok ((List.range (n / 2 + 1)).map fun k : ℕ => (k * fs / n, twice n k * power n (linear n y) k / (fs * n)))
  | .other => .error .valueError

/-- The units of the result, profile.py:787-796. -/
def units (s : Scaling) (ux uy : Sym) : Sym × Sym :=
  (Sym.one.div ux, match s with
    | .base => uy
    | .spectrum => uy.mul uy
    | .density => (uy.mul uy).mul ux
    | .other => uy)

/-- `get_spectrum(wanted_x, welch_seglen, scaling, detrend=detrend)`, profile.py:714-802, of a profile of `n` points.  `welch` stands for
`scipy.signal.welch` and its scaling. -/
noncomputable def getSpectrum (welch : Scaling → ℕ → ℝ → (ℕ → ℝ) → Res (List (ℝ × ℝ))) (_wanted : Option (ℝ × ℝ)) (seglen : Option ℕ)
    (s : Scaling) (d : Trend) (n : ℕ) (x y : ℕ → ℝ) (ux uy : Sym) : Res (List (ℝ × ℝ) × Sym × Sym) :=
  match detrended d n (constant n y) with
  | .error e => .error e
  | .ok v =>
    if n < 2 then .error .indexError
    else match (match seglen with
        | none => periodogram s n (1 / (x 1 - x 0)) v
        | some l => if l ≥ n then periodogram s n (1 / (x 1 - x 0)) v else welch s l (1 / (x 1 - x 0)) v) with
      | .error e => .error e
      | .ok r => .ok (r, units s ux uy)

/-- `spectral_filtering(fmin, fmax, order)`, profile.py:1288-1322: `filt order low high` is the Butterworth filter for the normalised
frequencies (1 is half the sampling frequency). -/
noncomputable def filtering (filt : ℕ → ℝ → ℝ → (ℕ → ℝ) → Res (ℕ → ℝ)) (fmin fmax : Option ℝ) (order n : ℕ) (x y : ℕ → ℝ) : Res (ℕ → ℝ) :=
  match fmin, fmax with
  | some lo, some hi =>
    match filt order (lo / (0.5 * (n / (x (n - 1) - x 0)))) (hi / (0.5 * (n / (x (n - 1) - x 0)))) (constant n y) with
    | .error e => .error e
    | .ok r => .ok fun m => r m + mean n y
  | _, _ => .error .typeError

end IMT.Spectrum
