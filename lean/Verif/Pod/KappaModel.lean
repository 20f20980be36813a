import Verif.Prelude
import Mathlib.Analysis.SpecialFunctions.Pow.Real

/-!
Model of the critical value of kappa and of the normalisation of the coherences (`/repo/IMTreatment/pod/pod.py`), over the reals.
-/

namespace IMT.Kappa

open Real

/-- `get_critical_kappa(Nx)`, pod.py:609-614. -/
noncomputable def critical (nx : ℝ) : ℝ := exp (9.57253208 / nx ^ (0.92940704 : ℝ)) - 0.98559246

/-- `get_critical_kappa(Nx, Ny)`, pod.py:615-617. -/
noncomputable def critical2 (nx ny : ℝ) : ℝ := exp (22.885989 / nx ^ (1.552608 : ℝ)) + exp (22.885989 / ny ^ (1.552608 : ℝ)) - 1.996703

/-- `(var_spec - k_crit)/(1 - k_crit)`, pod.py:660. -/
noncomputable def normalized (k v : ℝ) : ℝ := (v - k) / (1 - k)

/-- The value of `get_temporal_coherence` for a mode of which the kappa is `v`, with `n` times, pod.py:648-660. -/
noncomputable def temporal (n : Nat) (v : ℝ) : ℝ := normalized (critical n) v

end IMT.Kappa
