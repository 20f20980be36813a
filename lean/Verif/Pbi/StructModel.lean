import Verif.Pbi.Model

/-!
Model of the number of structures of a field, `VF._check_struct_number` (`/repo/IMTreatment/vortex_detection/vortex_detection.py`).
-/

namespace IMT.Pbi

variable {K : Type} [Field K] [LinearOrder K]

/-- `get_pbi('x')[i]`, vd.py:338-354 and 357: the first element is left at zero.  (The values are whole, C57: rounding them changes nothing.) -/
def pbiX (T : K) (θ : Nat → Nat → K) (n i : Nat) : K := if i = 0 then 0 else pbi T θ n i

/-- `poi = pbi[1::] - pbi[0:-1]` and `len(poi[poi != 0])`, vd.py:425-426 and 431-435, for an array of `m` elements. -/
def jumps (f : Nat → K) (m : Nat) : Nat := ((List.range (m - 1)).filter fun i => decide (f (i + 1) - f i ≠ 0)).length

/-- `_check_struct_number()`, vd.py:417-436, for a field with `n` rows and `m` columns. -/
def structNumber (T : K) (θ : Nat → Nat → K) (n m : Nat) : Nat × Nat :=
  if n = 2 ∧ m = 2 then (jumps (pbiX T θ n) m, jumps (pbiX T θ n) m)
  else (jumps (pbiX T θ n) m, jumps (pbiY T θ n m) n)

end IMT.Pbi
