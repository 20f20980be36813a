import Verif.Turb.Model
import Mathlib.Analysis.SpecialFunctions.Pow.Real
import Mathlib.Data.Real.Sqrt

/-!
Model of `remove_weird_fields` of `TemporalFields` (`/repo/IMTreatment/core/temporalfields.py:1419-1475`), for `inplace=False`.

Magnitudes are real numbers, so that the choice of the fields is not computable.
-/

namespace IMT.Weird

open Temporal (TF pyIdx deleteAll)
open Turb (TVF)

/-- `np.sum(field.magnitude[~field.mask])`, temporalfields.py:1449, with `magnitude` of core/vectorfield.py:419-427.  A NaN component under no mask
is not modelled. -/
noncomputable def total (f : VF) : ℝ :=
  ((((List.range f.ax.length).flatMap fun i => (List.range f.ay.length).map fun j => (i, j)).filter fun q => !f.mask.get q.1 q.2).map fun q : Nat × Nat =>
    Real.sqrt ((((f.cx.get q.1 q.2).getD 0) ^ 2 + ((f.cy.get q.1 q.2).getD 0) ^ 2 : Rat) : ℝ)).sum

/-- `np.mean`, temporalfields.py:1450. -/
noncomputable def mean (l : List ℝ) : ℝ := l.sum / l.length

/-- `np.std`, temporalfields.py:1451. -/
noncomputable def std (l : List ℝ) : ℝ := Real.sqrt ((l.map fun v => (v - mean l) ^ 2).sum / l.length)

open Classical in
/-- `weird_inds`, temporalfields.py:1447-1454. -/
noncomputable def weird (c : ℝ) (fs : List VF) : List Nat :=
  (List.range fs.length).filter fun k =>
    decide ((fs.map total).getD k 0 < mean (fs.map total) - std (fs.map total) * c ∨
      (fs.map total).getD k 0 > mean (fs.map total) + std (fs.map total) * c)

/-- The test of the loop `while True`, temporalfields.py:1461-1462; a negative number is not in the list. -/
def busy (inds : List Nat) (w eps : Nat) : Bool := decide (w + eps ∈ inds) || (decide (eps ≤ w) && decide (w - eps ∈ inds))

/-- The loop `while True`, temporalfields.py:1459-1465: the first `eps` from 1 on without weird field at this distance; there is one below the
number of fields plus two. -/
def reach (n : Nat) (inds : List Nat) (w : Nat) : Nat := (((List.range (n + 1)).map (· + 1)).find? fun eps => !busy inds w eps).getD 0

/-- `tmp_tf.fields[weird_ind] = (tmp_tf.fields[weird_ind + eps] + tmp_tf.fields[weird_ind - eps])/2`, temporalfields.py:1466-1467; negative numbers
count from the end. -/
def replace (fs : List VF) (w eps : Nat) : Res (List VF) :=
  match fs[w + eps]?, (pyIdx fs.length ((w : Int) - eps)).bind fun k => fs[k]? with
  | some a, some b => match a.add b with
    | .error e => .error e
    | .ok h => .ok (fs.set w (h.mulNum (1 / 2)))
  | _, _ => .error .indexError

/-- The loop on the weird fields, temporalfields.py:1458-1467. -/
def replaceAll (inds : List Nat) : List VF → List Nat → Res (List VF)
  | fs, [] => .ok fs
  | fs, w :: ws => match replace fs w (reach fs.length inds w) with
    | .error e => .error e
    | .ok fs' => replaceAll inds fs' ws

/-- The argument `treatment`, temporalfields.py:1456-1472. -/
inductive Treatment where
  | interpolate | remove | other

/-- `remove_weird_fields(std_coef, treatment)` on vector fields, temporalfields.py:1419-1475. -/
noncomputable def removeWeird (t : TVF) (c : ℝ) (tr : Treatment) : Res TVF :=
  match tr with
  | .interpolate => match replaceAll (weird c t.fields) t.fields (weird c t.fields) with
    | .error e => .error e
    | .ok fs => .ok { t with fields := fs }
  | .remove => match deleteAll t.times ((weird c t.fields).map Int.ofNat), deleteAll t.fields ((weird c t.fields).map Int.ofNat) with
    | (ts, true), (fs, true) => .ok { t with times := ts, fields := fs }
    | _, _ => .error .indexError
  | .other => .error .valueError

/-- `remove_weird_fields` on scalar fields: they have no `magnitude`, temporalfields.py:1449 (a record without field is returned). -/
def removeWeirdS (t : TF) : Res TF := if t.fields = [] then .ok t else .error .attributeError

end IMT.Weird
