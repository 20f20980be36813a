import Verif.Turb.Model
import Verif.Reshape.Model
import Mathlib.Analysis.SpecialFunctions.Pow.Real

/-!
Model of `get_recurrence_map` of `TemporalFields` (`/repo/IMTreatment/core/temporalfields.py:876-952`), with `normalized=False`.

Powers are real, so that the map is not computable.  The progress counter is not modelled.  The values of the map are real numbers, and the map is
not an `SF` but has what `import_from_arrays` stores for increasing times.
-/

namespace IMT.Recur

open Temporal (TF)
open Turb (TVF)
open Reshape (allSome)

/-- The map: its two axes are the times. -/
structure Map where
  axis : List Rat
  unit : Sym
  uv : Sym
  get : Nat → Nat → Option ℝ

/-- `f.values`, line after line, temporalfields.py:931. -/
def flatS (f : SF) : List (Option Rat) := f.indexPairs.map fun q => f.cell q.1 q.2

/-- `f.comp_x` and `f.comp_y`, the raw arrays (core/vectorfield.py:293-295, 322-324), one after the other, temporalfields.py:927-929. -/
def flatV (f : VF) : List (Option Rat) :=
  ((List.range f.ax.length).flatMap fun i => (List.range f.ay.length).map fun j => f.cx.get i j) ++
  ((List.range f.ax.length).flatMap fun i => (List.range f.ay.length).map fun j => f.cy.get i j)

/-- Difference of numbers that may be NaN. -/
def subF : Option Rat → Option Rat → Option Rat
  | some a, some b => some (a - b)
  | _, _ => none

open Classical in
/-- `values**norm`, or `np.abs(values)**norm` when the norm is not an even number, temporalfields.py:902-905, 933-936. -/
noncomputable def power (p v : ℝ) : ℝ := if ∃ k : ℤ, p = 2 * k then v ^ ⌊p⌋ else |v| ^ p

/-- `np.sum(...)**inv_norm/nmb_val`, temporalfields.py:926-936; the sum of values with a NaN is NaN. -/
noncomputable def dist (p : ℝ) (a b : List (Option Rat)) : Option ℝ :=
  (allSome (List.zipWith subF a b)).map fun l => ((l.map fun v : Rat => power p (v : ℝ)).sum) ^ (1 / p) / a.length

/-- What the double loop leaves in `rec_map[i, j]`, temporalfields.py:915-938: each pair is treated once, the smaller index first. -/
noncomputable def entry (p : ℝ) (band : Option Nat) (rows : List (List (Option Rat))) (i j : Nat) : Option ℝ :=
  if i = j then some 0
  else if (match band with | none => false | some w => decide (w < max i j - min i j)) then none
  else dist p (rows.getD (min i j) []) (rows.getD (max i j) [])

/-- The end of the method, temporalfields.py:944-951: `import_from_arrays` needs two points on an axis. -/
noncomputable def store (times : List Rat) (ut uv : Sym) (p : ℝ) (band : Option Nat) (rows : List (List (Option Rat))) : Res Map :=
  if times.length < 2 then .error .indexError
  else .ok ⟨times, ut, uv, entry p band rows⟩

open Classical in
/-- `get_recurrence_map(norm, bandwidth)` of scalar fields, temporalfields.py:876-952; `1./norm` (901) raises for a zero norm. -/
noncomputable def mapS (t : TF) (p : ℝ) (band : Option Nat) : Res Map :=
  if p = 0 then .error .zeroDivision
  else store t.times t.ut ((t.fields.head?.map SF.uv).getD Sym.one) p band (t.fields.map flatS)

open Classical in
/-- `get_recurrence_map(norm, bandwidth)` of vector fields, temporalfields.py:876-952. -/
noncomputable def mapV (t : TVF) (p : ℝ) (band : Option Nat) : Res Map :=
  if p = 0 then .error .zeroDivision
  else store t.times t.ut ((t.fields.head?.map VF.uv).getD Sym.one) p band (t.fields.map flatV)

end IMT.Recur
