import Verif.Fill.Model
import Verif.Profile.Model

/-!
Model of the filling of records of fields: `TemporalVectorFields.fill` (`/repo/IMTreatment/core/temporalvectorfields.py`, "tvf.py") and
`TemporalScalarFields.fill` (`/repo/IMTreatment/core/temporalscalarfields.py`, "tsf.py").  `crop=True` and the temporal cubic interpolation are not
modelled.
-/

namespace IMT.Fill

open Turb (TVF)
open Temporal (TF mapRes)
open Profile (lin)

/-- `sum_masks[i, j]`, tvf.py:297. -/
def hiddenM (t : TVF) (i j : Nat) : Nat := t.fields.countP fun f => f.mask.get i j

/-- `super_mask[i, j]`, tvf.py:298-299. -/
def super (t : TVF) (i j : Nat) : Bool := decide (0 < hiddenM t i j) && decide (hiddenM t i j + 2 < t.fields.length)

/-- The loop of tvf.py:301 is entered. -/
def anySuper (t : TVF) : Bool := (List.range t.ax.length).any fun i => (List.range t.ay.length).any fun j => super t i j

/-- The times and vectors of the two profiles that are not masked, tvf.py:303-306, 318-325. -/
def knots (t : TVF) (i j : Nat) : List (Rat × Rat × Rat) := (t.times.zip t.fields).filterMap fun p => (p.2.cell i j).map fun w => (p.1, w)

/-- The argument `kind` of the temporal filling. -/
inductive TKind where
  | value (u v : Rat)
  | nearest
  | linear

/-- `interp_x(time)`, tvf.py:311-325, `none` for ValueError. -/
def interpX (k : TKind) (t : TVF) (i j : Nat) (x : Rat) : Option Rat :=
  match k with
  | .value u _ => some u
  | .nearest => none
  | .linear => lin ((knots t i j).map fun p => (p.1, p.2.1)) x

/-- `interp_y(time)`, tvf.py:311-325, `none` for ValueError. -/
def interpY (k : TKind) (t : TVF) (i j : Nat) (x : Rat) : Option Rat :=
  match k with
  | .value _ v => some v
  | .nearest => none
  | .linear => lin ((knots t i j).map fun p => (p.1, p.2.2)) x

/-- Field of the time `x` after the loops of tvf.py:338-356. -/
def tfilled (k : TKind) (t : TVF) (x : Rat) (f : VF) : VF :=
  { f with
    cx := ⟨f.cx.nx, f.cx.ny, fun i j => if super t i j && f.mask.get i j then (interpX k t i j x).or (f.cx.get i j) else f.cx.get i j⟩
    cy := ⟨f.cy.nx, f.cy.ny, fun i j => if super t i j && f.mask.get i j then (interpY k t i j x).or (f.cy.get i j) else f.cy.get i j⟩
    mask := ⟨f.mask.nx, f.mask.ny, fun i j =>
      if super t i j && f.mask.get i j && ((interpX k t i j x).isSome || (interpY k t i j x).isSome) then false else f.mask.get i j⟩ }

/-- `fill(tof='temporal', kind, value, inplace)` of a record of vector fields, tvf.py:249-385: the record afterwards and, for `inplace=False`, the
result.  `self.fields.copy()` copies the list and not the fields, so that both have the fields that were written; without any point to fill the
variable `fields` is not bound. -/
def tfill (k : TKind) (t : TVF) : Res (TVF × TVF) :=
  if t.fields.length < 3 then .error .valueError
  else if anySuper t = false then .error .nameError
  else match k with
    | .nearest => .error .exception
    | k => .ok ({ t with fields := List.zipWith (tfilled k t) t.times t.fields }, { t with fields := List.zipWith (tfilled k t) t.times t.fields })

/-- `super_mask[i, j]` for scalar fields, tsf.py:364-368. -/
def superS (t : TF) (i j : Nat) : Bool :=
  decide (0 < t.fields.countP fun f => f.mask.get i j) && decide ((t.fields.countP fun f => f.mask.get i j) + 2 < t.fields.length)

/-- `fill(tof='temporal')` of a record of scalar fields, tsf.py:321-419: `get_time_profile('values', i, j, ind=True)` takes `j` for the wanted times,
whose last element is asked (IndexError of a numpy integer, core/temporalfields.py:494-495); without any point to fill `fields` is not bound. -/
def tfillS (t : TF) : Res TF :=
  if t.fields.length < 3 then .error .valueError
  else if ((List.range t.ax.length).any fun i => (List.range t.ay.length).any fun j => superS t i j) then .error .indexError
  else .error .nameError

/-- `fill(tof='spatial', kind)` of a record of scalar fields, tsf.py:402-419. -/
noncomputable def sfillS (s : Scipy) (k : Kind) (t : TF) : Res TF :=
  match mapRes (fill s k true) t.fields with
  | .error e => .error e
  | .ok l => .ok { t with fields := l }

/-- `fill(tof='spatial', kind)` of a record of vector fields, tvf.py:369-385. -/
noncomputable def sfillV (s : Scipy) (kx ky : Kind) (t : TVF) : Res TVF :=
  match mapRes (vfill s kx ky true) t.fields with
  | .error e => .error e
  | .ok l => .ok { t with fields := l }

end IMT.Fill
