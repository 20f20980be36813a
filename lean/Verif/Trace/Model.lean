import Verif.Temporal.Model
import Verif.Axis.Model
import Verif.Line.Model

/-!
Model of the methods of `TemporalFields` (`/repo/IMTreatment/core/temporalfields.py`) that follow the values through time at one or
several points: `get_time_profile`, `inject_time_profile`, on scalar fields (`component='values'`).
-/

namespace IMT.Trace

open Temporal (TF)
open Profile (Prof)

/-- The argument `pt`: a position, a pair of numbers understood as indices (`ind=True`), or a `Points` object given by its
positions `xy` and its values `v`. -/
inductive Where where
  | at (x y : Rat)
  | ind (i j : Rat)
  | points (v : List Rat) (xy : List (Rat × Rat))

/-- The nearest grid point, core/temporalfields.py:480-481, 489-490. -/
def cellOf (t : TF) (x y : Rat) : Res (Nat × Nat) :=
  match Axis.nearest t.ax x, Axis.nearest t.ay y with
  | .ok i, .ok j => .ok (i, j)
  | .error e, _ => .error e
  | _, .error e => .error e

/-- Numbers understood as indices, core/temporalfields.py:475-479: refused unless they are integers. -/
def cellInd (i j : Rat) : Res (Int × Int) :=
  if i.den ≠ 1 ∨ j.den ≠ 1 then .error .valueError else .ok (i.num, j.num)

/-- The test of core/temporalfields.py:482-484. -/
def inGrid (t : TF) (c : Int × Int) : Res (Nat × Nat) :=
  if 0 ≤ c.1 ∧ c.1 < t.ax.length ∧ 0 ≤ c.2 ∧ c.2 < t.ay.length then .ok (c.1.toNat, c.2.toNat) else .error .valueError

/-- One cell given as a position or as indices, core/temporalfields.py:474-484 (and 538-549). -/
def oneCell (t : TF) : Where → Res (Nat × Nat)
  | .at x y => match cellOf t x y with
    | .error e => .error e
    | .ok c => inGrid t (c.1, c.2)
  | .ind i j => match cellInd i j with
    | .error e => .error e
    | .ok c => inGrid t c
  | .points _ _ => .error .nameError

/-- The array `pt` of cells and the array `mask_times`, core/temporalfields.py:474-493. -/
def cells (t : TF) (w : Where) : Res (List (Nat × Nat) × List Bool) :=
  match w with
  | .points v xy => match Line.collect (xy.map fun p => cellOf t p.1 p.2) with
    | .error e => .error e
    | .ok l => .ok (l, t.times.map fun a => decide (a ∉ v))
  | w => match oneCell t w with
    | .error e => .error e
    | .ok c => .ok (List.replicate t.times.length c, List.replicate t.times.length false)

/-- A time outside `wanted_times`, core/temporalfields.py:497-500. -/
def late (w : Option (Rat × Rat)) (a : Rat) : Bool :=
  match w with
  | none => false
  | some (lo, hi) => decide (a < lo) || decide (a > hi)

/-- The interval is refused, core/temporalfields.py:495-496. -/
def badTimes (w : Option (Rat × Rat)) : Bool :=
  match w with
  | none => false
  | some (lo, hi) => decide (hi ≤ lo)

/-- `w_times_ind`, core/temporalfields.py:497-502. -/
def keptInds (t : TF) (ms : List Bool) (w : Option (Rat × Rat)) : List Nat :=
  (List.range t.times.length).filter fun k => !(late w (t.times.getD k 0) || ms.getD k false)

/-- `pt[i]`, `self.fields[time_ind]` and the reading of the value and of the mask, core/temporalfields.py:507-511: `k` is the rank of
the kept time, `n` its index. -/
def sample (t : TF) (cs : List (Nat × Nat)) (k n : Nat) : Res (Option Rat × Bool) :=
  match cs[k]?, t.fields[n]? with
  | some c, some f => .ok (f.cell c.1 c.2, f.mask.get c.1 c.2)
  | _, _ => .error .indexError

/-- `get_time_profile('values', pt, wanted_times, ind)`, core/temporalfields.py:450-518.  The unit of the values is that of the first
field (`None`, refused by `Profile`, when there is none). -/
def timeProfile (srt : List Rat → List Nat) (t : TF) (p : Where) (w : Option (Rat × Rat)) : Res Prof :=
  match cells t p with
  | .error e => .error e
  | .ok (cs, ms) =>
    if badTimes w then .error .valueError
    else match Line.collect ((keptInds t ms w).zipIdx.map fun e => sample t cs e.2 e.1) with
      | .error e => .error e
      | .ok l => match t.fields with
        | [] => .error .typeError
        | f :: _ => Profile.new srt ((keptInds t ms w).map fun n => t.times.getD n 0) (l.map Prod.fst) (.arr (l.map Prod.snd)) t.ut f.uv

/-- `field.values[i, j] = v`: the array returned by the getter is the internal one; the mask is not touched,
core/temporalfields.py:564. -/
def put (f : SF) (i j : Nat) (v : Option Rat) : SF :=
  { f with val := ⟨f.val.nx, f.val.ny, fun a b => if a = i ∧ b = j then v else f.cell a b⟩ }

/-- The loop of core/temporalfields.py:562-564. -/
def putAll (i j : Nat) : List SF → List (Option Rat) → List SF
  | f :: fs, v :: vs => put f i j v :: putAll i j fs vs
  | fs, _ => fs

/-- `inject_time_profile('values', pt, prof, ind)`, core/temporalfields.py:520-564.  With a `Points` object the names `ind_x` and `ind_y`
are never bound. -/
def inject (t : TF) (p : Where) (q : Prof) : Res TF :=
  match p with
  | .points _ _ =>
    match cells t p with
    | .error e => .error e
    | .ok _ => if q.x.length ≠ t.fields.length then .error .valueError
      else if q.x.length = 0 then .ok t else .error .nameError
  | p => match oneCell t p with
    | .error e => .error e
    | .ok c => if q.x.length ≠ t.fields.length then .error .valueError
      else .ok { t with fields := putAll c.1 c.2 t.fields (Profile.getY q) }

end IMT.Trace
