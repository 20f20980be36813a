import Verif.Profile.Model
import Verif.Scalar.ValueModel
import Verif.Line.Model

/-!
Model of the methods of `Points` that read a set of points as a trajectory (`/repo/IMTreatment/core/points.py`):
`get_velocity`, `get_evolution_on_sf`, `get_evolution_on_tsf`, `export_to_profile`, `decompose`.

Positions and values are finite.  `np.argsort` is a parameter `srt` as in the model of `Profile`.  The numeric part of a
quotient of units is 1 (the size of the units is in `Sym`).
-/

namespace IMT.Path

open IMT.Profile (Prof F take new)

/-- A `Points` object, points.py:37-66. -/
structure T where
  xy : List (Rat × Rat)
  v : List Rat
  ux : Sym
  uy : Sym
  uv : Sym
  deriving DecidableEq

/-- `l[::k]`, for a positive `k`. -/
def every {α : Type} (k : Nat) (l : List α) : List α :=
  (List.range ((l.length + k - 1) / k)).filterMap fun i => l[i * k]?

/-- points.py:677-680: the slices are taken when the increment is not 1. -/
def thin {α : Type} (k : Nat) (l : List α) : List α := if k ≠ 1 then every k l else l

/-- `l[1::] - l[:-1]`, points.py:681-683. -/
def diffs : List Rat → List Rat
  | a :: b :: l => (b - a) :: diffs (b :: l)
  | _ => []

/-- A quotient of floats; a zero divisor gives an infinity or NaN, not distinguished here. -/
def quot (a b : Rat) : F := if b = 0 then none else some (a / b)

/-- `Vx` and `Vy`, points.py:691-694: one quotient for each difference of positions. -/
def rates (l ts : List Rat) : List F := List.zipWith quot (diffs l) (diffs ts)

/-- `l[:-1] + dl/2.`, points.py:697-701. -/
def mids (l : List Rat) : List Rat := List.zipWith (fun a d => a + d / 2) l (diffs l)

/-- The argument `xaxis` of `get_velocity`. -/
inductive Xaxis where
  | time | x | y
  deriving DecidableEq

/-- The abscissae, points.py:696-701. -/
def abscissae (a : Xaxis) (xs ys ts : List Rat) : List Rat :=
  match a with
  | .time => mids ts
  | .x => mids xs
  | .y => mids ys

/-- The two profiles, points.py:704-713: the unit of the abscissae is the one of the values of the points, whatever
`xaxis`. -/
def profiles (srt : List Rat → List Nat) (t : T) (a : Xaxis) (xs ys ts : List Rat) : Res (Prof × Prof) :=
  match new srt (abscissae a xs ys ts) (rates xs ts) (.flag false) t.uv (t.ux.div t.uv),
    new srt (abscissae a xs ys ts) (rates ys ts) (.flag false) t.uv (t.uy.div t.uv) with
  | .ok p, .ok q => .ok (p, q)
  | .error e, _ => .error e
  | _, .error e => .error e

/-- `get_velocity(incr, smooth=0, xaxis)`, points.py:641-714, for an increment that is not negative: a slice of step 0
raises ValueError, and an index of the order beyond the positions IndexError.  (`smooth` is not modelled.) -/
def getVelocity (srt : List Rat → List Nat) (t : T) (incr : Nat) (a : Xaxis) : Res (Prof × Prof) :=
  if t.v = [] then .error .exception
  else if t.xy.length < t.v.length then .error .indexError
  else if incr = 0 then .error .valueError
  else profiles srt t a ((thin incr (take t.xy (srt t.v))).map Prod.fst)
    ((thin incr (take t.xy (srt t.v))).map Prod.snd) (thin incr (take t.v (srt t.v)))

/-- The arguments `axe_x`, `axe_y`. -/
inductive Ax where
  | x | y | v
  deriving DecidableEq

/-- The numbers put on an axis, points.py:748-757, 804-813, 1602-1617. -/
def column (t : T) : Ax → List Rat
  | .x => t.xy.map Prod.fst
  | .y => t.xy.map Prod.snd
  | .v => t.v

/-- Their unit, same lines. -/
def unitOf (t : T) : Ax → Sym
  | .x => t.ux
  | .y => t.uy
  | .v => t.uv

/-- `Profile()`: no point, no unit. -/
def emptyProf : Prof := ⟨[], [], [], Sym.one, Sym.one⟩

/-- The default of `axe_x`, points.py:740-744. -/
def defaultAx (t : T) : Ax := if t.v.length = t.xy.length then .v else .x

/-- The end of the two methods, points.py:763-769, 820-826. -/
def evolution (srt : List Rat → List Nat) (t : T) (a : Ax) (unit : Sym) (ys : Res (List F)) : Res Prof :=
  match ys with
  | .error e => .error e
  | .ok ys => new srt (column t a) ys (.arr (ys.map Option.isNone)) (unitOf t a) unit

/-- `get_evolution_on_sf(SF, axe_x)`, points.py:716-769; `axe_x` is `none` for `None`.  `main` is the choice of diagonal
in the interpolation of `SF.get_value`. -/
def onSF (srt : List Rat → List Nat) (main : Bool) (t : T) (f : SF) (a : Option Ax) : Res Prof :=
  if t.xy = [] then .ok emptyProf
  else if a.getD (defaultAx t) = .v ∧ t.v = [] then .error .valueError
  else evolution srt t (a.getD (defaultAx t)) f.uv (Line.collect (t.xy.map fun p => f.getValue main p.1 p.2))

/-- The scalar fields of a record, with their times: `TSF.fields`, `TSF.times`. -/
abbrev Record := List (Rat × SF)

/-- `TSF.fields[TSF.times == time][0]`, points.py:818. -/
def fieldAt (r : Record) (time : Rat) : Res SF :=
  match (r.filter fun e => decide (e.1 = time)).head? with
  | some e => .ok e.2
  | none => .error .indexError

/-- One turn of the loop, points.py:816-819; `time` is `none` when there is no value at that place. -/
def readAt (main : Bool) (r : Record) (p : Rat × Rat) (time : Option Rat) : Res F :=
  match time with
  | none => .error .indexError
  | some time =>
    match fieldAt r time with
    | .ok f => f.getValue main p.1 p.2
    | .error e => .error e

/-- `get_evolution_on_tsf(TSF, axe_x)`, points.py:771-826.  The unit of the values is the one of the record. -/
def onTSF (srt : List Rat → List Nat) (main : Bool) (t : T) (r : Record) (unit : Sym) (a : Option Ax) : Res Prof :=
  if t.xy = [] then .ok emptyProf
  else if a.getD .v = .v ∧ t.v = [] then .error .valueError
  else evolution srt t (a.getD .v) unit
    (Line.collect ((List.range t.xy.length).map fun i => readAt main r (t.xy.getD i (0, 0)) t.v[i]?))

/-- `export_to_profile(axe_x, axe_y)`, points.py:1586-1622. -/
def exportProfile (srt : List Rat → List Nat) (t : T) (a b : Ax) : Res Prof :=
  new srt (column t a) ((column t b).map some) (.flag false) (unitOf t a) (unitOf t b)

/-- `decompose()`, points.py:1193-1205: a set of one point is returned as it is. -/
def decompose (t : T) : Res (List T) :=
  if t.xy.length = 1 then .ok [t]
  else if t.xy.length ≠ t.v.length then .error .exception
  else .ok (List.zipWith (fun p w => ⟨[p], [w], t.ux, t.uy, t.uv⟩) t.xy t.v)

/-! ### Specification -/

/-- The instants with the positions. -/
def rows (t : T) : List (Rat × (Rat × Rat)) := t.v.zip t.xy

/-- Two rows with no instant between them. -/
def Next (t : T) (r s : Rat × (Rat × Rat)) : Prop :=
  r ∈ rows t ∧ s ∈ rows t ∧ r.1 < s.1 ∧ ∀ q ∈ rows t, ¬ (r.1 < q.1 ∧ q.1 < s.1)

/-- The points are at pairwise distinct instants. -/
def Timed (t : T) : Prop := t.v.length = t.xy.length ∧ t.v.Nodup ∧ t.v ≠ []

end IMT.Path
