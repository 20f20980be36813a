import Verif.Spatial.Model

/-!
Model of `SpatialFields.get_profile`, `SpatialFields.get_values_on_grid` and of the division of a set of fields
(`/repo/IMTreatment/core/spatialfields.py`).
-/

namespace IMT.Spatial

/-- The kind of the fields of the set. -/
inductive Kind where
  | scalar | vector
  deriving DecidableEq

/-- An argument `direction`. -/
inductive DirArg where
  | num (n : Int)
  | str (s : String)
  deriving DecidableEq

/-- The choice of the component, core/spatialfields.py:284-300: whether `comp` exists afterwards.  A component is `some true` when
the set has it. -/
def chooseComp : Kind → Option Bool → Res Bool
  | .vector, none => .ok false
  | .vector, some true => .ok true
  | .vector, some false => .error .valueError
  | .scalar, none => .ok true
  | .scalar, some true => .ok true
  | .scalar, some false => .error .valueError

/-- The ends of the axes of a field: `(x first, x last, y first, y last)`. -/
structure Box where
  x0 : Rat
  x1 : Rat
  y0 : Rat
  y1 : Rat

/-- The fields of interest, core/spatialfields.py:302-313; the position is a number or the two ends of an interval. -/
def ofInterest (d : DirArg) (pos : List Rat) (bs : List Box) : List Box :=
  match d with
  | .num 1 => bs.filter fun b => pos.any (fun p => decide (p < b.x1)) && pos.any fun p => decide (p > b.x0)
  | .num 2 => bs.filter fun b => pos.any (fun p => decide (p < b.y1)) && pos.any fun p => decide (p > b.y0)
  | _ => []

/-- The beginning of `ScalarField.get_profile`, core/scalarfield.py:821-822: only 'x' and 'y' are accepted.  What follows is left
to `profile`. -/
def fieldProfile {P : Type} (profile : String → Box → Res P) (d : DirArg) (b : Box) : Res P :=
  match d with
  | .str s => if s = "x" ∨ s = "y" then profile s b else .error .typeError
  | .num _ => .error .typeError

/-- The profiles of the fields of interest, core/spatialfields.py:315-331. -/
def allProfiles {P : Type} (profile : String → Box → Res P) (d : DirArg) : List Box → Res (List P)
  | [] => .ok []
  | b :: l =>
    match fieldProfile profile d b with
    | .error e => .error e
    | .ok p => match allProfiles profile d l with
      | .error e => .error e
      | .ok r => .ok (p :: r)

/-- `get_profile(direction, position, component)`, core/spatialfields.py:265-337: `None`, or the profiles that are put together. -/
def profileOf {P : Type} (profile : String → Box → Res P) (k : Kind) (bs : List Box) (d : DirArg) (pos : List Rat)
    (component : Option Bool) : Res (Option (List P)) :=
  match chooseComp k component with
  | .error e => .error e
  | .ok bound =>
    match ofInterest d pos bs with
    | [] => .ok none
    | l => if bound then
        match allProfiles profile d l with
        | .error e => .error e
        | .ok r => .ok (some r)
      else .error .nameError

/-! ### Values on a grid -/

/-- A grid being filled. -/
abbrev Cells (α : Type) := Nat → Nat → α

/-- `a[i, j] = v`. -/
def write {α : Type} (g : Cells α) (i j : Nat) (v : α) : Cells α := fun i' j' => if i' = i ∧ j' = j then v else g i' j'

/-- The arrays of core/spatialfields.py:244-246. -/
structure Filled where
  vx : Cells Rat
  vy : Cells Rat
  mask : Cells Bool

/-- The body of the loops, core/spatialfields.py:249-254; `value` is `get_value(x, y, error=False)`. -/
def fillCell (value : Rat → Rat → Option (Rat × Rat)) (s : Filled) (i : Nat) (x : Rat) (j : Nat) (y : Rat) : Filled :=
  match value x y with
  | none => { s with mask := write s.mask i j true }
  | some v => { s with vx := write s.vx i j v.1, vy := write s.vy i j v.2 }

/-- The inner loop, core/spatialfields.py:248. -/
def fillRow (value : Rat → Rat → Option (Rat × Rat)) (i : Nat) (x : Rat) (s : Filled) : List (Nat × Rat) → Filled
  | [] => s
  | q :: l => fillRow value i x (fillCell value s i x q.1 q.2) l

/-- The outer loop, core/spatialfields.py:247. -/
def fillAll (value : Rat → Rat → Option (Rat × Rat)) (ys : List (Nat × Rat)) (s : Filled) : List (Nat × Rat) → Filled
  | [] => s
  | q :: l => fillAll value ys (fillRow value q.1 q.2 s ys) l

/-- `enumerate(axe)`. -/
def enum (l : List Rat) : List (Nat × Rat) := (List.range l.length).zip l

/-- `get_values_on_grid(axe_x, axe_y)`, core/spatialfields.py:212-263: for scalar fields the class itself is used in place of a new
field (237), so that an argument is missing. -/
def onGrid (k : Kind) (value : Rat → Rat → Option (Rat × Rat)) (xs ys : List Rat) : Res Filled :=
  match k with
  | .scalar => .error .typeError
  | .vector => .ok (fillAll value (enum ys) ⟨fun _ _ => 0, fun _ _ => 0, fun _ _ => false⟩ (enum xs))

/-! ### Division -/

/-- `self/number`, core/spatialfields.py:64-72: `self.__class__.__init__()` lacks its argument. -/
def divAll (_s : SP) (_q : Rat) : Res SP := .error .typeError

end IMT.Spatial
