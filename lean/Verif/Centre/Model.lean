import Verif.Zone.Model
import Verif.Scalar.Model

/-!
Model of `ScalarField.get_zones_centers` (`/repo/IMTreatment/core/scalarfield.py`, "sf.py").  `scipy.ndimage.label` and the choice of an extremum of
`scipy.ndimage.extrema` are parameters, specified in Props.lean.  Rounding is not modelled.
-/

namespace IMT.Centre

open Zone (Cell cells)

/-- `msr.label`: the labels and their number, sf.py:693. -/
abbrev Lab := (nx ny : Nat) → (Cell nx ny → Bool) → (Cell nx ny → Nat) × Nat

/-- The argument `kind`; `other` is any other string. -/
inductive Kind where
  | extremum
  | center
  | ponderated
  | other
  deriving DecidableEq

/-- The two lines of sf.py:646-647, which change the object given by the caller. -/
def widen (b : Rat × Rat) : Rat × Rat := (b.1 - 1 / 100000 * |b.1|, b.2 + 1 / 100000 * |b.2|)

/-- Values of the field, one by cell, NaN when masked. -/
def grid (f : SF) (q : Cell f.ax.length f.ay.length) : Option Rat := f.cell q.1 q.2

/-- The visible values. -/
def visible (f : SF) : List Rat := (cells f.ax.length f.ay.length).filterMap (grid f)

/-- `bornes` in values of the field, sf.py:664-676, from its extrema. -/
def absolute (b : Rat × Rat) (mini maxi : Rat) : Rat × Rat :=
  if |b.1| > |b.2| then (|maxi - mini| * b.1 + maxi, |maxi - mini| * b.2 + maxi) else (|maxi - mini| * b.1 + mini, |maxi - mini| * b.2 + mini)

/-- `zones`, sf.py:682, 690-692. -/
def inside (f : SF) (b : Rat × Rat) (q : Cell f.ax.length f.ay.length) : Bool :=
  match grid f q with
  | some v => decide (b.1 ≤ v) && decide (v ≤ b.2)
  | none => false

/-- `msr.center_of_mass` along one direction: NaN for a null mass. -/
def mass {nx ny : Nat} (z : List (Cell nx ny)) (μ : Cell nx ny → Rat) (ind : Cell nx ny → Nat) : Option Rat :=
  if (z.map μ).sum = 0 then none else some ((z.map fun q => μ q * (ind q : Rat)).sum / (z.map μ).sum)

/-- Coordinate of an index that may not be a whole number, sf.py:718-729. -/
def position (l : List Rat) (q : Rat) : Rat :=
  if q = (q.floor : Rat) then l.getD q.floor.toNat 0 else l.getD q.floor.toNat 0 + (l.getD 1 0 - l.getD 0 0) * (q - (q.floor : Rat))

/-- Choice of the cell of a greatest value. -/
abbrev Pick := (nx ny : Nat) → List (Cell nx ny) → (Cell nx ny → Rat) → Option (Cell nx ny)

/-- The indices of the centre of one zone, sf.py:695-714; `pick` on the opposite values gives a minimum. -/
def centreOf (pick : Pick) (k : Kind) (f : SF) (b : Rat × Rat) (z : List (Cell f.ax.length f.ay.length)) : Res (Rat × Rat) :=
  match k with
  | .extremum =>
    match (if (if |b.1| < |b.2| then b.2 else b.1) < 0 then pick _ _ z fun q => -(grid f q).getD 0 else pick _ _ z fun q => (grid f q).getD 0) with
    | some q => .ok (q.1.1, q.2.1)
    | none => .error .indexError
  | .center =>
    match mass z (fun _ => 1) fun q => q.1.1, mass z (fun _ => 1) fun q => q.2.1 with
    | some x, some y => .ok (x, y)
    | _, _ => .error .valueError
  | .ponderated =>
    match mass z (fun q => |(grid f q).getD 0|) fun q => q.1.1, mass z (fun q => |(grid f q).getD 0|) fun q => q.2.1 with
    | some x, some y => .ok (x, y)
    | _, _ => .error .valueError
  | .other => .error .valueError

/-- For each item in turn. -/
def each {α β : Type} (g : α → Res β) : List α → Res (List β)
  | [] => .ok []
  | a :: l => match g a with
    | .error e => .error e
    | .ok b => match each g l with
      | .error e => .error e
      | .ok k => .ok (b :: k)

/-- The centres once the bounds are known, sf.py:677-738. -/
def found (L : Lab) (pick : Pick) (k : Kind) (f : SF) (b : Rat × Rat) : Res (Option (List (Rat × Rat))) :=
  match (cells f.ax.length f.ay.length).filter (inside f b) with
  | [q] => .ok (some [(f.ax.getD q.1 0, f.ay.getD q.2 0)])
  | _ =>
    if k = .other then .error .valueError
    else
      match each (fun n => centreOf pick k f b ((cells f.ax.length f.ay.length).filter fun q => (L _ _ (inside f b)).1 q == n + 1))
        (List.range (L _ _ (inside f b)).2) with
      | .error e => .error e
      | .ok [] => .ok none
      | .ok l => .ok (some (l.map fun p => (position f.ax p.1, position f.ay p.2)))

/-- `get_zones_centers(bornes, rel, kind)`, sf.py:617-738; the units are those of the field. -/
def zonesCenters (L : Lab) (pick : Pick) (b : Rat × Rat) (rel : Bool) (k : Kind) (f : SF) : Res (Option (List (Rat × Rat))) :=
  if (widen b).1 = (widen b).2 then .ok none
  else if ¬ (widen b).1 < (widen b).2 then .error .valueError
  else if rel && decide ((widen b).1 * (widen b).2 < 0) then .error .valueError
  else match (visible f).min?, (visible f).max? with
    | some mini, some maxi =>
      if rel then found L pick k f (absolute (widen b) mini maxi)
      else if maxi < (widen b).1 ∨ mini > (widen b).2 then .ok none
      else found L pick k f (widen b)
    | _, _ => .error .valueError

/-- What the object given as `bornes` contains after the call: a list is widened; an array of floating numbers also becomes absolute (it is not copied,
sf.py:651-652, 669-674). -/
def bornesAfter (isArray : Bool) (b : Rat × Rat) (rel : Bool) (f : SF) : Rat × Rat :=
  if isArray = false ∨ rel = false ∨ ¬ (widen b).1 < (widen b).2 ∨ (widen b).1 * (widen b).2 < 0 then widen b
  else match (visible f).min?, (visible f).max? with
    | some mini, some maxi => absolute (widen b) mini maxi
    | _, _ => widen b

/-- The default of `bornes` (sf.py:617) before each call of a process: one list for all calls, changed by those that do not give `bornes`. -/
def default : Nat → Rat × Rat
  | 0 => (3 / 4, 1)
  | n + 1 => widen (default n)

end IMT.Centre
