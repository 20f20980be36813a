import Verif.Profile.Model
import Mathlib.Algebra.Order.AbsoluteValue.Basic
import Mathlib.Algebra.BigOperators.Group.List.Basic
import Mathlib.Algebra.Order.Field.Rat

/-!
Model of `Profile.get_convolution_of_difference` and `Profile.get_dephasage` (`/repo/IMTreatment/core/profile.py`).
-/

namespace IMT.Profile

/-- The elongated profile, profile.py:1253-1257: zeros, that are not masked, on both sides. -/
def padded (len : Nat) (l : List F) : List F :=
  List.replicate (len - 1) (some 0) ++ l ++ List.replicate (len - 1) (some 0)

/-- The pairs of values that are both available, profile.py:1261-1269. -/
def bothSome : List (F × F) → List (Rat × Rat)
  | [] => []
  | (some a, some b) :: l => (a, b) :: bothSome l
  | _ :: l => bothSome l

/-- The difference of a set of pairs, profile.py:1265-1278. -/
def diffOf (normalized : Bool) (l : List (Rat × Rat)) : F :=
  if l.length = 0 then none
  else if normalized then
    if (l.map fun q => |q.1|).sum / l.length = 0 then none
    else some ((l.map fun q => |q.1 - q.2|).sum / l.length / ((l.map fun q => |q.1|).sum / l.length))
  else some ((l.map fun q => |q.1 - q.2|).sum / l.length)

/-- One turn of the loop, profile.py:1259-1279. -/
def diffAt (normalized : Bool) (short long : List F) (i : Nat) : F :=
  diffOf normalized (bothSome ((((padded short.length long).drop i).take short.length).zip short))

/-- The differences for all the shifts, profile.py:1258-1279. -/
def diffs (normalized : Bool) (short long : List F) : List F :=
  (List.range (long.length + short.length - 1)).map (diffAt normalized short long)

/-- The abscissae, profile.py:1281-1287, from the two ends of each axis and the step of the other profile. -/
def shiftAxis (n : Nat) (dx o0 o1 s0 s1 : Rat) : List Rat :=
  (List.range n).map fun i : Nat => (i : Rat) * dx - ((n - 1 : Nat) : Rat) * dx / 2 + ((o0 + o1) / 2 - (s0 + s1) / 2)

/-- `get_convolution_of_difference(other, normalized)`, profile.py:1225-1289.  The arrays keep their order in the constructor of
the profile, the abscissae being increasing for an increasing axis of the other profile. -/
def convDiff (p other : Prof) (normalized : Bool) : Res Prof :=
  if p.ux ≠ other.ux then .error .valueError
  else if p.uy ≠ other.uy then .error .valueError
  else match other.x, other.x.getLast?, p.x.head?, p.x.getLast? with
    | o0 :: o0' :: _, some o1, some s0, some s1 =>
      .ok ⟨shiftAxis (diffs normalized (getY p) (getY other)).length (o0' - o0) o0 o1 s0 s1,
        diffs normalized (getY p) (getY other), (diffs normalized (getY p) (getY other)).map Option.isNone, p.ux, p.uy⟩
    | _, _, _, _ => .error .indexError

/-- `Profile.min`, profile.py:380-396, as used here: without any value it is `None`, refused by `get_value_position` (617-618). -/
def minOf (l : List F) : Res Rat :=
  match l.filterMap id with
  | [] => .error .typeError
  | a :: t => .ok (t.foldl min a)

/-- `get_dephasage(other)` with differences, profile.py:1198-1223. -/
def dephasage (p other : Prof) : Res Rat :=
  match convDiff p other true with
  | .error e => .error e
  | .ok c => match minOf (getY c) with
    | .error e => .error e
    | .ok v => match valuePosition c v with
      | x :: _ => .ok x
      | [] => .error .indexError

end IMT.Profile
