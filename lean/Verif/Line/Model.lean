import Verif.Scalar.ValueModel
import Verif.Profile.Model

/-!
Model of the methods of `ScalarField` that reduce a field to a profile, a number or points: `get_profile`,
`integrate_over_line`, `integrate_over_surface`, `export_to_scatter`, `get_histogram` (core/scalarfield.py), and of
`Profile.get_auto_correlation`.
-/

namespace IMT.Line

open Profile (Prof F MaskArg)

/-- The argument `direction`. -/
inductive Dir where
  | x | y
  deriving DecidableEq

/-- The axis along which a position is chosen, scalarfield.py:842-849. -/
def axe (f : SF) : Dir → List Rat
  | .x => f.ax
  | .y => f.ay

/-- The axis of the profile. -/
def other (f : SF) : Dir → List Rat
  | .x => f.ay
  | .y => f.ax

/-- The unit of the axis of the profile, scalarfield.py:842-849. -/
def unit (f : SF) : Dir → Sym
  | .x => f.uy
  | .y => f.ux

/-- The value with index `i` on the chosen axis and `k` on the other one. -/
def val (f : SF) (d : Dir) (i k : Nat) : Option Rat :=
  match d with
  | .x => f.cell i k
  | .y => f.cell k i

/-- The mask with index `i` on the chosen axis and `k` on the other one. -/
def msk (f : SF) (d : Dir) (i k : Nat) : Bool :=
  match d with
  | .x => f.mask.get i k
  | .y => f.mask.get k i

/-- `self.get_value` at the position `v` on the chosen axis and `q` on the other one. -/
def valueOn (main : Bool) (f : SF) (d : Dir) (v q : Rat) : Res (Option Rat) :=
  match d with
  | .x => f.getValue main v q
  | .y => f.getValue main q v

/-- A list comprehension whose elements may raise. -/
def collect {α : Type} : List (Res α) → Res (List α)
  | [] => .ok []
  | .error e :: _ => .error e
  | .ok a :: l =>
    match collect l with
    | .error e => .error e
    | .ok r => .ok (a :: r)

/-- The interpolated profile, scalarfield.py:875-893. -/
def interpolated (main : Bool) (srt : List Rat → List Nat) (f : SF) (d : Dir) (v : Rat) : Res Prof :=
  match collect ((other f d).map (valueOn main f d v)) with
  | .error e => .error e
  | .ok vals => Profile.new srt (other f d) vals (.flag false) (unit f d) f.uv

/-- The test `position > axe.max() or position < axe.min()`, scalarfield.py:862-866. -/
def beyond (l : List Rat) (v : Rat) : Prop := (∀ a ∈ l, a < v) ∨ ∀ a ∈ l, v < a

instance (l : List Rat) (v : Rat) : Decidable (beyond l v) := by unfold beyond; infer_instance

/-- The value of `i` after the loop, scalarfield.py:896-899. -/
def stopAt (l : List Rat) (v : Rat) : Nat :=
  match (List.range (l.length - 1)).find? fun k =>
      decide ((l.getD (k + 1) 0 ≥ v ∧ l.getD k 0 ≤ v) ∨ (l.getD (k + 1) 0 ≤ v ∧ l.getD k 0 ≥ v)) with
  | some k => k + 1
  | none => l.length - 1

/-- `finalindice`, scalarfield.py:900-903. -/
def closest (l : List Rat) (v : Rat) : Nat :=
  if |v - l.getD (stopAt l v) 0| > |v - l.getD (stopAt l v - 1) 0| then stopAt l v - 1 else stopAt l v

/-- The profile on a grid line, scalarfield.py:904-920, 939. -/
def gridLine (srt : List Rat → List Nat) (f : SF) (d : Dir) (i : Nat) : Res Prof :=
  Profile.new srt (other f d) ((List.range (other f d).length).map (val f d i))
    (.arr ((List.range (other f d).length).map (msk f d i))) (unit f d) f.uv

/-- The argument `interp`. -/
inductive Interp where
  | linear | nearest
  deriving DecidableEq

/-- `get_profile(direction, v, interp=interp)` for a number, scalarfield.py:862-913.  On an axis of one point the loop binds no `i`:
UnboundLocalError. -/
def getProfile (main : Bool) (srt : List Rat → List Nat) (f : SF) (d : Dir) (v : Rat) (interp : Interp) : Res Prof :=
  if beyond (axe f d) v then .error .valueError
  else match interp with
    | .linear => interpolated main srt f d v
    | .nearest => if (axe f d).length < 2 then .error .nameError else gridLine srt f d (closest (axe f d) v)

/-- `get_profile(direction, i, ind=True, interp=interp)` for an integer, scalarfield.py:867-893, 914-920. -/
def getProfileInd (main : Bool) (srt : List Rat → List Nat) (f : SF) (d : Dir) (i : Int) (interp : Interp) : Res Prof :=
  if i < 0 ∨ i > (axe f d).length - 1 then .error .valueError
  else match interp with
    | .linear => interpolated main srt f d ((axe f d).getD i.toNat 0)
    | .nearest => gridLine srt f d i.toNat

/-- `np.mean`: NaN for an empty array or an array with a NaN. -/
def mean (l : List (Option Rat)) : Option Rat :=
  if l = [] ∨ none ∈ l then none else some ((l.filterMap id).sum / l.length)

/-- The lines of the interval, `axe_mask`, scalarfield.py:923. -/
def within (l : List Rat) (a b : Rat) : List Nat :=
  (List.range l.length).filter fun i => decide (a ≤ l.getD i 0 ∧ l.getD i 0 ≤ b)

/-- `get_profile(direction, [a, b])`, scalarfield.py:922-931, 939.  (The loop of 851-856 assigns its own variable: it does nothing.)
The mask is the mean of the masks, made boolean by `Profile`: true as soon as one is, or for NaN (no line). -/
def getProfileBetween (srt : List Rat → List Nat) (f : SF) (d : Dir) (a b : Rat) : Res Prof :=
  Profile.new srt (other f d)
    ((List.range (other f d).length).map fun k => mean ((within (axe f d) a b).map fun i => val f d i k))
    (.arr ((List.range (other f d).length).map fun k =>
      (within (axe f d) a b).isEmpty || (within (axe f d) a b).any fun i => msk f d i k))
    (unit f d) f.uv

/-- `get_profile(direction, [i, j], ind=True)`, scalarfield.py:857-861, 932-938: the interval has been made of floats (825), and
slicing with floats raises TypeError. -/
def getProfileBetweenInd (f : SF) (d : Dir) (i j : Int) : Res Prof :=
  if min i j < -(axe f d).length + 1 ∨ max i j > (axe f d).length - 1 then .error .valueError else .error .typeError

/-- `get_profile(direction, 'all', ind=ind)`, scalarfield.py:872-873. -/
def getProfileAll (srt : List Rat → List Nat) (f : SF) (d : Dir) (ind : Bool) : Res Prof :=
  match (axe f d).head?, (axe f d).getLast? with
  | some a, some b => if ind then .error .typeError else getProfileBetween srt f d a b
  | _, _ => .error .indexError

/-- `integrate_over_line(direction, interval)`, scalarfield.py:1143-1172, from the profile of the interval.  `direction == 1` never
holds. -/
def integrateLine (f : SF) (p : Res Prof) : Res Unum :=
  match p with
  | .error e => .error e
  | .ok p =>
    if p.m.any id then .error .exception
    else .ok ⟨Profile.trapz (p.x.zip ((Profile.getY p).map fun v => v.getD 0)), f.uv.mul f.ux⟩

/-- The sum of the values of a field without masked value. -/
def total (f : SF) : Rat :=
  ((List.range f.ax.length).map fun i => ((List.range f.ay.length).map fun j => (f.cell i j).getD 0).sum).sum

/-- `integrate_over_surface(intervx, intervy)`, scalarfield.py:1174-1212; a missing interval is `[-inf, inf]`, which `crop` treats as
a missing one.  An interval between two neighbouring positions crops everything: `axe[-1]` raises IndexError. -/
def integrateSurface (f : SF) (ix iy : Option (Rat × Rat)) : Res Unum :=
  match f.crop ix iy with
  | .error e => .error e
  | .ok g =>
    if g.mask.any id then .error .exception
    else if g.ax = [] ∨ g.ay = [] then .error .indexError
    else .ok ⟨total g * |g.ax.getLastD 0 - g.ax.headD 0| * |g.ay.getLastD 0 - g.ay.headD 0| / g.ax.length / g.ay.length,
      (g.uv.mul g.ux).mul g.uy⟩

/-- The given mask does not have the shape of the field, scalarfield.py:1235-1242. -/
def badShape (f : SF) : Option (Grid Bool) → Bool
  | none => false
  | some m => decide (m.nx ≠ f.ax.length ∨ m.ny ≠ f.ay.length)

/-- The given mask hides a point; without mask nothing is hidden. -/
def hides : Option (Grid Bool) → Nat → Nat → Bool
  | none, _, _ => false
  | some m, i, j => m.get i j

/-- The loop of scalarfield.py:1248-1255. -/
def kept (f : SF) (mask : Option (Grid Bool)) : List ((Nat × Nat) × (Rat × Rat) × Option Rat) :=
  f.iter.filter fun q => !(hides mask q.1.1 q.1.2 || f.mask.get q.1.1 q.1.2)

/-- `export_to_scatter(mask)`, scalarfield.py:1220-1256: the positions and the values of the points; without any point
`Points(None, ...)` raises TypeError. -/
def scatter (f : SF) (mask : Option (Grid Bool)) : Res (List ((Rat × Rat) × Option Rat)) :=
  if badShape f mask then .error .valueError
  else if kept f mask = [] then .error .typeError
  else .ok ((kept f mask).map fun q => q.2)

end IMT.Line
