import Verif.Points.Model
import Verif.Temporal.Model

/-!
Model of `TemporalPoints` (`/repo/IMTreatment/core/temporalpoints.py`): sets of points with their times.

The collection stores the `Points` objects it is given, not copies (temporalpoints.py:224), so the objects live in an
explicit memory: a list of sets of points, designated by their position.  A deep copy duplicates the memory; copies of
objects that the collection does not hold are unreachable.
-/

namespace IMT.TPoints

open IMT.Points (P)

/-- The objects `Points`, by address. -/
abbrev Heap := List P

/-- A `TemporalPoints`, temporalpoints.py:38-44: times, units, and the addresses of the sets.  `nd` tells whether the
attribute `point_sets` is a numpy array or a python list. -/
structure TP where
  times : List Rat
  ut : Sym
  ux : Sym
  uy : Sym
  sets : List Nat
  nd : Bool
  deriving DecidableEq

/-- `TemporalPoints()`, temporalpoints.py:38-44. -/
def TP.empty : TP := ⟨[], Sym.one, Sym.one, Sym.one, [], false⟩

/-- `__sort_field_by_time`, temporalpoints.py:338-343, with the test of the setter of `times` (77-85). -/
def sortByTime (srt : List Rat → List Nat) (t : TP) : TP × Res PUnit :=
  if t.sets.length ≤ 1 then (t, .ok ⟨⟩)
  else if t.sets.length ≠ (Profile.take t.times (srt t.times)).length then (t, .error .valueError)
  else ({ t with times := Profile.take t.times (srt t.times), sets := Profile.take t.sets (srt t.times), nd := false }, .ok ⟨⟩)

/-- The time stored for a set added with time `time` in unit `u`, temporalpoints.py:221:
`(time*self.unit_times/unit_times).asNumber()`. -/
def storedTime (t : TP) (time : Rat) (u : Sym) : Rat := time * SF.unitNum (t.ut.div u)

/-- The units, the unit of time and the times once a set is announced, temporalpoints.py:213-222. -/
def announce (m : Heap) (t : TP) (a : Nat) (time : Rat) (u : Sym) : TP :=
  if t.sets.length = 0 then
    { t with times := [time], ut := u, ux := (m[a]?.map (·.ux)).getD t.ux, uy := (m[a]?.map (·.uy)).getD t.uy }
  else { t with times := t.times ++ [storedTime t time u] }

/-- `add_pts(pt, time, unit_times)`, temporalpoints.py:187-226, for the set at address `a`.  The time is stored first;
`self.point_sets.append` raises AttributeError when `point_sets` is a numpy array. -/
def addPts (srt : List Rat → List Nat) (m : Heap) (t : TP) (a : Nat) (time : Rat) (u : Sym) : TP × Res PUnit :=
  if t.nd then (announce m t a time u, .error .attributeError)
  else sortByTime srt { announce m t a time u with sets := t.sets ++ [a] }

/-- `remove_pts(indice)`, temporalpoints.py:228-241: `np.delete` on the times, then on the sets, index after index.  An
integer is the list holding it. -/
def removePts (t : TP) : List Int → TP × Res PUnit
  | [] => (t, .ok ⟨⟩)
  | i :: is => match Temporal.pyIdx t.times.length i with
    | none => (t, .error .indexError)
    | some k => match Temporal.pyIdx t.sets.length i with
      | none => ({ t with times := t.times.eraseIdx k }, .error .indexError)
      | some l => removePts { t with times := t.times.eraseIdx k, sets := t.sets.eraseIdx l, nd := true } is

/-! ### cropping -/

/-- `for pt in sets: pt.crop(..., inplace=True)`, temporalpoints.py:296-298. -/
def cropCells (m : Heap) (ix iy iv : Option (Rat × Rat)) : List Nat → Heap × Res PUnit
  | [] => (m, .ok ⟨⟩)
  | a :: as => match m[a]? with
    | none => cropCells m ix iy iv as
    | some p => match Points.crop p ix iy iv with
      | (q, .error e) => (m.set a q, .error e)
      | (q, .ok _) => cropCells (m.set a q) ix iy iv as

/-- `point_sets[i:j + 1]`, `times[i:j + 1]`, temporalpoints.py:293-294. -/
def cutTime (t : TP) (i j : Nat) : TP := { t with sets := slice t.sets i (j + 1), times := slice t.times i (j + 1) }

/-- The temporal part of `crop`, temporalpoints.py:263-294, `ind=False`.  The indices are computed as for fields
(core/temporalfields.py:1503-1517 is the same text as temporalpoints.py:270-285). -/
def cropTime (t : TP) (it : Option (Rat × Rat)) : Res TP :=
  match it with
  | none => .ok t
  | some (a, b) => match Temporal.cropTimeInds t.times a b with
    | .error e => .error e
    | .ok (i, j) => .ok (cutTime t i j)

/-- `crop(intervx, intervy, intervv, intervt, inplace=True)`, temporalpoints.py:243-300: the memory, the collection and
the outcome. -/
def cropInPlace (m : Heap) (t : TP) (ix iy iv it : Option (Rat × Rat)) : Heap × TP × Res PUnit :=
  match cropTime t it with
  | .error e => (m, t, .error e)
  | .ok t1 => match cropCells m ix iy iv t1.sets with
    | (m1, r) => (m1, t1, r)

/-- A deep copy, temporalpoints.py:332-336: memory doubled, addresses of the copy in the second half. -/
def deepCopy (m : Heap) (t : TP) : Heap × TP := (m ++ m, { t with sets := t.sets.map (· + m.length) })

/-- `crop(intervx, intervy, intervv, intervt, inplace=False)`, temporalpoints.py:243-300: the memory and the returned
collection.  The loop on the sets (296) runs on `self.point_sets`. -/
def crop (m : Heap) (t : TP) (ix iy iv it : Option (Rat × Rat)) : Heap × Res TP :=
  match cropTime (deepCopy m t).2 it with
  | .error e => (m, .error e)
  | .ok t1 => match cropCells (deepCopy m t).1 ix iy iv t.sets with
    | (m1, .error e) => (m1, .error e)
    | (m1, .ok _) => (m1, .ok t1)

/-- `crop(intervt=[i, j], ind=True)`, temporalpoints.py:263-294: the interval is turned into an array of floats (267), and
slicing with floats raises TypeError. -/
def cropInd (_ : TP) (_ _ : Nat) : Res TP := .error .typeError

/-! ### scaling and units -/

/-- `Points.scale` as called by `TemporalPoints.scale`, points.py:1080-1086: `None` is refused. -/
def scalePts (p : P) (sx sy sv : Option Rat) : Res P :=
  match sx, sy, sv with
  | some x, some y, some v => .ok (Points.scale p x y v)
  | _, _, _ => .error .typeError

/-- `for i in range(len(sets)): sets[i].scale(...)`, temporalpoints.py:134-138. -/
def scaleCells (m : Heap) (sx sy sv : Option Rat) : List Nat → Heap × Res PUnit
  | [] => (m, .ok ⟨⟩)
  | a :: as => match m[a]? with
    | none => scaleCells m sx sy sv as
    | some p => match scalePts p sx sy sv with
      | .error e => (m, .error e)
      | .ok q => scaleCells (m.set a q) sx sy sv as

/-- The new times, temporalpoints.py:140-143. -/
def scaledTimes (ts : List Rat) : Option Rat → List Rat
  | none => ts
  | some c => ts.map (· * c)

/-- `scale(scalex, scaley, scalev, scalet, inplace=True)` with numbers, temporalpoints.py:118-153. -/
def scaleInPlace (m : Heap) (t : TP) (sx sy sv st : Option Rat) : Heap × TP × Res PUnit :=
  match scaleCells m sx sy sv t.sets with
  | (m1, .error e) => (m1, t, .error e)
  | (m1, .ok _) => (m1, { t with times := scaledTimes t.times st }, .ok ⟨⟩)

/-- `scale(..., inplace=False)`: the memory and the copy, temporalpoints.py:130-153. -/
def scale (m : Heap) (t : TP) (sx sy sv st : Option Rat) : Heap × Res TP :=
  match scaleInPlace (deepCopy m t).1 (deepCopy m t).2 sx sy sv st with
  | (m1, t1, .ok _) => (m1, .ok t1)
  | (m1, _, .error e) => (m1, .error e)

/-- The argument `axe` of `change_unit` of a collection (temporalpoints.py:155-185). -/
inductive Axe where
  | x | y | values | time
  deriving DecidableEq

/-- `Points.change_unit(axe, new_unit)`, points.py:924-962, as called by the collection: its name for the values is `'v'`,
so that `'values'` raises ValueError. -/
def changeUnitPts (p : P) (w : Axe) (new : Sym) : Res P :=
  match w with
  | .x => (Unum.asUnit ⟨1, p.ux⟩ ⟨1, new⟩).map fun u => { p with ux := u.sym, xy := p.xy.map fun c => (c.1.map (· * u.num), c.2) }
  | .y => (Unum.asUnit ⟨1, p.uy⟩ ⟨1, new⟩).map fun u => { p with uy := u.sym, xy := p.xy.map fun c => (c.1, c.2.map (· * u.num)) }
  | .values => .error .valueError
  | .time => .error .valueError

/-- `for pt in self.point_sets: pt.change_unit(axe, new_unit)`, temporalpoints.py:175-177. -/
def changeUnitCells (m : Heap) (w : Axe) (new : Sym) : List Nat → Heap × Res PUnit
  | [] => (m, .ok ⟨⟩)
  | a :: as => match m[a]? with
    | none => changeUnitCells m w new as
    | some p => match changeUnitPts p w new with
      | .error e => (m, .error e)
      | .ok q => changeUnitCells (m.set a q) w new as

/-- `change_unit(axe, new_unit)`, temporalpoints.py:155-185.  The unit attributes of the collection itself are not
updated for `x` and `y`. -/
def changeUnit (m : Heap) (t : TP) (w : Axe) (new : Sym) : Heap × TP × Res PUnit :=
  match w with
  | .time => match Unum.asUnit ⟨1, t.ut⟩ ⟨1, new⟩ with
    | .error e => (m, t, .error e)
    | .ok u => (m, { t with times := t.times.map (· * u.num), ut := u.sym }, .ok ⟨⟩)
  | _ => match changeUnitCells m w new t.sets with
    | (m1, r) => (m1, t, r)

end IMT.TPoints
