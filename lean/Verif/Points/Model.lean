import Verif.Units
import Mathlib.Data.List.Sort

/-!
Model of `Points` (`/repo/IMTreatment/core/points.py`) and `OrientedPoints` (`/repo/IMTreatment/core/orientedpoints.py`).

A float is `some q` or `none` for NaN; infinities and rounding are not represented.  Operations that work in place return
the state of the object together with the outcome, because an exception can leave the object modified.
-/

namespace IMT.Points

/-- A float that may be NaN. -/
abbrev F := Option Rat

/-- `a < b` with NaN: false. -/
def ltF : F → Rat → Bool
  | some a, b => decide (a < b)
  | none, _ => false

/-- `a > b` with NaN: false. -/
def gtF : F → Rat → Bool
  | some a, b => decide (b < a)
  | none, _ => false

/-- A `Points` object, points.py:37-66: positions, values (`self.__v` is an array, never `None`: the setter of points.py:188
assigns a local variable), units. -/
structure P where
  xy : List (F × F)
  v : List F
  ux : Sym
  uy : Sym
  uv : Sym
  deriving DecidableEq

/-- The setter of `xy`, points.py:166-177: the values are dropped when the number of points changes. -/
def setXY (p : P) (l : List (F × F)) : P := { p with xy := l, v := if l.length ≠ p.v.length then [] else p.v }

/-- The setter of `v`, points.py:187-197. -/
def setV (p : P) (w : List F) : Res P :=
  if w.length = 0 ∨ w.length = p.xy.length then .ok { p with v := w } else .error .valueError

/-- `Points(xy, v, unit_x, unit_y, unit_v)`, points.py:37-66. -/
def new (xy : List (F × F)) (v : List F) (ux uy uv : Sym) : Res P := setV ⟨xy, [], ux, uy, uv⟩ v

/-- `add(pt, v)`, points.py:872-899: the position is stored before the presence of the value is checked. -/
def add (p : P) (pt : F × F) (v : Option F) : P × Res PUnit :=
  if v = none ∧ p.v ≠ [] then ({ p with xy := p.xy ++ [pt] }, .error .valueError)
  else ({ p with xy := p.xy ++ [pt], v := p.v ++ v.toList }, .ok ⟨⟩)

/-- `np.delete(l, inds, axis=0)` for indices that are in range (negative ones count from the end). -/
def deleteAll {α : Type} (l : List α) (inds : List Int) : List α :=
  (l.zipIdx.filter fun q => decide ((q.2 : Int) ∉ inds ∧ (q.2 : Int) - l.length ∉ inds)).map Prod.fst

/-- All indices are accepted by `np.delete`. -/
def inRange (n : Nat) (inds : List Int) : Bool := inds.all fun i => decide (-(n : Int) ≤ i ∧ i < n)

/-- `remove(ind)`, points.py:901-922. -/
def remove (p : P) (inds : List Int) : P × Res PUnit :=
  if inRange p.xy.length inds then
    if (setXY p (deleteAll p.xy inds)).v.length = (deleteAll p.xy inds).length + 1 then
      match setV (setXY p (deleteAll p.xy inds)) (deleteAll p.v inds) with
      | .ok q => (q, .ok ⟨⟩)
      | .error e => (setXY p (deleteAll p.xy inds), .error e)
    else (setXY p (deleteAll p.xy inds), .ok ⟨⟩)
  else (p, .error .indexError)

/-- `np.logical_or(c < i[0], c > i[1])` for an optional interval, points.py:1015-1027. -/
def out (i : Option (Rat × Rat)) (c : F) : Bool :=
  match i with
  | none => false
  | some i => ltF c i.1 || gtF c i.2

/-- `l[~mask]`. -/
def sel {α : Type} (l : List α) (mask : List Bool) : List α := ((l.zip mask).filter fun q => !q.2).map Prod.fst

/-- The mask of the windows, points.py:1014-1027; the values take part when there are some. -/
def cropMask (p : P) (ix iy iv : Option (Rat × Rat)) : List Bool :=
  if p.v = [] then p.xy.map fun c => out ix c.1 || out iy c.2
  else List.zipWith (fun c w => out ix c.1 || out iy c.2 || out iv w) p.xy p.v

/-- The end of `crop`, points.py:1028-1031: a boolean index of another length than the array raises IndexError. -/
def applyMask (p : P) (mask : List Bool) : P × Res PUnit :=
  if p.v = [] then ({ p with xy := sel p.xy mask }, .ok ⟨⟩)
  else if p.v.length ≠ mask.length then ({ p with xy := sel p.xy mask }, .error .indexError)
  else ({ p with xy := sel p.xy mask, v := sel p.v mask }, .ok ⟨⟩)

/-- `crop(intervx, intervy, intervv)` in place, points.py:985-1035.  For a set with values of another number than the
points (see `C24_add_missing_violated`) numpy cannot combine the arrays of the `intervv` test: ValueError.  (numpy would
stretch a single value; not modelled.) -/
def crop (p : P) (ix iy iv : Option (Rat × Rat)) : P × Res PUnit :=
  if p.v ≠ [] ∧ p.v.length ≠ p.xy.length then
    match iv with
    | some _ => (p, .error .valueError)
    | none => applyMask p (p.xy.map fun c => out ix c.1 || out iy c.2)
  else applyMask p (cropMask p ix iy iv)

/-- `crop(intervv=[a, b], ind=True)` in place, points.py:1008-1012, for indices that are not negative. -/
def cropInd (p : P) (a b : Nat) : P × Res PUnit :=
  applyMask p ((List.range p.xy.length).map fun k => decide (¬ (a ≤ k ∧ k < b)))

/-- `np.logical_and(c > i[0], c < i[1])` for an optional interval, points.py:1055-1062. -/
def inside (i : Option (Rat × Rat)) (c : F) : Bool :=
  match i with
  | none => true
  | some i => gtF c i.1 && ltF c i.2

/-- `cut(intervx, intervy)`, points.py:1037-1066.  Without interval the mask is an array of floats and `~mask` raises
TypeError.  The setter of `xy` drops the values as soon as one point is removed. -/
def cut (p : P) (ix iy : Option (Rat × Rat)) : Res P :=
  if ix = none ∧ iy = none then .error .typeError
  else
    let mask := p.xy.map fun c => inside ix c.1 && inside iy c.2
    let q := setXY p (sel p.xy mask)
    if q.v = [] then .ok q
    else if q.v.length ≠ mask.length then .error .indexError
    else setV q (sel q.v mask)

/-- `scale` with numbers, points.py:1068-1119. -/
def scale (p : P) (sx sy sv : Rat) : P :=
  { p with xy := p.xy.map fun c => (c.1.map (· * sx), c.2.map (· * sy)), v := p.v.map (Option.map (· * sv)) }

/-- The order used by `np.argsort`: NaN last. -/
def leF : F → F → Bool
  | some a, some b => decide (a ≤ b)
  | _, none => true
  | none, some _ => false

/-- `np.argsort` of a list (ties kept in order; numpy's default sort gives no guarantee on ties). -/
def argsort (l : List F) : List Nat :=
  (List.range l.length).insertionSort fun i j => leF ((l[i]?).getD none) ((l[j]?).getD none) = true

/-- `l[order]`. -/
def take {α : Type} (l : List α) (order : List Nat) : List α := order.filterMap fun i : Nat => l[i]?

/-- The argument `ref` of `sort`. -/
inductive Ref where
  | x | y | v
  deriving DecidableEq

/-- The sorting key, points.py:1232-1241. -/
def key (p : P) : Ref → List F
  | .x => p.xy.map Prod.fst
  | .y => p.xy.map Prod.snd
  | .v => p.v

/-- `sort(ref)`, points.py:1207-1254, for a string `ref`.  Sorting on `v` with another number of values than points
raises IndexError or drops points; that case is left to `C24`'s hypotheses and given as IndexError. -/
def sort (p : P) (r : Ref) : P × Res PUnit :=
  if r = .v ∧ p.v = [] then (p, .error .valueError)
  else if r = .v ∧ p.v.length ≠ p.xy.length then (p, .error .indexError)
  else
    let order := argsort (key p r)
    let q := setXY p (take p.xy order)
    if q.v.length = q.xy.length then ({ q with v := take q.v order }, .ok ⟨⟩) else (q, .ok ⟨⟩)

/-- The test of `remove_nans` for each point, points.py:1297-1299. -/
def nanRows (p : P) : List Bool := List.zipWith (fun c w => c.1.isNone || c.2.isNone || w.isNone) p.xy p.v

/-- The loop of `remove_nans`, points.py:1301-1302: from the last index to the first. -/
def removeEach (p : P) : List Nat → P × Res PUnit
  | [] => (p, .ok ⟨⟩)
  | i :: is =>
    match remove p [(i : Int)] with
    | (q, .ok _) => removeEach q is
    | (q, .error e) => (q, .error e)

/-- `remove_nans(inplace=True)`, points.py:1287-1305.  `np.logical_or` of the tests on positions and on values raises
ValueError when the numbers differ (numpy stretches a single point to zero values: nothing to remove). -/
def removeNans (p : P) : P × Res PUnit :=
  if p.v.length ≠ p.xy.length then
    if p.v = [] ∧ p.xy.length = 1 then (p, .ok ⟨⟩) else (p, .error .valueError)
  else removeEach p (((List.range p.xy.length).filter fun i => ((nanRows p)[i]?).getD false).reverse)

/-- `set_origin`, points.py:964-983. -/
def setOrigin (p : P) (x y : Option Rat) : P :=
  { p with xy := p.xy.map fun c => (c.1.map (· - x.getD 0), c.2.map (· - y.getD 0)) }

/-- `reverse`, points.py:1182-1191. -/
def reverse (p : P) : P := setXY p (p.xy.map fun c => (c.2, c.1))

/-- `(a / b).asNumber()` for two units. -/
def fact (a b : Sym) : Rat := a.size / b.size

/-- The positions of `another` after lines points.py:111-113, which are written into `another`'s own array. -/
def converted (p q : P) : P :=
  { q with xy := q.xy.map fun c => (c.1.map (· * fact p.ux q.ux), c.2.map (· * fact p.uy q.uy)) }

/-- `self + another`, points.py:79-145: the state of `another` afterwards, and the result.  The values are never `None`,
so the branches 116-126 reduce to the concatenation. -/
def plus (p q : P) : P × Res P :=
  if p.xy = [] then (q, .ok q)
  else if q.xy = [] then (q, .ok p)
  else if ¬ (p.ux.Compat q.ux ∧ p.uy.Compat q.uy ∧ p.uv.Compat q.uv) then (q, .error .valueError)
  else (converted p q,
    new (p.xy ++ (converted p q).xy) (p.v ++ q.v.map (Option.map (· * fact p.uv q.uv))) p.ux p.uy p.uv)

/-! ### Histories -/

/-- The operations of a history. -/
inductive Op where
  | add (pt : F × F) (v : Option F)
  | remove (inds : List Int)
  | crop (ix iy iv : Option (Rat × Rat))
  | cropInd (a b : Nat)
  | cut (ix iy : Option (Rat × Rat))
  | scale (sx sy sv : Rat)
  | sort (r : Ref)
  | removeNans
  | setOrigin (x y : Option Rat)
  | reverse

/-- The state after one operation; `cut` and `reverse` return a new set, which replaces the old one. -/
def Op.run : Op → P → P × Res PUnit
  | .add pt v, p => Points.add p pt v
  | .remove i, p => Points.remove p i
  | .crop ix iy iv, p => Points.crop p ix iy iv
  | .cropInd a b, p => Points.cropInd p a b
  | .cut ix iy, p => match Points.cut p ix iy with
    | .ok q => (q, .ok ⟨⟩)
    | .error e => (p, .error e)
  | .scale sx sy sv, p => (Points.scale p sx sy sv, .ok ⟨⟩)
  | .sort r, p => Points.sort p r
  | .removeNans, p => Points.removeNans p
  | .setOrigin x y, p => (Points.setOrigin p x y, .ok ⟨⟩)
  | .reverse, p => (Points.reverse p, .ok ⟨⟩)

/-! ### Specification -/

/-- No value, or one per point. -/
def Aligned (p : P) : Prop := p.v = [] ∨ p.v.length = p.xy.length

/-- The points with their values, when there are some. -/
def rows (p : P) : List ((F × F) × Option F) :=
  if p.v = [] then p.xy.map fun c => (c, none) else List.zipWith (fun c w => (c, some w)) p.xy p.v

/-- A number in a closed interval; an absent interval holds everything. -/
def Within (i : Option (Rat × Rat)) (c : Rat) : Prop :=
  match i with
  | none => True
  | some i => i.1 ≤ c ∧ c ≤ i.2

/-! ### Oriented points -/

variable {O : Type}

/-- An `OrientedPoints` object, orientedpoints.py:64-77: the points and one entry of type `O` per point. -/
structure OP (O : Type) where
  pts : P
  ori : List O

/-- `OrientedPoints.add`, orientedpoints.py:237-255. -/
def OP.add (p : OP O) (pt : F × F) (o : O) (v : Option F) : OP O × Res PUnit :=
  match Points.add p.pts pt v with
  | (q, .ok _) => (⟨q, p.ori ++ [o]⟩, .ok ⟨⟩)
  | (q, .error e) => (⟨q, p.ori⟩, .error e)

/-- `OrientedPoints.remove`, orientedpoints.py:257-267. -/
def OP.remove (p : OP O) (inds : List Int) : OP O × Res PUnit :=
  match Points.remove p.pts inds with
  | (q, .ok _) =>
    if inRange p.ori.length inds then (⟨q, deleteAll p.ori inds⟩, .ok ⟨⟩) else (⟨q, p.ori⟩, .error .indexError)
  | (q, .error e) => (⟨q, p.ori⟩, .error e)

/-- `OrientedPoints.crop` in place, orientedpoints.py:269-318: the mask is computed on the set before it is cropped. -/
def OP.crop (p : OP O) (ix iy iv : Option (Rat × Rat)) : OP O × Res PUnit :=
  if p.pts.xy = [] then (p, .ok ⟨⟩)
  else
    match Points.crop p.pts ix iy iv with
    | (q, .ok _) =>
      if p.ori.length ≠ (cropMask p.pts ix iy iv).length then (⟨q, p.ori⟩, .error .indexError)
      else (⟨q, sel p.ori (cropMask p.pts ix iy iv)⟩, .ok ⟨⟩)
    | (q, .error e) => (⟨q, p.ori⟩, .error e)

/-- `OrientedPoints.__iter__`, orientedpoints.py:79-86: a fresh iterator on the points is made at each turn and only its
first element is taken. -/
def OP.iter (p : OP O) : List (((F × F) × Option F) × O) :=
  (List.range p.pts.xy.length).filterMap fun i => match (rows p.pts).head?, p.ori[i]? with
    | some r, some o => some (r, o)
    | _, _ => none

/-- The operations on oriented points. -/
inductive OOp (O : Type) where
  | add (pt : F × F) (o : O) (v : Option F)
  | remove (inds : List Int)
  | crop (ix iy iv : Option (Rat × Rat))

def OOp.run : OOp O → OP O → OP O × Res PUnit
  | .add pt o v, p => p.add pt o v
  | .remove i, p => p.remove i
  | .crop ix iy iv, p => p.crop ix iy iv

/-- Every point with its own value and its own orientations. -/
def OP.rows (p : OP O) : List (((F × F) × Option F) × O) := (Points.rows p.pts).zip p.ori

end IMT.Points
