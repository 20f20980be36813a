import Verif.Units
import Mathlib.Data.List.Sort

/-!
Model of `Profile` (`/repo/IMTreatment/core/profile.py`).

A float of the `y` array is `some q` or `none` for NaN; abscissae are finite.  `np.argsort` is a parameter `srt`: numpy's
default sort gives no guarantee on the order of ties, and the theorems hold for every function that sorts (`IsArgsort`).
Operations that work in place return the state of the object together with the outcome.
-/

namespace IMT.Profile

/-- A float that may be NaN. -/
abbrev F := Option Rat

/-- A `Profile`, profile.py:84-93: the arrays `__x`, `__y`, `__mask`, and the units. -/
structure Prof where
  x : List Rat
  y : List F
  m : List Bool
  ux : Sym
  uy : Sym
  deriving DecidableEq

/-- `a[order]`. -/
def take {α : Type} (l : List α) (order : List Nat) : List α := order.filterMap fun i : Nat => l[i]?

/-- What is assumed of `np.argsort`: it lists the indices in an order that sorts the array. -/
def IsArgsort (srt : List Rat → List Nat) : Prop :=
  ∀ l, (srt l).Perm (List.range l.length) ∧ (take l (srt l)).Pairwise (· ≤ ·)

/-- A stable `np.argsort`, used in the examples. -/
def argsort (l : List Rat) : List Nat := (List.range l.length).insertionSort fun i j => (l[i]?).getD 0 ≤ (l[j]?).getD 0

/-- `self.__y[self.__mask] = np.NaN`, profile.py:283 and 314. -/
def blank (y : List F) (m : List Bool) : List F := List.zipWith (fun v b => if b then none else v) y m

/-- The getter of `y`, profile.py:282-284. -/
def getY (p : Prof) : List F := blank p.y p.m

/-- The points of a profile: abscissa and reported value (`none`: NaN, masked). -/
def pts (p : Prof) : List (Rat × F) := p.x.zip (getY p)

/-- The setter of `mask` with an array, profile.py:306-314; a boolean index of another length raises IndexError. -/
def setMask (p : Prof) (m : List Bool) : Prof × Res PUnit :=
  if m.length = p.y.length then ({ p with m := m, y := blank p.y m }, .ok ⟨⟩) else ({ p with m := m }, .error .indexError)

/-- The setter of `y` with an array, profile.py:287-295. -/
def setY (p : Prof) (v : List F) : Prof := { p with y := v, m := v.map Option.isNone }

/-- The setter of `x`, profile.py:263-275. -/
def setX (srt : List Rat → List Nat) (p : Prof) (v : List Rat) : Prof × Res PUnit :=
  if v.length ≠ p.y.length then ({ p with x := v }, .error .exception)
  else if v.length > 1 then ({ p with x := take v (srt v), y := take p.y (srt v), m := take p.m (srt v) }, .ok ⟨⟩)
  else ({ p with x := v }, .ok ⟨⟩)

/-- The argument `mask` of the constructor. -/
inductive MaskArg where
  | flag (b : Bool)
  | arr (l : List Bool)
  deriving DecidableEq

/-- profile.py:66-72: a boolean, whatever its value, gives an array of `False`. -/
def MaskArg.array (n : Nat) : MaskArg → List Bool
  | .flag _ => List.replicate n false
  | .arr l => l

/-- The second half of the constructor, profile.py:86-90, once the order is known. -/
def build (o : List Nat) (x : List Rat) (y : List F) (m : List Bool) (ux uy : Sym) : Prof :=
  { x := take x o
    y := blank (blank (take y o) (take m o))
      (List.zipWith (· || ·) (take m o) ((blank (take y o) (take m o)).map Option.isNone))
    m := List.zipWith (· || ·) (take m o) ((blank (take y o) (take m o)).map Option.isNone)
    ux := ux
    uy := uy }

/-- `Profile(x, y, mask, unit_x, unit_y)`, profile.py:54-93; `mask[order]` raises IndexError for a mask that is too
short. -/
def new (srt : List Rat → List Nat) (x : List Rat) (y : List F) (mask : MaskArg) (ux uy : Sym) : Res Prof :=
  if x.length ≠ y.length then .error .valueError
  else if (mask.array x.length).length < x.length then .error .indexError
  else .ok (build (srt x) x y (mask.array x.length) ux uy)

/-- `np.searchsorted(self.x, v)` on a sorted array. -/
def searchLeft (l : List Rat) (v : Rat) : Nat := (l.takeWhile fun a => decide (a < v)).length

/-- `add_point(x, y)`, profile.py:1324-1330. -/
def addPoint (srt : List Rat → List Nat) (p : Prof) (x : Rat) (y : F) : Prof × Res PUnit :=
  setX srt (setY p ((getY p).take (searchLeft p.x x) ++ [y] ++ (getY p).drop (searchLeft p.x x)))
    (p.x.take (searchLeft p.x x) ++ [x] ++ p.x.drop (searchLeft p.x x))

/-- profile.py:1336-1339: an empty profile takes the units of the other. -/
def adoptUnits (p q : Prof) : Prof := if p.x.length = 0 then { p with ux := q.ux, uy := q.uy } else p

/-- `add_points(prof)`, profile.py:1332-1351. -/
def addPoints (srt : List Rat → List Nat) (p q : Prof) : Prof × Res PUnit :=
  if q.ux ≠ (adoptUnits p q).ux ∨ q.uy ≠ (adoptUnits p q).uy then (adoptUnits p q, .error .valueError)
  else setMask { adoptUnits p q with
      x := take (p.x ++ q.x) (srt (p.x ++ q.x))
      y := take (getY p ++ getY q) (srt (p.x ++ q.x)) } (take (p.m ++ q.m) (srt (p.x ++ q.x)))

/-- `remove_point(ind)`, profile.py:1353-1370. -/
def removePoint (srt : List Rat → List Nat) (p : Prof) (i : Int) : Prof × Res PUnit :=
  if i < 0 then (p, .error .valueError)
  else setX srt (setY p ((getY p).take i.toNat ++ (getY p).drop (i.toNat + 1)))
    (p.x.take i.toNat ++ p.x.drop (i.toNat + 1))

/-! ### `crop` -/

/-- One turn of the loop of profile.py:1430-1443; the second index is `none` for the initial `-1`. -/
def cropStep (xs : List Rat) (a b : Rat) (s : Nat × Option Nat) (i : Nat) : Nat × Option Nat :=
  if (xs[i]?).getD 0 = a then (i, s.2)
  else if (xs[i]?).getD 0 = b then (s.1, some (i + 1))
  else if ((xs[i]?).getD 0 > a ∧ (xs[i - 1]?).getD 0 < a) ∨ ((xs[i]?).getD 0 < a ∧ (xs[i - 1]?).getD 0 > a) then
    (i + 1, s.2)
  else if ((xs[i]?).getD 0 > b ∧ (xs[i - 1]?).getD 0 < b) ∨ ((xs[i]?).getD 0 < b ∧ (xs[i - 1]?).getD 0 > b) then
    (s.1, some i)
  else s

/-- The loop `for i in np.arange(len(new_x)-1, 0, -1)`, profile.py:1428-1443. -/
def cropLoop (xs : List Rat) (a b : Rat) : Nat × Option Nat :=
  ((List.range (xs.length - 1)).map (· + 1)).reverse.foldl (cropStep xs a b) (0, none)

/-- `l[ind1:ind2]`, with `none` for `-1`. -/
def pySlice {α : Type} (l : List α) (s : Nat × Option Nat) : List α :=
  slice l s.1 (s.2.getD (l.length - 1))

/-- profile.py:1408-1410, 1422-1426: the interval is refused. -/
def refused (xs : List Rat) (a b : Rat) : Prop :=
  b ≤ a ∨ xs = [] ∨ (∀ v ∈ xs, a < v ∧ b < v) ∨ (∀ v ∈ xs, a > v ∧ b > v)

instance (xs : List Rat) (a b : Rat) : Decidable (refused xs a b) := by unfold refused; infer_instance

/-- The three cropped arrays. -/
abbrev Data := List Rat × List F × List Bool

/-- `intervx` without `ind`, profile.py:1421-1447. -/
def cropX (p : Prof) (ix : Option (Rat × Rat)) : Res Data :=
  match ix with
  | none => .ok (p.x, getY p, p.m)
  | some (a, b) =>
    if refused p.x a b then .error .valueError
    else .ok (pySlice p.x (cropLoop p.x a b), pySlice (getY p) (cropLoop p.x a b), pySlice p.m (cropLoop p.x a b))

/-- `l[filt]`. -/
def sel {α : Type} (l : List α) (filt : List Bool) : List α := ((l.zip filt).filter fun q => q.2).map Prod.fst

/-- `np.logical_and(self.y > lo, self.y < hi)`, false at NaN. -/
def inY (lo hi : Rat) : F → Bool
  | some v => decide (lo < v ∧ v < hi)
  | none => false

/-- `intervy` without `ind`, profile.py:1448-1453: the filter is computed on the whole profile and raises IndexError
when the arrays have been shortened by `intervx`. -/
def cropY (p : Prof) (iy : Option (Rat × Rat)) (d : Data) : Res Data :=
  match iy with
  | none => .ok d
  | some (lo, hi) =>
    if hi ≤ lo then .error .valueError
    else if (getY p).length ≠ d.1.length then .error .indexError
    else .ok (sel d.1 ((getY p).map (inY lo hi)), sel d.2.1 ((getY p).map (inY lo hi)), sel d.2.2 ((getY p).map (inY lo hi)))

/-- The arrays kept by `crop(intervx, intervy)`, profile.py:1404-1453.  (The checks of `intervy`, 1412-1419, come before
the treatment of `intervx` in the code; both raise ValueError.) -/
def cropData (p : Prof) (ix iy : Option (Rat × Rat)) : Res Data :=
  match cropX p ix with
  | .ok d => cropY p iy d
  | .error e => .error e

/-- The arrays kept by `crop([i, j], ind=True)`, profile.py:1455-1461. -/
def cropIndData (p : Prof) (i j : Int) : Res Data :=
  if j ≤ i then .error .valueError
  else if i < 0 ∨ j < 0 ∨ i > p.x.length ∨ j > p.x.length then .error .valueError
  else .ok (slice p.x i.toNat j.toNat, slice (getY p) i.toNat j.toNat, slice p.m i.toNat j.toNat)

/-- The end of `crop`, not in place, profile.py:1471-1473. -/
def finishNew (srt : List Rat → List Nat) (p : Prof) (d : Res Data) : Res Prof :=
  match d with
  | .ok d => new srt d.1 d.2.1 (.arr d.2.2) p.ux p.uy
  | .error e => .error e

/-- The end of `crop`, in place, profile.py:1466-1469. -/
def finishInplace (srt : List Rat → List Nat) (p : Prof) (d : Res Data) : Prof × Res PUnit :=
  match d with
  | .ok d =>
    match setX srt (setY p d.2.1) d.1 with
    | (q, .ok _) => setMask q d.2.2
    | (q, .error e) => (q, .error e)
  | .error e => (p, .error e)

/-- `crop(intervx, intervy)`. -/
def crop (srt : List Rat → List Nat) (p : Prof) (ix iy : Option (Rat × Rat)) : Res Prof :=
  finishNew srt p (cropData p ix iy)

/-- `crop([i, j], ind=True)`. -/
def cropInd (srt : List Rat → List Nat) (p : Prof) (i j : Int) : Res Prof := finishNew srt p (cropIndData p i j)

/-- Index of the first unmasked point. -/
def firstValid (m : List Bool) : Nat := m.findIdx fun b => !b

/-- Index of the last unmasked point. -/
def lastValid (m : List Bool) : Nat := m.length - 1 - m.reverse.findIdx fun b => !b

/-- `crop_masked_border(inplace=True)`, profile.py:1372-1387. -/
def cropMaskedBorder (srt : List Rat → List Nat) (p : Prof) : Prof × Res PUnit :=
  if p.m.all id then (p, .error .indexError)
  else finishInplace srt p (cropIndData p (firstValid p.m) (lastValid p.m + 1))

/-! ### `fill` -/

/-- `self.x[filt]`, `self.y[filt]` of profile.py:1594-1595.  (A NaN that is not masked is left out.) -/
def valid (p : Prof) : List (Rat × Rat) :=
  ((p.x.zip (getY p)).zip p.m).filterMap fun r => if r.2 then none else r.1.2.map fun v => (r.1.1, v)

/-- The line through two points. -/
def line (a b : Rat × Rat) (t : Rat) : Rat := a.2 + (b.2 - a.2) / (b.1 - a.1) * (t - a.1)

/-- `scipy.interpolate.interp1d(x, y, kind='slinear')(t)` for increasing abscissae: the line through the two neighbouring
points, `none` outside. -/
def lin : List (Rat × Rat) → Rat → Option Rat
  | a :: b :: l, t => if t < a.1 then none else if t ≤ b.1 then some (line a b t) else lin (b :: l) t
  | _, _ => none

/-- `new_y` of profile.py:1599-1608: the interpolated value at masked points (`fillv` outside of the valid points), then
the ends. -/
def filledY (p : Prof) (fillv : Rat) : List F :=
  (List.range p.x.length).map fun k : Nat =>
    if k < firstValid p.m then ((getY p)[firstValid p.m]?).getD none
    else if lastValid p.m < k then ((getY p)[lastValid p.m]?).getD none
    else if (p.m[k]?).getD false then some ((lin (valid p) ((p.x[k]?).getD 0)).getD fillv)
    else ((getY p)[k]?).getD none

/-- `new_y` of profile.py:1589-1591, kind 'value': the filter selects the points that are **not** masked. -/
def valueY (p : Prof) (fillv : Rat) : List F := List.zipWith (fun v b => if b then v else some fillv) (getY p) p.m

/-- The argument `kind` (spline and nearest interpolations of scipy are not modelled). -/
inductive Kind where
  | value | slinear
  deriving DecidableEq

/-- The array computed by `fill`, profile.py:1579-1608; `interp1d` raises ValueError with fewer than two points. -/
def fillData (p : Prof) (k : Kind) (fillv : Rat) : Res (List F) :=
  if p.m.all id then .error .exception
  else match k with
    | .value => .ok (valueY p fillv)
    | .slinear => if (valid p).length < 2 then .error .valueError else .ok (filledY p fillv)

/-- `fill(kind, fill_value, inplace=False, crop)`, profile.py:1549-1617: `crop_masked_border` has no argument `hard`. -/
def fill (srt : List Rat → List Nat) (p : Prof) (k : Kind) (fillv : Rat) (crop : Bool) : Res Prof :=
  if p.m.any id = false then .ok p
  else if crop then .error .typeError
  else match fillData p k fillv with
    | .ok y => new srt p.x y (.flag false) p.ux p.uy
    | .error e => .error e

/-- `fill(kind, fill_value, inplace=True)`, profile.py:1549-1612. -/
def fillInplace (p : Prof) (k : Kind) (fillv : Rat) : Prof × Res PUnit :=
  if p.m.any id = false then (p, .ok ⟨⟩)
  else match fillData p k fillv with
    | .ok y => setMask (setY p y) (List.replicate y.length false)
    | .error e => (p, .error e)

/-! ### Interpolation -/

/-- The interpolated value of profile.py:596-598; masked when a value is masked. -/
def interp (v a a' : Rat) (w w' : F) : F :=
  match w, w' with
  | some w, some w' => some ((w * |a' - v| + w' * |a - v|) / |a - a'|)
  | _, _ => none

/-- The test of profile.py:594-595; comparisons with a masked value are false. -/
def crosses (v : Rat) : F → F → Bool
  | some a, some a' => decide ((a ≥ v ∧ a' < v) ∨ (a ≤ v ∧ a' > v))
  | _, _ => false

/-- The loop of profile.py:588-599 over the pairs of neighbours. -/
def scan (v : Rat) : List (F × F) → List F
  | p :: q :: l =>
    if crosses v p.1 q.1 then interp v (p.1.getD 0) (q.1.getD 0) p.2 q.2 :: scan v (q :: l) else scan v (q :: l)
  | _ => []

/-- `_get_interpolated_single_value`, profile.py:539-602, on `values` zipped with `values2`. -/
def single (l : List (F × F)) (v : Rat) : List F :=
  if l.any fun p => p.1 = some v then (l.filter fun p => p.1 = some v).map Prod.snd else scan v l

/-- `get_interpolated_values(x=v)`, profile.py:515-517. -/
def atX (p : Prof) (v : Rat) : List F := single ((p.x.map some).zip (getY p)) v

/-- `get_interpolated_values(y=v)`, profile.py:527-529. -/
def atY (p : Prof) (v : Rat) : List F := single ((getY p).zip (p.x.map some)) v

/-- `get_interpolated_values(x=[..])`, profile.py:518-526. -/
def atXs (p : Prof) (vs : List Rat) : List F := vs.map fun v => ((atX p v).head?).getD none

/-- The sign change of profile.py:631-635 between two neighbours; false next to a masked point. -/
def changes (v : Rat) : F → F → Bool
  | some a, some b => decide (a - v > 0) != decide (b - v > 0)
  | _, _ => false

/-- The loop of profile.py:636-648 over the pairs of neighbours: `x_1 + val_1/(val_1 + val_2)*(x_2 - x_1)`. -/
def positions (v : Rat) : List (Rat × F) → List Rat
  | p :: q :: l =>
    if changes v p.2 q.2 then
      (p.1 + |p.2.getD 0 - v| / (|p.2.getD 0 - v| + |q.2.getD 0 - v|) * (q.1 - p.1)) :: positions v (q :: l)
    else positions v (q :: l)
  | _ => []

/-- `get_value_position(v)`, profile.py:604-650: `np.argwhere(self.y == value)[0]` is the first position only.  (Line 628
writes zeros under the mask of the profile; the getter of `y` puts NaN back at the next access.) -/
def valuePosition (p : Prof) (v : Rat) : List Rat :=
  if (pts p).any fun r => r.2 = some v then (((pts p).filter fun r => r.2 = some v).map Prod.fst).take 1
  else positions v (pts p)

/-! ### Arithmetic -/

/-- `(a / b).asNumber()` for two units of the same dimension. -/
def fact (a b : Sym) : Rat := a.size / b.size

/-- Sum of floats. -/
def addF : F → F → F
  | some a, some b => some (a + b)
  | _, _ => none

/-- `self + number`, profile.py:99-103. -/
def addNum (srt : List Rat → List Nat) (p : Prof) (c : Rat) : Res Prof :=
  new srt p.x ((getY p).map (Option.map (· + c))) (.arr p.m) p.ux p.uy

/-- `-self`, profile.py:95-97. -/
def neg (srt : List Rat → List Nat) (p : Prof) : Res Prof :=
  new srt p.x ((getY p).map (Option.map fun v => -v)) (.arr p.m) p.ux p.uy

/-- `self + other`, profile.py:108-125.  The factor is `self.unit_y/otherone.unit_y`. -/
def add (srt : List Rat → List Nat) (p q : Prof) : Res Prof :=
  if ¬ (p.ux.Compat q.ux ∧ p.uy.Compat q.uy) then .error .valueError
  else if p.x.length ≠ q.x.length then .error .valueError
  else if p.x ≠ q.x then .error .valueError
  else new srt p.x (List.zipWith addF (getY p) ((getY q).map (Option.map (fact p.uy q.uy * ·))))
    (.arr (List.zipWith (· || ·) p.m q.m)) p.ux p.uy

/-- `self * number`, profile.py:136-138, 181-182: no mask is given to the constructor. -/
def mulNum (srt : List Rat → List Nat) (p : Prof) (c : Rat) : Res Prof :=
  new srt p.x ((getY p).map (Option.map (· * c))) (.flag false) p.ux p.uy

/-- `np.power(v, k)` for a natural `k`: `NaN ** 0` is 1. -/
def powF (k : Nat) (v : F) : F := if k = 0 then some 1 else v.map (· ^ k)

/-- `k`-th power of a unit. -/
def powU (u : Sym) (k : Nat) : Sym := ⟨u.len * k, u.time * k, u.mass * k, u.size ^ k⟩

/-- `self ** k`, profile.py:215-222, for a natural `k`. -/
def pow (srt : List Rat → List Nat) (p : Prof) (k : Nat) : Res Prof :=
  new srt p.x ((getY p).map (powF k)) (.flag false) p.ux (powU p.uy k)

/-- Quotient of floats, with a non-zero divisor. -/
def divF : F → F → F
  | some a, some b => some (a / b)
  | _, _ => none

/-- `y_tmp[otherone.y == 0] = np.NaN`, profile.py:203-204. -/
def nanAtZero (y z : List F) : List F := List.zipWith (fun v w => if w = some 0 then none else v) y z

/-- `otherone.y[otherone.y == 0] = 1`, profile.py:205: the array of the divisor is rewritten. -/
def oneAtZero (z : List F) : List F := z.map fun w => if w = some 0 then some 1 else w

/-- `self / other` for two profiles, profile.py:197-211: the state of the divisor afterwards, and the result.  The numeric
part of the quotient of units is 1 (the size of the units is in `Sym`).  Arrays of different lengths are compared as
different. -/
def div (srt : List Rat → List Nat) (p q : Prof) : Prof × Res Prof :=
  if p.x ≠ q.x then (q, .error .valueError)
  else ({ q with y := oneAtZero (getY q) },
    new srt p.x (List.zipWith divF (nanAtZero (getY p) (getY q)) (oneAtZero (getY q)))
      (.arr (List.zipWith (· || ·) p.m q.m)) p.ux (p.uy.div q.uy))

/-! ### Other modifications -/

/-- `scale(scalex, scaley, inplace=True)` with numbers, profile.py:1517-1520. -/
def scale (srt : List Rat → List Nat) (p : Prof) (sx sy : Rat) : Prof × Res PUnit :=
  if sx ≠ 1 then
    match setX srt p (p.x.map (· * sx)) with
    | (q, .ok _) => if sy ≠ 1 then (setY q ((getY q).map (Option.map (· * sy))), .ok ⟨⟩) else (q, .ok ⟨⟩)
    | (q, .error e) => (q, .error e)
  else if sy ≠ 1 then (setY p ((getY p).map (Option.map (· * sy))), .ok ⟨⟩) else (p, .ok ⟨⟩)

/-- `change_unit('x', u)`, profile.py:1693-1698. -/
def changeUnitX (srt : List Rat → List Nat) (p : Prof) (u : Sym) : Prof × Res PUnit :=
  if p.ux.Compat u then
    match setX srt p (p.x.map (· * fact p.ux u)) with
    | (q, .ok _) => ({ q with ux := u }, .ok ⟨⟩)
    | (q, .error e) => (q, .error e)
  else (p, .error .valueError)

/-- `change_unit('y', u)`, profile.py:1699-1704. -/
def changeUnitY (p : Prof) (u : Sym) : Prof × Res PUnit :=
  if p.uy.Compat u then ({ setY p ((getY p).map (Option.map (· * fact p.uy u))) with uy := u }, .ok ⟨⟩)
  else (p, .error .valueError)

/-- `remove_nans(inplace=True)`, profile.py:1858-1872. -/
def removeNans (srt : List Rat → List Nat) (p : Prof) : Prof × Res PUnit :=
  if (getY p).any Option.isNone then
    setX srt (setY p (sel (getY p) ((getY p).map Option.isSome))) (sel p.x ((getY p).map Option.isSome))
  else (p, .ok ⟨⟩)

/-- `np.max(self.y[~self.mask])`, profile.py:361-377; `none` is `None`. -/
def max? (p : Prof) : Option Rat := ((valid p).map Prod.snd).max?

/-- `np.min(self.y[~self.mask])`, profile.py:380-396. -/
def min? (p : Prof) : Option Rat := ((valid p).map Prod.snd).min?

/-- `np.trapz(y, x)`. -/
def trapz : List (Rat × Rat) → Rat
  | a :: b :: l => (b.1 - a.1) * (a.2 + b.2) / 2 + trapz (b :: l)
  | _ => 0

/-- `get_integral()`, profile.py:652-661: the number and its unit. -/
def integral (p : Prof) : Rat × Sym := (trapz (valid p), p.uy.mul p.ux)

/-! ### Histories -/

/-- The operations of a history. -/
inductive Op where
  | addPoint (x : Rat) (y : F)
  | addPoints (q : Prof)
  | removePoint (i : Int)
  | crop (ix iy : Option (Rat × Rat))
  | cropInd (i j : Int)
  | cropMaskedBorder
  | scale (sx sy : Rat)
  | changeUnitX (u : Sym)
  | changeUnitY (u : Sym)
  | removeNans

def Op.run (srt : List Rat → List Nat) : Op → Prof → Prof × Res PUnit
  | .addPoint x y, p => Profile.addPoint srt p x y
  | .addPoints q, p => Profile.addPoints srt p q
  | .removePoint i, p => Profile.removePoint srt p i
  | .crop ix iy, p => finishInplace srt p (cropData p ix iy)
  | .cropInd i j, p => finishInplace srt p (cropIndData p i j)
  | .cropMaskedBorder, p => Profile.cropMaskedBorder srt p
  | .scale sx sy, p => Profile.scale srt p sx sy
  | .changeUnitX u, p => Profile.changeUnitX srt p u
  | .changeUnitY u, p => Profile.changeUnitY p u
  | .removeNans, p => Profile.removeNans srt p

/-- The state after a history, errors being caught by the caller. -/
def after (srt : List Rat → List Nat) (p : Prof) (h : List Op) : Prof := h.foldl (fun s o => (o.run srt s).1) p

/-! ### Specification -/

/-- One value and one mask flag per abscissa, abscissae sorted, NaN exactly where masked. -/
def Valid (p : Prof) : Prop :=
  p.y.length = p.x.length ∧ p.m = p.y.map Option.isNone ∧ p.x.Pairwise (· ≤ ·)

end IMT.Profile
