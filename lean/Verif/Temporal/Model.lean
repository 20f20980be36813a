import Verif.Scalar.ArithModel
import Verif.Scalar.BorderModel
import Verif.Profile.Model

/-!
Model of `TemporalFields` (`/repo/IMTreatment/core/temporalfields.py`, `/repo/IMTreatment/core/fields.py`) holding scalar
fields, i.e. of `TemporalScalarFields` (`/repo/IMTreatment/core/temporalscalarfields.py`).

Fields are values: `add_field` stores a deep copy (core/fields.py:133-134), so a container shares nothing with its caller
(`copy=False` is not modelled).  `np.argsort` is a parameter, as in the model of profiles.  Operations that work in place
return the state of the object with the outcome, so that the state left behind by an exception is visible.
-/

namespace IMT.Temporal

/-- A `TemporalScalarFields`, core/temporalfields.py:45-56: the axes and units of the parent `Field`, the times, their unit
and the contained fields.  `nd` tells whether the attribute `fields` is a numpy array or a python list. -/
structure TF where
  ax : List Rat
  ay : List Rat
  ux : Sym
  uy : Sym
  times : List Rat
  ut : Sym
  fields : List SF
  nd : Bool

/-- `TemporalScalarFields()`, core/temporalfields.py:45-56. -/
def TF.empty : TF := ⟨[], [], Sym.one, Sym.one, [], Sym.one, [], false⟩

/-- A function that may raise, applied to each element of a list in order. -/
def mapRes {α β : Type} (g : α → Res β) : List α → Res (List β)
  | [] => .ok []
  | a :: l => match g a with
    | .error e => .error e
    | .ok b => match mapRes g l with
      | .error e => .error e
      | .ok k => .ok (b :: k)

/-! ### storing and removing fields -/

/-- The setter of `times`, core/temporalfields.py:240-248. -/
def setTimes (t : TF) (v : List Rat) : TF × Res PUnit :=
  if t.fields.length ≠ v.length then (t, .error .valueError) else ({ t with times := v }, .ok ⟨⟩)

/-- `__sort_field_by_time`, core/temporalfields.py:1555-1560. -/
def sortByTime (srt : List Rat → List Nat) (t : TF) : TF × Res PUnit :=
  if t.fields.length ≤ 1 then (t, .ok ⟨⟩)
  else if t.fields.length ≠ (Profile.take t.times (srt t.times)).length then (t, .error .valueError)
  else ({ t with times := Profile.take t.times (srt t.times), fields := Profile.take t.fields (srt t.times) }, .ok ⟨⟩)

/-- The time stored for a field added with time `time` in unit `u`, core/temporalfields.py:1136:
`(time*self.unit_times/unit_times).asNumber()`. -/
def storedTime (t : TF) (time : Rat) (u : Sym) : Rat := time * SF.unitNum (t.ut.div u)

/-- `add_field(field, time, unit_times)`, core/temporalfields.py:1085-1142 and core/fields.py:123-138.  The test on the axes
(1131-1134) reads `not (same x) and (same y)`; axes of different lengths compare as different. -/
def addField (srt : List Rat → List Nat) (t : TF) (f : SF) (time : Rat) (u : Sym) : TF × Res PUnit :=
  if t.fields.length = 0 then
    (⟨f.ax, f.ay, f.ux, f.uy, [time], u, [f], true⟩, .ok ⟨⟩)
  else if t.ax ≠ f.ax ∧ t.ay = f.ay then (t, .error .valueError)
  else sortByTime srt { t with times := t.times ++ [storedTime t time u], fields := t.fields ++ [f], nd := true }

/-- The position designated by a python index in a list of length `n`. -/
def pyIdx (n : Nat) (i : Int) : Option Nat :=
  if 0 ≤ i ∧ i < n then some i.toNat
  else if -n ≤ i ∧ i < 0 then some (n + i).toNat
  else none

/-- `for nmb in numbers: l = np.delete(l, nmb)`, core/temporalfields.py:1155-1156, core/fields.py:151-152; `false` when
`np.delete` raises IndexError, with what is left at this point. -/
def deleteAll {α : Type} (l : List α) : List Int → List α × Bool
  | [] => (l, true)
  | i :: is => match pyIdx l.length i with
    | none => (l, false)
    | some k => deleteAll (l.eraseIdx k) is

/-- `remove_fields(fieldnumbers)`, core/temporalfields.py:1144-1157, and `Fields.remove_field`, core/fields.py:140-152.  An
integer is the list holding it. -/
def removeFields (t : TF) (is : List Int) : TF × Res PUnit :=
  match deleteAll t.times is with
  | (ts, false) => ({ t with times := ts }, .error .indexError)
  | (ts, true) => match deleteAll t.fields is with
    | (fs, false) => ({ t with times := ts, fields := fs }, .error .indexError)
    | (fs, true) => ({ t with times := ts, fields := fs, nd := t.nd || decide (is ≠ []) }, .ok ⟨⟩)

/-! ### cropping -/

/-- First index of the kept fields, core/temporalfields.py:1505-1510. -/
def cropLo (ts : List Rat) (first last a : Rat) : Res Nat :=
  if a < first then .ok 0
  else if a > last then .error .valueError
  else .ok (ts.findIdx fun x => decide (a ≤ x))

/-- Last index of the kept fields, core/temporalfields.py:1511-1516. -/
def cropHi (ts : List Rat) (first last b : Rat) : Res Nat :=
  if b > last then .ok (ts.length - 1)
  else if b < first then .error .valueError
  else .ok (ts.length - 1 - ts.reverse.findIdx fun x => decide (b ≥ x))

/-- The indices `intervt`, core/temporalfields.py:1503-1517 (`ind=False`); `self.times[0]` raises IndexError for an empty
container. -/
def cropTimeInds (ts : List Rat) (a b : Rat) : Res (Nat × Nat) :=
  match ts.head?, ts.getLast? with
  | some first, some last => match cropLo ts first last a, cropHi ts first last b with
    | .ok i, .ok j => .ok (i, j)
    | .error e, _ => .error e
    | _, .error e => .error e
  | _, _ => .error .indexError

/-- `fields[i:j + 1]`, `times[i:j + 1]`, core/temporalfields.py:1527-1528. -/
def cutTime (t : TF) (i j : Nat) : TF :=
  { t with fields := slice t.fields i (j + 1), times := slice t.times i (j + 1) }

/-- The temporal part of `crop`, core/temporalfields.py:1498-1528, `ind=False`. -/
def cropTime (t : TF) (it : Option (Rat × Rat)) : Res TF :=
  match it with
  | none => .ok t
  | some (a, b) => match cropTimeInds t.times a b with
    | .error e => .error e
    | .ok (i, j) => .ok (cutTime t i j)

/-- The parent `Field` seen as a field without values: `Field.crop` works on its axes only (core/field.py:478-576). -/
def TF.frame (t : TF) : SF :=
  ⟨t.ax, t.ay, Grid.const t.ax.length t.ay.length none, Grid.const t.ax.length t.ay.length true, t.ux, t.uy, Sym.one⟩

/-- The spatial part of `crop`, core/temporalfields.py:1529-1534: the parent, then every field. -/
def cropSpace (t : TF) (ix iy : Option (Rat × Rat)) : Res TF :=
  match t.frame.crop ix iy with
  | .error e => .error e
  | .ok g => match mapRes (fun f : SF => f.crop ix iy) t.fields with
    | .error e => .error e
    | .ok fs => .ok { t with ax := g.ax, ay := g.ay, fields := fs }

/-- `crop(intervx, intervy, intervt)`, core/temporalfields.py:1477-1537, `ind=False`, `inplace=False`. -/
def crop (t : TF) (ix iy it : Option (Rat × Rat)) : Res TF :=
  match cropTime t it with
  | .error e => .error e
  | .ok t1 => cropSpace t1 ix iy

/-- `crop(intervt=[i, j], ind=True)`, core/temporalfields.py:1518-1534, for indices that are not negative, without the
spatial part: with `ind=True` and no spatial interval the slices are `[0:len + 1]`, i.e. everything
(core/field.py:499-508). -/
def cropTimeInd (t : TF) (i j : Nat) : TF := cutTime t i j

/-! ### statistics -/

/-- `mask_cum`, core/temporalfields.py:305-306, 314: the number of fields that are valid at a cell. -/
def validCount (fs : List SF) (i j : Nat) : Nat := (fs.filter fun f => !f.mask.get i j).length

/-- `result_f += added_field` for the fields after the first, core/temporalfields.py:308-313. -/
def sumFilled : SF → List SF → Res SF
  | acc, [] => .ok acc
  | acc, f :: fs => match acc.add (f.fillValue 0) with
    | .error e => .error e
    | .ok g => sumFilled g fs

/-- `mask = mask_cum <= nmb_min` and `fact`, core/temporalfields.py:315-319. -/
def fewMask (t : TF) (nmin : Nat) : Grid Bool :=
  ⟨t.ax.length, t.ay.length, fun i j => decide (validCount t.fields i j ≤ nmin)⟩

/-- `fact`, core/temporalfields.py:318-319. -/
def meanFact (t : TF) (nmin : Nat) : Grid (Option Rat) :=
  ⟨t.ax.length, t.ay.length, fun i j =>
    if validCount t.fields i j ≤ nmin then some 1 else some (validCount t.fields i j : Rat)⟩

/-- The end of `get_mean_field`, core/temporalfields.py:315-321: the setter of the mask refuses another shape. -/
def meanEnd (t : TF) (nmin : Nat) (s : SF) : Res SF :=
  if s.ax.length ≠ t.ax.length ∨ s.ay.length ≠ t.ay.length then .error .valueError
  else (s.setMask (fewMask t nmin)).divArr (meanFact t nmin)

/-- `get_mean_field(nmb_min)`, core/temporalfields.py:281-323, for fields of floats (`dtype` and `xy_scale` not modelled;
the boolean indexing of `mask_cum` by the mask of a field of another shape, which raises IndexError, is not modelled). -/
def meanField (t : TF) (nmin : Nat) : Res SF :=
  match t.fields with
  | [] => .error .valueError
  | f :: fs => match sumFilled (f.fillValue 0) fs with
    | .error e => .error e
    | .ok s => meanEnd t nmin s

/-- Comparison of floats: false as soon as one is NaN. -/
def fcmp (lt : Rat → Rat → Bool) : Option Rat → Option Rat → Bool
  | some a, some b => lt a b
  | _, _ => false

/-- One turn of the loop of `get_min_field` / `get_max_field`, core/temporalscalarfields.py:65-68, 92-95: `field.values`
is compared with `result_f.values`, whatever the units. -/
def extStep (lt : Rat → Rat → Bool) (acc : Nat → Nat → Option Rat) (f : SF) : Nat → Nat → Option Rat :=
  fun i j => if fcmp lt (f.cell i j) (acc i j) && !f.mask.get i j then f.cell i j else acc i j

/-- `get_min_field(nmb_min)` (`lt` is `<`) and `get_max_field(nmb_min)` (`lt` is `>`), core/temporalscalarfields.py:51-106. -/
def extField (lt : Rat → Rat → Bool) (t : TF) (nmin : Nat) : Res SF :=
  match t.fields with
  | [] => .error .valueError
  | f :: fs => .ok { f with val := ⟨f.val.nx, f.val.ny, fs.foldl (extStep lt) f.cell⟩, mask := fewMask t nmin }

/-- `get_min_field(nmb_min)`, core/temporalscalarfields.py:51-75. -/
def minField (t : TF) (nmin : Nat) : Res SF := extField (fun a b => decide (a < b)) t nmin
/-- `get_max_field(nmb_min)`, core/temporalscalarfields.py:77-101. -/
def maxField (t : TF) (nmin : Nat) : Res SF := extField (fun a b => decide (a > b)) t nmin

/-! ### interpolation and resolution in time -/

/-- The combination of two neighbouring fields, core/temporalfields.py:337-341. -/
def blend (t0 t1 : Rat) (f0 f1 : SF) (time : Rat) : Res SF :=
  (f1.mulNum ((time - t0) / (t1 - t0))).add (f0.mulNum ((t1 - time) / (t1 - t0)))

/-- `get_interpolated_field(time)`, core/temporalfields.py:325-346.  A failing `assert` is `exception`; indexing a python
list with a boolean array raises TypeError (334). -/
def interpField (t : TF) (time : Rat) : Res SF :=
  match t.times.head?, t.times.getLast? with
  | some first, some last =>
    if time < first ∨ last < time then .error .exception
    else if time ∈ t.times then
      if t.nd then match t.fields[t.times.findIdx fun x => decide (x = time)]? with
        | some f => .ok f
        | none => .error .indexError
      else .error .typeError
    else match t.times[(t.times.findIdx fun x => decide (x > time)) - 1]?, t.times[t.times.findIdx fun x => decide (x > time)]?,
        t.fields[(t.times.findIdx fun x => decide (x > time)) - 1]?, t.fields[t.times.findIdx fun x => decide (x > time)]? with
      | some t0, some t1, some f0, some f1 => blend t0 t1 f0 f1 time
      | _, _, _, _ => .error .indexError
  | _, _ => .error .indexError

/-- `ScalarField.__truediv__` with a number, core/scalarfield.py:162-165. -/
def divNum (f : SF) (q : Rat) : SF := f.setValues (f.values.map (Option.map (· / q)))

/-- `for j in ...: tmp_f += self[j]`, core/temporalfields.py:1227-1228. -/
def sumFields : SF → List SF → Res SF
  | acc, [] => .ok acc
  | acc, f :: fs => match acc.add f with
    | .error e => .error e
    | .ok g => sumFields g fs

/-- The field and the time computed for the interval starting at `i`, core/temporalfields.py:1223-1231. -/
def interval (t : TF) (n : Nat) (mean : Bool) (i : Nat) : Res (SF × Rat) :=
  match slice t.fields i (i + n), slice t.times i (i + n) with
  | f :: fs, x :: xs =>
    if mean then match sumFields f fs with
      | .error e => .error e
      | .ok g => .ok (divNum g n, (x :: xs).sum / n)
    else .ok (f, x)
  | _, _ => .error .indexError

/-- The loop of `reduce_temporal_resolution`, core/temporalfields.py:1222-1235; `none` when the fuel runs out. -/
def reduceLoop (srt : List Rat → List Nat) (t : TF) (n : Nat) (mean : Bool) : Nat → Nat → TF → Option (Res TF)
  | 0, _, _ => none
  | fuel + 1, i, acc => match interval t n mean i with
    | .error e => some (.error e)
    | .ok (f, x) => match addField srt acc f x t.ut with
      | (_, .error e) => some (.error e)
      | (acc', .ok _) =>
        if t.fields.length ≤ i + n + n then some (.ok acc') else reduceLoop srt t n mean fuel (i + n) acc'

/-- `reduce_temporal_resolution(n, mean)`, core/temporalfields.py:1188-1242, `inplace=False`, integer `n`. -/
def reduceTemporal (srt : List Rat → List Nat) (t : TF) (n : Int) (mean : Bool) (fuel : Nat) : Option (Res TF) :=
  if n ≤ 0 then some (.error .typeError)
  else if n = 1 then some (.ok t)
  else if t.fields.length ≤ n.toNat then some (.error .valueError)
  else reduceLoop srt t n.toNat mean fuel 0 TF.empty

/-- `np.linspace(a, b, fact + 1)[0:-1]`, core/temporalfields.py:1272-1273. -/
def linspaceCut (a b : Rat) (fact : Nat) : List Rat := (List.range fact).map fun k : Nat => a + k * ((b - a) / fact)

/-- The loop on the intervals, core/temporalfields.py:1270-1276: all new times but the last. -/
def finerTimes (fact : Nat) : List Rat → List Rat
  | a :: b :: l => linspaceCut a b fact ++ finerTimes fact (b :: l)
  | _ => []

/-- `augment_temporal_resolution(fact)`, core/temporalfields.py:1244-1287: the resulting container.  The new `fields` is a
python list. -/
def augment (t : TF) (fact : Int) : Res TF :=
  if fact ≤ 0 then .error .exception
  else if fact = 1 then .ok t
  else match t.times.getLast? with
    | none => .error .indexError
    | some last => match mapRes (interpField t) (finerTimes fact.toNat t.times ++ [last]) with
      | .error e => .error e
      | .ok fs => .ok { t with fields := fs, times := finerTimes fact.toNat t.times ++ [last], nd := false }

/-! ### arithmetic -/

/-- `add_field` for each field of a list, with the default time and unit, stopping at the first exception. -/
def addAll (srt : List Rat → List Nat) (t : TF) : List SF → Res TF
  | [] => .ok t
  | f :: fs => match addField srt t f 0 Sym.one with
    | (_, .error e) => .error e
    | (t', .ok _) => addAll srt t' fs

/-- Pairwise operation on the fields of two containers. -/
def zipRes (op : SF → SF → Res SF) : List SF → List SF → Res (List SF)
  | f :: fs, g :: gs => match op f g with
    | .error e => .error e
    | .ok h => match zipRes op fs gs with
      | .error e => .error e
      | .ok hs => .ok (h :: hs)
  | _, _ => .ok []

/-- `tf + other` for another container, core/temporalfields.py:63-71. -/
def addTF (srt : List Rat → List Nat) (t o : TF) : Res TF :=
  if t.times = o.times then match zipRes SF.add t.fields o.fields with
    | .error e => .error e
    | .ok fs => .ok { t with fields := fs }
  else addAll srt t o.fields

/-- `tf + field`, core/temporalfields.py:59-63 (`self.fields[0]` raises IndexError when there is none). -/
def addSF (t : TF) (g : SF) : Res TF :=
  if t.fields.length = 0 then .error .indexError
  else match mapRes (fun f : SF => f.add g) t.fields with
    | .error e => .error e
    | .ok fs => .ok { t with fields := fs }

/-- `tf + number`, core/temporalfields.py:72-76. -/
def addNum (t : TF) (q : Rat) : Res TF :=
  if t.fields.length = 0 then .error .indexError else .ok { t with fields := t.fields.map fun f => f.addNum q }

/-- `-tf`, core/temporalfields.py:84-88. -/
def neg (t : TF) : TF := { t with fields := t.fields.map SF.neg }

/-- `tf1 - tf2`, core/temporalfields.py:81-82. -/
def subTF (srt : List Rat → List Nat) (t o : TF) : Res TF := addTF srt t (neg o)

/-- `tf * number`, core/temporalfields.py:103-107. -/
def mulNum (srt : List Rat → List Nat) (t : TF) (q : Rat) : Res TF :=
  addAll srt TF.empty (t.fields.map fun f => f.mulNum q)

/-- The tests common to products and quotients of containers, core/temporalfields.py:92-98, 117-123. -/
def compatible (t o : TF) : Bool :=
  decide (t.fields.length = o.fields.length) && !(decide (t.ax ≠ o.ax) && decide (t.ay = o.ay)) && decide (t.times = o.times)

/-- `tf1 * tf2` (`op` is the product) and `tf1 / tf2` (`op` is the quotient), core/temporalfields.py:92-102, 116-127. -/
def opTF (srt : List Rat → List Nat) (op : SF → SF → Res SF) (t o : TF) : Res TF :=
  if compatible t o = false then .error .exception
  else match zipRes op t.fields o.fields with
    | .error e => .error e
    | .ok fs => addAll srt TF.empty fs

/-- `tf / number`, core/temporalfields.py:136-141: the number itself is given to `add_field`. -/
def divNumTF (t : TF) (_q : Rat) : Res TF := if t.fields.length = 0 then .ok TF.empty else .error .typeError

/-! ### geometry -/

/-- The setter of `axe_x`, core/temporalfields.py:177-182: the contained fields follow the parent. -/
def setAxeX (t : TF) (v : List Rat) : TF := { t with ax := v, fields := t.fields.map fun f : SF => { f with ax := v } }
/-- The setter of `axe_y`, core/temporalfields.py:184-189. -/
def setAxeY (t : TF) (v : List Rat) : TF := { t with ay := v, fields := t.fields.map fun f : SF => { f with ay := v } }
/-- The setter of `unit_x`, core/temporalfields.py:191-195. -/
def setUnitX (t : TF) (u : Sym) : TF := { t with ux := u, fields := t.fields.map fun f : SF => { f with ux := u } }
/-- The setter of `unit_y`, core/temporalfields.py:197-201. -/
def setUnitY (t : TF) (u : Sym) : TF := { t with uy := u, fields := t.fields.map fun f : SF => { f with uy := u } }

/-- `Field.scale` on the x axis of the parent, core/field.py:315-334, through the setters above. -/
def scaleX (t : TF) (s : Option Unum) : TF :=
  match s with
  | none => t
  | some u => setAxeX (setUnitX t (SF.scaleAxis t.ax t.ux (some u)).2.1) (SF.scaleAxis t.ax t.ux (some u)).1

/-- `Field.scale` on the y axis of the parent, core/field.py:335-354. -/
def scaleY (t : TF) (s : Option Unum) : TF :=
  match s with
  | none => t
  | some u => setAxeY (setUnitY t (SF.scaleAxis t.ay t.uy (some u)).2.1) (SF.scaleAxis t.ay t.uy (some u)).1

/-- The scaling of the times, core/temporalfields.py:1014-1026. -/
def scaleT (t : TF) (s : Option Unum) : TF :=
  match s with
  | none => t
  | some u => { t with times := t.times.map (· * u.num), ut := t.ut.mul u.sym }

/-- `scale(scalex, scaley, scalev, scalet)`, core/temporalfields.py:987-1029: the parent first (the setters of the axes
reach the fields), then the values of each field (core/fields.py:57-80), then the times.  A plain number does not touch the
unit: in the model it is a Unum with the dimensionless symbol. -/
def scale (t : TF) (sx sy sv st : Option Unum) : TF :=
  scaleT { scaleY (scaleX t sx) sy with
    fields := (scaleY (scaleX t sx) sy).fields.map fun f => f.scale none none sv } st

/-- The x part of `Field.set_origin`, core/field.py:470-472. -/
def originX (t : TF) (x : Option Rat) : TF :=
  match x with
  | none => t
  | some x => setAxeX t (t.ax.map (· - x))

/-- The y part of `Field.set_origin`, core/field.py:473-476. -/
def originY (t : TF) (y : Option Rat) : TF :=
  match y with
  | none => t
  | some y => setAxeY t (t.ay.map (· - y))

/-- `set_origin(x, y)`, core/temporalfields.py:1539-1548: `Field.set_origin` on the parent, through the setters. -/
def setOrigin (t : TF) (x y : Option Rat) : TF := originY (originX t x) y

/-- `change_unit` for the three quantities of the fields, core/temporalfields.py:1052-1083: every field first, then the
parent, whose setters (core/field.py:445-456) overwrite the axis and the unit of the fields. -/
def changeUnit (t : TF) (w : SF.Which) (new : Sym) : Res TF :=
  match mapRes (fun f : SF => f.changeUnit w new) t.fields with
  | .error e => .error e
  | .ok fs => match w with
    | .x => (Unum.asUnit ⟨1, t.ux⟩ ⟨1, new⟩).map fun u =>
        setAxeX (setUnitX { t with fields := fs } u.sym) (t.ax.map (· * u.num))
    | .y => (Unum.asUnit ⟨1, t.uy⟩ ⟨1, new⟩).map fun u =>
        setAxeY (setUnitY { t with fields := fs } u.sym) (t.ay.map (· * u.num))
    | .values => .ok { t with fields := fs }

/-- `change_unit('time', new)`, core/temporalfields.py:1073-1078. -/
def changeUnitTime (t : TF) (new : Sym) : Res TF :=
  (Unum.asUnit ⟨1, t.ut⟩ ⟨1, new⟩).map fun u => { t with times := t.times.map (· * u.num), ut := u.sym }

/-- `rotate(angle)`, core/fields.py:82-121: the parent (core/field.py:367-425 writes its own axes, not those of the
fields), then each field. -/
def rotate (t : TF) (angle : Int) : Res TF :=
  if angle % 90 ≠ 0 then .error .valueError
  else match t.frame.rotate (angle % 360) with
    | .error e => .error e
    | .ok g => match mapRes (fun f : SF => f.rotate (angle % 360)) t.fields with
      | .error e => .error e
      | .ok fs => .ok { t with ax := g.ax, ay := g.ay, ux := g.ux, uy := g.uy, fields := fs }

end IMT.Temporal
