import Verif.Reshape.Model
import Verif.Scalar.ValueModel
import Verif.Turb.Model

/-!
Model of `make_evenly_spaced` of scalar fields (`/repo/IMTreatment/core/scalarfield.py`, "sf.py"), vector fields
(`/repo/IMTreatment/core/vectorfield.py`, "vf.py") and records of them (`/repo/IMTreatment/core/temporalfields.py`, "tf.py"), and of
`reduce_spatial_resolution` of vector fields and records.

The interpolator of `scipy` is a parameter; NaN among the values it is given are not modelled.  Rounding is not modelled.
-/

namespace IMT.Even

open Reshape (linspace)
open Mirror (compX compY)
open Turb (TVF)
open Temporal (TF mapRes)

/-- `scipy.interpolate.interp2d(axe_x, axe_y, values.T, kind='linear')(x, y)`, sf.py:1139-1141. -/
abbrev Lin2 := List Rat → List Rat → (Nat → Nat → Rat) → Rat → Rat → Rat

/-- `axe[1:] - axe[:-1]`. -/
def steps (l : List Rat) : List Rat := List.zipWith (fun a b => b - a) l l.tail

/-- `Dx/dx`, sf.py:1947-1950. -/
def quot (l : List Rat) (res : Rat) : Rat := (l.getLast?.getD 0 - l.head?.getD 0) / ((steps l).min?.getD 0 / res)

/-- `np.linspace(axe[0], axe[-1], n)`. -/
def points (l : List Rat) : Nat → List Rat
  | 0 => []
  | n + 1 => linspace (l.head?.getD 0) (l.getLast?.getD 0) n

/-- `new_x`, sf.py:1947-1956: `np.min` raises for an axis of one point, `np.linspace` for a negative number. -/
def newAxis (l : List Rat) (res : Rat) : Res (List Rat) :=
  if l.length < 2 then .error .valueError
  else if quot l res ≤ -1 then .error .valueError
  else .ok (points l (quot l res).floor.toNat)

/-- `make_evenly_spaced('linear', res)`, sf.py:1931-1962. -/
def evenly (I : Lin2) (res : Rat) (f : SF) : Res SF :=
  match newAxis f.ax res, newAxis f.ay res with
  | .ok x, .ok y => SF.importArrays x y ⟨x.length, y.length, fun i j => some (I f.ax f.ay (fun i j => (f.cell i j).getD 0) (x.getD i 0) (y.getD j 0))⟩
      (.bool false) f.ux f.uy f.uv
  | .error e, _ => .error e
  | _, .error e => .error e

/-- `VectorField.make_evenly_spaced('linear', res)`, vf.py:884-908. -/
def evenlyV (I : Lin2) (res : Rat) (f : VF) : Res VF :=
  match compX f, compY f with
  | .ok sx, .ok sy => match evenly I res sx, evenly I res sy with
    | .ok gx, .ok gy => VF.importArrays gx.ax gx.ay gx.values gy.values (.bool false) f.ux f.uy f.uv
    | .error e, _ => .error e
    | _, .error e => .error e
  | .error e, _ => .error e
  | _, .error e => .error e

/-- `make_evenly_spaced` of a record of scalar fields, tf.py:1031-1049. -/
def evenlyT (I : Lin2) (res : Rat) (t : TF) : Res TF :=
  match mapRes (evenly I res) t.fields with
  | .error e => .error e
  | .ok [] => .error .indexError
  | .ok (g :: l) => .ok { t with fields := g :: l, ax := g.ax, ay := g.ay }

/-- `make_evenly_spaced` of a record of vector fields, tf.py:1031-1049. -/
def evenlyTV (I : Lin2) (res : Rat) (t : TVF) : Res TVF :=
  match mapRes (evenlyV I res) t.fields with
  | .error e => .error e
  | .ok [] => .error .indexError
  | .ok (g :: l) => .ok { t with fields := g :: l, ax := g.ax, ay := g.ay }

/-! ### reduction of the resolution -/

/-- `VectorField.reduce_spatial_resolution(fact, inplace)`, vf.py:1188-1218.  With `inplace`, `self.__init__()` has reset the units before they are
read again. -/
def reduceV (f : VF) (fact : Nat) (inplace : Bool) : Res VF :=
  match compX f, compY f with
  | .ok sx, .ok sy => match sx.reduce fact true, sy.reduce fact true with
    | .ok gx, .ok gy => VF.importArrays gx.ax gx.ay gx.values gy.values (.array gx.mask)
        (if inplace then Sym.one else f.ux) (if inplace then Sym.one else f.uy) (if inplace then Sym.one else f.uv)
    | .error e, _ => .error e
    | _, .error e => .error e
  | .error e, _ => .error e
  | _, .error e => .error e

/-- `self.axe_x = ax`, `self.axe_y = ay` of a record of scalar fields, tf.py:177-189: the axes of the fields are set too. -/
def setAxes (t : TF) (ax ay : List Rat) : TF := { t with ax := ax, ay := ay, fields := t.fields.map fun f => { f with ax := ax, ay := ay } }

/-- The same of a record of vector fields, tf.py:177-189. -/
def setAxesV (t : TVF) (ax ay : List Rat) : TVF := { t with ax := ax, ay := ay, fields := t.fields.map fun f => { f with ax := ax, ay := ay } }

/-- `reduce_spatial_resolution(fact, inplace)` of a record of scalar fields, tf.py:1159-1186: the record afterwards and the result.  The fields are
reduced in place; the axes of `self`, and not those of the copy, are then those of the first field of `self`. -/
def reduceT (t : TF) (fact : Nat) (inplace : Bool) : Res (TF × TF) :=
  match mapRes (fun f => f.reduce fact true) t.fields with
  | .error e => .error e
  | .ok [] => .error .indexError
  | .ok (g :: l) =>
    if inplace then .ok (setAxes { t with fields := g :: l } g.ax g.ay, setAxes { t with fields := g :: l } g.ax g.ay)
    else .ok (setAxes t ((t.fields.head?.map SF.ax).getD []) ((t.fields.head?.map SF.ay).getD []), { t with fields := g :: l })

/-- `reduce_spatial_resolution(fact, inplace)` of a record of vector fields, tf.py:1159-1186. -/
def reduceTV (t : TVF) (fact : Nat) (inplace : Bool) : Res (TVF × TVF) :=
  match mapRes (fun f => reduceV f fact true) t.fields with
  | .error e => .error e
  | .ok [] => .error .indexError
  | .ok (g :: l) =>
    if inplace then .ok (setAxesV { t with fields := g :: l } g.ax g.ay, setAxesV { t with fields := g :: l } g.ax g.ay)
    else .ok (setAxesV t ((t.fields.head?.map VF.ax).getD []) ((t.fields.head?.map VF.ay).getD []), { t with fields := g :: l })

end IMT.Even
