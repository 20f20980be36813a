import Verif.Temporal.Model
import Verif.Vector.Model
import Verif.Mirror.VecModel

/-!
Model of the statistics of `TemporalVectorFields` (`/repo/IMTreatment/core/temporalvectorfields.py`) and of the fluctuant fields
of `TemporalFields` (`/repo/IMTreatment/core/temporalfields.py`).

Fields are values, as in the model of `TemporalScalarFields`; `np.argsort` is a parameter; dtypes and `xy_scale` are not modelled.
-/

namespace IMT.Turb

open Temporal (TF mapRes)
open Mirror (compX compY)

/-- A `TemporalVectorFields`, core/temporalfields.py:45-56. -/
structure TVF where
  ax : List Rat
  ay : List Rat
  ux : Sym
  uy : Sym
  times : List Rat
  ut : Sym
  fields : List VF

/-- `TemporalVectorFields()`, core/temporalfields.py:45-56. -/
def TVF.empty : TVF := ⟨[], [], Sym.one, Sym.one, [], Sym.one, []⟩

/-- `__sort_field_by_time`, core/temporalfields.py:1555-1560. -/
def sortV (srt : List Rat → List Nat) (t : TVF) : Res TVF :=
  if t.fields.length ≤ 1 then .ok t
  else if t.fields.length ≠ (Profile.take t.times (srt t.times)).length then .error .valueError
  else .ok { t with times := Profile.take t.times (srt t.times), fields := Profile.take t.fields (srt t.times) }

/-- `add_field(field, time, unit_times)` for vector fields, core/temporalfields.py:1085-1142 and core/fields.py:123-138 (the same
code as for scalar fields). -/
def addV (srt : List Rat → List Nat) (t : TVF) (f : VF) (time : Rat) (u : Sym) : Res TVF :=
  if t.fields.length = 0 then .ok ⟨f.ax, f.ay, f.ux, f.uy, [time], u, [f]⟩
  else if t.ax ≠ f.ax ∧ t.ay = f.ay then .error .valueError
  else sortV srt { t with times := t.times ++ [time * SF.unitNum (t.ut.div u)], fields := t.fields ++ [f] }

/-- `add_field` for each field in turn, with its time, the unit of the times being given. -/
def addVs (srt : List Rat → List Nat) : TVF → List (Rat × VF) → Sym → Res TVF
  | t, [], _ => .ok t
  | t, (x, f) :: l, u => match addV srt t f x u with
    | .error e => .error e
    | .ok t' => addVs srt t' l u

/-- `add_field` for each scalar field in turn, with its time. -/
def addSs (srt : List Rat → List Nat) : TF → List (Rat × SF) → Sym → Res TF
  | t, [], _ => .ok t
  | t, (x, f) :: l, u => match Temporal.addField srt t f x u with
    | (_, .error e) => .error e
    | (t', .ok _) => addSs srt t' l u

/-! ### mean of vector fields -/

/-- `f.fill(kind='value', value=[u, v], crop=False, inplace=True)`, core/vectorfield.py:910-966: copies of the components are
filled, then stored with an empty mask. -/
def vfill (f : VF) (u v : Rat) : Res VF :=
  match compX f, compY f with
  | .ok sx, .ok sy => match sx.fillValueCopy u false, sy.fillValueCopy v false with
    | .ok gx, .ok gy =>
      if gx.2.val.nx ≠ f.ax.length ∨ gx.2.val.ny ≠ f.ay.length ∨ gy.2.val.nx ≠ f.ax.length ∨ gy.2.val.ny ≠ f.ay.length then
        .error .valueError
      else .ok { f with cx := gx.2.values, cy := gy.2.values, mask := Grid.const f.ax.length f.ay.length false }
    | .error e, _ => .error e
    | _, .error e => .error e
  | .error e, _ => .error e
  | _, .error e => .error e

/-- `a / b` on arrays with NaN propagation (quotients by zero are masked by the callers). -/
def quot (g h : Grid (Option Rat)) : Grid (Option Rat) := ⟨g.nx, g.ny, fun i j => nanOp (· / ·) (g.get i j) (h.get i j)⟩

/-- `__truediv__` with an array, core/vectorfield.py:168-176. -/
def vdivArr (f : VF) (a : Grid (Option Rat)) : Res VF :=
  if a.nx ≠ f.ax.length ∨ a.ny ≠ f.ay.length then .error .valueError
  else .ok (({ f with cx := quot f.cx a, cy := quot f.cy a } : VF).setMask
    ⟨f.mask.nx, f.mask.ny, fun i j => f.mask.get i j || decide (a.get i j = some 0)⟩)

/-- `mask_cum`, core/temporalfields.py:305-306, 314: the number of fields valid at a cell. -/
def vcount (fs : List VF) (i j : Nat) : Nat := (fs.filter fun f => !f.mask.get i j).length

/-- `result_f += added_field`, core/temporalfields.py:308-313 (the fill value `0.` is turned into `[0., 0.]`,
core/vectorfield.py:936-937). -/
def vsumFilled : VF → List VF → Res VF
  | acc, [] => .ok acc
  | acc, f :: fs => match vfill f 0 0 with
    | .error e => .error e
    | .ok g => match acc.add g with
      | .error e => .error e
      | .ok h => vsumFilled h fs

/-- `mask`, core/temporalfields.py:315. -/
def vfew (t : TVF) (nmin : Nat) : Grid Bool := ⟨t.ax.length, t.ay.length, fun i j => decide (vcount t.fields i j ≤ nmin)⟩

/-- `fact`, core/temporalfields.py:318-319. -/
def vfact (t : TVF) (nmin : Nat) : Grid (Option Rat) :=
  ⟨t.ax.length, t.ay.length, fun i j => if vcount t.fields i j ≤ nmin then some 1 else some (vcount t.fields i j : Rat)⟩

/-- The end of `get_mean_field`, core/temporalfields.py:315-321. -/
def vmeanEnd (t : TVF) (nmin : Nat) (s : VF) : Res VF :=
  if s.ax.length ≠ t.ax.length ∨ s.ay.length ≠ t.ay.length then .error .valueError
  else vdivArr (s.setMask (vfew t nmin)) (vfact t nmin)

/-- `get_mean_field(nmb_min)` on vector fields, core/temporalfields.py:281-323. -/
def vmean (t : TVF) (nmin : Nat) : Res VF :=
  match t.fields with
  | [] => .error .valueError
  | f :: fs => match vfill f 0 0 with
    | .error e => .error e
    | .ok g => match vsumFilled g fs with
      | .error e => .error e
      | .ok s => vmeanEnd t nmin s

/-! ### fluctuations -/

/-- `get_fluctuant_fields(nmb_min_mean)` on vector fields, core/temporalfields.py:348-367. -/
def vfluct (srt : List Rat → List Nat) (t : TVF) (nmin : Nat) : Res TVF :=
  match vmean t nmin with
  | .error e => .error e
  | .ok m => match mapRes (fun f : VF => f.sub m) t.fields with
    | .error e => .error e
    | .ok fs => addVs srt .empty (t.times.zip fs) t.ut

/-- `get_fluctuant_fields(nmb_min_mean)` on scalar fields, core/temporalfields.py:348-367. -/
def sfluct (srt : List Rat → List Nat) (t : TF) (nmin : Nat) : Res TF :=
  match Temporal.meanField t nmin with
  | .error e => .error e
  | .ok m => match mapRes (fun f : SF => f.sub m) t.fields with
    | .error e => .error e
    | .ok fs => addSs srt .empty (t.times.zip fs) t.ut

/-! ### energies -/

/-- `f**2`, core/scalarfield.py:298-307, with its unit. -/
def sq (f : SF) : SF := { f.powN 2 with uv := f.uv.mul f.uv }

/-- `1./2*(a**2 + b**2)`, core/temporalvectorfields.py:127, 142. -/
def half (a b : SF) : Res SF := match (sq a).add (sq b) with
  | .error e => .error e
  | .ok s => .ok (s.mulNum (1 / 2))

/-- `get_mean_kinetic_energy()`, core/temporalvectorfields.py:119-128. -/
def meanKinetic (t : TVF) : Res SF :=
  match vmean t 1 with
  | .error e => .error e
  | .ok m => match compX m, compY m with
    | .ok a, .ok b => half a b
    | .error e, _ => .error e
    | _, .error e => .error e

/-- The energy of one field, core/temporalvectorfields.py:140-142. -/
def tkeOf (mx my : SF) (f : VF) : Res SF :=
  match compX f, compY f with
  | .ok a, .ok b => match a.sub mx, b.sub my with
    | .ok da, .ok db => half da db
    | .error e, _ => .error e
    | _, .error e => .error e
  | .error e, _ => .error e
  | _, .error e => .error e

/-- `get_tke()`, core/temporalvectorfields.py:130-145. -/
def tke (srt : List Rat → List Nat) (t : TVF) : Res TF :=
  match vmean t 1 with
  | .error e => .error e
  | .ok m => match compX m, compY m with
    | .ok mx, .ok my => match mapRes (tkeOf mx my) t.fields with
      | .error e => .error e
      | .ok fs => addSs srt .empty (t.times.zip fs) t.ut
    | .error e, _ => .error e
    | _, .error e => .error e

/-- `get_mean_tke()`, core/temporalvectorfields.py:156-159. -/
def meanTke (srt : List Rat → List Nat) (t : TVF) : Res SF :=
  match tke srt t with
  | .error e => .error e
  | .ok k => Temporal.meanField k 1

/-- `get_turbulent_intensity()`, core/temporalvectorfields.py:147-154: `(2./3.*self.get_tke())**(.5)/self.magnitude_as_sf`.  `root` is
`field**(.5)` and `mag` is `magnitude_as_sf` of a field.  The product (core/temporalfields.py:103-107), the power (146-154) and the
quotient (114-127) are those of the containers; `magnitude_as_sf` keeps the times (core/temporalvectorfields.py:73-79). -/
def intensity (srt : List Rat → List Nat) (root : SF → SF) (mag : VF → Res SF) (t : TVF) : Res TF :=
  match tke srt t with
  | .error e => .error e
  | .ok k => match Temporal.mulNum srt k (2 / 3) with
    | .error e => .error e
    | .ok a => match Temporal.addAll srt .empty (a.fields.map root) with
      | .error e => .error e
      | .ok b => match mapRes mag t.fields with
        | .error e => .error e
        | .ok ms => match addSs srt .empty (t.times.zip ms) t.ut with
          | .error e => .error e
          | .ok o => Temporal.opTF srt SF.div b o

/-! ### Reynolds stresses -/

/-- One turn of the loop over the fields at a point, core/temporalvectorfields.py:188-194: the three sums and `nmb_val`. -/
def rsStep (i j : Nat) (s : (Option Rat × Option Rat × Option Rat) × Nat) (f : VF) : (Option Rat × Option Rat × Option Rat) × Nat :=
  if f.mask.get i j then s
  else ((nanOp (· + ·) s.1.1 ((f.cx.get i j).map fun u => u ^ 2),
         nanOp (· + ·) s.1.2.1 ((f.cy.get i j).map fun v => v ^ 2),
         nanOp (· + ·) s.1.2.2 (nanOp (· * ·) (f.cx.get i j) (f.cy.get i j))), s.2 + 1)

/-- The sums and the number of values at a point, core/temporalvectorfields.py:186-194. -/
def rsAt (fs : List VF) (i j : Nat) : (Option Rat × Option Rat × Option Rat) × Nat :=
  fs.foldl (rsStep i j) ((some 0, some 0, some 0), 0)

/-- The value stored, core/temporalvectorfields.py:195-203. -/
def rsVal (nmin n : Nat) (v : Option Rat) : Option Rat := if n > nmin then v.map (· / (n : Rat)) else some 0

/-- The storage of one stress, core/temporalvectorfields.py:205-217; `sel` selects the sum. -/
def rsField (t turb : TVF) (uv : Sym) (nmin : Nat) (sel : Option Rat × Option Rat × Option Rat → Option Rat) : Res SF :=
  SF.importArrays t.ax t.ay
    ⟨t.ax.length, t.ay.length, fun i j => rsVal nmin (rsAt turb.fields i j).2 (sel (rsAt turb.fields i j).1)⟩
    (.array ⟨t.ax.length, t.ay.length, fun i j => decide ¬ (rsAt turb.fields i j).2 > nmin⟩) t.ux t.uy (uv.mul uv)

/-- `get_reynolds_stress(nmb_val_min)`, core/temporalvectorfields.py:161-218: the stresses xx, yy and xy. -/
def reynolds (srt : List Rat → List Nat) (t : TVF) (nmin : Nat) : Res (SF × SF × SF) :=
  match vfluct srt t 1, t.fields with
  | .error e, _ => .error e
  | _, [] => .error .valueError
  | .ok turb, f0 :: _ =>
    match rsField t turb f0.uv nmin (·.1), rsField t turb f0.uv nmin (·.2.1), rsField t turb f0.uv nmin (·.2.2) with
    | .ok a, .ok b, .ok c => .ok (a, b, c)
    | .error e, _, _ => .error e
    | _, .error e, _ => .error e
    | _, _, .error e => .error e

/-! ### correlation in time -/

/-- `np.mean` of an array: NaN as soon as it holds one. -/
def npMean (g : Grid (Option Rat)) : Option Rat :=
  (((List.range g.nx).flatMap fun i => (List.range g.ny).map fun j => g.get i j).foldl (nanOp (· + ·)) (some 0)).map
    (· / (g.nx * g.ny : Nat))

/-- `np.mean(Vx0*Vxi + Vy0*Vyi)`, core/temporalvectorfields.py:109, 114. -/
def scal (f g : VF) : Option Rat :=
  npMean ⟨f.cx.nx, f.cx.ny, fun i j => nanOp (· + ·) (nanOp (· * ·) (f.cx.get i j) (g.cx.get i j))
    (nanOp (· * ·) (f.cy.get i j) (g.cy.get i j))⟩

/-- `get_time_auto_correlation()`, core/temporalvectorfields.py:103-118: the values of the profile over `times` (fields of one shape). -/
def autoCorr (t : TVF) : Res (List Num) :=
  match t.fields with
  | [] => .error .indexError
  | f0 :: _ => .ok (t.fields.map fun f => npDiv (scal f0 f) (scal f0 f0))

end IMT.Turb
