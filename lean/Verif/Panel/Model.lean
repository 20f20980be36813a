import Verif.Prelude
import Mathlib.MeasureTheory.Integral.IntervalIntegral.Basic
import Mathlib.Analysis.SpecialFunctions.Trigonometric.Inverse
import Mathlib.LinearAlgebra.Matrix.Defs

/-!
Model of `potential_flow/potential_flow.py` over the real numbers: panels, objects, systems, their velocity and pressure.
The quadrature of scipy (`integrate.quad`) is the exact integral; `np.linalg.solve` is a parameter.
-/

namespace IMT.Panel

/-! ### panels -/

/-- A panel, given by its ends, potential_flow.py:510-528 (`Panel`). -/
structure Seg where
  xa : ℝ
  ya : ℝ
  xb : ℝ
  yb : ℝ

/-- `self.xc`, potential_flow.py:529. -/
noncomputable def Seg.xc (p : Seg) : ℝ := (p.xa + p.xb) / 2
/-- `self.yc`, potential_flow.py:529. -/
noncomputable def Seg.yc (p : Seg) : ℝ := (p.ya + p.yb) / 2
/-- `self.length`, potential_flow.py:530. -/
noncomputable def Seg.length (p : Seg) : ℝ := √((p.xb - p.xa) ^ 2 + (p.yb - p.ya) ^ 2)

open Classical in
/-- The angle of the normal, potential_flow.py:533-536. -/
noncomputable def Seg.beta (p : Seg) : ℝ :=
  if p.xb - p.xa ≤ 0 then Real.arccos ((p.yb - p.ya) / p.length) else Real.pi + Real.arccos (-(p.yb - p.ya) / p.length)

/-- `self.cosbeta`, potential_flow.py:538. -/
noncomputable def Seg.cosb (p : Seg) : ℝ := Real.cos p.beta
/-- `self.sinbeta`, potential_flow.py:537. -/
noncomputable def Seg.sinb (p : Seg) : ℝ := Real.sin p.beta

/-- A panel with its source strength and its tangential velocity, potential_flow.py:539-540. -/
structure Src where
  seg : Seg
  sigma : ℝ
  vt : ℝ

/-- `Panel(a, b)`, potential_flow.py:514-540: the two ends must differ. -/
noncomputable def mkPanel (a b : ℝ × ℝ) : Res Src :=
  open Classical in
  if a.1 = b.1 ∧ a.2 = b.2 then .error .valueError else .ok ⟨⟨a.1, a.2, b.1, b.2⟩, 0, 0⟩

/-- `Panel.vector`, potential_flow.py:556-558. -/
noncomputable def Src.vector (p : Src) : ℝ × ℝ := (-p.vt * Real.sin p.seg.beta, p.vt * Real.cos p.seg.beta)

open Classical in
/-- The distance to the line of the panel, potential_flow.py:543-554 and 583-588. -/
noncomputable def Seg.distLine (p : Seg) (x y : ℝ) : ℝ :=
  if p.xa = p.xb then |x - p.xc|
  else if p.ya = p.yb then |y - p.yc|
  else |(p.yb - p.ya) / (p.xb - p.xa) * x - y + (p.yb - (p.yb - p.ya) / (p.xb - p.xa) * p.xb)|
    / √(1 + ((p.yb - p.ya) / (p.xb - p.xa)) ^ 2)

/-- `Panel.on_panel(x, y)`, potential_flow.py:574-592. -/
def Seg.onPanel (p : Seg) (x y : ℝ) : Prop :=
  ¬ ((p.xc - x) ^ 2 + (p.yc - y) ^ 2 > p.length ^ 2 / 2) ∧ p.distLine x y < 1 / 10000

/-- `integral(x, y, panel, dxdz, dydz)`, potential_flow.py:608-643. -/
noncomputable def integral (x y : ℝ) (p : Seg) (dx dy : ℝ) : ℝ :=
  ∫ s in (0 : ℝ)..p.length,
    ((x - p.xa + p.sinb * s) * dx + (y - p.ya - p.cosb * s) * dy) /
      (((x - p.xa) ^ 2 + (y - p.ya) ^ 2) + (2 * (x - p.xa) * p.sinb - 2 * (y - p.ya) * p.cosb) * s + (p.sinb ^ 2 + p.cosb ^ 2) * s ^ 2)

/-! ### objects -/

/-- `np.round`: to the nearest integer, halves to the even one. -/
noncomputable def roundEven (x : ℝ) : Int :=
  open Classical in
  if x - ⌊x⌋ < 1 / 2 then ⌊x⌋
  else if x - ⌊x⌋ > 1 / 2 then ⌊x⌋ + 1
  else if ⌊x⌋ % 2 = 0 then ⌊x⌋ else ⌊x⌋ + 1

/-- Consecutive pairs. -/
def pairs {α : Type} (l : List α) : List (α × α) := l.zip l.tail

/-- The length of an edge, potential_flow.py:419-421. -/
noncomputable def edgeLen (e : (ℝ × ℝ) × (ℝ × ℝ)) : ℝ := √((e.2.1 - e.1.1) ^ 2 + (e.2.2 - e.1.2) ^ 2)

/-- The first points of the parts of an edge, potential_flow.py:425-432. -/
noncomputable def cutEdge (delta : ℝ) (e : (ℝ × ℝ) × (ℝ × ℝ)) : List (ℝ × ℝ) :=
  let n := (roundEven (edgeLen e / delta)).toNat
  if n ≤ 1 then [e.1]
  else (List.range n).map fun (k : Nat) => (e.1.1 + k * ((e.2.1 - e.1.1) / n), e.1.2 + k * ((e.2.2 - e.1.2) / n))

/-- `refine(res)`, potential_flow.py:410-443. A path without edge is refused by `np.min`; an edge of length zero by `int`. -/
noncomputable def refine (res : Nat) (path : List (ℝ × ℝ)) : Res (List (ℝ × ℝ)) :=
  open Classical in
  match path.head?, ((pairs path).map edgeLen).min? with
  | some p0, some m =>
    if m / res = 0 then .error .exception
    else .ok (((pairs path).map (cutEdge (m / res))).flatten ++ [p0])
  | _, _ => .error .valueError

/-- An object of the system: is it a wall, its path, its panels, potential_flow.py:342-384. -/
structure Obj where
  wall : Bool
  path : List (ℝ × ℝ)
  panels : List Src

/-- `_actualize_panels`, potential_flow.py:386-394. -/
noncomputable def mkPanels : List ((ℝ × ℝ) × (ℝ × ℝ)) → Res (List Src)
  | [] => .ok []
  | e :: es =>
    match mkPanel e.1 e.2, mkPanels es with
    | .ok p, .ok ps => .ok (p :: ps)
    | .error e, _ => .error e
    | _, .error e => .error e

/-- `object_1D(coords, kind, res)`, potential_flow.py:346-384. -/
noncomputable def mkObj1 (wall : Bool) (coords : List (ℝ × ℝ)) (res : Nat) : Res Obj :=
  if res < 1 then .error .valueError
  else
    match refine res coords with
    | .error e => .error e
    | .ok path =>
      match mkPanels (pairs path) with
      | .error e => .error e
      | .ok ps => .ok ⟨wall, path, ps⟩

open Classical in
/-- The path closed if needed, potential_flow.py:487-490. -/
noncomputable def close (coords : List (ℝ × ℝ)) : List (ℝ × ℝ) :=
  match coords.head?, coords.getLast? with
  | some p, some q => if p.1 ≠ q.1 ∨ p.2 ≠ q.2 then coords ++ [p] else coords
  | _, _ => coords

/-- `object_2D(coords, kind, res)`, potential_flow.py:460-498; an empty array raises IndexError; `res` is at least one (it is not
checked here). -/
noncomputable def mkObj2 (wall : Bool) (coords : List (ℝ × ℝ)) (res : Nat) : Res Obj :=
  if coords = [] then .error .indexError
  else
    match refine res (close coords) with
    | .error e => .error e
    | .ok path =>
      match mkPanels (pairs path) with
      | .error e => .error e
      | .ok ps => .ok ⟨wall, path, ps⟩

/-- `inverse_normals()`, potential_flow.py:401-408: new panels, without source. -/
noncomputable def Obj.inverse (o : Obj) : Res Obj :=
  match mkPanels (pairs o.path.reverse) with
  | .error e => .error e
  | .ok ps => .ok { o with path := o.path.reverse, panels := ps }

/-! ### systems -/

/-- `System`, potential_flow.py:36-53. -/
structure Sys where
  uinf : ℝ
  alpha : ℝ
  o1 : List Obj
  o2 : List Obj
  toRefresh : Bool

/-- `System(u_inf, alpha)`. -/
def Sys.new (u a : ℝ) : Sys := ⟨u, a, [], [], false⟩

/-- `add_object(dim, coords, kind, res)`, potential_flow.py:55-88; a point raises TypeError (`object_0D` has no `res`). -/
noncomputable def Sys.add (s : Sys) (dim : Nat) (wall : Bool) (coords : List (ℝ × ℝ)) (res : Nat) : Res Sys :=
  match dim with
  | 0 => .error .typeError
  | 1 => match mkObj1 wall coords res with
    | .error e => .error e
    | .ok o => .ok { s with o1 := s.o1 ++ [o], toRefresh := true }
  | 2 => match mkObj2 wall coords res with
    | .error e => .error e
    | .ok o => .ok { s with o2 := s.o2 ++ [o], toRefresh := true }
  | _ => .error .valueError

/-- The panels of the walls among some objects. -/
def wallPanels (l : List Obj) : List Src := (l.filter (·.wall)).flatMap (·.panels)

/-- `get_solid_panels`, potential_flow.py:90-102: the boundaries first. -/
def Sys.panels (s : Sys) : List Src := wallPanels s.o1 ++ wallPanels s.o2

/-- The influence matrix, potential_flow.py:122-129. -/
noncomputable def matA (l : List Src) (i j : Fin l.length) : ℝ :=
  if i = j then 1 / 2
  else 1 / 2 / Real.pi * integral l[i].seg.xc l[i].seg.yc l[j].seg l[i].seg.cosb l[i].seg.sinb

/-- The right-hand side, potential_flow.py:131. -/
noncomputable def rhs (u alpha : ℝ) (l : List Src) (i : Fin l.length) : ℝ := -u * Real.cos (alpha - l[i].seg.beta)

/-- The tangential matrix, potential_flow.py:139-146. -/
noncomputable def matT (l : List Src) (i j : Fin l.length) : ℝ :=
  if i = j then 0
  else 1 / 2 / Real.pi * integral l[i].seg.xc l[i].seg.yc l[j].seg (-Real.sin l[i].seg.beta) (Real.cos l[i].seg.beta)

/-- The tangential velocities, potential_flow.py:147-153. -/
noncomputable def tang (u alpha : ℝ) (l : List Src) (sigma : Fin l.length → ℝ) (i : Fin l.length) : ℝ :=
  ∑ j, matT l i j * sigma j + u * Real.sin (alpha - l[i].seg.beta)

/-- Values given to the panels of some objects, in order; the values left. -/
def giveObj (vals : List (ℝ × ℝ)) : List Src → List Src × List (ℝ × ℝ)
  | [] => ([], vals)
  | p :: ps =>
    match vals with
    | [] => (p :: ps, [])
    | v :: vals => let r := giveObj vals ps; (⟨p.seg, v.1, v.2⟩ :: r.1, r.2)

/-- The same for the walls among some objects. -/
def give (vals : List (ℝ × ℝ)) : List Obj → List Obj × List (ℝ × ℝ)
  | [] => ([], vals)
  | o :: os =>
    if o.wall then
      let r := giveObj vals o.panels
      let q := give r.2 os
      ({ o with panels := r.1 } :: q.1, q.2)
    else
      let q := give vals os
      (o :: q.1, q.2)

/-- `np.linalg.solve`: nothing when it raises. -/
abbrev Solver := (n : Nat) → Matrix (Fin n) (Fin n) ℝ → (Fin n → ℝ) → Option (Fin n → ℝ)

/-- `solving_sigma()`, potential_flow.py:114-153. -/
noncomputable def Sys.solve (lin : Solver) (s : Sys) : Res Sys :=
  let l := s.panels
  match lin l.length (matA l) (rhs s.uinf s.alpha l) with
  | none => .error .exception
  | some sigma =>
    let vals := List.ofFn fun i => (sigma i, tang s.uinf s.alpha l sigma i)
    let r := give vals s.o1
    .ok { s with o1 := r.1, o2 := (give r.2 s.o2).1, toRefresh := false }

/-- The free stream and the sources, potential_flow.py:171-178. -/
noncomputable def flow (u alpha : ℝ) (l : List Src) (x y : ℝ) : ℝ × ℝ :=
  (u * Real.cos alpha + 1 / 2 / Real.pi * (l.map fun p => p.sigma * integral x y p.seg 1 0).sum,
   u * Real.sin alpha + 1 / 2 / Real.pi * (l.map fun p => p.sigma * integral x y p.seg 0 1).sum)

open Classical in
/-- The velocity once the sources are known, potential_flow.py:166-183. -/
noncomputable def velocity (u alpha : ℝ) (l : List Src) (x y : ℝ) : ℝ × ℝ :=
  match l.find? fun p => decide (p.seg.onPanel x y) with
  | some p => p.vector
  | none =>
    let v := flow u alpha l x y
    if |v.1| > 10 ^ 30 ∨ |v.2| > 10 ^ 30 then (0, 0) else v

/-- `compute_velocity(x, y)`, potential_flow.py:159-183: the system afterwards and the velocity. -/
noncomputable def Sys.ask (lin : Solver) (s : Sys) (x y : ℝ) : Res (Sys × (ℝ × ℝ)) :=
  if s.toRefresh then
    match s.solve lin with
    | .error e => .error e
    | .ok s' => .ok (s', velocity s'.uinf s'.alpha s'.panels x y)
  else .ok (s, velocity s.uinf s.alpha s.panels x y)

/-! ### velocities along a line, pressure -/

/-- The points of the line, potential_flow.py:238-239. -/
noncomputable def linspace (a b : ℝ) (res : Nat) : List ℝ :=
  if res = 1 then [a] else (List.range res).map fun (k : Nat) => a + k * ((b - a) / ((res : ℝ) - 1))

/-- The abscissa of the profile at the point `(x, y)` of the line from `a`, `mx` and `my` being the least coordinates,
potential_flow.py:260-262. -/
noncomputable def absc (a : ℝ × ℝ) (mx my : ℝ) (q : ℝ × ℝ) : ℝ :=
  √((q.1 - mx) ^ 2 + (q.2 - my) ^ 2) - √((a.1 - mx) ^ 2 + (a.2 - my) ^ 2)

/-- `compute_velocity_on_line(a, b, res)` without `remove_solid`, potential_flow.py:227-267: abscissae and velocities. -/
noncomputable def onLine (u alpha : ℝ) (l : List Src) (a b : ℝ × ℝ) (res : Nat) : List (ℝ × (ℝ × ℝ)) :=
  ((linspace a.1 b.1 res).zip (linspace a.2 b.2 res)).map fun q =>
    (absc a (min a.1 b.1) (min a.2 b.2) q, velocity u alpha l q.1 q.2)

/-- The pressure coefficient, potential_flow.py:279 and 293. -/
noncomputable def cp (u : ℝ) (v : ℝ × ℝ) : ℝ := 1 - (v.1 ^ 2 + v.2 ^ 2) / u ^ 2

end IMT.Panel
