import Verif.Prelude
import Mathlib.Analysis.SpecialFunctions.Trigonometric.Arctan
import Mathlib.Analysis.SpecialFunctions.Exp
import Mathlib.Analysis.SpecialFunctions.Log.Basic

/-!
Model of `/repo/IMTreatment/vortex_creation/vortex_creation.py`: the analytic vortices, the walls and their image vortices, the
vortex system with its custom fields, its evolution in time.  Velocities are real numbers.
Not modelled: the units and the masks of the fields made from a system, the drawings, the two ready-made systems (`HsvSystem`,
`StepSystem`).
-/

namespace IMT.Vortex

open Real

/-! ### one vortex -/

/-- `_get_r`, vortex_creation.py:103-104. -/
noncomputable def radius (x0 x y0 y : ℝ) : ℝ := √((x - x0) ^ 2 + (y - y0) ^ 2)

/-- `_get_theta`, vortex_creation.py:84-100. -/
noncomputable def theta (x0 x y0 y : ℝ) : ℝ :=
  if x - x0 = 0 ∧ y - y0 = 0 then 0
  else if x - x0 = 0 then (if y - y0 > 0 then π / 2 else -π / 2)
  else if x - x0 > 0 then arctan ((y - y0) / (x - x0))
  else arctan ((y - y0) / (x - x0)) - π

/-- `_cyl_to_cart`, vortex_creation.py:107-112. -/
noncomputable def cart (t cr cphi : ℝ) : ℝ × ℝ := (cr * cos t - cphi * sin t, cr * sin t + cphi * cos t)

/-- The kinds of vortices with the parameters kept by their constructors, vortex_creation.py:126-570.  The Bessel functions of the
Lamb-Chaplygin dipole and the root they give are parameters. -/
inductive Kind where
  | solid (omega : ℝ)
  | free (gamma : ℝ)
  | burger (alpha ksi visc : ℝ)
  | hill (U rv : ℝ)
  | lambOseen (ksi t visc : ℝ)
  | rankine (circ rv : ℝ)
  | chaplygin (U rv k : ℝ) (j0 j1 j2 : ℝ → ℝ)
  | perso (circ ratio alpha nu : ℝ)

/-- Radial and tangential velocities at the distance `r` and the angle `t`, for the rotation direction `d` (`rot_dir`):
vortex_creation.py:155-156 (solid), 194-198 (free), 255-260 (Burger), 303-306 (Hill), 356-361 (Lamb-Oseen), 410-414 (Rankine),
464-472 (Lamb-Chaplygin), 561-566 (Perso).  The centre of a Lamb-Chaplygin dipole, and the one of a Rankine vortex of radius
zero, where the code divides by zero, are not modelled. -/
noncomputable def polar (k : Kind) (d r t : ℝ) : ℝ × ℝ :=
  match k with
  | .solid omega => (0, r * omega * d)
  | .free gamma => (0, if r = 0 then 0 else gamma / (2 * π * r) * d)
  | .burger alpha ksi visc =>
    (-1 / 2 * alpha * r, if r = 0 then 0 else ksi / (2 * π) / r * (1 - exp (-alpha / (4 * visc) * r ^ 2)) * d)
  | .hill U rv =>
    (-3 / 4 * U * r * (1 - r ^ 2 / rv ^ 2) * 2 * sin t * cos t, 3 / 2 * U * sin t ^ 2 * r * (1 - 2 * r ^ 2 / rv ^ 2) * d)
  | .lambOseen ksi time visc =>
    (0, if r = 0 then 0 else ksi / (2 * π * r) * (1 - exp (-r ^ 2 / (4 * visc * time))) * d)
  | .rankine circ rv => (0, if r ≤ rv then circ * r / (2 * π * rv ^ 2) * d else circ / (2 * π * r) * d)
  | .chaplygin U rv k j0 j1 j2 =>
    if r < rv then
      (-2 * U / (r * k * j0 (k * rv)) * j1 (k * r) * cos t, 2 * U / j0 (k * rv) * sin t * ((j2 (k * r) - j0 (k * r)) / (-2)))
    else (-U * (r - rv ^ 2 / r) * cos t, U * (1 + rv ^ 2 / r ^ 2) * sin t)
  | .perso circ ratio alpha nu =>
    (-|if r = 0 then 0 else circ / (2 * π) / r * (1 - exp (-alpha / (4 * nu) * r ^ 2)) * d| * ratio,
      if r = 0 then 0 else circ / (2 * π) / r * (1 - exp (-alpha / (4 * nu) * r ^ 2)) * d)

/-- A vortex: vortex_creation.py:39-47. -/
structure Vort where
  kind : Kind
  x0 : ℝ
  y0 : ℝ
  rot : ℝ
  movable : Bool
  id : Nat

/-- `get_vector`, vortex_creation.py:146-160 and the other kinds. -/
noncomputable def Vort.vector (v : Vort) (x y : ℝ) : ℝ × ℝ :=
  let p := polar v.kind v.rot (radius v.x0 x v.y0 y) (theta v.x0 x v.y0 y)
  cart (theta v.x0 x v.y0 y) p.1 p.2

/-- `rot_dir` set from the sign of the strength, vortex_creation.py:140-143, 179-182, 235-238, 339-342, 395-398. -/
noncomputable def sign (s : ℝ) : ℝ := if s < 0 then -1 else 1

/-- `SolidVortex(x0, y0, omega)`, vortex_creation.py:130-144. -/
noncomputable def mkSolid (x0 y0 omega : ℝ) (movable : Bool) : Vort := ⟨.solid |omega|, x0, y0, sign omega, movable, 0⟩
/-- `FreeVortex(x0, y0, gamma)`, vortex_creation.py:169-183. -/
noncomputable def mkFree (x0 y0 gamma : ℝ) (movable : Bool) : Vort := ⟨.free |gamma|, x0, y0, sign gamma, movable, 0⟩
/-- `BurgerVortex(x0, y0, alpha, ksi, viscosity)`, vortex_creation.py:217-244. -/
noncomputable def mkBurger (x0 y0 alpha ksi visc : ℝ) (movable : Bool) : Vort :=
  ⟨.burger alpha |ksi| visc, x0, y0, sign ksi, movable, 0⟩
/-- `HillVortex(x0, y0, U, rv, rot_dir)`, vortex_creation.py:277-292. -/
noncomputable def mkHill (x0 y0 U rv rot : ℝ) (movable : Bool) : Vort := ⟨.hill U rv, x0, y0, rot, movable, 0⟩
/-- `LambOseenVortex(x0, y0, ksi, t, viscosity)`, vortex_creation.py:324-345. -/
noncomputable def mkLambOseen (x0 y0 ksi t visc : ℝ) (movable : Bool) : Vort :=
  ⟨.lambOseen |ksi| t visc, x0, y0, sign ksi, movable, 0⟩
/-- `RankineVortex(x0, y0, circ, rv)`, vortex_creation.py:380-399. -/
noncomputable def mkRankine (x0 y0 circ rv : ℝ) (movable : Bool) : Vort :=
  ⟨.rankine |circ| rv, x0, y0, sign circ, movable, 0⟩
/-- `PersoVortex(x0, y0, radius, vort_max, circ, node_ratio, nu)`, vortex_creation.py:503-550: ValueError when neither the peak
vorticity nor the circulation is given. -/
noncomputable def mkPerso (x0 y0 rad : ℝ) (vortMax circ : Option ℝ) (ratio nu : ℝ) (movable : Bool) : Res Vort :=
  match circ, vortMax with
  | some c, _ => .ok ⟨.perso c ratio (16 * log 2 * nu / rad ^ 2) nu, x0, y0, 1, movable, 0⟩
  | none, some w =>
    .ok ⟨.perso (2 * w * 4 * π * nu / (16 * log 2 * nu / rad ^ 2)) ratio (16 * log 2 * nu / rad ^ 2) nu, x0, y0, 1, movable, 0⟩
  | none, none => .error .valueError

/-! ### walls -/

/-- A wall at a given x or at a given y, vortex_creation.py:624-647. -/
inductive Wall where
  | atX (p : ℝ)
  | atY (p : ℝ)

/-- `Wall(x, y)`, vortex_creation.py:628-647. -/
def mkWall (x y : Option ℝ) : Res Wall :=
  match x, y with
  | some _, some _ => .error .valueError
  | some p, none => .ok (.atX p)
  | none, some p => .ok (.atY p)
  | none, none => .error .valueError

/-- `get_symmetry`, vortex_creation.py:649-665. -/
def Wall.symmetry (w : Wall) (q : ℝ × ℝ) : ℝ × ℝ :=
  match w with
  | .atX p => (p + (p - q.1), q.2)
  | .atY p => (q.1, p + (p - q.2))

/-- The image of one vortex, vortex_creation.py:117-123, 931-935, 937-940. -/
def mirror (w : Wall) (v : Vort) : Vort :=
  { v with rot := v.rot * -1, movable := true, x0 := (w.symmetry (v.x0, v.y0)).1, y0 := (w.symmetry (v.x0, v.y0)).2 }

/-- `refresh_imaginary_vortex`, vortex_creation.py:926-942. -/
def images (walls : List Wall) (vs : List Vort) : List Vort :=
  walls.foldl (fun im w => im ++ im.map (mirror w) ++ vs.map (mirror w)) []

/-! ### the system -/

/-- The custom fields existing in the program: functions, and the identifiers written in them by the systems
(vortex_creation.py:736). -/
structure Heap where
  fn : Nat → ℝ → ℝ → ℝ × ℝ
  id : Nat → Nat

/-- A system, vortex_creation.py:673-684; custom fields are references to the heap, since they are not copied. -/
structure Sys where
  vortex : List Vort
  im : List Vort
  nmb : Nat
  walls : List Wall
  cfs : List Nat
  refresh : Bool
  currId : Nat
  currCf : Nat

/-- `VortexSystem()`, vortex_creation.py:673-684. -/
def Sys.new : Sys := ⟨[], [], 0, [], [], false, 0, 0⟩

/-- `add_vortex`, vortex_creation.py:692-708. -/
def Sys.addVortex (s : Sys) (v : Vort) : Sys :=
  { s with vortex := s.vortex ++ [{ v with id := s.currId }], currId := s.currId + 1, nmb := s.nmb + 1, refresh := true }

/-- `add_wall`, vortex_creation.py:710-722. -/
def Sys.addWall (s : Sys) (w : Wall) : Sys := { s with walls := s.walls ++ [w], refresh := true }

/-- `add_custom_field`, vortex_creation.py:724-737: the identifier is written in the object given by the caller. -/
def addField (h : Heap) (s : Sys) (c : Nat) : Heap × Sys :=
  ({ h with id := fun k => if k = c then s.currCf else h.id k }, { s with cfs := s.cfs ++ [c], currCf := s.currCf + 1 })

/-- The index of `remove_vortex`, vortex_creation.py:748-750: a negative one is counted from the end, then given to python's lists,
which count a negative one from the end. -/
def pyIndex (n : Nat) (i : Int) : Option Nat :=
  let k := if i < 0 then (n : Int) + i else i
  if 0 ≤ k then (if k < n then some k.toNat else none) else (if 0 ≤ (n : Int) + k then some ((n : Int) + k).toNat else none)

/-- The two loops of `remove_vortex`, vortex_creation.py:752-765. -/
def dropId (k : Nat) (l : List Vort) : List Vort :=
  (l.filter fun v => v.id ≠ k).map fun v => if v.id > k then { v with id := v.id - 1 } else v

/-- `remove_vortex`, vortex_creation.py:739-766. -/
def Sys.remove (s : Sys) (i : Int) : Res Sys :=
  match pyIndex s.vortex.length i with
  | none => .error .indexError
  | some n =>
    match s.vortex[n]? with
    | none => .error .indexError
    | some v => .ok { s with vortex := dropId v.id s.vortex, im := dropId v.id s.im, currId := s.currId - 1 }

/-- `refresh_imaginary_vortex`, vortex_creation.py:926-942. -/
def Sys.refreshed (s : Sys) : Sys := { s with im := images s.walls s.vortex, refresh := false }
/-- The refresh before a query, vortex_creation.py:844-845, 966-967. -/
def Sys.current (s : Sys) : Sys := if s.refresh then s.refreshed else s

/-- The values of `vortex_ids` and `cf_ids`, vortex_creation.py:835-842. -/
inductive Sel where
  | all
  | none
  | ids (l : List Nat)

/-- Whether an identifier is selected, `n` being the current counter, vortex_creation.py:835-842, 851. -/
def Sel.has (n : Nat) : Sel → Nat → Bool
  | .all, i => decide (i < n)
  | .none, _ => false
  | .ids l, i => decide (i ∈ l)

/-- Sum of the velocities of some vortices. -/
noncomputable def total (vs : List Vort) (x y : ℝ) : ℝ × ℝ := (vs.map fun v => v.vector x y).sum

/-- `get_vector`, vortex_creation.py:815-869: the system, with its images refreshed if needed, and the velocity. -/
noncomputable def Sys.vector (h : Heap) (s : Sys) (x y : ℝ) (vsel csel : Sel) : Sys × (ℝ × ℝ) :=
  (s.current,
    total (s.current.vortex.filter fun v => vsel.has s.currId v.id) x y +
    total (s.current.im.filter fun v => vsel.has s.currId v.id) x y +
    ((s.cfs.filter fun c => csel.has s.currCf (h.id c)).map fun c => h.fn c x y).sum)

/-- `get_compounded_vector`, vortex_creation.py:871-924: vectors of the vortices and of the custom fields. -/
noncomputable def Sys.compounded (h : Heap) (s : Sys) (x y : ℝ) (detailed : Bool) : List (ℝ × ℝ) × List (ℝ × ℝ) :=
  if detailed then
    ((s.vortex.map fun v => v.vector x y) ++ (s.im.map fun v => v.vector x y), s.cfs.map fun c => h.fn c x y)
  else
    ((List.range s.currId).map fun i => (s.vector h x y (.ids [i]) .none).2,
      (List.range s.currCf).map fun i => (s.vector h x y .none (.ids [i])).2)

/-- One cell of `get_vector_field`, vortex_creation.py:944-989, at a point of the grid (units and masks left out). -/
noncomputable def Sys.fieldAt (h : Heap) (s : Sys) (x y : ℝ) : ℝ × ℝ :=
  total s.current.vortex x y + total s.current.im x y + (s.cfs.map fun c => h.fn c x y).sum

/-- The displacement of one vortex by `get_evolution`, vortex_creation.py:1010-1021. -/
noncomputable def moved (h : Heap) (s : Sys) (dt : ℝ) (v : Vort) : Vort :=
  if v.movable then
    { v with x0 := v.x0 + dt * (s.vector h v.x0 v.y0 .all .all).2.1, y0 := v.y0 + dt * (s.vector h v.x0 v.y0 .all .all).2.2 }
  else v

/-- `get_evolution(dt)`, vortex_creation.py:991-1026: the system `t + dt`.  The copies of the custom fields keep their references
here: nothing writes in them afterwards in what is proved. -/
noncomputable def Sys.evolution (h : Heap) (s : Sys) (dt : ℝ) : Res Sys :=
  if dt ≤ 0 then .error .valueError
  else .ok { s with vortex := s.vortex.map (moved h s dt) }.refreshed

/-- `nmb_it` evolutions, vortex_creation.py:1038-1047, 1058-1066. -/
noncomputable def Sys.run (h : Heap) (dt : ℝ) : Nat → Sys → Res Sys
  | 0, s => .ok s
  | n + 1, s =>
    match s.evolution h dt with
    | .error e => .error e
    | .ok s' => Sys.run h dt n s'

/-- `get_vortex_evolution(dt, nmb_it)`, vortex_creation.py:1050-1068: for every vortex of the system its positions, each with its
time; `k` evolutions remain. -/
noncomputable def evolveLoop (h : Heap) (dt : ℝ) : Nat → ℝ → Sys → List (List (ℝ × ℝ × ℝ)) → Res (List (List (ℝ × ℝ × ℝ)))
  | 0, _, _, acc => .ok acc
  | k + 1, t, s, acc =>
    match s.evolution h dt with
    | .error e => .error e
    | .ok s' => evolveLoop h dt k (t + dt) s' (List.zipWith (fun a (v : Vort) => a ++ [(v.x0, v.y0, t + dt)]) acc s'.vortex)
/-- `get_vortex_evolution`, vortex_creation.py:1050-1068. -/
noncomputable def Sys.vortexEvolution (h : Heap) (s : Sys) (dt : ℝ) (n : Nat) : Res (List (List (ℝ × ℝ × ℝ))) :=
  evolveLoop h dt n 0 s (s.vortex.map fun v => [(v.x0, v.y0, 0)])

/-- One point of `get_velocity_map`, vortex_creation.py:1084-1091: the vortex is put there (its position cannot be set when it is
not movable), added, its velocity read, and removed: the system is the one of the next point. -/
noncomputable def Sys.velocityMap (h : Heap) (s : Sys) (v : Vort) (x y : ℝ) : Res (Sys × (ℝ × ℝ)) :=
  if v.movable then
    let r := (s.addVortex { v with x0 := x, y0 := y }).vector h x y .all .all
    match r.1.remove (-1) with
    | .error e => .error e
    | .ok s' => .ok (s', r.2)
  else .error .exception

/-! ### histories -/

/-- What a user does to one system. -/
inductive Op where
  | addVortex (v : Vort)
  | addWall (w : Wall)
  | addField (c : Nat)
  | remove (i : Int)
  | ask (x y : ℝ) (vsel csel : Sel)
  | evolve (dt : ℝ)

/-- One operation; when it raises, nothing is changed.  `evolve` goes on with the returned system. -/
noncomputable def step (hs : Heap × Sys) : Op → Heap × Sys
  | .addVortex v => (hs.1, hs.2.addVortex v)
  | .addWall w => (hs.1, hs.2.addWall w)
  | .addField c => addField hs.1 hs.2 c
  | .remove i => match hs.2.remove i with
    | .ok s => (hs.1, s)
    | .error _ => hs
  | .ask x y vsel csel => (hs.1, (hs.2.vector hs.1 x y vsel csel).1)
  | .evolve dt => match hs.2.evolution hs.1 dt with
    | .ok s => (hs.1, s)
    | .error _ => hs

end IMT.Vortex
