import Verif.Points.Model
import Verif.Reshape.Model
import Verif.Bl.Thick
import Verif.Scalar.ArithModel

/-!
Model of further methods of `Points` and `Profile` (`/repo/IMTreatment/core/points.py`, `/repo/IMTreatment/core/profile.py`):
`Points.remove_doublons`, `Points.order_on_line`, `Profile.get_gradient(position)` and `Profile.remove_local_marginal_values`.
-/

namespace IMT.Tidy

/-! ### `Points.remove_doublons` -/

/-- `np.rint`: the nearest integer, the even one of two. -/
def rint (q : Rat) : Int :=
  if q - q.floor < 1 / 2 then q.floor
  else if 1 / 2 < q - q.floor then q.floor + 1
  else if q.floor % 2 = 0 then q.floor else q.floor + 1

/-- `np.round(v, decimals=d)`, points.py:1164. -/
def rndTo (d : Int) (v : Rat) : Rat := rint (v * (10 : Rat) ^ d) / (10 : Rat) ^ d

/-- `np.sum(vs**2)/len(vs)`, points.py:1162. -/
def meanSq (vs : List Rat) : Rat := (vs.map fun v => v ^ 2).sum / vs.length

/-- What is assumed of the number of decimals, `-int(round(np.log10(ord_magn*eps_rel)))`, points.py:1162-1163, as a function of the mean of the squares
and of `eps_rel`: the step `10^-d` is the power of ten nearest (in logarithm) to `eps_rel` times the square root. -/
def IsDec (dec : Rat → Rat → Int) : Prop :=
  ∀ ms eps : Rat, 0 < ms → 0 < eps → ((10 : Rat) ^ (-dec ms eps)) ^ 2 ≤ 10 * (eps ^ 2 * ms) ∧ eps ^ 2 * ms ≤ 10 * ((10 : Rat) ^ (-dec ms eps)) ^ 2

open Reshape in
/-- The positions of the points of rounded value `a`, merged, points.py:1166-1174. -/
def mergedAt (m : Method) (rnd : Rat → Rat) (xy : List (Points.F × Points.F)) (vs : List Rat) (a : Rat) : Points.F × Points.F :=
  (merge m (((xy.zip vs).filter fun r => decide (rnd r.2 = a)).map fun r => r.1.1), merge m (((xy.zip vs).filter fun r => decide (rnd r.2 = a)).map fun r => r.1.2))

open Reshape in
/-- `Points.remove_doublons(method, eps_rel)`, points.py:1145-1180, for a positive `eps_rel`: the new state, or the error, which leaves the set as it
was.  With null values the logarithm is infinite and `int` raises OverflowError (here `.exception`); with a NaN value it raises ValueError. -/
def removeDoublons (dec : Rat → Rat → Int) (eps : Rat) (m : Method) (p : Points.P) : Res Points.P :=
  if p.v = [] then .error .exception
  else match allSome p.v with
    | none => .error .valueError
    | some vs =>
      if meanSq vs = 0 then .error .exception
      else if p.v.length ≠ p.xy.length then .error .indexError
      else Points.setV (Points.setXY p ((newX (rndTo (dec (meanSq vs) eps)) vs).map (mergedAt m (rndTo (dec (meanSq vs) eps)) p.xy vs)))
        ((newX (rndTo (dec (meanSq vs) eps)) vs).map some)

/-! ### `Points.order_on_line` -/

/-- The square of the distance of two positions. -/
def dist2 (a b : Rat × Rat) : Rat := (a.1 - b.1) ^ 2 + (a.2 - b.2) ^ 2

/-- What is assumed of sklearn's `NearestNeighbors(2).fit(xy).kneighbors_graph()`, points.py:1264-1266: each of the `n` points has two neighbours, other
than itself, and no other point is nearer. -/
def IsNear (xy : List (Rat × Rat)) (nb : Nat → List Nat) : Prop :=
  ∀ i, i < xy.length → (nb i).length = 2 ∧ (nb i).Nodup ∧ i ∉ nb i ∧ (∀ j ∈ nb i, j < xy.length) ∧
    ∀ j ∈ nb i, ∀ k, k < xy.length → k ≠ i → k ∉ nb i → dist2 (xy.getD i 0) (xy.getD j 0) ≤ dist2 (xy.getD i 0) (xy.getD k 0)

/-- An edge of the graph of `n` nodes made by networkx, points.py:1268, which has no direction. -/
def Edge (n : Nat) (nb : Nat → List Nat) (i j : Nat) : Prop := i < n ∧ j < n ∧ (j ∈ nb i ∨ i ∈ nb j)

/-- What is assumed of `list(nx.dfs_preorder_nodes(T, i))`, points.py:1269-1270: it starts at `i` and visits once each node that can be reached. -/
def IsDfs (n : Nat) (nb : Nat → List Nat) (dfs : Nat → List Nat) : Prop :=
  ∀ i, i < n → (dfs i).head? = some i ∧ (dfs i).Nodup ∧ ∀ j, j ∈ dfs i ↔ Relation.ReflTransGen (Edge n nb) i j

/-- The sum of the squared steps along a path, points.py:1277. -/
def cost : List (Rat × Rat) → Rat
  | a :: b :: l => dist2 a b + cost (b :: l)
  | _ => 0

/-- The loop of points.py:1271-1280: the first path of least cost. -/
def best (xy : List (Rat × Rat)) (dfs : Nat → List Nat) : List Nat → Option (Rat × Nat) → Option (Rat × Nat)
  | [], s => s
  | i :: l, none => best xy dfs l (some (cost (Points.take xy (dfs i)), i))
  | i :: l, some s => best xy dfs l (if cost (Points.take xy (dfs i)) < s.1 then some (cost (Points.take xy (dfs i)), i) else some s)

/-- A set of points whose positions are numbers. -/
structure Cloud where
  xy : List (Rat × Rat)
  v : List Rat
  deriving DecidableEq

/-- `order_on_line()`, points.py:1254-1285, on positions without NaN: only the positions are reordered; the setter drops the values when the number of
points changes.  (With fewer than three points sklearn raises ValueError; the units are kept.) -/
def orderOnLine (dfs : Nat → List Nat) (c : Cloud) : Res Cloud :=
  if c.xy.length < 3 then .error .valueError
  else
    let o := dfs ((best c.xy dfs (List.range c.xy.length) none).elim 0 Prod.snd)
    .ok ⟨Points.take c.xy o, if (Points.take c.xy o).length ≠ c.v.length then [] else c.v⟩

/-! ### `Profile.get_gradient` -/

open Profile in
/-- The line through two points. -/
def line (a b : Rat × Rat) (x : Rat) : Rat := a.2 + (b.2 - a.2) * ((x - a.1) / (b.1 - a.1))

/-- `UnivariateSpline(x, y, k=1, s=0)`, profile.py:698: the broken line, prolonged at both ends. -/
def broken : List (Rat × Rat) → Rat → Rat
  | a :: b :: c :: l, x => if x ≤ b.1 then line a b x else broken (b :: c :: l) x
  | [a, b], x => line a b x
  | _, _ => 0

open Profile in
/-- `get_gradient(position, wanted_dx)`, profile.py:663-712: a number, for profiles without masked point (what scipy does of NaN is not modelled). -/
def gradientAt (p : Prof) (pos : Rat) (wanted : Option Rat) : Res Rat :=
  if p.x.length < 2 then .error .indexError
  else if Meas.evenly p.x = false then .error .exception
  else match Reshape.allSome (getY p) with
    | none => .error .exception
    | some ys =>
      let I := broken (p.x.zip ys)
      let dx := wanted.getD (p.x.getD 1 0 - p.x.getD 0 0)
      if p.x.all fun x => decide (pos < x) then .ok ((I (pos + dx) - I pos) / dx)
      else if p.x.all fun x => decide (x < pos) then .ok ((I pos - I (pos - dx)) / dx)
      else .ok ((I (pos + dx) - I (pos - dx)) / (2 * dx))

open Profile in
/-- `get_gradient()`, profile.py:663-692, with the number that the quotient of the units may carry. -/
def gradientProfile (p : Prof) : Res Prof :=
  if p.x.length < 2 then .error .indexError
  else if Meas.evenly p.x = false then .error .exception
  else .ok { setY p ((List.range p.x.length).map fun i =>
      (Meas.gradAt (getY p) (p.x.getD 1 0 - p.x.getD 0 0) i).map (· * SF.unitNum (p.uy.div p.ux))) with uy := SF.unitSym (p.uy.div p.ux) }

/-! ### `Profile.remove_local_marginal_values` -/

open Profile in
/-- `smooth(tos='gaussian', size=neighb, inplace=False)`, profile.py:1754-1825: the profile is filled, then its values are filtered; `Ga` is
`ndimage.gaussian_filter`. -/
def smoothG (srt : List Rat → List Nat) (Ga : List Rat → List Rat) (p : Prof) : Res Prof :=
  match fillInplace p .slinear 0 with
  | (_, .error e) => .error e
  | (q, .ok _) => match setX srt q q.x with
    | (_, .error e) => .error e
    | (r, .ok _) => .ok (setY r ((Ga (Reshape.nums (getY q))).map some))

open Profile in
/-- `tmp_p - prof_smooth`, profile.py:127-128, 1919. -/
def sub (srt : List Rat → List Nat) (p q : Prof) : Res Prof :=
  match neg srt q with
  | .error e => .error e
  | .ok n => add srt p n

open Profile in
/-- `remove_local_marginal_values(fact, neighb)`, profile.py:1897-1926: the flags are set in the array of the mask, and the values become NaN at the next
access to `y`. -/
noncomputable def removeLocal (srt : List Rat → List Nat) (Ga : List Rat → List Rat) (p : Prof) (fact : Rat) : Res Prof :=
  match smoothG srt Ga p with
  | .error e => .error e
  | .ok s => match sub srt p s with
    | .error e => .error e
    | .ok d => .ok { p with
        y := blank (getY p) (List.zipWith (fun b v => b || Reshape.marginal d fact v) p.m (getY d))
        m := List.zipWith (fun b v => b || Reshape.marginal d fact v) p.m (getY d) }

end IMT.Tidy
