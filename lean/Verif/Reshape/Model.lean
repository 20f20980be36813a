import Verif.Profile.Model
import Mathlib.Analysis.SpecialFunctions.Pow.Real
import Mathlib.Analysis.SpecialFunctions.Trigonometric.Basic

/-!
Model of further methods of `Profile` (`/repo/IMTreatment/core/profile.py`) and of the methods of `Points` that use them:
`remove_marginal_values`, `augment_resolution`, `evenly_space`, `get_convolution`, the product of two profiles,
`remove_doublons`, `smooth` (uniform) and `rotate`.  See `Verif/Profile/Model.lean` for the conventions.
-/

namespace IMT.Reshape

open IMT.Profile

/-! ### `remove_marginal_values` -/

/-- The unmasked values. -/
def vals (p : Prof) : List Rat := (valid p).map Prod.snd

/-- The property `mean`, profile.py:398-415 (the case of a profile entirely masked, `None`, is in `removeMarginal`). -/
def mean (p : Prof) : Rat := (vals p).sum / (vals p).length

/-- The square of `np.std(tmp_p.y[~tmp_p.mask])`, profile.py:1890. -/
def variance (p : Prof) : Rat := ((vals p).map fun v => (v - mean p) ^ 2).sum / (vals p).length

open Classical in
/-- The tests of profile.py:1891-1892; a comparison with NaN is false. -/
noncomputable def marginal (p : Prof) (fact : Rat) : F → Bool
  | none => false
  | some v => decide ((v : ℝ) < mean p - fact * Real.sqrt (variance p)) ||
      decide ((v : ℝ) > mean p + fact * Real.sqrt (variance p))

/-- `remove_marginal_values(fact)`, profile.py:1875-1895: the flags are set in the array of the mask, and the values
become NaN at the next access to `y`.  Without unmasked value the mean is `None` and the difference raises TypeError. -/
noncomputable def removeMarginal (p : Prof) (fact : Rat) : Res Prof :=
  if p.m.all id then .error .typeError
  else .ok { p with
    y := blank (getY p) (List.zipWith (fun b v => b || marginal p fact v) p.m (getY p))
    m := List.zipWith (fun b v => b || marginal p fact v) p.m (getY p) }

/-! ### `augment_resolution` -/

/-- `(old_inds[filt], x[filt], y[filt])`, profile.py:1654-1661. -/
def knots (fact : Nat) (p : Prof) : List (Rat × (Rat × Rat)) :=
  ((pts p).zipIdx).filterMap fun r => r.1.2.map fun v => (((r.2 * fact : Nat) : Rat), (r.1.1, v))

/-- `new_inds`, profile.py:1655-1656: `np.arange(0, len*fact, fact)[-1] + 1` indices. -/
def newInds (fact n : Nat) : List Rat := (List.range ((n - 1) * fact + 1)).map fun i : Nat => (i : Rat)

/-- `interp_x(new_inds)`, profile.py:1657-1659. -/
def augX (fact : Nat) (p : Prof) : List Rat :=
  (newInds fact p.x.length).map fun t => (lin ((knots fact p).map fun k => (k.1, k.2.1)) t).getD 0

/-- `interp_y(new_inds)`, profile.py:1660-1662. -/
def augY (fact : Nat) (p : Prof) : List F :=
  (newInds fact p.x.length).map fun t => lin ((knots fact p).map fun k => (k.1, k.2.2)) t

/-- The end of `augment_resolution`, profile.py:1653-1666, after the masked borders are gone; `interp1d` raises ValueError
with fewer than two points. -/
def augRest (srt : List Rat → List Nat) (fact : Nat) (p : Prof) : Prof × Res PUnit :=
  if (knots fact p).length < 2 then (p, .error .valueError)
  else match setX srt (setY p (augY fact p)) (augX fact p) with
    | (q, .ok _) => setMask q (List.replicate (augX fact p).length false)
    | (q, .error e) => (q, .error e)

/-- `augment_resolution(fact, 'linear', inplace=True)`, profile.py:1619-1668. -/
def augment (srt : List Rat → List Nat) (p : Prof) (fact : Nat) : Prof × Res PUnit :=
  if fact = 0 then (p, .error .typeError)
  else match cropMaskedBorder srt p with
    | (q, .ok _) => augRest srt fact q
    | (q, .error e) => (q, .error e)

/-- A coordinate of the points, through `Profile(range(n), ...)`, points.py:1330-1339. -/
def augColumn (srt : List Rat → List Nat) (l : List Rat) (fact : Nat) : Res (List F) :=
  match new srt ((List.range l.length).map fun i : Nat => (i : Rat)) (l.map some) (.flag false) Sym.one Sym.one with
  | .error e => .error e
  | .ok p =>
    match augment srt p fact with
    | (q, .ok _) => .ok (getY q)
    | (_, .error e) => .error e

/-! ### `evenly_space` -/

/-- `self.x[1::] - self.x[:-1:]`, profile.py:1727. -/
def steps : List Rat → List Rat
  | a :: b :: l => (b - a) :: steps (b :: l)
  | _ => []

/-- The largest of a list, 0 for an empty one. -/
def largest (l : List Rat) : Rat := (l.max?).getD 0

/-- The test of profile.py:1729. -/
def even (x : List Rat) : Bool :=
  (steps x).all fun d => decide (|d - ((steps x).head?).getD 0| < 1 / 1000000 * largest (steps x))

/-- `np.linspace(a, b, n + 1)` for `n ≥ 1`; `[a]` for `n = 0`. -/
def linspace (a b : Rat) (n : Nat) : List Rat := (List.range (n + 1)).map fun i : Nat => a + i * ((b - a) / n)

/-- `np.int((max_x - min_x)/mean_dx)`, profile.py:1735-1741; the quotient is exact here, and a number of intervals that
is negative is not modelled. -/
def intervals (x : List Rat) (dx : Option Rat) : Nat :=
  (((x.getLast?).getD 0 - (x.head?).getD 0) / dx.getD ((steps x).sum / (steps x).length)).floor.toNat

/-- `new_y`, profile.py:1744-1746: a position out of the unmasked abscissae raises ValueError. -/
def evenY (p : Prof) (xs : List Rat) : Res (List F) :=
  if (valid p).length < 2 then .error .valueError
  else if (slice xs 1 (xs.length - 1)).any fun t => (lin (valid p) t).isNone then .error .valueError
  else .ok ((((getY p).head?).getD none) :: (slice xs 1 (xs.length - 1)).map (lin (valid p)) ++ [((getY p).getLast?).getD none])

/-- `evenly_space('linear', dx)`, profile.py:1708-1752, on a sorted profile: the result (with `inplace` the object takes
the same state, unless the abscissae were even already). -/
def evenlySpace (srt : List Rat → List Nat) (p : Prof) (dx : Option Rat) : Res Prof :=
  if p.x.length < 2 then .error .indexError
  else if even p.x then .ok p
  else match evenY p (linspace ((p.x.head?).getD 0) ((p.x.getLast?).getD 0) (intervals p.x dx)) with
    | .error e => .error e
    | .ok ys => new srt (linspace ((p.x.head?).getD 0) ((p.x.getLast?).getD 0) (intervals p.x dx)) ys (.flag false) p.ux p.uy

/-! ### `get_convolution` -/

/-- Product of floats. -/
def mulF : F → F → F
  | some a, some b => some (a * b)
  | _, _ => none

/-- The `n`-th element of the full convolution: the products `a[k]*b[n-k]` of the elements that exist. -/
def convAt (a b : List F) (n : Nat) : F :=
  ((List.range (n + 1)).filter fun k => decide (k < a.length ∧ n - k < b.length)).foldr
    (fun k s => addF (mulF (a.getD k none) (b.getD (n - k) none)) s) (some 0)

/-- The argument `mode`. -/
inductive Mode where
  | full | same | valid
  deriving DecidableEq

/-- `np.convolve(a, b, mode)`. -/
def convolve (a b : List F) : Mode → List F
  | .full => (List.range (a.length + b.length - 1)).map (convAt a b)
  | .same => (List.range (max a.length b.length)).map fun i => convAt a b (i + (min a.length b.length - 1) / 2)
  | .valid => (List.range (max a.length b.length - min a.length b.length + 1)).map
      fun i => convAt a b (i + (min a.length b.length - 1))

/-- The step, `x[1] - x[0]`. -/
def step (x : List Rat) : Rat := ((steps x).head?).getD 0

/-- profile.py:1174-1176. -/
def evenSelf (x : List Rat) : Bool :=
  (steps x).all fun d => decide (d - step x < (x.getLast?).getD 0 * (1 / 10000000000))

/-- profile.py:1177-1180: `- other_prof.x[1] - other_prof.x[0]`, without the parentheses of the first test. -/
def evenOther (x : List Rat) : Bool :=
  (steps x).all fun d => decide (d - (x[1]?).getD 0 - (x[0]?).getD 0 < 1 / 1000000 * (x.sum / x.length))

/-- `get_convolution(other, mode)`, profile.py:1138-1198.  `np.arange(0, dx*n, dx)` has `n` elements in exact
arithmetic. -/
def convolution (srt : List Rat → List Nat) (p q : Prof) (mode : Mode) : Res Prof :=
  if p.x.length < 2 then .error .indexError
  else if evenSelf p.x = false then .error .exception
  else if q.x.length < 2 then .error .indexError
  else if evenOther q.x = false then .error .exception
  else if step p.x ≠ step q.x then .error .exception
  else if p.ux ≠ q.ux then .error .exception
  else new srt ((List.range (convolve (getY p) (getY q) mode).length).map fun i : Nat => (i : Rat) * step p.x)
    (convolve (getY p) (getY q) mode) (.flag false) p.ux (p.uy.mul q.uy)

/-! ### Product of two profiles -/

/-- profile.py:148: the other abscissae may be anywhere **below**. -/
def tooHigh (x x' : List Rat) : Bool :=
  (List.zipWith (fun a b => decide (b - a > 1 / 1000000 * ((x.map fun v => |v|).sum / x.length))) x x').any id

/-- `shared_x`, profile.py:156-165. -/
def shared (x x' : List Rat) : Rat × Rat :=
  (if (x'.head?).getD 0 ∈ x then (x'.head?).getD 0 - step x / 2 else (x.head?).getD 0 - step x / 2,
   if (x'.getLast?).getD 0 ∈ x then (x'.getLast?).getD 0 + step x / 2 else (x.getLast?).getD 0 + step x / 2)

/-- The filters of profile.py:166-170. -/
def inWindow (w : Rat × Rat) (x : List Rat) : List Bool := x.map fun a => decide (a ≤ w.2 ∧ w.1 ≤ a)

/-- `self * other` for two profiles, profile.py:147-178.  Arrays of different lengths raise ValueError (numpy would
stretch an array of one element; not modelled). -/
def mul (srt : List Rat → List Nat) (p q : Prof) : Res Prof :=
  if p.x.length ≠ q.x.length then .error .valueError
  else if tooHigh p.x q.x then .error .valueError
  else if q.ux ≠ p.ux then .error .valueError
  else if p.x.length < 2 then .error .indexError
  else if (sel p.x (inWindow (shared p.x q.x) p.x)).length ≠ (sel q.x (inWindow (shared p.x q.x) q.x)).length then
    .error .valueError
  else new srt (sel p.x (inWindow (shared p.x q.x) p.x))
    (List.zipWith mulF (sel (getY p) (inWindow (shared p.x q.x) p.x)) (sel (getY q) (inWindow (shared p.x q.x) q.x)))
    (.arr (List.zipWith (· || ·) (sel p.m (inWindow (shared p.x q.x) p.x)) (sel q.m (inWindow (shared p.x q.x) q.x))))
    p.ux (p.uy.mul q.uy)

/-! ### `remove_doublons` -/

/-- The argument `method`. -/
inductive Method where
  | average | min | max
  deriving DecidableEq

/-- All values, or nothing when one is NaN. -/
def allSome : List F → Option (List Rat)
  | [] => some []
  | none :: _ => none
  | some v :: l => (allSome l).map (v :: ·)

/-- `np.mean`, `np.min`, `np.max` of a group, profile.py:1844-1849: NaN as soon as one value is. -/
def merge (m : Method) (l : List F) : F :=
  match m with
  | .average => (allSome l).map fun l => l.sum / l.length
  | .min => (allSome l).bind List.min?
  | .max => (allSome l).bind List.max?

/-- The values of the points whose rounded abscissa is `a`. -/
def group (rnd : Rat → Rat) (p : Prof) (a : Rat) : List F := ((pts p).filter fun r => decide (rnd r.1 = a)).map Prod.snd

/-- `np.sort(list(set(tmp_x)))`, profile.py:1842. -/
def newX (rnd : Rat → Rat) (x : List Rat) : List Rat := ((x.map rnd).dedup).insertionSort (· ≤ ·)

/-- `remove_doublons(method, inplace=True)`, profile.py:1827-1856.  `rnd` is `np.round` to the number of decimals given
by the order of magnitude (1839-1841), which is not modelled: the theorems hold for every function. -/
def removeDoublons (srt : List Rat → List Nat) (rnd : Rat → Rat) (p : Prof) (m : Method) : Prof × Res PUnit :=
  setX srt (setY p ((newX rnd p.x).map fun a => merge m (group rnd p a))) (newX rnd p.x)

/-! ### `smooth` -/

/-- `l[i]` with the border mode 'nearest'. -/
def near (l : List Rat) (i : Int) : Rat := l.getD (min i.toNat (l.length - 1)) 0

/-- `ndimage.uniform_filter(l, size, mode='nearest')`. -/
def uniform (size : Nat) (l : List Rat) : List Rat :=
  (List.range l.length).map fun i : Nat =>
    ((List.range size).map fun j : Nat => near l ((i : Int) + j - (size / 2 : Nat))).sum / size

/-- The numbers of an array without NaN. -/
def nums (l : List F) : List Rat := l.map fun v => v.getD 0

/-- `smooth('uniform', size, direction, inplace=True)`, profile.py:1754-1825, on a profile that can be filled; `inX` and
`inY` say whether the letters are in `direction`.  A size 0 is refused by scipy (RuntimeError). -/
def smooth (srt : List Rat → List Nat) (p : Prof) (size : Nat) (inX inY : Bool) : Prof × Res PUnit :=
  match fillInplace p .slinear 0 with
  | (q, .error e) => (q, .error e)
  | (q, .ok _) =>
    if size = 0 then (q, .error .exception)
    else match setX srt q (if inX then uniform size q.x else q.x) with
      | (r, .error e) => (r, .error e)
      | (r, .ok _) => (setY r (if inY then (uniform size (nums (getY q))).map some else getY q), .ok ⟨⟩)

/-! ### `rotate` -/

/-- The rotation of points.py:1137-1138. -/
noncomputable def turn (θ : ℝ) (r : ℝ × ℝ) : ℝ × ℝ :=
  (r.1 * Real.cos θ - r.2 * Real.sin θ, r.2 * Real.cos θ + r.1 * Real.sin θ)

/-- `Points.rotate(angle)`, points.py:1121-1142: the positions, over the reals. -/
noncomputable def rotatePoints (θ : ℝ) (xy : List (ℝ × ℝ)) : List (ℝ × ℝ) := xy.map (turn θ)

/-- `Profile.rotate(angle)`, profile.py:1525-1547, on a profile without masked point, over the reals: the angle is negated
(1541), and the setter of the abscissae sorts the points (`sort`, profile.py:263-275). -/
noncomputable def rotateProfile (sort : List (ℝ × ℝ) → List (ℝ × ℝ)) (θ : ℝ) (l : List (ℝ × ℝ)) : List (ℝ × ℝ) :=
  sort (l.map (turn (-θ)))

end IMT.Reshape
