import Verif.Points.Model
import Mathlib.Data.Rat.Floor

/-!
Model of the averaging of a group of trajectories (`/repo/IMTreatment/vortex_detection/vortex_detection.py:1020-1062`) and of the
`MeanTrajectory` objects it gives (2344-2512).  Times, positions and standard deviations are rational numbers; a standard deviation is
represented by its square where it is computed.
-/

namespace IMT.Cp.MeanTraj

open IMT.Points

/-! ### averaging -/

/-- A point of a trajectory of the group: its (shifted) time, its position and its real time; the entries of `av_x`, `av_y` and `av_t`,
vortex_detection.py:968-1014. -/
structure Sample where
  t : Rat
  x : Rat
  y : Rat
  rt : Rat
  deriving DecidableEq

/-- The square of `av_x_norm`, vortex_detection.py:1023, and of `ord_magn`, profile.py:1840. -/
def norm2 (l : List Sample) : Rat := (l.map fun s => s.t ^ 2).sum / l.length

/-- `d = -int(round(np.log10(ord_magn*1e-6)))`, profile.py:1841, as a relation: `ord_magn*1e-6` lies between `10^(-d-1/2)` and
`10^(-d+1/2)`. -/
def IsDecimals (n2 : Rat) (d : Int) : Prop := (10 : Rat) ^ (-2 * d - 1) ≤ n2 / 10 ^ 12 ∧ n2 / 10 ^ 12 ≤ (10 : Rat) ^ (-2 * d + 1)

/-- The nearest integer, the even one of two (`np.round`). -/
def nearest (x : Rat) : Int :=
  if x - ⌊x⌋ < 1 / 2 then ⌊x⌋ else if 1 / 2 < x - ⌊x⌋ then ⌊x⌋ + 1 else if ⌊x⌋ % 2 = 0 then ⌊x⌋ else ⌊x⌋ + 1

/-- `np.round(x, decimals=d)`, profile.py:1842. -/
def rnd (d : Int) (x : Rat) : Rat := (nearest (x * (10 : Rat) ^ d) : Rat) / (10 : Rat) ^ d

/-- `tmp_av_x.x`: the distinct rounded times, in order, profile.py:1843, vortex_detection.py:1021. -/
def steps (d : Int) (l : List Sample) : List Rat := (l.map fun s => rnd d s.t).dedup.insertionSort (· ≤ ·)

/-- `filt`, vortex_detection.py:1033: `abs(av_x.x - t)/av_x_norm < 1e-6`, compared by squares; false when the norm is null (0/0). -/
def near (n2 t : Rat) (s : Sample) : Bool := decide (n2 ≠ 0 ∧ (s.t - t) ^ 2 < n2 / 10 ^ 12)

/-- `np.mean`. -/
def mean (l : List Rat) : Rat := l.sum / l.length
/-- The square of `np.std`. -/
def var (l : List Rat) : Rat := mean (l.map fun x => (x - mean l) ^ 2)

/-- A point of the mean trajectory: time, position, squares of the standard deviations, real times. -/
structure Entry where
  t : Rat
  x : Rat
  y : Rat
  vx : Rat
  vy : Rat
  rts : List Rat
  deriving DecidableEq

/-- The point for the samples `f` of the time `t`, vortex_detection.py:1036-1041. -/
def entry (t : Rat) (f : List Sample) : Entry :=
  ⟨t, mean (f.map Sample.x), mean (f.map Sample.y), var (f.map Sample.x), var (f.map Sample.y), f.map Sample.rt⟩

/-- The points of the mean trajectory, vortex_detection.py:1032-1041, for `min_nmb_to_avg >= 1`. -/
def average (d : Int) (m : Nat) (l : List Sample) : List Entry :=
  (steps d l).filterMap fun t => if (l.filter (near (norm2 l) t)).length < m then none else some (entry t (l.filter (near (norm2 l) t)))

/-! ### the object -/

/-- A `MeanTrajectory`, vortex_detection.py:2346-2392: a set of points with times as values, associated real times and standard deviations,
and its base trajectories (references to the objects of a store). -/
structure MT where
  pts : P
  times : List (List Rat)
  sx : List Rat
  sy : List Rat
  base : List Nat
  deriving DecidableEq

/-- The mask of `crop`, vortex_detection.py:2441-2458. -/
def maskOf (p : P) (ix iy iv : Option (Rat × Rat)) : Res (List Bool) :=
  if p.v ≠ [] ∧ p.v.length ≠ p.xy.length then
    match iv with
    | some _ => .error .valueError
    | none => .ok (p.xy.map fun c => out ix c.1 || out iy c.2)
  else .ok (cropMask p ix iy iv)

/-- The end of `crop`, vortex_detection.py:2459-2472. -/
def cropWith (m : MT) (mask : List Bool) (last : P × Res PUnit) : MT × Res PUnit :=
  if mask.length < m.times.length then (m, .error .indexError)
  else if m.sx.length ≠ mask.length then ({ m with times := sel m.times mask }, .error .indexError)
  else if m.sy.length ≠ mask.length then ({ m with times := sel m.times mask, sx := sel m.sx mask }, .error .indexError)
  else ({ m with pts := last.1, times := sel m.times mask, sx := sel m.sx mask, sy := sel m.sy mask }, last.2)

/-- `crop(intervx, intervy, intervt)` in place, vortex_detection.py:2417-2476. -/
def crop (m : MT) (ix iy it : Option (Rat × Rat)) : MT × Res PUnit :=
  match maskOf m.pts ix iy it with
  | .error e => (m, .error e)
  | .ok mask => cropWith m mask (Points.crop m.pts ix iy it)

/-- `crop(intervt=[a, b], ind=True)` in place, vortex_detection.py:2436-2440, for indices that are not negative. -/
def cropInd (m : MT) (a b : Nat) : MT × Res PUnit :=
  cropWith m ((List.range m.pts.xy.length).map fun k => decide (¬ (a ≤ k ∧ k < b))) (Points.cropInd m.pts a b)

/-- The base trajectories scaled in place, one after the other, vortex_detection.py:2484-2486. -/
def scaleBase (store : Nat → P) (sx sy st : Rat) : List Nat → Nat → P
  | [] => store
  | i :: is => scaleBase (fun k => if k = i then Points.scale (store i) sx sy st else store k) sx sy st is

/-- `scale(scalex, scaley, scalet, inplace=True)` with numbers, vortex_detection.py:2478-2512. -/
def scale (store : Nat → P) (m : MT) (sx sy st : Rat) : (Nat → P) × MT :=
  (scaleBase store sx sy st m.base,
   { m with pts := Points.scale m.pts sx sy st, times := m.times.map (List.map (· * st)), sx := m.sx.map (· * sx), sy := m.sy.map (· * sy) })

/-- `sort(ref)`, inherited from `Points` (points.py:1207-1254). -/
def sort (m : MT) (r : Ref) : MT × Res PUnit := ({ m with pts := (Points.sort m.pts r).1 }, (Points.sort m.pts r).2)

/-- `remove(ind)`, inherited from `Points` (points.py:901-922). -/
def remove (m : MT) (inds : List Int) : MT × Res PUnit := ({ m with pts := (Points.remove m.pts inds).1 }, (Points.remove m.pts inds).2)

end IMT.Cp.MeanTraj
