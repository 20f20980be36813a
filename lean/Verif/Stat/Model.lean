import Verif.Line.Model
import Mathlib.Algebra.Order.Floor.Ring
import Mathlib.Data.Rat.Floor
import Mathlib.Analysis.SpecialFunctions.Pow.Real

/-! Histogram, correlation and norm of a scalar field (core/scalarfield.py, core/profile.py). -/

namespace IMT.Stat

open Profile (Prof F MaskArg)

/-- `self.values.flatten()`: the values, NaN where masked, row after row. -/
def flat (f : SF) : List (Option Rat) :=
  (List.range f.ax.length).flatMap fun i => (List.range f.ay.length).map fun j => f.cell i j

/-- The unmasked values, `self.values[~self.mask]`. -/
def seen (f : SF) : List Rat := (flat f).filterMap id

/-- Widening of an empty range by `np.histogram`. -/
def widen (p : Rat × Rat) : Rat × Rat := if p.1 = p.2 then (p.1 - 1 / 2, p.2 + 1 / 2) else p

/-- The smallest value of a list. -/
def least : List Rat → Rat
  | [] => 0
  | a :: l => l.foldl min a

/-- The largest value of a list. -/
def greatest : List Rat → Rat
  | [] => 0
  | a :: l => l.foldl max a

/-- The range of `np.histogram(vals, range=range)`: the given one, else the extrema of the values; a NaN in the extrema is refused. -/
def outer (vals : List (Option Rat)) : Option (Rat × Rat) → Res (Rat × Rat)
  | some (a, b) => if a > b then .error .valueError else .ok (widen (a, b))
  | none =>
    if vals = [] then .ok (0, 1)
    else if none ∈ vals then .error .valueError
    else .ok (widen (least (vals.filterMap id), greatest (vals.filterMap id)))

/-- The bin of a value of the range for `np.histogram` with `n` bins: `int((v - lo)*n/(hi - lo))`, the upper end being put in the last bin.
(The corrections of the rounding errors have nothing to do with exact numbers.) -/
def binOf (lo hi : Rat) (n : Nat) (v : Rat) : Nat :=
  if ⌊(v - lo) * (n / (hi - lo))⌋.toNat = n then n - 1 else ⌊(v - lo) * (n / (hi - lo))⌋.toNat

/-- The counts of `np.histogram`; NaN compare false and are not counted. -/
def counts (vals : List (Option Rat)) (lo hi : Rat) (n : Nat) : List Rat :=
  (List.range n).map fun k =>
    (((vals.filterMap id).filter fun v => decide (lo ≤ v ∧ v ≤ hi)).countP fun v => decide (binOf lo hi n v = k) : Nat)

/-- The edges of the bins of `np.histogram`. -/
def edges (lo hi : Rat) (n : Nat) : List Rat := (List.range (n + 1)).map fun k : Nat => lo + k * ((hi - lo) / n)

/-- `density=True` of `np.histogram`: the counts over the widths and the total; 0/0 is NaN. -/
def density (c : List Rat) (lo hi : Rat) (n : Nat) : List (Option Rat) :=
  c.map fun a => if c.sum = 0 then none else some (a / ((hi - lo) / n) / c.sum)

/-- `np.cumsum`. -/
def cumsum : Option Rat → List (Option Rat) → List (Option Rat)
  | _, [] => []
  | s, a :: l => (match s, a with | some s, some a => some (s + a) | _, _ => none) ::
      cumsum (match s, a with | some s, some a => some (s + a) | _, _ => none) l

/-- `xs[0:-1] + np.mean(xs[0:2])`, scalarfield.py:963. -/
def spots (xs : List Rat) : List Rat := xs.dropLast.map fun x => x + (xs.getD 0 0 + xs.getD 1 0) / 2

/-- `get_histogram(cum, normalized, bins, range)`, scalarfield.py:941-967, for a number of bins.  The unit 'counts' is taken as no unit. -/
def histogram (srt : List Rat → List Nat) (f : SF) (cum normalized : Bool) (n : Nat) (range : Option (Rat × Rat)) : Res Prof :=
  if n < 1 then .error .valueError
  else match outer (flat f) range with
    | .error e => .error e
    | .ok r =>
      Profile.new srt (spots (edges r.1 r.2 n))
        ((fun h => if cum then cumsum (some 0) h else h)
          (if normalized then density (counts (flat f) r.1 r.2 n) r.1 r.2 n else (counts (flat f) r.1 r.2 n).map some))
        (.flag false) f.uv Sym.one

/-- One step of a sum of products. -/
def addProd : Option Rat → Option Rat → Option Rat → Option Rat
  | some acc, some a, some b => some (acc + a * b)
  | _, _, _ => none

/-- The sum of the products `y[s(i)]*y[i]` for `i` in a list of indices; NaN as soon as one value is. -/
def products (y : List (Option Rat)) (is : List Nat) (s : Nat → Nat) : Option Rat :=
  is.foldl (fun acc i => addProd acc (y.getD (s i) none) (y.getD i none)) (some 0)

/-- The central points of the windows of half width `w`: `np.arange(w, len(y) - w - 1)`, profile.py:942. -/
def centres (len w : Nat) : List Nat := (List.range (len - w - 1)).drop w

/-- Division of numbers that may be NaN; 0/0 is NaN (a non-zero number is not divided by zero here). -/
def quot : Option Rat → Option Rat → Option Rat
  | some a, some b => if b = 0 then none else some (a / b)
  | _, _ => none

/-- The values of `get_auto_correlation(window_len, raw=True)`, profile.py:914-951. -/
def autocorr (y : List (Option Rat)) (window : Nat) : Res (List (Option Rat)) :=
  if window + 1 ≥ y.length then .error .valueError
  else .ok ((List.range (2 * (window / 2) + 1)).map fun k =>
    quot (products y (centres y.length (window / 2)) fun i => i - window / 2 + k)
      (products y (centres y.length (window / 2)) fun i => i))

/-- `np.arange(0, n*dx, dx)`. -/
def lags (dx : Rat) (n : Nat) : List Rat := (List.range n).map fun k : Nat => k * dx

/-- `get_auto_correlation(window_len)`, profile.py:914-955. -/
def autocorrelation (srt : List Rat → List Nat) (p : Prof) (window : Nat) : Res Prof :=
  match autocorr (Profile.getY p) window with
  | .error e => .error e
  | .ok c => Profile.new srt (lags (p.x.getD 1 0 - p.x.getD 0 0) c.length) c (.flag false) p.ux Sym.one

/-- Sum of numbers that may be NaN. -/
def plus : Option Rat → Option Rat → Option Rat
  | some a, some b => some (a + b)
  | _, _ => none

/-- The loop on the lines of scalarfield.py:992-998, 1009-1014. -/
def corrLoop (main : Bool) (srt : List Rat → List Nat) (f : SF) (d : Line.Dir) (window : Nat) :
    List Nat → List (Option Rat) → Res (List (Option Rat))
  | [], cor => .ok cor
  | i :: is, cor =>
    match Line.getProfileInd main srt f d i .linear with
    | .error e => .error e
    | .ok p =>
      match autocorr (Profile.getY p) window with
      | .error e => .error e
      | .ok c => corrLoop main srt f d window is (List.zipWith plus cor c)

/-- `get_spatial_autocorrelation(direction, window_len)`, scalarfield.py:969-1022.  `d` is the direction of which a position is chosen for each
line: the other one than `direction`. -/
def spatialAutocorrelation (main : Bool) (srt : List Rat → List Nat) (f : SF) (d : Line.Dir) (window : Option Nat) : Res Prof :=
  match corrLoop main srt f d (window.getD ((Line.other f d).length - 2)) (List.range (Line.axe f d).length)
      (List.replicate (2 * (window.getD ((Line.other f d).length - 2) / 2) + 1) (some 0)) with
  | .error e => .error e
  | .ok cor =>
    Profile.new srt (lags ((Line.other f d).getD 1 0 - (Line.other f d).getD 0 0) cor.length)
      (cor.map fun c => c.map fun v => v / (Line.axe f d).length) (.flag false) (Line.unit f d) Sym.one

/-- `get_norm(norm=p, normalized)`, scalarfield.py:1120-1128, for a positive number `p` and a field with an unmasked value. -/
noncomputable def norm (f : SF) (p : ℝ) (perPoint : Bool) : ℝ :=
  if perPoint then (((seen f).map fun v : Rat => |(v : ℝ)| ^ p).sum) ^ (1 / p) / (seen f).length
  else (((seen f).map fun v : Rat => |(v : ℝ)| ^ p).sum) ^ (1 / p)

end IMT.Stat
