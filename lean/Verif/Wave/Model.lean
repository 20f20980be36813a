import Verif.Trace.SpecModel
import Verif.Fill.Model
import Verif.Line.Model

/-!
Model of the spatial spectra of scalar fields (`get_spatial_spectrum`, `/repo/IMTreatment/core/scalarfield.py`, and
`/repo/IMTreatment/core/temporalfields.py`) and of the wavelet transform of profiles (`get_wavelet_transform`,
`/repo/IMTreatment/core/profile.py`).  The magnitudes of the spectrum of a profile without masked point (`mg`) and the continuous wavelet
transform of scipy (`cwt`) are parameters.
-/

namespace IMT.Wave

open Profile (Prof)
open Line (Dir axe other collect)
open Temporal (TF)

/-- An interval as the user writes it: `np.array(interval)` is an array of integers if both bounds are integers. -/
inductive Span where
  | ints (a b : Int)
  | floats (a b : Rat)
  deriving DecidableEq

/-- A float stored in an array of integers loses its decimals. -/
def trunc (q : Rat) : Int := if 0 ≤ q then q.floor else -(-q).floor

/-- core/scalarfield.py:1066-1070, 1077-1081 and core/temporalfields.py:424-427: bounds out of the axis become those of the axis. -/
def clip (first last : Rat) : Span → Rat × Rat
  | .ints a b => (if (a : Rat) < first then (trunc first : Rat) else a, if (b : Rat) > last then (trunc last : Rat) else b)
  | .floats a b => (if a < first then first else a, if b > last then last else b)

/-- Without interval, the whole axis: core/scalarfield.py:1061-1062, 1072-1073 and core/temporalfields.py:418-419. -/
def span (first last : Rat) : Option Span → Rat × Rat
  | none => (first, last)
  | some s => clip first last s

/-- The bounds must be in order: core/scalarfield.py:1070-1071, 1081-1082 and core/temporalfields.py:428-429. -/
def ordered (c : Rat × Rat) : Res (Rat × Rat) := if c.2 ≤ c.1 then .error .valueError else .ok c

/-- The interval used, core/scalarfield.py:1061-1082 and core/temporalfields.py:418-429. -/
def window (l : List Rat) (s : Option Span) : Res (Rat × Rat) :=
  match l.head?, l.getLast? with
  | some a, some b => ordered (span a b s)
  | _, _ => .error .indexError

/-- The direction across which the lines follow one another. -/
def across : Dir → Dir
  | .x => .y
  | .y => .x

/-- `get_profile(...).get_spectrum(...)` of a line, core/scalarfield.py:1095-1097, 1100-1102. -/
def lineSpectrum (main : Bool) (srt : List Rat → List Nat) (mg : List Rat → List Rat → List Rat) (g : SF) (d : Dir) (v : Rat) : Res (List Rat) :=
  match Line.getProfile main srt g (across d) v .linear with
  | .error e => .error e
  | .ok p => Trace.magnitudes mg p

/-- The sum and the division of spectra with the same frequencies, core/scalarfield.py:1094-1103. -/
def average (n : Nat) : List (List Rat) → Res (List Rat)
  | [] => .error .indexError
  | s :: r => .ok ((r.foldl (List.zipWith (· + ·)) s).map fun v => v / n)

/-- The mean of the spectra of all the lines, core/scalarfield.py:1092-1114. -/
def lines (main : Bool) (srt : List Rat → List Nat) (mg : List Rat → List Rat → List Rat) (g : SF) (d : Dir) : Res (List Rat) :=
  match collect ((axe g (across d)).map (lineSpectrum main srt mg g d)) with
  | .error e => .error e
  | .ok l => average (axe g (across d)).length l

/-- `get_spatial_spectrum(direction, intervx, intervy)`, core/scalarfield.py:1024-1115, `fl` being the filling of the field. -/
def spatial (main : Bool) (srt : List Rat → List Nat) (fl : SF → Res SF) (mg : List Rat → List Rat → List Rat) (f : SF) (d : Dir)
    (ix iy : Option Span) : Res (List Rat) :=
  match window f.ax ix, window f.ay iy with
  | .error e, _ => .error e
  | _, .error e => .error e
  | .ok a, .ok b => match f.crop (some a) (some b) with
    | .error e => .error e
    | .ok g => match fl g with
      | .error e => .error e
      | .ok h => lines main srt mg h d

/-- `get_spatial_spectrum(direction, intervx, intervy, fill=kind)`: the filling is `fill(kind, reduce_tri=True)`,
core/scalarfield.py:1084-1091. -/
noncomputable def getSpatial (main : Bool) (srt : List Rat → List Nat) (s : Fill.Scipy) (k : Fill.Kind) (mg : List Rat → List Rat → List Rat)
    (f : SF) (d : Dir) (ix iy : Option Span) : Res (List Rat) :=
  spatial main srt (Fill.fill s k true) mg f d ix iy

/-- `get_spatial_spectrum('values', direction, intervx, intervy, intervtime)` of temporal scalar fields, core/temporalfields.py:369-448,
`sp` being that of a field.  Without any time in the interval, `0/0`. -/
def overTimes (sp : SF → Res (List Rat)) (t : TF) (it : Option Span) : Res (List Rat) :=
  match window t.times it with
  | .error e => .error e
  | .ok w => match (t.times.zip t.fields).filter (fun e => decide (w.1 ≤ e.1 ∧ e.1 ≤ w.2)) with
    | [] => .error .zeroDivision
    | c :: r => match collect ((c :: r).map fun e => sp e.2) with
      | .error e => .error e
      | .ok l => average (c :: r).length l

/-! ### wavelets -/

/-- `np.linspace(0, n - 1, 101)[1:]`, core/profile.py:833. -/
def defaultWidths (n : Nat) : List Rat := (List.range 100).map fun k : Nat => ((k : Rat) + 1) * ((n : Rat) - 1) / 100

/-- `np.any((x[1:] - x[:-1]) - dx > 1e-6)`, core/profile.py:841. -/
def uneven (x : List Rat) (dx : Rat) : Bool := (List.zipWith (fun a b : Rat => decide (b - a - dx > 1 / 1000000)) x x.tail).any id

/-- `tmp_prof.y - np.mean(tmp_prof.y)`, core/profile.py:851. -/
def centred (l : List Rat) : List Rat := l.map fun v => v - l.sum / l.length

/-- `get_wavelet_transform(widths)`, core/profile.py:803-868: `cwt values w` are the coefficients of the width `w`, counted in points. -/
def wavelet (cwt : List Rat → Rat → List Rat) (p : Prof) (widths : Option (List Rat)) : Res SF :=
  match p.x with
  | a :: b :: _ =>
    match (match widths with
      | none => defaultWidths p.x.length
      | some w => w.map fun v => v / (b - a)) with
    | ws =>
      if uneven p.x (b - a) then .error .valueError
      else match Trace.fillLinear p with
        | .error e => .error e
        | .ok q =>
          SF.importArrays p.x (ws.map fun v => v * (b - a))
            ⟨p.x.length, ws.length, fun i j => some ((cwt (centred (q.y.map fun v => v.getD 0)) (ws.getD j 0)).getD i 0)⟩
            (.array ⟨p.x.length, ws.length, fun i _ => p.m.getD i false⟩) p.ux p.ux p.uy
  | _ => .error .indexError

end IMT.Wave
