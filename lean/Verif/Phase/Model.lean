import Verif.Trace.Model

/-!
Model of `TemporalScalarFields.get_phase_map` (`/repo/IMTreatment/core/temporalscalarfields.py`, "tsf.py").

The Fourier transform, its modulus and its argument are a parameter: what is modelled is which values are given to it and where its results are put.
-/

namespace IMT.Phase

open Temporal (TF mapRes)
open Trace (timeProfile)

/-- Modulus and argument, at the frequency of `fftfreq` nearest to the wanted one, of the first half of the discrete Fourier transform of values that
follow each other by `dt`, tsf.py:253-262.  The arguments are the values, `dt` and the wanted frequency; masked values are NaN. -/
abbrev Spectrum := List (Option Rat) → Rat → Rat → Option Rat × Option Rat

/-- One turn of the loop, tsf.py:246-262: `profile.x[1]` raises for fewer than two times. -/
def point (srt : List Rat → List Nat) (S : Spectrum) (t : TF) (freq tf x y : Rat) : Res (Option Rat × Option Rat) :=
  match timeProfile srt t (.at x y) (some (0, tf)) with
  | .error e => .error e
  | .ok p => match p.x with
    | a :: b :: _ => .ok (S (Profile.getY p) (b - a) freq)
    | _ => .error .indexError

/-- The array filled by the loops, tsf.py:241-262: `π` is the modulus or the argument. -/
def table (srt : List Rat → List Nat) (S : Spectrum) (t : TF) (freq tf : Rat) (π : Option Rat × Option Rat → Option Rat) : Grid (Option Rat) :=
  ⟨t.ax.length, t.ay.length, fun i j => match point srt S t freq tf (t.ax.getD i 0) (t.ay.getD j 0) with
    | .ok r => π r
    | .error _ => none⟩

/-- `get_phase_map(freq, tf)`, tsf.py:206-290, without display: the maps of the moduli and of the arguments; `rad` is the unit "rad".  Without `tf`,
the number of fields is taken. -/
def phaseMap (srt : List Rat → List Nat) (S : Spectrum) (rad : Sym) (t : TF) (freq : Rat) (tf : Option Rat) : Res (SF × SF) :=
  match mapRes (fun q : Rat × Rat => point srt S t freq (tf.getD t.fields.length) q.1 q.2) (t.ax.flatMap fun x => t.ay.map fun y => (x, y)) with
  | .error e => .error e
  | .ok _ =>
    match SF.importArrays t.ax t.ay (table srt S t freq (tf.getD t.fields.length) Prod.fst).transpose .none t.ux t.uy Sym.one,
      SF.importArrays t.ax t.ay (table srt S t freq (tf.getD t.fields.length) Prod.snd).transpose .none t.ux t.uy rad with
    | .ok a, .ok b => .ok (a, b)
    | .error e, _ => .error e
    | _, .error e => .error e

end IMT.Phase
