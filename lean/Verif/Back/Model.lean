import Verif.Temporal.Model
import Verif.Reshape.Model

/-!
Model of the background of a record of pictures: `get_background` and `substract_background` of `TemporalScalarFields`
(`/repo/IMTreatment/core/temporalscalarfields.py`).

Numbers are rational and exact.  The progress counter is not modelled.
-/

namespace IMT.Back

open Temporal (TF)
open Reshape (allSome)

/-- `np.mean`, temporalscalarfields.py:132, 138. -/
def mean (l : List Rat) : Rat := l.sum / l.length

/-- The square of `np.std`, temporalscalarfields.py:130, 137. -/
def variance (l : List Rat) : Rat := (l.map fun v => (v - mean l) ^ 2).sum / l.length

/-- `vals[np.logical_and(vals > mean - std, vals < mean + std)]`, temporalscalarfields.py:134-135.  `|v - mean| < std` is tested on the
squares, so that no root is needed. -/
def clip (l : List Rat) : List Rat := l.filter fun v => decide ((v - mean l) ^ 2 < variance l)

/-- The tests that end the loop, temporalscalarfields.py:139: `std < noise_level or len(vals) <= min_len or old_std == std`, for the values
`old` and what is left of them; standard deviations are compared by their squares. -/
def stop (noise : Rat) (n : Nat) (old new : List Rat) : Bool :=
  decide (0 < noise ∧ variance new < noise ^ 2) || decide (((new.length : Nat) : Rat) ≤ (n : Rat) / 10) || decide (variance old = variance new)

theorem sum_clipped (l : List Rat) (h : ∀ v ∈ l, (v - mean l) ^ 2 < variance l) (hne : l ≠ []) : False := by
  have h1 : ∀ (k : List Rat) (c : Rat), k ≠ [] → (∀ v ∈ k, (v - mean l) ^ 2 < c) → (k.map fun v => (v - mean l) ^ 2).sum < k.length * c := by
    intro k c
    induction k with
    | nil => intro h; exact absurd rfl h
    | cons a k ih =>
      intro _ hk
      have ha := hk a (by simp)
      by_cases hk0 : k = []
      · subst hk0; simpa using ha
      · have := ih hk0 fun v hv => hk v (by simp [hv])
        simp only [List.map_cons, List.sum_cons, List.length_cons]
        push_cast
        nlinarith
  have h2 := h1 l (variance l) hne h
  have h0 : (0 : Rat) < l.length := by exact_mod_cast List.length_pos_of_ne_nil hne
  rw [variance, mul_div_cancel₀ _ h0.ne'] at h2
  exact lt_irrefl _ h2

theorem clip_lt (l : List Rat) (h : l ≠ []) : (clip l).length < l.length := by
  refine lt_of_le_of_ne (List.length_filter_le _ _) fun e => ?_
  rw [clip, List.length_filter_eq_length_iff] at e
  exact sum_clipped l (fun v hv => by simpa using e v hv) h

/-- The loop `while True`, temporalscalarfields.py:133-141: each round leaves fewer values, so that it ends; the mean and the deviation of no
value are NaN, and `len(vals) <= min_len` then ends the loop. -/
def loop (noise : Rat) (n : Nat) (l : List Rat) : Option Rat :=
  if h : clip l = [] then none
  else if stop noise n l (clip l) then some (mean (clip l))
  else loop noise n (clip l)
termination_by l.length
decreasing_by exact clip_lt l fun e => h (by rw [e]; rfl)

/-- The value of one pixel, temporalscalarfields.py:122-142: with a NaN among the values, every comparison is false and no value is left. -/
def pixel (noise : Rat) (n : Nat) (l : List (Option Rat)) : Option Rat :=
  match allSome l with
  | none => none
  | some l => loop noise n l

/-- `get_background(noise_level)`, temporalscalarfields.py:99-151.  The raw arrays of values are read, whatever the masks
(`_ScalarField__values`, 123), and no unit of values is given. -/
def background (t : TF) (noise : Rat) : Res SF :=
  SF.importArrays t.ax t.ay ⟨t.ax.length, t.ay.length, fun i j => pixel noise t.times.length (t.fields.map fun f => f.val.get i j)⟩ .none t.ux t.uy Sym.one

/-- Reading `f.values` writes NaN in the masked points of the raw array, core/scalarfield.py:318-325. -/
def looked (f : SF) : SF := { f with val := f.values }

/-! ### subtraction -/

/-- `f.mean`, core/scalarfield.py:414-416: the mean of the unmasked values; NaN without any, or when one is NaN. -/
def meanSF (f : SF) : Option Rat :=
  match allSome ((f.indexPairs.filter fun q => !f.mask.get q.1 q.2).map fun q => f.cell q.1 q.2) with
  | none => none
  | some [] => none
  | some l => some (mean l)

/-- A comparison of numbers that may be NaN. -/
def ltF : Option Rat → Option Rat → Bool
  | some a, some b => decide (a < b)
  | _, _ => false

/-- `mask`, temporalscalarfields.py:188-189: the points that differ from the background by less than the noise. -/
def isBack (noise : Rat) (v b : Option Rat) : Bool := ltF v (b.map (· + noise)) && ltF (b.map (· - noise)) v

/-- `np.mean(values[~mask])`, temporalscalarfields.py:192. -/
def foreMean (noise : Rat) (v b : Grid (Option Rat)) : Option Rat :=
  match allSome ((((List.range v.nx).flatMap fun i => (List.range v.ny).map fun j => (i, j)).filter
      fun q => !isBack noise (v.get q.1 q.2) (b.get q.1 q.2)).map fun q => v.get q.1 q.2) with
  | none => none
  | some [] => none
  | some l => some (mean l)

/-- Difference of numbers that may be NaN. -/
def subF : Option Rat → Option Rat → Option Rat
  | some a, some b => some (a - b)
  | _, _ => none

/-- Quotient of numbers that may be NaN; a quotient by zero is NaN here (numpy gives an infinity, and NaN after the product and the sum of
temporalscalarfields.py:195 when the filter spreads it). -/
def divF : Option Rat → Option Rat → Option Rat
  | some a, some b => if b = 0 then none else some (a / b)
  | _, _ => none

/-- `values*blend_field + (1 - blend_field)*filling_value`, temporalscalarfields.py:195. -/
def mix (v w fill : Option Rat) : Option Rat :=
  match v, w, fill with
  | some v, some w, some c => some (v * w + (1 - w) * c)
  | _, _, _ => none

/-- The blended values, temporalscalarfields.py:191-195; `gauss` is `ndimage.gaussian_filter(_, 1)`. -/
def blended (gauss : Grid (Option Rat) → Grid (Option Rat)) (noise : Rat) (v b : Grid (Option Rat)) (bm fill : Option Rat) : Grid (Option Rat) :=
  ⟨v.nx, v.ny, fun i j => mix (v.get i j)
    ((gauss ⟨v.nx, v.ny, fun i j => divF (subF (v.get i j) bm) (subF (foreMean noise v b) bm)⟩).get i j) fill⟩

/-- One turn of the loop, temporalscalarfields.py:185-197. -/
def clear (gauss : Grid (Option Rat) → Grid (Option Rat)) (noise : Rat) (blend : Bool) (bg f : SF) (fill : Option Rat) : SF :=
  f.setValues ⟨f.val.nx, f.val.ny, fun i j =>
    if isBack noise (f.cell i j) (bg.cell i j) then fill
    else if blend then (blended gauss noise f.values bg.values (meanSF bg) fill).get i j
    else f.cell i j⟩

/-- `substract_background(bg, noise_level, blend, filling_value)`, temporalscalarfields.py:153-204; arrays of different shapes do not
broadcast here. -/
def substract (gauss : Grid (Option Rat) → Grid (Option Rat)) (t : TF) (bg : SF) (noise : Rat) (blend : Bool) (fill : Option Rat) : Res TF :=
  if t.fields.all (fun f => decide (f.val.nx = bg.val.nx ∧ f.val.ny = bg.val.ny)) then
    .ok { t with fields := t.fields.map fun f => clear gauss noise blend bg f (fill.orElse fun _ => meanSF bg) }
  else .error .valueError

end IMT.Back
