import Verif.Linear.Model

/-! Specification: linear flows, their critical point and its nature. -/

namespace IMT.Linear

/-- A linear flow: the velocity at `(x, y)` is the matrix `[[a, b], [c, d]]` times the position relative to `(px, py)`. -/
structure Flow where
  a : ℝ
  b : ℝ
  c : ℝ
  d : ℝ
  px : ℝ
  py : ℝ

namespace Flow

/-- First component of the velocity. -/
def u (f : Flow) (x y : ℝ) : ℝ := f.a * (x - f.px) + f.b * (y - f.py)

/-- Second component of the velocity. -/
def v (f : Flow) (x y : ℝ) : ℝ := f.c * (x - f.px) + f.d * (y - f.py)

/-- The velocity vanishes at `(px, py)` only. -/
def det (f : Flow) : ℝ := f.a * f.d - f.b * f.c

/-- The flow turns anticlockwise around its critical point: everywhere the velocity is to the left of the position. -/
def Anticlockwise (f : Flow) : Prop := ∀ x y, (x, y) ≠ (f.px, f.py) → 0 < (x - f.px) * f.v x y - (y - f.py) * f.u x y

/-- The flow turns clockwise around its critical point: everywhere the velocity is to the right of the position. -/
def Clockwise (f : Flow) : Prop := ∀ x y, (x, y) ≠ (f.px, f.py) → (x - f.px) * f.v x y - (y - f.py) * f.u x y < 0

/-- The velocity along some straight line through the critical point is `s` times the position, `s > 0` being outwards and `s < 0` inwards. -/
def Ray (f : Flow) (s : ℝ) : Prop := ∃ x y, (x, y) ≠ (f.px, f.py) ∧ f.u x y = s * (x - f.px) ∧ f.v x y = s * (y - f.py)

/-- Saddle point: a line of departure and a line of arrival. -/
def Saddle (f : Flow) : Prop := ∃ s t, s < 0 ∧ 0 < t ∧ f.Ray s ∧ f.Ray t

/-- Outgoing node: there are straight lines, all of departure. -/
def NodeOut (f : Flow) : Prop := (∃ s, f.Ray s) ∧ ∀ s, f.Ray s → 0 < s

/-- Ingoing node: there are straight lines, all of arrival. -/
def NodeIn (f : Flow) : Prop := (∃ s, f.Ray s) ∧ ∀ s, f.Ray s → s < 0

end Flow

/-- The two numbers are the eigenvalues of the matrix, in any order. -/
def IsEig (eig : Mat → ℂ × ℂ) : Prop :=
  ∀ m, (eig m).1 + (eig m).2 = ((m.a + m.d : ℝ) : ℂ) ∧ (eig m).1 * (eig m).2 = ((m.a * m.d - m.b * m.c : ℝ) : ℂ)

end IMT.Linear
