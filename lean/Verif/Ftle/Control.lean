/-
C184 (continued): the control of the time step of FTLE (Verif/Ftle/Model.lean).
-/
import Verif.Ftle.Travel
import Mathlib.Analysis.SpecialFunctions.Pow.Real

namespace IMT.Ftle

/-- **C184** In a linear flow the better estimate `best_xy` of a step is the Taylor polynomial of the exact motion up to the fifth order,
plus a term of the sixth order. -/
theorem C184_fifth (A : ℂ → ℂ) (hadd : ∀ a b, A (a + b) = A a + A b) (hsmul : ∀ (r : ℝ) a, A (r * a) = r * A a) (x : ℂ) (h : ℝ) :
    rk5 A x h = x + h * A x + h ^ 2 / 2 * A (A x) + h ^ 3 / 6 * A (A (A x)) + h ^ 4 / 24 * A (A (A (A x))) +
      h ^ 5 / 120 * A (A (A (A (A x)))) + h ^ 6 / 2080 * A (A (A (A (A (A x))))) := by
  have lin : ∀ r0 r1 r2 r3 r4 r5 : ℝ,
      A (r0 * x + r1 * A x + r2 * A (A x) + r3 * A (A (A x)) + r4 * A (A (A (A x))) + r5 * A (A (A (A (A x))))) =
      r0 * A x + r1 * A (A x) + r2 * A (A (A x)) + r3 * A (A (A (A x))) + r4 * A (A (A (A (A x)))) + r5 * A (A (A (A (A (A x))))) := by
    intro r0 r1 r2 r3 r4 r5
    rw [hadd, hadd, hadd, hadd, hadd, hsmul, hsmul, hsmul, hsmul, hsmul, hsmul]
  have e1 : k1 A x h = h * A x := by unfold k1; ring
  have e2 : k2 A x h = h * A x + h ^ 2 / 4 * A (A x) := by
    unfold k2
    rw [e1]
    have := lin 1 (h / 4) 0 0 0 0
    push_cast at this
    have e : x + (h : ℂ) * A x / 4 = 1 * x + h / 4 * A x + 0 * A (A x) + 0 * A (A (A x)) + 0 * A (A (A (A x))) + 0 * A (A (A (A (A x)))) := by ring
    rw [e, this]; ring
  have e3 : k3 A x h = h * A x + 3 / 8 * h ^ 2 * A (A x) + 9 / 128 * h ^ 3 * A (A (A x)) := by
    unfold k3
    rw [e1, e2]
    have := lin 1 (3 / 8 * h) (9 / 128 * h ^ 2) 0 0 0
    push_cast at this
    have e : x + 3 / 32 * ((h : ℂ) * A x) + 9 / 32 * (h * A x + h ^ 2 / 4 * A (A x)) =
      1 * x + 3 / 8 * h * A x + 9 / 128 * h ^ 2 * A (A x) + 0 * A (A (A x)) + 0 * A (A (A (A x))) + 0 * A (A (A (A (A x)))) := by ring
    rw [e, this]; ring
  have e4 : k4 A x h = h * A x + 12 / 13 * h ^ 2 * A (A x) + 72 / 169 * h ^ 3 * A (A (A x)) +
      7296 / 2197 * (9 / 128) * h ^ 4 * A (A (A (A x))) := by
    unfold k4
    rw [e1, e2, e3]
    have := lin 1 (12 / 13 * h) (72 / 169 * h ^ 2) (7296 / 2197 * (9 / 128) * h ^ 3) 0 0
    push_cast at this
    have e : x + 1932 / 2197 * ((h : ℂ) * A x) - 7200 / 2197 * (h * A x + h ^ 2 / 4 * A (A x)) +
        7296 / 2197 * (h * A x + 3 / 8 * h ^ 2 * A (A x) + 9 / 128 * h ^ 3 * A (A (A x))) =
      1 * x + 12 / 13 * h * A x + 72 / 169 * h ^ 2 * A (A x) + 7296 / 2197 * (9 / 128) * h ^ 3 * A (A (A x)) + 0 * A (A (A (A x))) +
        0 * A (A (A (A (A x)))) := by
      ring
    rw [e, this]; ring
  have e5 : k5 A x h = h * A x + h ^ 2 * A (A x) + (-2 + 3680 / 513 * (3 / 8) - 845 / 4104 * (12 / 13)) * h ^ 3 * A (A (A x)) +
      (3680 / 513 * (9 / 128) - 845 / 4104 * (72 / 169)) * h ^ 4 * A (A (A (A x))) -
      845 / 4104 * (7296 / 2197 * (9 / 128)) * h ^ 5 * A (A (A (A (A x)))) := by
    unfold k5
    rw [e1, e2, e3, e4]
    have := lin 1 h ((-2 + 3680 / 513 * (3 / 8) - 845 / 4104 * (12 / 13)) * h ^ 2)
      ((3680 / 513 * (9 / 128) - 845 / 4104 * (72 / 169)) * h ^ 3) (-(845 / 4104 * (7296 / 2197 * (9 / 128))) * h ^ 4) 0
    push_cast at this
    have e : x + 439 / 216 * ((h : ℂ) * A x) - 8 * (h * A x + h ^ 2 / 4 * A (A x)) +
        3680 / 513 * (h * A x + 3 / 8 * h ^ 2 * A (A x) + 9 / 128 * h ^ 3 * A (A (A x))) -
        845 / 4104 * (h * A x + 12 / 13 * h ^ 2 * A (A x) + 72 / 169 * h ^ 3 * A (A (A x)) +
          7296 / 2197 * (9 / 128) * h ^ 4 * A (A (A (A x)))) =
      1 * x + h * A x + (-2 + 3680 / 513 * (3 / 8) - 845 / 4104 * (12 / 13)) * h ^ 2 * A (A x) +
        (3680 / 513 * (9 / 128) - 845 / 4104 * (72 / 169)) * h ^ 3 * A (A (A x)) +
        -(845 / 4104 * (7296 / 2197 * (9 / 128))) * h ^ 4 * A (A (A (A x))) + 0 * A (A (A (A (A x)))) := by ring
    rw [e, this]; ring
  have e6 : k6 A x h = h * A x + 1 / 2 * h ^ 2 * A (A x) + 1 / 8 * h ^ 3 * A (A (A x)) - 1 / 24 * h ^ 4 * A (A (A (A x))) -
      11 / 1248 * h ^ 5 * A (A (A (A (A x)))) + 11 / 832 * h ^ 6 * A (A (A (A (A (A x))))) := by
    unfold k6
    rw [e1, e2, e3, e4, e5]
    have := lin 1 (1 / 2 * h) (1 / 8 * h ^ 2) (-(1 / 24) * h ^ 3) (-(11 / 1248) * h ^ 4) (11 / 832 * h ^ 5)
    push_cast at this
    refine (congrArg (fun z => A z * (h : ℂ)) (Eq.trans ?_ rfl)).trans ((congrArg (fun z => z * (h : ℂ)) this).trans ?_)
    · ring
    · ring
  unfold rk5
  rw [e1, e3, e4, e5, e6]
  ring

/-- **C184** So in a vortex, a source or a spiral the estimate of the error of a step is of the fifth order. -/
theorem C184_estimate (c x : ℂ) (h : ℝ) :
    ‖rk5 (fun z => c * z) x h - rk4 (fun z => c * z) x h‖ = ‖c * h‖ ^ 5 * ‖x‖ * ‖1 / 780 - c * h / 2080‖ := by
  rw [C184_fifth _ (fun a b => by ring) (fun r a => by ring), C184_linear _ (fun a b => by ring) (fun r a => by ring),
    ← norm_pow, ← norm_mul, ← norm_mul, ← norm_neg]
  congr 1
  ring

/-- **C184** The time step of the next iteration lies between the present one and the one for which the estimated error, relative to the
displacement and counted twice, would be the one asked for, its fourth power being taken for the error. -/
theorem C184_control (f : ℂ → ℂ) (relErr dampl : ℝ) (x : ℂ) (h : ℝ) (hr : 0 < relErr) (hh : 0 < h) (hb : rk4 f x h ≠ x)
    (ha : rk5 f x h ≠ rk4 f x h) :
    ∃ q : ℝ, 0 < q ∧ q ^ 4 * (2 * (‖rk5 f x h - rk4 f x h‖ / ‖rk4 f x h - x‖)) = relErr * h ∧
      next f relErr dampl x h = .num (dampl * h + (1 - dampl) * q) := by
  have hb' : 0 < ‖rk4 f x h - x‖ := norm_pos_iff.2 (sub_ne_zero.2 hb)
  have ha' : 0 < ‖rk5 f x h - rk4 f x h‖ := norm_pos_iff.2 (sub_ne_zero.2 ha)
  have hpos : 0 < relErr * h / (2 * (‖rk5 f x h - rk4 f x h‖ / ‖rk4 f x h - x‖)) := by positivity
  refine ⟨(relErr * h / (2 * (‖rk5 f x h - rk4 f x h‖ / ‖rk4 f x h - x‖))) ^ (1 / 4 : ℝ), Real.rpow_pos_of_pos hpos _, ?_, ?_⟩
  · rw [← Real.rpow_natCast, ← Real.rpow_mul hpos.le]
    norm_num
    rw [div_mul_cancel₀]
    positivity
  · unfold next ideal
    rw [if_neg hb'.ne', if_neg ha'.ne']
    rfl

/-- **C184** But the next time step is not always a number: it is not one at rest, and it is infinite, or not a number, where the two
estimates agree. -/
theorem C184_control_violated (f : ℂ → ℂ) (relErr dampl : ℝ) (x : ℂ) (h : ℝ) :
    (f x = 0 → next f relErr dampl x h = .nan) ∧
      (h ≠ 0 → dampl ≠ 1 → rk4 f x h ≠ x → rk5 f x h = rk4 f x h → next f relErr dampl x h = .inf) := by
  constructor
  · intro hf
    have e1 : k1 f x h = 0 := by simp [k1, hf]
    have e2 : k2 f x h = 0 := by simp [k2, e1, hf]
    have e3 : k3 f x h = 0 := by simp [k3, e1, e2, hf]
    have e4 : k4 f x h = 0 := by simp [k4, e1, e2, e3, hf]
    have e5 : k5 f x h = 0 := by simp [k5, e1, e2, e3, e4, hf]
    have e6 : k6 f x h = 0 := by simp [k6, e1, e2, e3, e4, e5, hf]
    have r4 : rk4 f x h = x := by simp [rk4, e1, e3, e4, e5]
    have r5 : rk5 f x h = x := by simp [rk5, e1, e3, e4, e5, e6]
    unfold next ideal
    rw [r4, r5, sub_self, norm_zero, if_pos rfl, if_pos rfl]
    rfl
  · intro hh hd hb ha
    have hb' : ‖rk4 f x h - x‖ ≠ 0 := norm_ne_zero_iff.2 (sub_ne_zero.2 hb)
    unfold next ideal
    rw [if_neg hb', ha, sub_self, norm_zero, if_pos rfl, if_neg hh]
    show (if dampl = 1 then Dt.nan else Dt.inf) = Dt.inf
    rw [if_neg hd]

/-! ### concrete cases -/

-- in a solid rotation, half a radian: the two estimates differ, and differ from the place of departure
example : rk4 (fun z => Complex.I * z) 1 (1 / 2) ≠ 1 ∧
    rk5 (fun z => Complex.I * z) 1 (1 / 2) ≠ rk4 (fun z => Complex.I * z) 1 (1 / 2) := by
  rw [C184_fifth _ (fun a b => by ring) (fun r a => by ring), C184_linear _ (fun a b => by ring) (fun r a => by ring)]
  constructor
  · intro h
    have := congrArg Complex.re h
    norm_num [pow_succ] at this
  · intro h
    have := congrArg Complex.re h
    norm_num [pow_succ] at this
-- in a uniform flow the two estimates agree
example : rk5 (fun _ => (1 : ℂ)) 0 1 = rk4 (fun _ => (1 : ℂ)) 0 1 := by
  simp only [rk5, rk4, k1, k3, k4, k5, k6]; norm_num

end IMT.Ftle
