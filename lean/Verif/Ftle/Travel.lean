import Verif.Ftle.Model
import Mathlib.Analysis.Complex.Exponential
import Mathlib.Data.Complex.BigOperators
import Mathlib.Tactic.LinearCombination
import Mathlib.Tactic.NormNum

/-!
C182: how long a particle travels.  C183: uniform flows, rest, reversed time.  C184: linear flows.
-/

namespace IMT.Ftle

/-! ### specification -/

/-- The place reached after the given time steps. -/
noncomputable def arrive (f : ℂ → ℂ) (x : ℂ) (hs : List ℝ) : ℂ := hs.foldl (rk4 f) x

/-- A step of time is not negative. -/
def Dt.Nonneg : Dt → Prop
  | .num h => 0 ≤ h
  | _ => True

/-! ### C182 -/

theorem ideal_nonneg (relErr h a b : ℝ) (hr : 0 ≤ relErr) (hh : 0 ≤ h) (ha : 0 ≤ a) (hb : 0 ≤ b) : (ideal relErr h a b).Nonneg := by
  unfold ideal
  by_cases h1 : b = 0
  · rw [if_pos h1]
    by_cases h2 : a = 0
    · rw [if_pos h2]; trivial
    · rw [if_neg h2]; exact le_refl _
  · rw [if_neg h1]
    by_cases h2 : a = 0
    · rw [if_pos h2]
      by_cases h3 : h = 0
      · rw [if_pos h3]; trivial
      · rw [if_neg h3]; trivial
    · rw [if_neg h2]
      exact Real.rpow_nonneg (by positivity) _

theorem damped_nonneg (dampl h : ℝ) (q : Dt) (h0 : 0 ≤ dampl) (h1 : dampl ≤ 1) (hh : 0 ≤ h) (hq : q.Nonneg) :
    (damped dampl h q).Nonneg := by
  cases q with
  | num q =>
    have hq' : 0 ≤ q := hq
    have : 0 ≤ dampl * h + (1 - dampl) * q := by
      have := mul_nonneg h0 hh
      have := mul_nonneg (sub_nonneg.2 h1) hq'
      linarith
    exact this
  | inf =>
    simp only [damped]
    by_cases h2 : dampl = 1
    · rw [if_pos h2]; trivial
    · rw [if_neg h2]; trivial
  | nan => trivial

theorem next_nonneg (f : ℂ → ℂ) (relErr dampl : ℝ) (x : ℂ) (h : ℝ) (hr : 0 ≤ relErr) (h0 : 0 ≤ dampl) (h1 : dampl ≤ 1) (hh : 0 ≤ h) :
    (next f relErr dampl x h).Nonneg :=
  damped_nonneg _ _ _ h0 h1 hh (ideal_nonneg _ _ _ _ hr hh (norm_nonneg _) (norm_nonneg _))

theorem loop_path (f : ℂ → ℂ) (k : Box) (relErr dampl dt : ℝ) (hr : 0 ≤ relErr) (h0 : 0 ≤ dampl) (h1 : dampl ≤ 1) :
    ∀ (n : ℕ) (x : ℂ) (t : ℝ) (h : Dt) (tEnd : Bool) (y : ℂ) (left : Bool), h.Nonneg → (tEnd = true → t = dt) → t ≤ dt →
      loop f k relErr dampl dt n x t h tEnd = some (y, left) →
      ∃ hs : List ℝ, y = arrive f x hs ∧ (∀ h ∈ hs, 0 ≤ h) ∧ (∀ m < hs.length, ¬ k.out (arrive f x (hs.take m))) ∧
        (left = false → hs.sum = dt - t ∧ ¬ k.out y) ∧ (left = true → hs.sum ≤ dt - t ∧ k.out y)
  | 0, x, t, h, tEnd, y, left, _, _, _, hl => by simp [loop] at hl
  | n + 1, x, t, h, tEnd, y, left, hn, he, ht, hl => by
    simp only [loop] at hl
    by_cases ho : k.out x
    · rw [if_pos ho] at hl
      simp only [Option.some.injEq, Prod.mk.injEq] at hl
      obtain ⟨rfl, rfl⟩ := hl
      exact ⟨[], rfl, by simp, by simp, by simp, fun _ => ⟨by simpa using ht, ho⟩⟩
    · rw [if_neg ho] at hl
      by_cases hte : tEnd = true
      · rw [if_pos hte] at hl
        simp only [Option.some.injEq, Prod.mk.injEq] at hl
        obtain ⟨rfl, rfl⟩ := hl
        refine ⟨[], rfl, by simp, by simp, fun _ => ⟨by simp [he hte], ho⟩, by simp⟩
      · rw [if_neg hte] at hl
        have step : ∀ (d : ℝ) (e : Bool), 0 ≤ d → d ≤ dt - t → (e = true → d = dt - t) →
            loop f k relErr dampl dt n (rk4 f x d) (t + d) (next f relErr dampl x d) e = some (y, left) →
            ∃ hs : List ℝ, y = arrive f x hs ∧ (∀ h ∈ hs, 0 ≤ h) ∧ (∀ m < hs.length, ¬ k.out (arrive f x (hs.take m))) ∧
              (left = false → hs.sum = dt - t ∧ ¬ k.out y) ∧ (left = true → hs.sum ≤ dt - t ∧ k.out y) := by
          intro d e hd hd2 hd3 hl
          obtain ⟨hs, p1, p2, p3, p4, p5⟩ := loop_path f k relErr dampl dt hr h0 h1 n _ _ _ e y left
            (next_nonneg f relErr dampl x d hr h0 h1 hd) (fun h => by rw [hd3 h]; ring) (by linarith) hl
          refine ⟨d :: hs, p1, ?_, ?_, ?_, ?_⟩
          · intro h hh
            rcases List.mem_cons.1 hh with rfl | hh
            · exact hd
            · exact p2 h hh
          · intro m hm
            cases m with
            | zero => exact ho
            | succ m =>
              have := p3 m (by simpa using hm)
              simpa [arrive] using this
          · intro h
            obtain ⟨q1, q2⟩ := p4 h
            exact ⟨by rw [List.sum_cons, q1]; ring, q2⟩
          · intro h
            obtain ⟨q1, q2⟩ := p5 h
            exact ⟨by rw [List.sum_cons]; linarith, q2⟩
        cases h with
        | nan => simp at hl
        | inf => exact step (dt - t) true (by linarith) le_rfl (fun _ => rfl) hl
        | num h =>
          simp only at hl
          by_cases hgt : t + h > dt
          · rw [if_pos hgt] at hl
            exact step (dt - t) true (by linarith) le_rfl (fun _ => rfl) hl
          · rw [if_neg hgt] at hl
            exact step h false hn (by linarith) (by simp) hl

theorem firstDt_nonneg (f : ℂ → ℂ) (dx : ℝ) (x : ℂ) (h : 0 ≤ dx) : (firstDt f dx x).Nonneg := by
  unfold firstDt
  by_cases h1 : ‖f x‖ = 0
  · rw [if_pos h1]; trivial
  · rw [if_neg h1]
    exact div_nonneg h (norm_nonneg _)

/-- **C182** A displaced particle has been moved by Runge-Kutta steps of non negative durations, all starting inside the field.  If it is
not reported out, the durations add up to exactly `|dt|` and the particle is inside; if it is reported out, it is outside, before the
end of the time. -/
theorem C182_time (v : ℂ → ℂ) (k : Box) (dx : ℝ) (hdx : 0 ≤ dx) (x : ℂ) (dt relErr dampl : ℝ) (n : ℕ) (y : ℂ) (left : Bool)
    (h : displacement v k dx x dt relErr dampl n = .ok (some (y, left))) :
    ∃ hs : List ℝ, y = arrive (if dt < 0 then fun z => -v z else v) x hs ∧ (∀ h ∈ hs, 0 ≤ h) ∧
      (∀ m < hs.length, ¬ k.out (arrive (if dt < 0 then fun z => -v z else v) x (hs.take m))) ∧
      (left = false → hs.sum = |dt| ∧ ¬ k.out y) ∧ (left = true → hs.sum ≤ |dt| ∧ k.out y) := by
  unfold displacement at h
  by_cases h1 : dt = 0
  · rw [if_pos h1] at h; exact absurd h (by simp)
  rw [if_neg h1] at h
  by_cases h2 : relErr ≤ 0
  · rw [if_pos h2] at h; exact absurd h (by simp)
  rw [if_neg h2] at h
  by_cases h3 : dampl < 0 ∨ dampl > 1
  · rw [if_pos h3] at h; exact absurd h (by simp)
  rw [if_neg h3] at h
  push Not at h2 h3
  simp only [Except.ok.injEq] at h
  have := loop_path _ k relErr dampl |dt| h2.le h3.1 h3.2 n x 0 _ false y left (firstDt_nonneg _ dx x hdx) (by simp) (abs_nonneg _) h
  have e : velocity v (decide (dt < 0)) = if dt < 0 then fun z => -v z else v := by
    funext z
    unfold velocity
    by_cases hd : dt < 0
    · simp [hd]
    · simp [hd]
  rw [e] at this
  simpa using this

/-- **C182** No time, no accuracy and a damping outside `[0, 1]` are refused; everything else is tried. -/
theorem C182_refused (v : ℂ → ℂ) (k : Box) (dx : ℝ) (x : ℂ) (dt relErr dampl : ℝ) (n : ℕ) :
    displacement v k dx x dt relErr dampl n = .error .valueError ↔ dt = 0 ∨ relErr ≤ 0 ∨ dampl < 0 ∨ 1 < dampl := by
  unfold displacement
  by_cases h1 : dt = 0
  · simp [h1]
  by_cases h2 : relErr ≤ 0
  · simp [h1, h2]
  by_cases h3 : dampl < 0 ∨ dampl > 1
  · rw [if_neg h1, if_neg h2, if_pos h3]; simp only [true_iff]; exact Or.inr (Or.inr h3)
  · rw [if_neg h1, if_neg h2, if_neg h3]
    simp only [reduceCtorEq, h1, h2, false_or, false_iff]
    exact h3

open Classical in
theorem loop_succ (f : ℂ → ℂ) (k : Box) (relErr dampl dt : ℝ) (n : ℕ) (x : ℂ) (t : ℝ) (h : Dt) (e : Bool) :
    loop f k relErr dampl dt (n + 1) x t h e = if k.out x then some (x, true) else if e then some (x, false) else match h with
      | .nan => none
      | .inf => loop f k relErr dampl dt n (rk4 f x (dt - t)) (t + (dt - t)) (next f relErr dampl x (dt - t)) true
      | .num h =>
        if t + h > dt then loop f k relErr dampl dt n (rk4 f x (dt - t)) (t + (dt - t)) (next f relErr dampl x (dt - t)) true
        else loop f k relErr dampl dt n (rk4 f x h) (t + h) (next f relErr dampl x h) false := by
  cases h <;> rfl

/-- **C182** More rounds do not change the answer. -/
theorem C182_rounds (v : ℂ → ℂ) (k : Box) (dx : ℝ) (x : ℂ) (dt relErr dampl : ℝ) (n m : ℕ) (q : ℂ × Bool)
    (h : displacement v k dx x dt relErr dampl n = .ok (some q)) (hm : n ≤ m) : displacement v k dx x dt relErr dampl m = .ok (some q) := by
  have key : ∀ (f : ℂ → ℂ) (dt : ℝ) (n : ℕ) (x : ℂ) (t : ℝ) (h : Dt) (e : Bool), loop f k relErr dampl dt n x t h e = some q →
      loop f k relErr dampl dt (n + 1) x t h e = some q := by
    intro f dt n
    induction n with
    | zero => intro x t h e hl; simp [loop] at hl
    | succ n ih =>
      intro x t h e hl
      rw [loop_succ] at hl ⊢
      by_cases h1 : k.out x
      · rw [if_pos h1] at hl ⊢; exact hl
      rw [if_neg h1] at hl ⊢
      by_cases h2 : e = true
      · rw [if_pos h2] at hl ⊢; exact hl
      rw [if_neg h2] at hl ⊢
      cases h with
      | nan => simp at hl
      | inf => exact ih _ _ _ _ hl
      | num h =>
        simp only at hl ⊢
        by_cases h3 : t + h > dt
        · rw [if_pos h3] at hl ⊢; exact ih _ _ _ _ hl
        · rw [if_neg h3] at hl ⊢; exact ih _ _ _ _ hl
  induction m, hm using Nat.le_induction with
  | base => exact h
  | succ m _ ih =>
    unfold displacement at ih ⊢
    by_cases h1 : dt = 0
    · rw [if_pos h1] at ih; exact absurd ih (by simp)
    rw [if_neg h1] at ih ⊢
    by_cases h2 : relErr ≤ 0
    · rw [if_pos h2] at ih; exact absurd ih (by simp)
    rw [if_neg h2] at ih ⊢
    by_cases h3 : dampl < 0 ∨ dampl > 1
    · rw [if_pos h3] at ih; exact absurd ih (by simp)
    rw [if_neg h3] at ih ⊢
    simp only [Except.ok.injEq] at ih ⊢
    exact key _ _ _ _ _ _ _ ih

/-! ### C183 -/

theorem rk4_const (c x : ℂ) (h : ℝ) : rk4 (fun _ => c) x h = x + c * h := by
  simp only [rk4, k1, k3, k4, k5]; ring

theorem rk5_const (c x : ℂ) (h : ℝ) : rk5 (fun _ => c) x h = x + c * h := by
  simp only [rk5, k1, k3, k4, k5, k6]; ring

theorem next_const (c x : ℂ) (h relErr dampl : ℝ) (hc : c ≠ 0) (hh : h ≠ 0) :
    next (fun _ => c) relErr dampl x h = if dampl = 1 then .nan else .inf := by
  unfold next
  have hb : ‖rk4 (fun _ => c) x h - x‖ ≠ 0 := by
    rw [rk4_const, add_sub_cancel_left]
    simp [hc, hh]
  have ha : ‖rk5 (fun _ => c) x h - rk4 (fun _ => c) x h‖ = 0 := by
    rw [rk4_const, rk5_const]; simp
  unfold ideal
  rw [if_neg hb, if_pos ha, if_neg hh]
  simp only [damped]

theorem not_out_between (k : Box) (x c : ℂ) (s t : ℝ) (hs : 0 ≤ s) (hst : s ≤ t) (h0 : ¬ k.out x) (h1 : ¬ k.out (x + c * t)) :
    ¬ k.out (x + c * s) := by
  unfold Box.out at *
  push Not at h0 h1 ⊢
  simp only [Complex.add_re, Complex.add_im, Complex.mul_re, Complex.mul_im, Complex.ofReal_re, Complex.ofReal_im, mul_zero, sub_zero,
    zero_add] at h1 ⊢
  obtain ⟨a1, a2, a3, a4⟩ := h0
  obtain ⟨b1, b2, b3, b4⟩ := h1
  rcases lt_or_ge 0 t with ht | ht
  · have hr : s / t ≤ 1 := (div_le_one ht).2 hst
    have hr0 : 0 ≤ s / t := div_nonneg hs ht.le
    have e1 : x.re + c.re * s = (1 - s / t) * x.re + s / t * (x.re + c.re * t) := by field_simp; ring
    have e2 : x.im + c.im * s = (1 - s / t) * x.im + s / t * (x.im + c.im * t) := by field_simp; ring
    rw [e1, e2]
    refine ⟨?_, ?_, ?_, ?_⟩
    · nlinarith [mul_nonneg (sub_nonneg.2 hr) (sub_nonneg.2 a1), mul_nonneg hr0 (sub_nonneg.2 b1)]
    · nlinarith [mul_nonneg (sub_nonneg.2 hr) (sub_nonneg.2 a2), mul_nonneg hr0 (sub_nonneg.2 b2)]
    · nlinarith [mul_nonneg (sub_nonneg.2 hr) (sub_nonneg.2 a3), mul_nonneg hr0 (sub_nonneg.2 b3)]
    · nlinarith [mul_nonneg (sub_nonneg.2 hr) (sub_nonneg.2 a4), mul_nonneg hr0 (sub_nonneg.2 b4)]
  · have : s = 0 := le_antisymm (by linarith) hs
    subst this
    simp only [mul_zero, add_zero]
    exact ⟨a1, a2, a3, a4⟩

theorem loop_last (f : ℂ → ℂ) (k : Box) (relErr dampl dt : ℝ) (n : ℕ) (x : ℂ) (t : ℝ) (h : Dt) :
    loop f k relErr dampl dt (n + 1) x t h true = some (x, false) ∧ ¬ k.out x ∨
      loop f k relErr dampl dt (n + 1) x t h true = some (x, true) ∧ k.out x := by
  rw [loop_succ]
  by_cases h1 : k.out x
  · rw [if_pos h1]; exact Or.inr ⟨rfl, h1⟩
  · rw [if_neg h1, if_pos rfl]; exact Or.inl ⟨rfl, h1⟩

theorem loop_const (c : ℂ) (hc : c ≠ 0) (k : Box) (relErr dampl dt dx : ℝ) (hdx : 0 < dx) (hd : dampl ≠ 1) (n : ℕ) (x : ℂ)
    (hx : ¬ k.out x) :
    (¬ k.out (x + c * dt) → loop (fun _ => c) k relErr dampl dt (n + 3) x 0 (firstDt (fun _ => c) dx x) false = some (x + c * dt, false)) ∧
    (k.out (x + c * dt) → ∃ y, loop (fun _ => c) k relErr dampl dt (n + 3) x 0 (firstDt (fun _ => c) dx x) false = some (y, true)) := by
  have hf : firstDt (fun _ => c) dx x = .num (dx / ‖c‖) := by
    unfold firstDt
    rw [if_neg (by simpa using hc)]
  have hpos : 0 < dx / ‖c‖ := div_pos hdx (norm_pos_iff.2 hc)
  rw [hf, loop, if_neg hx, if_neg (by simp)]
  simp only [zero_add, sub_zero, rk4_const]
  by_cases hg : dx / ‖c‖ > dt
  · rw [if_pos hg]
    have := loop_last (fun _ => c) k relErr dampl dt (n + 1) (x + c * dt) dt (next (fun _ => c) relErr dampl x dt)
    constructor
    · intro h
      rcases this with h1 | h1
      · exact h1.1
      · exact absurd h1.2 h
    · intro h
      rcases this with h1 | h1
      · exact absurd h h1.2
      · exact ⟨_, h1.1⟩
  · rw [if_neg hg, next_const c x _ _ _ hc hpos.ne', if_neg hd, loop]
    push Not at hg
    by_cases ho : k.out (x + c * (dx / ‖c‖ : ℝ))
    · rw [if_pos ho]
      refine ⟨fun h => absurd ho (not_out_between k x c _ dt hpos.le hg hx h), fun _ => ⟨_, rfl⟩⟩
    · rw [if_neg ho, if_neg (by simp)]
      simp only [rk4_const]
      have e : x + c * ((dx / ‖c‖ : ℝ) : ℂ) + c * ((dt - dx / ‖c‖ : ℝ) : ℂ) = x + c * dt := by push_cast; ring
      rw [e]
      have := loop_last (fun _ => c) k relErr dampl dt n (x + c * dt) (dx / ‖c‖ + (dt - dx / ‖c‖))
        (next (fun _ => c) relErr dampl (x + c * ((dx / ‖c‖ : ℝ) : ℂ)) (dt - dx / ‖c‖))
      constructor
      · intro h
        rcases this with h1 | h1
        · exact h1.1
        · exact absurd h1.2 h
      · intro h
        rcases this with h1 | h1
        · exact absurd h h1.2
        · exact ⟨_, h1.1⟩

theorem displacement_eq (v : ℂ → ℂ) (k : Box) (dx : ℝ) (x : ℂ) (dt relErr dampl : ℝ) (n : ℕ) (h1 : dt ≠ 0) (h2 : 0 < relErr)
    (h3 : 0 ≤ dampl) (h4 : dampl ≤ 1) : displacement v k dx x dt relErr dampl n =
      .ok (loop (velocity v (decide (dt < 0))) k relErr dampl |dt| n x 0 (firstDt (velocity v (decide (dt < 0))) dx x) false) := by
  unfold displacement
  rw [if_neg h1, if_neg (not_le.2 h2), if_neg (by push Not; exact ⟨h3, h4⟩)]

/-- **C183** In a uniform flow a particle is displaced by exactly the velocity times the time, backwards for a negative time, whatever the
accuracy, in three rounds; it is reported out exactly when that place is outside.  The damping must be below 1. -/
theorem C183_uniform_partial (c : ℂ) (hc : c ≠ 0) (k : Box) (dx : ℝ) (hdx : 0 < dx) (x : ℂ) (hx : ¬ k.out x) (dt relErr dampl : ℝ)
    (h1 : dt ≠ 0) (h2 : 0 < relErr) (h3 : 0 ≤ dampl) (h4 : dampl < 1) (n : ℕ) (hn : 3 ≤ n) :
    (¬ k.out (x + c * dt) → displacement (fun _ => c) k dx x dt relErr dampl n = .ok (some (x + c * dt, false))) ∧
    (k.out (x + c * dt) → ∃ y, displacement (fun _ => c) k dx x dt relErr dampl n = .ok (some (y, true))) := by
  rw [displacement_eq _ k dx x dt relErr dampl n h1 h2 h3 h4.le]
  obtain ⟨m, rfl⟩ : ∃ m, n = m + 3 := ⟨n - 3, by omega⟩
  rcases lt_or_gt_of_ne h1 with hneg | hpos
  · have e : velocity (fun _ => c) (decide (dt < 0)) = fun _ => -c := by
      funext z; simp [velocity, hneg]
    rw [e, abs_of_neg hneg]
    have := loop_const (-c) (neg_ne_zero.2 hc) k relErr dampl (-dt) dx hdx h4.ne m x hx
    have e2 : x + -c * ((-dt : ℝ) : ℂ) = x + c * dt := by push_cast; ring
    rw [e2] at this
    refine ⟨fun h => by rw [this.1 h], fun h => ?_⟩
    obtain ⟨y, hy⟩ := this.2 h
    exact ⟨y, by rw [hy]⟩
  · have e : velocity (fun _ => c) (decide (dt < 0)) = fun _ => c := by
      funext z; simp [velocity, not_lt.2 hpos.le]
    rw [e, abs_of_pos hpos]
    have := loop_const c hc k relErr dampl dt dx hdx h4.ne m x hx
    refine ⟨fun h => by rw [this.1 h], fun h => ?_⟩
    obtain ⟨y, hy⟩ := this.2 h
    exact ⟨y, by rw [hy]⟩

/-- **C183** Going back in time brings the particle of a uniform flow back to its start. -/
theorem C183_back (c : ℂ) (hc : c ≠ 0) (k : Box) (dx : ℝ) (hdx : 0 < dx) (x : ℂ) (hx : ¬ k.out x) (dt relErr dampl : ℝ)
    (h1 : dt ≠ 0) (h2 : 0 < relErr) (h3 : 0 ≤ dampl) (h4 : dampl < 1) (n : ℕ) (hn : 3 ≤ n) (y : ℂ)
    (h : displacement (fun _ => c) k dx x dt relErr dampl n = .ok (some (y, false))) :
    displacement (fun _ => c) k dx y (-dt) relErr dampl n = .ok (some (x, false)) := by
  obtain ⟨p1, p2⟩ := C183_uniform_partial c hc k dx hdx x hx dt relErr dampl h1 h2 h3 h4 n hn
  by_cases ho : k.out (x + c * dt)
  · obtain ⟨z, hz⟩ := p2 ho
    rw [hz] at h
    simp at h
  · rw [p1 ho] at h
    simp only [Except.ok.injEq, Option.some.injEq, Prod.mk.injEq, and_true] at h
    subst h
    have e : x + c * dt + c * ((-dt : ℝ) : ℂ) = x := by push_cast; ring
    have := (C183_uniform_partial c hc k dx hdx (x + c * dt) ho (-dt) relErr dampl (neg_ne_zero.2 h1) h2 h3 h4 n hn).1 (by rwa [e])
    rwa [e] at this

/-- **C183** A particle at rest stays where it is, whatever the flow elsewhere. -/
theorem C183_rest (v : ℂ → ℂ) (k : Box) (dx : ℝ) (x : ℂ) (hv : v x = 0) (hx : ¬ k.out x) (dt relErr dampl : ℝ)
    (h1 : dt ≠ 0) (h2 : 0 < relErr) (h3 : 0 ≤ dampl) (h4 : dampl ≤ 1) (n : ℕ) (hn : 2 ≤ n) :
    displacement v k dx x dt relErr dampl n = .ok (some (x, false)) := by
  rw [displacement_eq _ k dx x dt relErr dampl n h1 h2 h3 h4]
  obtain ⟨m, rfl⟩ : ∃ m, n = m + 2 := ⟨n - 2, by omega⟩
  generalize hg : velocity v (decide (dt < 0)) = f
  have hf : f x = 0 := by
    rw [← hg]; unfold velocity
    by_cases h : decide (dt < 0) = true
    · rw [if_pos h, hv, neg_zero]
    · rw [if_neg h, hv]
  have hfirst : firstDt f dx x = .inf := by unfold firstDt; rw [if_pos (by rw [hf]; simp)]
  have hrk : ∀ h : ℝ, rk4 f x h = x := by
    intro h
    have e1 : k1 f x h = 0 := by simp [k1, hf]
    have e2 : k2 f x h = 0 := by simp [k2, e1, hf]
    have e3 : k3 f x h = 0 := by simp [k3, e1, e2, hf]
    have e4 : k4 f x h = 0 := by simp [k4, e1, e2, e3, hf]
    have e5 : k5 f x h = 0 := by simp [k5, e1, e2, e3, e4, hf]
    simp [rk4, e1, e3, e4, e5]
  rw [hfirst, loop, if_neg hx, if_neg (by simp)]
  simp only [hrk]
  rcases loop_last f k relErr dampl |dt| m x (0 + (|dt| - 0)) (next f relErr dampl x (|dt| - 0)) with h | h
  · rw [h.1]
  · exact absurd h.2 hx

/-- **C183** Displacement for a negative time is displacement in the reversed flow. -/
theorem C183_reverse (v : ℂ → ℂ) (k : Box) (dx : ℝ) (x : ℂ) (dt relErr dampl : ℝ) (n : ℕ) (h : 0 < dt) :
    displacement v k dx x (-dt) relErr dampl n = displacement (fun z => -v z) k dx x dt relErr dampl n := by
  unfold displacement
  have e1 : velocity v (decide (-dt < 0)) = fun z => -v z := by funext z; simp [velocity, h]
  have e2 : velocity (fun z => -v z) (decide (dt < 0)) = fun z => -v z := by funext z; simp [velocity, not_lt.2 h.le]
  rw [e1, e2, abs_neg]
  simp only [neg_eq_zero]

/-- **C183** With the largest damping allowed, 1, the displacement in a uniform flow never ends, as soon as one step neither leaves the field
nor uses up the time. -/
theorem C183_endless_violated (c : ℂ) (hc : c ≠ 0) (k : Box) (dx : ℝ) (hdx : 0 < dx) (x : ℂ) (hx : ¬ k.out x) (dt relErr : ℝ)
    (h1 : 0 < dt) (h2 : 0 < relErr) (hs : dx / ‖c‖ ≤ dt) (ho : ¬ k.out (x + c * ((dx / ‖c‖ : ℝ) : ℂ))) (n : ℕ) :
    displacement (fun _ => c) k dx x dt relErr 1 n = .ok none := by
  rw [displacement_eq _ k dx x dt relErr 1 n h1.ne' h2 zero_le_one le_rfl]
  have e : velocity (fun _ => c) (decide (dt < 0)) = fun _ => c := by
    funext z; simp [velocity, not_lt.2 h1.le]
  have hpos : 0 < dx / ‖c‖ := div_pos hdx (norm_pos_iff.2 hc)
  have hf : firstDt (fun _ => c) dx x = .num (dx / ‖c‖) := by
    unfold firstDt
    rw [if_neg (by simpa using hc)]
  rw [e, abs_of_pos h1, hf]
  cases n with
  | zero => simp [loop]
  | succ n =>
    rw [loop, if_neg hx, if_neg (by simp)]
    simp only [zero_add, rk4_const]
    rw [if_neg (not_lt.2 hs), next_const c x _ _ _ hc hpos.ne', if_pos rfl]
    cases n with
    | zero => simp [loop]
    | succ n => rw [loop, if_neg ho, if_neg (by simp)]

/-! ### C184 -/

/-- **C184** In a linear flow (`A` is any real linear map: strain, shear, rotation and their sums) a step is the Taylor polynomial of
the exact motion up to the fourth order, plus a term of the fifth order. -/
theorem C184_linear (A : ℂ → ℂ) (hadd : ∀ a b, A (a + b) = A a + A b) (hsmul : ∀ (r : ℝ) a, A (r * a) = r * A a) (x : ℂ) (h : ℝ) :
    rk4 A x h = x + h * A x + h ^ 2 / 2 * A (A x) + h ^ 3 / 6 * A (A (A x)) + h ^ 4 / 24 * A (A (A (A x))) +
      h ^ 5 / 104 * A (A (A (A (A x)))) := by
  have lin : ∀ r0 r1 r2 r3 r4 : ℝ, A (r0 * x + r1 * A x + r2 * A (A x) + r3 * A (A (A x)) + r4 * A (A (A (A x)))) =
      r0 * A x + r1 * A (A x) + r2 * A (A (A x)) + r3 * A (A (A (A x))) + r4 * A (A (A (A (A x)))) := by
    intro r0 r1 r2 r3 r4
    rw [hadd, hadd, hadd, hadd, hsmul, hsmul, hsmul, hsmul, hsmul]
  have e1 : k1 A x h = h * A x := by unfold k1; ring
  have e2 : k2 A x h = h * A x + h ^ 2 / 4 * A (A x) := by
    unfold k2
    rw [e1]
    have := lin 1 (h / 4) 0 0 0
    push_cast at this
    have e : x + (h : ℂ) * A x / 4 = 1 * x + h / 4 * A x + 0 * A (A x) + 0 * A (A (A x)) + 0 * A (A (A (A x))) := by ring
    rw [e, this]; ring
  have e3 : k3 A x h = h * A x + 3 / 8 * h ^ 2 * A (A x) + 9 / 128 * h ^ 3 * A (A (A x)) := by
    unfold k3
    rw [e1, e2]
    have := lin 1 (3 / 8 * h) (9 / 128 * h ^ 2) 0 0
    push_cast at this
    have e : x + 3 / 32 * ((h : ℂ) * A x) + 9 / 32 * (h * A x + h ^ 2 / 4 * A (A x)) =
      1 * x + 3 / 8 * h * A x + 9 / 128 * h ^ 2 * A (A x) + 0 * A (A (A x)) + 0 * A (A (A (A x))) := by ring
    rw [e, this]; ring
  have e4 : k4 A x h = h * A x + 12 / 13 * h ^ 2 * A (A x) + 72 / 169 * h ^ 3 * A (A (A x)) +
      7296 / 2197 * (9 / 128) * h ^ 4 * A (A (A (A x))) := by
    unfold k4
    rw [e1, e2, e3]
    have := lin 1 (12 / 13 * h) (72 / 169 * h ^ 2) (7296 / 2197 * (9 / 128) * h ^ 3) 0
    push_cast at this
    have e : x + 1932 / 2197 * ((h : ℂ) * A x) - 7200 / 2197 * (h * A x + h ^ 2 / 4 * A (A x)) +
        7296 / 2197 * (h * A x + 3 / 8 * h ^ 2 * A (A x) + 9 / 128 * h ^ 3 * A (A (A x))) =
      1 * x + 12 / 13 * h * A x + 72 / 169 * h ^ 2 * A (A x) + 7296 / 2197 * (9 / 128) * h ^ 3 * A (A (A x)) + 0 * A (A (A (A x))) := by
      ring
    rw [e, this]; ring
  have e5 : k5 A x h = h * A x + h ^ 2 * A (A x) + (-2 + 3680 / 513 * (3 / 8) - 845 / 4104 * (12 / 13)) * h ^ 3 * A (A (A x)) +
      (3680 / 513 * (9 / 128) - 845 / 4104 * (72 / 169)) * h ^ 4 * A (A (A (A x))) -
      845 / 4104 * (7296 / 2197 * (9 / 128)) * h ^ 5 * A (A (A (A (A x)))) := by
    unfold k5
    rw [e1, e2, e3, e4]
    have := lin 1 h ((-2 + 3680 / 513 * (3 / 8) - 845 / 4104 * (12 / 13)) * h ^ 2)
      ((3680 / 513 * (9 / 128) - 845 / 4104 * (72 / 169)) * h ^ 3) (-(845 / 4104 * (7296 / 2197 * (9 / 128))) * h ^ 4)
    push_cast at this
    have e : x + 439 / 216 * ((h : ℂ) * A x) - 8 * (h * A x + h ^ 2 / 4 * A (A x)) +
        3680 / 513 * (h * A x + 3 / 8 * h ^ 2 * A (A x) + 9 / 128 * h ^ 3 * A (A (A x))) -
        845 / 4104 * (h * A x + 12 / 13 * h ^ 2 * A (A x) + 72 / 169 * h ^ 3 * A (A (A x)) +
          7296 / 2197 * (9 / 128) * h ^ 4 * A (A (A (A x)))) =
      1 * x + h * A x + (-2 + 3680 / 513 * (3 / 8) - 845 / 4104 * (12 / 13)) * h ^ 2 * A (A x) +
        (3680 / 513 * (9 / 128) - 845 / 4104 * (72 / 169)) * h ^ 3 * A (A (A x)) +
        -(845 / 4104 * (7296 / 2197 * (9 / 128))) * h ^ 4 * A (A (A (A x))) := by ring
    rw [e, this]; ring
  unfold rk4
  rw [e1, e3, e4, e5]
  ring

/-- **C184** The place of the centre of the flow does not matter. -/
theorem C184_centre (g : ℂ → ℂ) (z0 x : ℂ) (h : ℝ) : rk4 (fun z => g (z - z0)) (z0 + x) h = z0 + rk4 g x h := by
  have e1 : k1 (fun z => g (z - z0)) (z0 + x) h = k1 g x h := by simp [k1]
  have e2 : k2 (fun z => g (z - z0)) (z0 + x) h = k2 g x h := by
    simp only [k2, e1]; congr 2; ring
  have e3 : k3 (fun z => g (z - z0)) (z0 + x) h = k3 g x h := by
    simp only [k3, e1, e2]; congr 2; ring
  have e4 : k4 (fun z => g (z - z0)) (z0 + x) h = k4 g x h := by
    simp only [k4, e1, e2, e3]; congr 2; ring
  have e5 : k5 (fun z => g (z - z0)) (z0 + x) h = k5 g x h := by
    simp only [k5, e1, e2, e3, e4]; congr 2; ring
  simp only [rk4, e1, e3, e4, e5]; ring

/-- **C184** In a vortex, a source or a spiral (velocity `c z`), a step misses the exact place `exp(c h) x` by at most the fifth power of
`|c h|`. -/
theorem C184_spiral (c x : ℂ) (h : ℝ) (hh : ‖c * h‖ ≤ 1) :
    ‖rk4 (fun z => c * z) x h - Complex.exp (c * h) * x‖ ≤ ‖c * h‖ ^ 5 / 50 * ‖x‖ := by
  have hlin := C184_linear (fun z => c * z) (fun a b => by ring) (fun r a => by ring) x h
  have hexp := Complex.exp_bound hh (n := 5) (by norm_num)
  generalize hw : c * (h : ℂ) = w at hh hexp ⊢
  have e : rk4 (fun z => c * z) x h = (1 + w + w ^ 2 / 2 + w ^ 3 / 6 + w ^ 4 / 24 + w ^ 5 / 104) * x := by
    rw [hlin, ← hw]; ring
  have hsum : ∑ m ∈ Finset.range 5, w ^ m / (m.factorial : ℂ) = 1 + w + w ^ 2 / 2 + w ^ 3 / 6 + w ^ 4 / 24 := by
    simp [Finset.sum_range_succ, Nat.factorial]
  rw [hsum] at hexp
  have e2 : rk4 (fun z => c * z) x h - Complex.exp w * x =
      (w ^ 5 / 104 - (Complex.exp w - (1 + w + w ^ 2 / 2 + w ^ 3 / 6 + w ^ 4 / 24))) * x := by
    rw [e]; ring
  rw [e2, norm_mul]
  refine mul_le_mul_of_nonneg_right ?_ (norm_nonneg _)
  have h5 : ‖w ^ 5 / 104‖ = ‖w‖ ^ 5 / 104 := by
    rw [norm_div, norm_pow]; norm_num
  calc ‖w ^ 5 / 104 - (Complex.exp w - (1 + w + w ^ 2 / 2 + w ^ 3 / 6 + w ^ 4 / 24))‖
      ≤ ‖w ^ 5 / 104‖ + ‖Complex.exp w - (1 + w + w ^ 2 / 2 + w ^ 3 / 6 + w ^ 4 / 24)‖ := norm_sub_le _ _
    _ ≤ ‖w‖ ^ 5 / 104 + ‖w‖ ^ 5 * ((6 : ℝ) * (120 * 5 : ℝ)⁻¹) := by
        rw [h5]
        have : ‖w‖ ^ 5 * (((5 : ℕ).succ : ℝ) * (((5 : ℕ).factorial : ℝ) * (5 : ℕ))⁻¹) = ‖w‖ ^ 5 * ((6 : ℝ) * (120 * 5 : ℝ)⁻¹) := by
          norm_num [Nat.factorial]
        rw [this] at hexp
        linarith
    _ ≤ ‖w‖ ^ 5 / 50 := by
        have := pow_nonneg (norm_nonneg w) 5
        nlinarith

theorem arrive_rotation (om : ℝ) (eta : ℝ) (h1 : eta ≤ 1) : ∀ (hs : List ℝ) (x : ℂ), (∀ h ∈ hs, 0 ≤ h) → (∀ h ∈ hs, |om| * h ≤ eta) →
    ‖arrive (fun z => (om * Complex.I) * z) x hs - Complex.exp (om * Complex.I * (hs.sum : ℝ)) * x‖ ≤
      (Real.exp (eta ^ 4 * |om| * hs.sum / 50) - 1) * ‖x‖
  | [], x, _, _ => by simp [arrive]
  | h :: l, x, h0, hb => by
    have hh0 := h0 h (by simp)
    have hhb := hb h (by simp)
    have ih := arrive_rotation om eta h1 l (rk4 (fun z => (om * Complex.I) * z) x h) (fun a ha => h0 a (by simp [ha]))
      (fun a ha => hb a (by simp [ha]))
    have hnorm : ‖(om * Complex.I : ℂ) * (h : ℂ)‖ = |om| * h := by
      rw [norm_mul, norm_mul, Complex.norm_I, Complex.norm_real, Complex.norm_real, Real.norm_eq_abs, Real.norm_eq_abs, abs_of_nonneg hh0,
        mul_one]
    have hst := C184_spiral (om * Complex.I) x h (by rw [hnorm]; linarith)
    rw [hnorm] at hst
    have hunit : ∀ s : ℝ, ‖Complex.exp (om * Complex.I * (s : ℂ))‖ = 1 := by
      intro s
      have : (om : ℂ) * Complex.I * (s : ℂ) = ((om * s : ℝ) : ℂ) * Complex.I := by push_cast; ring
      rw [this, Complex.norm_exp_ofReal_mul_I]
    set x1 := rk4 (fun z => (om * Complex.I) * z) x h with hx1
    have heta : 0 ≤ |om| * h := mul_nonneg (abs_nonneg _) hh0
    have heps : (|om| * h) ^ 5 / 50 ≤ eta ^ 4 * |om| * h / 50 := by
      have : (|om| * h) ^ 4 ≤ eta ^ 4 := pow_le_pow_left₀ heta hhb 4
      have := mul_le_mul_of_nonneg_right this heta
      nlinarith
    set ep := eta ^ 4 * |om| * h / 50 with hep
    have hst2 : ‖x1 - Complex.exp (om * Complex.I * h) * x‖ ≤ ep * ‖x‖ :=
      hst.trans (mul_le_mul_of_nonneg_right heps (norm_nonneg _))
    have hx1n : ‖x1‖ ≤ (1 + ep) * ‖x‖ := by
      have : x1 = (x1 - Complex.exp (om * Complex.I * h) * x) + Complex.exp (om * Complex.I * h) * x := by ring
      rw [this]
      refine (norm_add_le _ _).trans ?_
      rw [norm_mul, hunit]
      linarith
    have hsplit : arrive (fun z => (om * Complex.I) * z) x (h :: l) - Complex.exp (om * Complex.I * ((h :: l).sum : ℝ)) * x =
        (arrive (fun z => (om * Complex.I) * z) x1 l - Complex.exp (om * Complex.I * (l.sum : ℝ)) * x1) +
          Complex.exp (om * Complex.I * (l.sum : ℝ)) * (x1 - Complex.exp (om * Complex.I * h) * x) := by
      have : Complex.exp (om * Complex.I * ((h :: l).sum : ℝ)) =
          Complex.exp (om * Complex.I * (l.sum : ℝ)) * Complex.exp (om * Complex.I * h) := by
        rw [← Complex.exp_add]; congr 1; rw [List.sum_cons]; push_cast; ring
      rw [this]
      have ha : arrive (fun z => (om * Complex.I) * z) x (h :: l) = arrive (fun z => (om * Complex.I) * z) x1 l := rfl
      rw [ha]; ring
    rw [hsplit]
    refine (norm_add_le _ _).trans ?_
    rw [norm_mul, hunit, one_mul]
    have hE : 0 ≤ Real.exp (eta ^ 4 * |om| * l.sum / 50) - 1 := by
      have hsum : 0 ≤ l.sum := List.sum_nonneg (fun a ha => h0 a (by simp [ha]))
      have : 0 ≤ eta ^ 4 * |om| * l.sum / 50 := by positivity
      linarith [Real.add_one_le_exp (eta ^ 4 * |om| * l.sum / 50)]
    have hexp : Real.exp (eta ^ 4 * |om| * (h :: l).sum / 50) = Real.exp (eta ^ 4 * |om| * l.sum / 50) * Real.exp ep := by
      rw [← Real.exp_add]; congr 1; rw [List.sum_cons, hep]; ring
    rw [hexp]
    have h1e := Real.add_one_le_exp ep
    have hEpos := Real.exp_pos (eta ^ 4 * |om| * l.sum / 50)
    have := mul_le_mul_of_nonneg_left hx1n hE
    have hxn := norm_nonneg x
    nlinarith [mul_le_mul_of_nonneg_left h1e hEpos.le, mul_nonneg hxn (sub_nonneg.2 (mul_le_mul_of_nonneg_left h1e hEpos.le))]

/-- **C184** In a solid rotation of rate `om`, a particle that does not leave is found, at the end, near its exact place: if each of its steps
turns it by at most `eta ≤ 1` radians, within `exp(eta^4 |om| dt / 50) - 1` times its radius. -/
theorem C184_rotation (om : ℝ) (k : Box) (dx : ℝ) (hdx : 0 ≤ dx) (x y : ℂ) (dt relErr dampl : ℝ) (hdt : 0 < dt) (n : ℕ)
    (hd : displacement (fun z => (om * Complex.I) * z) k dx x dt relErr dampl n = .ok (some (y, false))) :
    ∃ hs : List ℝ, (∀ h ∈ hs, 0 ≤ h) ∧ hs.sum = dt ∧ y = arrive (fun z => (om * Complex.I) * z) x hs ∧
      ∀ eta : ℝ, eta ≤ 1 → (∀ h ∈ hs, |om| * h ≤ eta) →
        ‖y - Complex.exp (om * Complex.I * (dt : ℝ)) * x‖ ≤ (Real.exp (eta ^ 4 * |om| * dt / 50) - 1) * ‖x‖ := by
  obtain ⟨hs, h1, h2, -, h4, -⟩ := C182_time _ k dx hdx x dt relErr dampl n y false hd
  rw [if_neg (not_lt.2 hdt.le)] at h1
  have hsum := (h4 rfl).1
  rw [abs_of_pos hdt] at hsum
  refine ⟨hs, h2, hsum, h1, fun eta he hb => ?_⟩
  have := arrive_rotation om eta he hs x h2 hb
  rw [← h1, hsum] at this
  exact this

/-! ### concrete cases -/

/-- The field `[0, 4] x [0, 4]`. -/
def demo : Box := ⟨0, 4, 0, 4⟩

-- C182, C183: a uniform flow displaces a particle of the field
example : displacement (fun _ => 1) demo 1 ⟨1, 1⟩ 2 (1 / 100000) (1 / 2) 3 = .ok (some (⟨1, 1⟩ + 1 * (2 : ℝ), false)) :=
  (C183_uniform_partial 1 one_ne_zero demo 1 one_pos ⟨1, 1⟩ (by norm_num [demo, Box.out]) 2 _ _ (by norm_num) (by norm_num) (by norm_num)
    (by norm_num) 3 le_rfl).1 (by norm_num [demo, Box.out])
-- ... or takes it out
example : ∃ y, displacement (fun _ => 1) demo 1 ⟨1, 1⟩ 5 (1 / 100000) (1 / 2) 3 = .ok (some (y, true)) :=
  (C183_uniform_partial 1 one_ne_zero demo 1 one_pos ⟨1, 1⟩ (by norm_num [demo, Box.out]) 5 _ _ (by norm_num) (by norm_num) (by norm_num)
    (by norm_num) 3 le_rfl).2 (by norm_num [demo, Box.out])
-- ... or never ends
example (n : ℕ) : displacement (fun _ => 1) demo 1 ⟨1, 1⟩ 2 (1 / 100000) 1 n = .ok none :=
  C183_endless_violated 1 one_ne_zero demo 1 one_pos ⟨1, 1⟩ (by norm_num [demo, Box.out]) 2 _ (by norm_num) (by norm_num) (by norm_num)
    (by norm_num [demo, Box.out]) n
-- C184: the centre of a rotation is a particle that does not leave
example (om : ℝ) : displacement (fun z => (om * Complex.I) * z) ⟨-1, 1, -1, 1⟩ 1 0 2 (1 / 100000) (1 / 2) 2 = .ok (some (0, false)) :=
  C183_rest _ _ 1 0 (by simp) (by norm_num [Box.out]) 2 _ _ (by norm_num) (by norm_num) (by norm_num) (by norm_num) 2 le_rfl
-- ... and so is a particle at a distance 1 of the centre, for half a radian
example : ∃ y, displacement (fun z => ((1 : ℝ) * Complex.I) * z) ⟨-2, 2, -2, 2⟩ 1 1 (1 / 2) (1 / 100000) (1 / 2) 2 = .ok (some (y, false)) := by
  rw [displacement_eq _ _ _ _ _ _ _ _ (by norm_num) (by norm_num) (by norm_num) (by norm_num)]
  have e : velocity (fun z => (((1 : ℝ) : ℂ) * Complex.I) * z) (decide ((1 / 2 : ℝ) < 0)) = fun z => (((1 : ℝ) : ℂ) * Complex.I) * z := by
    funext z; norm_num [velocity]
  have hf : firstDt (fun z => (((1 : ℝ) : ℂ) * Complex.I) * z) 1 1 = .num 1 := by norm_num [firstDt]
  have hrk : rk4 (fun z => (((1 : ℝ) : ℂ) * Complex.I) * z) 1 (1 / 2) = ⟨1 - 1 / 8 + 1 / 384, 1 / 2 - 1 / 48 + 1 / 3328⟩ := by
    rw [C184_linear _ (fun a b => by ring) (fun r a => by ring)]
    apply Complex.ext
    · norm_num [pow_succ]
    · norm_num [pow_succ]
  rw [e, hf, abs_of_pos (by norm_num), loop_succ, if_neg (by norm_num [Box.out]), if_neg (by simp)]
  simp only
  rw [if_pos (by norm_num), loop_succ, sub_zero, hrk, if_neg (by norm_num [Box.out]), if_pos rfl]
  exact ⟨_, rfl⟩
example : ‖(Complex.I : ℂ) * ((1 : ℝ) : ℂ)‖ ≤ 1 := by simp

end IMT.Ftle
