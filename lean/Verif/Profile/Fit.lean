import Verif.Profile.FitModel
import Verif.Profile.Arith

/-! C380: fitting of a function to a profile. -/

namespace IMT.Profile

variable {srt : List Rat → List Nat} {leastsq : (List Rat → List F) → List Rat → List Rat} {func : Rat → List Rat → Rat}

/-- Specification: the parameters `a` are the best ones, in the sense of the least squares, on the points `l`. -/
def Best (func : Rat → List Rat → Rat) (l : List (Rat × Rat)) (a : List Rat) : Prop :=
  ∀ b, (l.map fun q => (q.2 - func q.1 a) ^ 2).sum ≤ (l.map fun q => (q.2 - func q.1 b) ^ 2).sum

theorem squares_known (func : Rat → List Rat → Rat) (a : List Rat) (l : List (Rat × Rat)) :
    squares ((l.map fun q => (q.1, some q.2)).map fun q : Rat × F => q.2.map fun y => y - func q.1 a) =
      some (l.map fun q => (q.2 - func q.1 a) ^ 2).sum := by
  induction l with
  | nil => rfl
  | cons q l ih =>
    simp only [List.map_cons, Option.map_some, squares, List.sum_cons]
    rw [ih]
    rfl

theorem sum_sq_zero (func : Rat → List Rat → Rat) (a : List Rat) (l : List (Rat × Rat)) (h : (l.map fun q => (q.2 - func q.1 a) ^ 2).sum ≤ 0) :
    ∀ q ∈ l, q.2 = func q.1 a := by
  have nn : ∀ l : List (Rat × Rat), 0 ≤ (l.map fun q => (q.2 - func q.1 a) ^ 2).sum := by
    intro l
    induction l with
    | nil => simp
    | cons q l ih => simp only [List.map_cons, List.sum_cons]; have := sq_nonneg (q.2 - func q.1 a); linarith
  induction l with
  | nil => simp
  | cons q l ih =>
    simp only [List.map_cons, List.sum_cons] at h
    have h1 := sq_nonneg (q.2 - func q.1 a)
    have h2 := nn l
    intro r hr
    rcases List.mem_cons.mp hr with rfl | hr
    · have : (r.2 - func r.1 a) ^ 2 = 0 := by linarith
      have := pow_eq_zero_iff (two_ne_zero) |>.mp this
      linarith
    · exact ih (by linarith) r hr

/-- C380: the fitted profile has the abscissas and the units of the profile, and the values of the function, with the parameters that are given back: those of
the optimiser, started from the guess, or from ones. -/
theorem C380_values (hs : IsArgsort srt) (p : Prof) (nargs : Nat) (p0 : Option (List Rat)) :
    ∃ r a, getFitting srt leastsq func nargs p0 p = .ok (r, a) ∧ a = leastsq (residual func p) (p0.getD (List.replicate (nargs - 1) 1)) ∧ Valid r ∧
      (pts r).Perm (p.x.map fun x => (x, some (func x a))) ∧ r.ux = p.ux ∧ r.uy = p.uy := by
  set a := leastsq (residual func p) (p0.getD (List.replicate (nargs - 1) 1)) with ha
  obtain ⟨r, e, hv, hp, hx, hy⟩ := new_flag_perm hs (x := p.x) (y := p.x.map fun x => some (func x a)) false p.ux p.uy (by simp)
  refine ⟨r, a, ?_, rfl, hv, ?_, hx, hy⟩
  · unfold getFitting
    cases p0 with
    | none => simp only [Option.getD_none] at ha; simp only [← ha, e]
    | some g => simp only [Option.getD_some] at ha; simp only [← ha, e]
  · have : p.x.zip (p.x.map fun x => some (func x a)) = p.x.map fun x => (x, some (func x a)) := by
      generalize p.x = l
      induction l with
      | nil => rfl
      | cons x l ih => simp [ih]
    rw [← this]
    exact hp

/-- C380: without masked point, what the optimiser makes least is the sum of the squares of the differences between the values and the function. -/
theorem C380_target_partial (p : Prof) (l : List (Rat × Rat)) (hl : pts p = l.map fun q => (q.1, some q.2)) (a : List Rat) :
    squares (residual func p a) = some (l.map fun q => (q.2 - func q.1 a) ^ 2).sum := by
  unfold residual
  rw [hl, squares_known]

/-- C380: a profile without masked point that follows the function for some parameters is fitted exactly, as soon as the optimiser finds the best parameters. -/
theorem C380_exact_partial (hs : IsArgsort srt) (p : Prof) (hp : Valid p) (nargs : Nat) (p0 : Option (List Rat)) (l : List (Rat × Rat))
    (hl : pts p = l.map fun q => (q.1, some q.2)) (b : List Rat) (hb : ∀ q ∈ l, q.2 = func q.1 b)
    (hbest : Best func l (leastsq (residual func p) (p0.getD (List.replicate (nargs - 1) 1)))) :
    ∃ r a, getFitting srt leastsq func nargs p0 p = .ok (r, a) ∧ (pts r).Perm (pts p) ∧ r.ux = p.ux ∧ r.uy = p.uy := by
  obtain ⟨r, a, h1, h2, _, h4, h5, h6⟩ := C380_values (leastsq := leastsq) (func := func) hs p nargs p0
  refine ⟨r, a, h1, ?_, h5, h6⟩
  rw [← h2] at hbest
  have h0 : (l.map fun q => (q.2 - func q.1 b) ^ 2).sum = 0 := by
    apply List.sum_eq_zero
    intro v hv
    obtain ⟨q, hq, rfl⟩ := List.mem_map.mp hv
    rw [hb q hq, sub_self]
    norm_num
  have hz := sum_sq_zero func a l (by rw [← h0]; exact hbest b)
  have hx : p.x = l.map Prod.fst := by
    rw [← pts_fst hp, hl, List.map_map]
    rfl
  rw [hl]
  rw [hx, List.map_map] at h4
  refine h4.trans (List.Perm.of_eq (List.map_congr_left fun q hq => ?_))
  simp [hz q hq]

theorem squares_nan {l : List F} (h : none ∈ l) : squares l = none := by
  induction l with
  | nil => cases h
  | cons v l ih =>
    cases v with
    | none => rfl
    | some a =>
      have : (none : F) ∈ l := by simpa using h
      simp [squares, ih this]

/-- C380 is violated: with a masked point, what the optimiser is asked to make least is NaN whatever the parameters, although the other points may follow the
function. -/
theorem C380_masked_violated (p : Prof) {x : Rat} (hx : (x, none) ∈ pts p) (a : List Rat) : squares (residual func p a) = none := by
  apply squares_nan
  unfold residual
  rw [List.mem_map]
  exact ⟨(x, none), hx, rfl⟩

/-- A line through three points. -/
def straight : Prof := ⟨[0, 1, 3], [some 1, some 3, some 7], [false, false, false], Sym.m, Sym.s⟩

example : ∃ r a, getFitting argsort (fun _ _ => [2, 1]) (fun x a => (a[0]?).getD 0 * x + (a[1]?).getD 0) 3 none straight = .ok (r, a) ∧
    pts r = pts straight := by
  refine ⟨straight, [2, 1], ?_, rfl⟩
  decide +kernel

example : Best (fun x a => (a[0]?).getD 0 * x + (a[1]?).getD 0) [(0, 1), (1, 3), (3, 7)] [2, 1] := by
  intro b
  norm_num
  positivity

end IMT.Profile
