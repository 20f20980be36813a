import Verif.Ftle.CloudModel
import Verif.Ftle.Travel
import Verif.Ftle.Exponent

/-! C377: field of displaced points. -/

namespace IMT.Ftle

/-! ### loops -/

theorem each_ok {α β : Type} (f : α → Res (Option β)) (l : List α) (bs : List β) :
    each f l = .ok (some bs) ↔ List.Forall₂ (fun a b => f a = .ok (some b)) l bs := by
  induction l generalizing bs with
  | nil => simp [each, eq_comm]
  | cons a l ih =>
    unfold each
    rcases hf : f a with e | (_ | b)
    · simp only [reduceCtorEq, false_iff]
      rintro (_ | ⟨h1, _⟩)
      rw [hf] at h1; exact absurd h1 (by simp)
    · simp only [Except.ok.injEq, reduceCtorEq, false_iff]
      rintro (_ | ⟨h1, _⟩)
      rw [hf] at h1; exact absurd h1 (by simp)
    · rcases hr : each f l with e | (_ | cs)
      · simp only [reduceCtorEq, false_iff]
        rintro (_ | ⟨h1, h2⟩)
        rw [(ih _).2 h2] at hr; exact absurd hr (by simp)
      · simp only [Except.ok.injEq, reduceCtorEq, false_iff]
        rintro (_ | ⟨h1, h2⟩)
        rw [(ih _).2 h2] at hr; exact absurd hr (by simp)
      · simp only [Except.ok.injEq, Option.some.injEq]
        constructor
        · rintro rfl
          exact .cons hf ((ih _).1 hr)
        · rintro (_ | ⟨h1, h2⟩)
          rw [(ih _).2 h2] at hr
          rw [hf] at h1
          simp only [Except.ok.injEq, Option.some.injEq] at h1 hr
          rw [h1, hr]

theorem each_error {α β : Type} (f : α → Res (Option β)) (l : List α) (e : Err) (hl : l ≠ []) (h : ∀ a ∈ l, f a = .error e) :
    each f l = .error e := by
  cases l with
  | nil => exact absurd rfl hl
  | cons a l => simp [each, h a (by simp)]

/-- **C377** In the field of displaced points, there is one place for each of the points the particles start from; it is the place where
`get_pts_displacement` brings that particle, and it is masked exactly when the particle left the field. -/
theorem C377_points (v : ℂ → ℂ) (k : Box) (dx resX resY dt relErr dampl : ℝ) (n : ℕ) (sx sy : ℝ)
    (hsx : sx = spacing k.xa k.xb resX) (hsy : sy = spacing k.ya k.yb resY) (rows : List (List (Option ℂ)))
    (h : displacedField v k dx resX resY dt relErr dampl n = .ok (some rows)) :
    rows.length = (positions k.xa k.xb (delta sx sy)).length ∧
    (∀ r ∈ rows, r.length = (positions k.ya k.yb (delta sx sy)).length) ∧
    ∀ (i j : ℕ) x y, (positions k.xa k.xb (delta sx sy))[i]? = some x → (positions k.ya k.yb (delta sx sy))[j]? = some y →
      ∃ p left, displacement v k dx ⟨x, y⟩ dt relErr dampl n = .ok (some (p, left)) ∧
        (rows[i]?.bind fun r : List (Option ℂ) => r[j]?) = some (if left then none else some p) := by
  unfold displacedField displaceAll at h
  rw [← hsx, ← hsy, each_ok] at h
  obtain ⟨hlen, hall⟩ := List.forall₂_iff_get.1 h
  refine ⟨hlen.symm, ?_, ?_⟩
  · intro r hr
    obtain ⟨i, hi, rfl⟩ := List.getElem_of_mem hr
    have := hall i (by omega) hi
    rw [each_ok] at this
    exact this.length_eq.symm
  · intro i j x y hx hy
    obtain ⟨hi, rfl⟩ := List.getElem?_eq_some_iff.1 hx
    obtain ⟨hj, rfl⟩ := List.getElem?_eq_some_iff.1 hy
    have h1 := hall i hi (by omega)
    rw [each_ok] at h1
    obtain ⟨hl2, h2⟩ := List.forall₂_iff_get.1 h1
    have h3 := h2 j hj (by omega)
    simp only [List.get_eq_getElem] at h3
    rcases hd : displacement v k dx ⟨(positions k.xa k.xb (delta sx sy))[i], (positions k.ya k.yb (delta sx sy))[j]⟩ dt relErr dampl n
      with e | (_ | ⟨p, left⟩)
    · rw [hd] at h3; exact absurd h3 (by simp)
    · rw [hd] at h3; exact absurd h3 (by simp)
    · rw [hd] at h3
      simp only [Except.ok.injEq, Option.some.injEq] at h3
      refine ⟨p, left, rfl, ?_⟩
      have hi' : i < rows.length := by omega
      rw [List.getElem?_eq_getElem hi', Option.bind_some]
      have hj' : j < rows[i].length := by
        have : (positions k.ya k.yb (delta sx sy)).length = rows[i].length := hl2
        omega
      rw [List.getElem?_eq_getElem hj', ← h3]
      rfl

/-- **C377** The field is computed as soon as the travel of each particle ends, with the same result whatever the number of rounds. -/
theorem C377_computed_partial (v : ℂ → ℂ) (k : Box) (dx resX resY dt relErr dampl : ℝ) (sx sy : ℝ)
    (hsx : sx = spacing k.xa k.xb resX) (hsy : sy = spacing k.ya k.yb resY)
    (h : ∀ x ∈ positions k.xa k.xb (delta sx sy), ∀ y ∈ positions k.ya k.yb (delta sx sy), ∃ n q,
      displacement v k dx ⟨x, y⟩ dt relErr dampl n = .ok (some q)) :
    ∃ N rows, ∀ n, N ≤ n → displacedField v k dx resX resY dt relErr dampl n = .ok (some rows) := by
  have key : ∀ {α β : Type} (f : ℕ → α → Res (Option β)) (l : List α),
      (∀ a ∈ l, ∃ N b, ∀ n, N ≤ n → f n a = .ok (some b)) → ∃ N bs, ∀ n, N ≤ n → each (f n) l = .ok (some bs) := by
    intro α β f l
    induction l with
    | nil => intro _; exact ⟨0, [], fun n _ => rfl⟩
    | cons a l ih =>
      intro hl
      obtain ⟨N1, b, h1⟩ := hl a (by simp)
      obtain ⟨N2, bs, h2⟩ := ih fun c hc => hl c (by simp [hc])
      refine ⟨max N1 N2, b :: bs, fun n hn => ?_⟩
      simp [each, h1 n (le_trans (le_max_left _ _) hn), h2 n (le_trans (le_max_right _ _) hn)]
  unfold displacedField displaceAll
  rw [← hsx, ← hsy]
  refine key (fun n x => each (fun y => match displacement v k dx ⟨x, y⟩ dt relErr dampl n with
    | .error e => .error e
    | .ok none => .ok none
    | .ok (some q) => .ok (some (hide q))) (positions k.ya k.yb (delta sx sy))) _ fun x hx => ?_
  refine key (fun n y => match displacement v k dx ⟨x, y⟩ dt relErr dampl n with
    | .error e => .error e
    | .ok none => .ok none
    | .ok (some q) => .ok (some (hide q))) _ fun y hy => ?_
  obtain ⟨n, q, hq⟩ := h x hx y hy
  refine ⟨n, hide q, fun m hm => ?_⟩
  rw [C182_rounds v k dx ⟨x, y⟩ dt relErr dampl n m q hq hm]

/-- **C377** With at least one particle, no time, no accuracy and a damping outside `[0, 1]` are refused. -/
theorem C377_refused (v : ℂ → ℂ) (k : Box) (dx resX resY dt relErr dampl : ℝ) (n : ℕ) (sx sy : ℝ)
    (hsx : sx = spacing k.xa k.xb resX) (hsy : sy = spacing k.ya k.yb resY)
    (hx : positions k.xa k.xb (delta sx sy) ≠ []) (hy : positions k.ya k.yb (delta sx sy) ≠ [])
    (h : dt = 0 ∨ relErr ≤ 0 ∨ dampl < 0 ∨ 1 < dampl) : displacedField v k dx resX resY dt relErr dampl n = .error .valueError := by
  unfold displacedField displaceAll
  rw [← hsx, ← hsy]
  refine each_error _ _ _ hx fun x _ => each_error _ _ _ hy fun y _ => ?_
  rw [(C182_refused v k dx ⟨x, y⟩ dt relErr dampl n).2 h]

/-- **C377** In a uniform flow the field is computed in three rounds: every point is moved by the velocity times the time, and masked exactly
when that place is outside.  The damping must be below 1. -/
theorem C377_uniform_partial (c : ℂ) (hc : c ≠ 0) (k : Box) (dx : ℝ) (hdx : 0 < dx) (resX resY dt relErr dampl : ℝ) (n : ℕ) (sx sy : ℝ)
    (hsx : sx = spacing k.xa k.xb resX) (hsy : sy = spacing k.ya k.yb resY) (hd : 0 < delta sx sy)
    (h1 : dt ≠ 0) (h2 : 0 < relErr) (h3 : 0 ≤ dampl) (h4 : dampl < 1) (hn : 3 ≤ n) :
    ∃ rows, displacedField (fun _ => c) k dx resX resY dt relErr dampl n = .ok (some rows) ∧
      ∀ (i j : ℕ) x y, (positions k.xa k.xb (delta sx sy))[i]? = some x → (positions k.ya k.yb (delta sx sy))[j]? = some y →
        (¬ k.out (⟨x, y⟩ + c * dt) → (rows[i]?.bind fun r : List (Option ℂ) => r[j]?) = some (some (⟨x, y⟩ + c * dt))) ∧
        (k.out (⟨x, y⟩ + c * dt) → (rows[i]?.bind fun r : List (Option ℂ) => r[j]?) = some none) := by
  have inside : ∀ (a b : ℝ), ∀ x ∈ positions a b (delta sx sy), a < x ∧ x < b := by
    intro a b x hx
    obtain ⟨i, hi, rfl⟩ := List.getElem_of_mem hx
    have := (C185_points a b (delta sx sy) hd).1 i hi
    simp only [List.getD_eq_getElem?_getD, List.getElem?_eq_getElem hi, Option.getD_some] at this
    exact this.2
  have hin : ∀ x ∈ positions k.xa k.xb (delta sx sy), ∀ y ∈ positions k.ya k.yb (delta sx sy), ¬ k.out ⟨x, y⟩ := by
    intro x hx y hy
    have a1 := inside _ _ x hx
    have a2 := inside _ _ y hy
    unfold Box.out
    push Not
    exact ⟨a1.1.le, a1.2.le, a2.1.le, a2.2.le⟩
  have hdis : ∀ x ∈ positions k.xa k.xb (delta sx sy), ∀ y ∈ positions k.ya k.yb (delta sx sy), ∀ m, 3 ≤ m →
      ∃ q, displacement (fun _ => c) k dx ⟨x, y⟩ dt relErr dampl m = .ok (some q) := by
    intro x hx y hy m hm
    obtain ⟨p1, p2⟩ := C183_uniform_partial c hc k dx hdx ⟨x, y⟩ (hin x hx y hy) dt relErr dampl h1 h2 h3 h4 m hm
    by_cases ho : k.out (⟨x, y⟩ + c * dt)
    · obtain ⟨z, hz⟩ := p2 ho; exact ⟨_, hz⟩
    · exact ⟨_, p1 ho⟩
  have ex : ∀ {α β : Type} (f : α → Res (Option β)) (l : List α), (∀ a ∈ l, ∃ b, f a = .ok (some b)) → ∃ bs, each f l = .ok (some bs) := by
    intro α β f l
    induction l with
    | nil => intro _; exact ⟨[], rfl⟩
    | cons a l ih =>
      intro hl
      obtain ⟨b, hb⟩ := hl a (by simp)
      obtain ⟨bs, hbs⟩ := ih fun c hc => hl c (by simp [hc])
      exact ⟨b :: bs, by simp [each, hb, hbs]⟩
  obtain ⟨rows, hrows⟩ : ∃ rows, displacedField (fun _ => c) k dx resX resY dt relErr dampl n = .ok (some rows) := by
    unfold displacedField displaceAll
    rw [← hsx, ← hsy]
    refine ex _ _ fun x hx => ex _ _ fun y hy => ?_
    obtain ⟨q, hq⟩ := hdis x hx y hy n hn
    exact ⟨hide q, by rw [hq]⟩
  refine ⟨rows, hrows, fun i j x y hx hy => ?_⟩
  obtain ⟨p, left, hp, hr⟩ := (C377_points _ k dx resX resY dt relErr dampl n sx sy hsx hsy rows hrows).2.2 i j x y hx hy
  obtain ⟨p1, p2⟩ := C183_uniform_partial c hc k dx hdx ⟨x, y⟩
    (hin x (List.mem_of_getElem? hx) y (List.mem_of_getElem? hy)) dt relErr dampl h1 h2 h3 h4 n hn
  rw [hr]
  refine ⟨fun ho => ?_, fun ho => ?_⟩
  · rw [p1 ho] at hp
    simp only [Except.ok.injEq, Option.some.injEq, Prod.mk.injEq] at hp
    rw [← hp.1, ← hp.2]; simp
  · obtain ⟨z, hz⟩ := p2 ho
    rw [hz] at hp
    simp only [Except.ok.injEq, Option.some.injEq, Prod.mk.injEq] at hp
    rw [← hp.2]; simp

/-- **C377** fails for long fields: when one side is at least `4 (res + 1)` times the other, no particle at all is followed, whatever the
resolution asked along each axis, and nothing is refused, not even a time of zero. -/
theorem C377_long_violated (v : ℂ → ℂ) (k : Box) (dx res dt relErr dampl : ℝ) (n : ℕ) (hr : 0 ≤ res) (hx : k.xa < k.xb)
    (hl : 4 * (res + 1) * (k.xb - k.xa) ≤ k.yb - k.ya) : displacedField v k dx res res dt relErr dampl n = .ok (some []) := by
  have hr1 : 0 < res + 1 := by linarith
  have hLx : 0 < k.xb - k.xa := by linarith
  have hLy : 0 < k.yb - k.ya := by nlinarith
  have hsy : 4 * (k.xb - k.xa) ≤ spacing k.ya k.yb res := by
    unfold spacing
    rw [le_div_iff₀ hr1]
    nlinarith
  have hle : spacing k.ya k.yb res ≤ √((spacing k.xa k.xb res) ^ 2 + (spacing k.ya k.yb res) ^ 2) := by
    apply Real.le_sqrt_of_sq_le
    nlinarith [sq_nonneg (spacing k.xa k.xb res)]
  have hd : 2 * (k.xb - k.xa) ≤ delta (spacing k.xa k.xb res) (spacing k.ya k.yb res) := by
    unfold delta
    linarith
  set d := delta (spacing k.xa k.xb res) (spacing k.ya k.yb res) with hdd
  have hd0 : 0 < d := by linarith
  have hnil : positions k.xa k.xb d = [] := by
    rw [← List.length_eq_zero_iff]
    by_contra h0
    have := (C185_points k.xa k.xb d hd0).1 0 (by omega)
    have e := this.1
    have l := this.2.2
    rw [e] at l
    simp only [Nat.cast_zero, zero_mul, add_zero] at l
    linarith
  unfold displacedField displaceAll
  rw [← hdd, hnil]
  rfl

/-- The hypotheses of the theorems hold together. -/
example : ∃ rows, displacedField (fun _ => 1) ⟨0, 10, 0, 10⟩ 1 4 4 1 1 (1 / 2) 3 = .ok (some rows) ∧ rows ≠ [] := by
  have hd : 0 < delta (spacing 0 10 4) (spacing 0 10 4) := delta_pos _ _ (by unfold spacing; norm_num)
  obtain ⟨rows, h, _⟩ := C377_uniform_partial 1 one_ne_zero ⟨0, 10, 0, 10⟩ 1 one_pos 4 4 1 1 (1 / 2) 3 (spacing 0 10 4) (spacing 0 10 4) rfl rfl hd
    one_ne_zero one_pos (by norm_num) (by norm_num) le_rfl
  refine ⟨rows, h, fun e => ?_⟩
  have hl := (C377_points _ _ _ _ _ _ _ _ _ _ _ rfl rfl rows h).1
  have := C185_number_violated 0 10 0 10 4 (by norm_num) (by norm_num) (by norm_num)
  rw [zero_add] at this
  rw [e] at hl
  have h0 : (positions 0 10 (delta (spacing 0 10 4) (spacing 0 10 4))).length = 0 := hl.symm
  rw [h0] at this
  norm_num at this

end IMT.Ftle
