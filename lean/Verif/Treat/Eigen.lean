import Verif.Treat.EigenModel
import Mathlib.Tactic.Ring
import Mathlib.Tactic.Linarith
import Mathlib.Tactic.LinearCombination
import Mathlib.Tactic.FieldSimp

/-!
C332, C333: the eigenvalues and eigenvectors of the Jacobian matrix, and the field of Kenwright.
-/

namespace IMT.Eigen

/-! ### Specification -/

/-- The matrix times a real vector. -/
def Jac.ap (J : Jac) (v : ℝ × ℝ) : ℝ × ℝ := (J.xx * v.1 + J.xy * v.2, J.yx * v.1 + J.yy * v.2)

/-- What is assumed of numpy's `eig`: eigenvalues with their multiplicity, eigenvectors that are not null, real ones for real
eigenvalues, and conjugate ones for conjugate eigenvalues. -/
structure IsEig (J : Jac) (p : Pair) : Prop where
  e0 : J.xx * p.v0.1 + J.xy * p.v0.2 = p.l0 * p.v0.1 ∧ J.yx * p.v0.1 + J.yy * p.v0.2 = p.l0 * p.v0.2
  e1 : J.xx * p.v1.1 + J.xy * p.v1.2 = p.l1 * p.v1.1 ∧ J.yx * p.v1.1 + J.yy * p.v1.2 = p.l1 * p.v1.2
  n0 : p.v0 ≠ (0, 0)
  n1 : p.v1 ≠ (0, 0)
  tr : p.l0 + p.l1 = J.xx + J.yy
  det : p.l0 * p.l1 = J.xx * J.yy - J.xy * J.yx
  real : p.l0.im = 0 → p.v0.1.im = 0 ∧ p.v0.2.im = 0 ∧ p.v1.1.im = 0 ∧ p.v1.2.im = 0
  conj : p.l0.im ≠ 0 → p.v1.1.re = p.v0.1.re ∧ p.v1.2.re = p.v0.2.re

/-- `e` is an eigenvector of the matrix for the real eigenvalue `l`. -/
def EigVec (J : Jac) (l : ℝ) (e : ℝ × ℝ) : Prop := e ≠ (0, 0) ∧ J.ap e = (l * e.1, l * e.2)

/-! ### Lemmas -/

theorem im_sum {J : Jac} {p : Pair} (h : IsEig J p) : p.l0.im + p.l1.im = 0 := by
  have := congrArg Complex.im h.tr
  simpa using this

/-- A row of the eigenvalue equation, for real entries. -/
theorem parts (a b : ℝ) (x y l z : ℂ) (h : (a : ℂ) * x + b * y = l * z) :
    a * x.re + b * y.re = l.re * z.re - l.im * z.im ∧ a * x.im + b * y.im = l.re * z.im + l.im * z.re := by
  have h1 := congrArg Complex.re h
  have h2 := congrArg Complex.im h
  simp at h1 h2
  exact ⟨h1, h2⟩

theorem realVec (J : Jac) (v : ℂ × ℂ) (l : ℂ) (h1 : J.xx * v.1 + J.xy * v.2 = l * v.1) (h2 : J.yx * v.1 + J.yy * v.2 = l * v.2)
    (hn : v ≠ (0, 0)) (hr : v.1.im = 0 ∧ v.2.im = 0) : EigVec J l.re (v.1.re, v.2.re) := by
  obtain ⟨p1, -⟩ := parts _ _ _ _ _ _ h1
  obtain ⟨p2, -⟩ := parts _ _ _ _ _ _ h2
  refine ⟨?_, ?_⟩
  · intro e
    apply hn
    have e1 := congrArg Prod.fst e
    have e2 := congrArg Prod.snd e
    simp only at e1 e2
    exact Prod.ext (Complex.ext e1 hr.1) (Complex.ext e2 hr.2)
  · unfold Jac.ap
    rw [hr.1] at p1
    rw [hr.2] at p2
    ext <;> simp <;> linarith

/-! ### C332 -/

/-- C332: at a node where the gradients are not masked, the two eigenvalues are those of the Jacobian matrix, the largest first;
elsewhere the node is masked. -/
theorem C332_values (eig : Jac → Pair) (J : Jac) (h : IsEig J (eig J)) :
    ∃ l1 l2 e1 e2, eigen eig (some J) = some ((l1, l2), e1, e2) ∧ l1 + l2 = J.xx + J.yy ∧ l1 * l2 = J.xx * J.yy - J.xy * J.yx ∧
      ¬ Beyond l1 l2 := by
  unfold eigen sorted
  simp only [Option.map_some]
  by_cases b : Beyond (eig J).l0 (eig J).l1
  · rw [if_pos b]
    refine ⟨_, _, _, _, rfl, by rw [add_comm]; exact h.tr, by rw [mul_comm]; exact h.det, ?_⟩
    unfold Beyond at b ⊢
    rintro (c | ⟨c, c'⟩) <;> rcases b with b | ⟨b, b'⟩ <;> linarith
  · rw [if_neg b]
    exact ⟨_, _, _, _, rfl, h.tr, h.det, b⟩

theorem C332_masked (eig : Jac → Pair) : eigen eig none = none := rfl

/-- C332: when the eigenvalues are real, the vector given for each is an eigenvector of the Jacobian matrix for it. -/
theorem C332_vectors_partial (eig : Jac → Pair) (J : Jac) (h : IsEig J (eig J)) (hr : (eig J).l0.im = 0) :
    ∃ (l1 l2 : ℂ) (e1 e2 : ℝ × ℝ), eigen eig (some J) = some ((l1, l2), e1, e2) ∧ l1.im = 0 ∧ l2.im = 0 ∧
      EigVec J l1.re e1 ∧ EigVec J l2.re e2 := by
  have hr1 : (eig J).l1.im = 0 := by have := im_sum h; linarith
  obtain ⟨r1, r2, r3, r4⟩ := h.real hr
  have a := realVec J _ _ h.e0.1 h.e0.2 h.n0 ⟨r1, r2⟩
  have b := realVec J _ _ h.e1.1 h.e1.2 h.n1 ⟨r3, r4⟩
  unfold eigen sorted
  simp only [Option.map_some]
  by_cases c : Beyond (eig J).l0 (eig J).l1
  · rw [if_pos c]; exact ⟨_, _, _, _, rfl, hr1, hr, b, a⟩
  · rw [if_neg c]; exact ⟨_, _, _, _, rfl, hr, hr1, a, b⟩

/-- A real vector is never sent on a multiple of itself when the eigenvalues are not real. -/
theorem turns (J : Jac) (p : Pair) (h : IsEig J p) (hc : p.l0.im ≠ 0) (v : ℝ × ℝ) (hv : v ≠ (0, 0)) : cross v (J.ap v) ≠ 0 := by
  -- the discriminant is negative
  have t := h.tr
  have d := h.det
  have s := im_sum h
  have re : p.l0.re + p.l1.re = J.xx + J.yy := by simpa using congrArg Complex.re t
  have dr : p.l0.re * p.l1.re - p.l0.im * p.l1.im = J.xx * J.yy - J.xy * J.yx := by simpa using congrArg Complex.re d
  have di : p.l0.re * p.l1.im + p.l0.im * p.l1.re = 0 := by simpa using congrArg Complex.im d
  have i1 : p.l1.im = -p.l0.im := by linarith
  have req : p.l1.re = p.l0.re := by
    rw [i1] at di
    have : p.l0.im * (p.l1.re - p.l0.re) = 0 := by linarith
    rcases mul_eq_zero.mp this with c | c
    · exact absurd c hc
    · linarith
  have disc : (J.xx - J.yy) ^ 2 + 4 * (J.xy * J.yx) < 0 := by
    have e : (J.xx - J.yy) ^ 2 + 4 * (J.xy * J.yx) = -4 * p.l0.im ^ 2 := by
      have a1 : J.xx + J.yy = 2 * p.l0.re := by linarith
      have a2 : J.xx * J.yy - J.xy * J.yx = p.l0.re ^ 2 + p.l0.im ^ 2 := by rw [← dr, i1, req]; ring
      have : (J.xx - J.yy) ^ 2 + 4 * (J.xy * J.yx) = (J.xx + J.yy) ^ 2 - 4 * (J.xx * J.yy - J.xy * J.yx) := by ring
      rw [this, a1, a2]; ring
    rw [e]
    have := sq_pos_of_ne_zero hc
    linarith
  intro z
  unfold cross Jac.ap at z
  simp only at z
  -- yx v1² + (yy - xx) v1 v2 - xy v2² = 0
  by_cases hx : J.yx = 0
  · rw [hx] at disc
    have := sq_nonneg (J.xx - J.yy)
    linarith
  · have k : (2 * J.yx * v.1 + (J.yy - J.xx) * v.2) ^ 2 = ((J.xx - J.yy) ^ 2 + 4 * (J.xy * J.yx)) * v.2 ^ 2 := by
      linear_combination 4 * J.yx * z
    have v2 : v.2 = 0 := by
      by_contra n
      have := mul_neg_of_neg_of_pos disc (sq_pos_of_ne_zero n)
      have := sq_nonneg (2 * J.yx * v.1 + (J.yy - J.xx) * v.2)
      linarith
    rw [v2] at k
    have : (2 * J.yx * v.1) ^ 2 = 0 := by linarith
    have w := pow_eq_zero_iff (n := 2) (by norm_num) |>.mp this
    have v1 : v.1 = 0 := by
      rcases mul_eq_zero.mp w with c | c
      · exact absurd (by linarith) hx
      · exact c
    exact hv (by ext <;> simp [v1, v2])

/-- The real part of an eigenvector for an eigenvalue that is not real is not null. -/
theorem re_ne (J : Jac) (p : Pair) (h : IsEig J p) (hc : p.l0.im ≠ 0) : (p.v0.1.re, p.v0.2.re) ≠ ((0, 0) : ℝ × ℝ) := by
  intro e
  have e1 : p.v0.1.re = 0 := congrArg Prod.fst e
  have e2 : p.v0.2.re = 0 := congrArg Prod.snd e
  obtain ⟨a1, -⟩ := parts _ _ _ _ _ _ h.e0.1
  obtain ⟨b1, -⟩ := parts _ _ _ _ _ _ h.e0.2
  rw [e1, e2] at a1 b1
  have i1 : p.v0.1.im = 0 := by
    have : p.l0.im * p.v0.1.im = 0 := by linarith
    exact (mul_eq_zero.mp this).resolve_left hc
  have i2 : p.v0.2.im = 0 := by
    have : p.l0.im * p.v0.2.im = 0 := by linarith
    exact (mul_eq_zero.mp this).resolve_left hc
  apply h.n0
  exact Prod.ext (Complex.ext e1 i1) (Complex.ext e2 i2)

/-- C332 fails at every node where the eigenvalues are not real, that is where the flow turns: the two vectors are the same one,
and it is an eigenvector for no number at all. -/
theorem C332_turning_violated (eig : Jac → Pair) (J : Jac) (h : IsEig J (eig J)) (hc : (eig J).l0.im ≠ 0) :
    ∃ (l : ℂ × ℂ) (e : ℝ × ℝ), eigen eig (some J) = some (l, e, e) ∧ e ≠ (0, 0) ∧ ∀ m : ℝ, ¬ EigVec J m e := by
  obtain ⟨c1, c2⟩ := h.conj hc
  have same : ((eig J).v1.1.re, (eig J).v1.2.re) = (((eig J).v0.1.re, (eig J).v0.2.re) : ℝ × ℝ) := by rw [c1, c2]
  have ne := re_ne J _ h hc
  have no : ∀ m : ℝ, ¬ EigVec J m ((eig J).v0.1.re, (eig J).v0.2.re) := by
    rintro m ⟨-, k⟩
    apply turns J _ h hc _ ne
    rw [k]
    unfold cross
    simp only
    ring
  unfold eigen sorted
  simp only [Option.map_some]
  by_cases b : Beyond (eig J).l0 (eig J).l1
  · rw [if_pos b, same]; exact ⟨_, _, rfl, ne, no⟩
  · rw [if_neg b, same]; exact ⟨_, _, rfl, ne, no⟩

/-- C332: the eigenvalues are rates, in the unit of the values over the unit of the lengths, but they are given without unit. -/
theorem C332_unit_violated (ux uv : Sym) (h : uv.div ux ≠ Sym.one) : eigenUnit ux uv ≠ uv.div ux := fun e => h e.symm

/-! ### C333: the field of Kenwright -/

theorem aligned (J : Jac) (l m : ℝ) (hlm : l ≠ m) (e f : ℝ × ℝ) (he : EigVec J l e) (hf : EigVec J m f) (v : ℝ × ℝ) :
    cross e v = 0 ↔ J.ap v = (l * v.1, l * v.2) := by
  obtain ⟨ne, ae⟩ := he
  obtain ⟨nf, af⟩ := hf
  have a1 := congrArg Prod.fst ae
  have a2 := congrArg Prod.snd ae
  have b1 := congrArg Prod.fst af
  have b2 := congrArg Prod.snd af
  simp only [Jac.ap] at a1 a2 b1 b2
  -- e and f are independent
  have ind : cross e f ≠ 0 := by
    intro z
    unfold cross at z
    have k1 : (l - m) * (e.1 * f.2) = (l - m) * (e.2 * f.1) := by rw [show e.1 * f.2 = e.2 * f.1 by linarith]
    by_cases hx : e.1 = 0
    · have ey : e.2 ≠ 0 := fun c => ne (by ext <;> simp [hx, c])
      have fx : f.1 = 0 := by
        rw [hx] at z
        have : e.2 * f.1 = 0 := by linarith
        exact (mul_eq_zero.mp this).resolve_left ey
      have fy : f.2 ≠ 0 := fun c => nf (by ext <;> simp [fx, c])
      rw [hx] at a2
      rw [fx] at b2
      have l1 : J.yy = l := mul_right_cancel₀ ey (by linarith)
      have l2 : J.yy = m := mul_right_cancel₀ fy (by linarith)
      exact hlm (l1.symm.trans l2)
    · -- f = c e
      have fc : ∃ c, f.1 = c * e.1 ∧ f.2 = c * e.2 := ⟨f.1 / e.1, by field_simp, by field_simp; linarith⟩
      obtain ⟨c, c1, c2⟩ := fc
      have cn : c ≠ 0 := fun z => nf (by ext <;> simp [c1, c2, z])
      rw [c1, c2] at b1
      have : (m - l) * (c * e.1) = 0 := by linear_combination c * a1 - b1
      rcases mul_eq_zero.mp this with z | z
      · exact hlm (by linarith)
      · rcases mul_eq_zero.mp z with z | z
        · exact cn z
        · exact hx z
  -- v = s e + t f
  obtain ⟨s, t, s1, s2⟩ : ∃ s t, v.1 = s * e.1 + t * f.1 ∧ v.2 = s * e.2 + t * f.2 := by
    unfold cross at ind
    refine ⟨(v.1 * f.2 - v.2 * f.1) / (e.1 * f.2 - e.2 * f.1), (e.1 * v.2 - e.2 * v.1) / (e.1 * f.2 - e.2 * f.1), ?_, ?_⟩
    · rw [div_mul_eq_mul_div, div_mul_eq_mul_div, ← add_div, eq_div_iff ind]; ring
    · rw [div_mul_eq_mul_div, div_mul_eq_mul_div, ← add_div, eq_div_iff ind]; ring
  have cv : cross e v = t * cross e f := by unfold cross; rw [s1, s2]; ring
  have ap1 : (J.ap v).1 = l * (s * e.1) + m * (t * f.1) := by
    unfold Jac.ap; simp only; rw [s1, s2]; linear_combination s * a1 + t * b1
  have ap2 : (J.ap v).2 = l * (s * e.2) + m * (t * f.2) := by
    unfold Jac.ap; simp only; rw [s1, s2]; linear_combination s * a2 + t * b2
  rw [cv]
  constructor
  · intro z
    have t0 := (mul_eq_zero.mp z).resolve_right ind
    ext
    · rw [ap1, s1, t0]; simp
    · rw [ap2, s2, t0]; simp
  · intro k
    have k1 : (J.ap v).1 = l * v.1 := congrArg Prod.fst k
    have k2 : (J.ap v).2 = l * v.2 := congrArg Prod.snd k
    rw [ap1, s1] at k1
    rw [ap2, s2] at k2
    have q1 : (m - l) * t * f.1 = 0 := by linear_combination k1
    have q2 : (m - l) * t * f.2 = 0 := by linear_combination k2
    by_contra n
    have tn : t ≠ 0 := fun z => n (by rw [z, zero_mul])
    have mn : (m - l) * t ≠ 0 := mul_ne_zero (fun z => hlm (by linarith)) tn
    exact nf (by ext <;> simp [(mul_eq_zero.mp q1).resolve_left mn, (mul_eq_zero.mp q2).resolve_left mn])

theorem combine (J : Jac) (l m : ℝ) (hlm : l ≠ m) (e f : ℝ × ℝ) (he : EigVec J l e) (hf : EigVec J m f) (v : ℝ × ℝ) :
    cross v (J.ap v) = 0 ↔ cross e v = 0 ∨ cross f v = 0 := by
  constructor
  · intro z
    rw [aligned J l m hlm e f he hf v, aligned J m l (Ne.symm hlm) f e hf he v]
    by_cases hv : v = (0, 0)
    · left; rw [hv]; simp [Jac.ap]
    · -- J v = c v for some c, an eigenvalue
      have ⟨c, hc⟩ : ∃ c, J.ap v = (c * v.1, c * v.2) := by
        unfold cross at z
        by_cases h1 : v.1 = 0
        · have h2 : v.2 ≠ 0 := fun c => hv (by ext <;> simp [h1, c])
          refine ⟨(J.ap v).2 / v.2, ?_⟩
          rw [h1] at z
          have : (J.ap v).1 = 0 := by
            have : v.2 * (J.ap v).1 = 0 := by linarith
            exact (mul_eq_zero.mp this).resolve_left h2
          ext
          · simp [this, h1]
          · simp only; field_simp
        · refine ⟨(J.ap v).1 / v.1, ?_⟩
          ext
          · simp only; field_simp
          · simp only; field_simp; linarith
      by_cases cl : c = l
      · left; rw [hc, cl]
      · -- c ≠ l : v is aligned with f, otherwise three eigenvalues
        by_cases cm : c = m
        · right; rw [hc, cm]
        · exfalso
          have x := (aligned J c l cl v e ⟨hv, hc⟩ he e)
          have y := (aligned J c m cm v f ⟨hv, hc⟩ hf f)
          -- the trace and the determinant: (c - l)(c - m) = 0
          have a1 := congrArg Prod.fst hc
          have a2 := congrArg Prod.snd hc
          obtain ⟨ne, ae⟩ := he
          obtain ⟨nf, af⟩ := hf
          have e1 := congrArg Prod.fst ae
          have e2 := congrArg Prod.snd ae
          have f1 := congrArg Prod.fst af
          have f2 := congrArg Prod.snd af
          simp only [Jac.ap] at a1 a2 e1 e2 f1 f2
          -- determinants vanish
          have det : ∀ (k : ℝ) (w : ℝ × ℝ), w ≠ (0, 0) → J.xx * w.1 + J.xy * w.2 = k * w.1 → J.yx * w.1 + J.yy * w.2 = k * w.2 →
              (J.xx - k) * (J.yy - k) - J.xy * J.yx = 0 := by
            intro k w hw h1 h2
            by_contra n
            apply hw
            have w1 : ((J.xx - k) * (J.yy - k) - J.xy * J.yx) * w.1 = 0 := by linear_combination (J.yy - k) * h1 - J.xy * h2
            have w2 : ((J.xx - k) * (J.yy - k) - J.xy * J.yx) * w.2 = 0 := by linear_combination (J.xx - k) * h2 - J.yx * h1
            ext
            · exact (mul_eq_zero.mp w1).resolve_left n
            · exact (mul_eq_zero.mp w2).resolve_left n
          have dc := det c v hv a1 a2
          have dl := det l e ne e1 e2
          have dm := det m f nf f1 f2
          have q1 : (c - l) * (c + l - (J.xx + J.yy)) = 0 := by linear_combination dc - dl
          have q2 : (m - l) * (m + l - (J.xx + J.yy)) = 0 := by linear_combination dm - dl
          have r1 := (mul_eq_zero.mp q1).resolve_left (fun z => cl (by linarith))
          have r2 := (mul_eq_zero.mp q2).resolve_left (fun z => hlm (by linarith))
          exact cm (by linarith)
  · rintro (z | z)
    · rw [aligned J l m hlm e f he hf v] at z
      rw [z]; unfold cross; simp only; ring
    · rw [aligned J m l (Ne.symm hlm) f e hf he v] at z
      rw [z]; unfold cross; simp only; ring

/-- C333: where the Jacobian matrix has two different real eigenvalues, the first value vanishes exactly where the velocity is an
eigenvector for the largest one, the second exactly where it is one for the other; so that one of them vanishes exactly where the
velocity is not turned by its own gradient. -/
theorem C333_lines_partial (eig : Jac → Pair) (J : Jac) (h : IsEig J (eig J)) (hr : (eig J).l0.im = 0) (hd : (eig J).l0 ≠ (eig J).l1)
    (v : ℝ × ℝ) :
    ∃ (l1 l2 : ℂ) (e1 e2 : ℝ × ℝ) (k1 k2 : ℝ), eigen eig (some J) = some ((l1, l2), e1, e2) ∧ kenwright eig (some J) v = some (k1, k2) ∧
      l2.re < l1.re ∧
      (k1 = 0 ↔ J.ap v = (l1.re * v.1, l1.re * v.2)) ∧ (k2 = 0 ↔ J.ap v = (l2.re * v.1, l2.re * v.2)) ∧
      ((k1 = 0 ∨ k2 = 0) ↔ cross v (J.ap v) = 0) := by
  obtain ⟨l1, l2, e1, e2, he, i1, i2, v1, v2⟩ := C332_vectors_partial eig J h hr
  obtain ⟨m1, m2, f1, f2, hm, -, -, ord⟩ := C332_values eig J h
  rw [he] at hm
  cases hm
  have ne : l1.re ≠ l2.re := by
    intro e
    have el : l1 = l2 := Complex.ext e (by rw [i1, i2])
    unfold eigen sorted at he
    simp only [Option.map_some, Option.some.injEq] at he
    by_cases b : Beyond (eig J).l0 (eig J).l1
    · rw [if_pos b] at he
      simp only [Prod.mk.injEq] at he
      exact hd (by rw [he.1.1, he.1.2, el])
    · rw [if_neg b] at he
      simp only [Prod.mk.injEq] at he
      exact hd (by rw [he.1.1, he.1.2, el])
  refine ⟨l1, l2, e1, e2, cross e1 v, cross e2 v, he, ?_, ?_, aligned J _ _ ne e1 e2 v1 v2 v, aligned J _ _ (Ne.symm ne) e2 e1 v2 v1 v,
    (combine J _ _ ne e1 e2 v1 v2 v).symm⟩
  · unfold kenwright; rw [he]; rfl
  · unfold Beyond at ord
    rw [not_or] at ord
    rcases lt_trichotomy l1.re l2.re with c | c | c
    · exact absurd c ord.1
    · exact absurd c ne
    · exact c

/-- C333 fails where the flow turns: no velocity but zero keeps its direction there, yet both values, that are the same, vanish
for some velocities that are not zero. -/
theorem C333_turning_violated (eig : Jac → Pair) (J : Jac) (h : IsEig J (eig J)) (hc : (eig J).l0.im ≠ 0) :
    (∀ v, ∃ k, kenwright eig (some J) v = some (k, k)) ∧ ∃ v : ℝ × ℝ, v ≠ (0, 0) ∧ kenwright eig (some J) v = some (0, 0) ∧ cross v (J.ap v) ≠ 0 := by
  obtain ⟨l, e, he, ne, -⟩ := C332_turning_violated eig J h hc
  refine ⟨fun v => ⟨cross e v, by unfold kenwright; rw [he]; rfl⟩, e, ne, ?_, turns J _ h hc e ne⟩
  unfold kenwright
  rw [he]
  have : cross e e = 0 := by unfold cross; ring
  simp [this]

/-- C333: masked where the gradients are. -/
theorem C333_masked (eig : Jac → Pair) (v : ℝ × ℝ) : kenwright eig none v = none := rfl

/-- A strain: the eigenvalues 2 and -1 along the axes. -/
example : IsEig ⟨2, 0, 0, -1⟩ ⟨2, -1, (1, 0), (0, 1)⟩ :=
  ⟨by simp, by simp, by simp, by simp, by push_cast; ring, by push_cast; ring, by simp, by simp⟩

/-- A rotation: the eigenvalues i and -i. -/
example : IsEig ⟨0, -1, 1, 0⟩ ⟨Complex.I, -Complex.I, (1, -Complex.I), (1, Complex.I)⟩ ∧ (Complex.I).im ≠ 0 :=
  ⟨⟨by simp, by simp, by simp, by simp, by simp, by simp, by simp, by simp⟩, by simp⟩

end IMT.Eigen
