import Verif.Treat.Model
import Verif.Scalar.Arith
import Verif.Vector.Arith

/-!
Properties C119 (gradients are difference quotients between neighbours), C120 (exactness on affine fields), C121 (gradients of
a vector field and divergence), C122 (`get_grad_field`).
-/

namespace IMT.Treat

/-! ### vocabulary -/

/-- `a` and `b` are the coordinates around `x` on the axis `l`: the previous and the next one, `x` itself standing for a
missing one. -/
def Around (l : List Rat) (x a b : Rat) : Prop :=
  ∃ i : Nat, l[i]? = some x ∧ l[i - 1]? = some a ∧ l[min (i + 1) (l.length - 1)]? = some b

/-- Evenly spaced: any two successive steps are equal. -/
def Even (l : List Rat) : Prop :=
  ∀ (i : Nat) (a b c : Rat), l[i]? = some a → l[i + 1]? = some b → l[i + 2]? = some c → b - a = c - b

/-- The slope between two readings `a` at `x0` and `b` at `x1`; masked if one of them is. -/
def slope (x0 x1 : Rat) (a b : Option Rat) : Option Rat :=
  match a, b with
  | some a, some b => some ((b - a) / (x1 - x0))
  | _, _ => none

/-! ### lemmas -/

theorem step_pos {l : List Rat} (h : Inc l) (h2 : 2 ≤ l.length) : 0 < step l := by
  unfold step
  have := (List.pairwise_iff_getElem.mp h) 0 1 (by omega) (by omega) (by omega)
  rw [List.getD_eq_getElem?_getD, List.getD_eq_getElem?_getD, List.getElem?_eq_getElem (by omega),
    List.getElem?_eq_getElem (by omega)]
  simp only [Option.getD_some]
  linarith

theorem even_step {l : List Rat} (h : Even l) (h2 : 2 ≤ l.length) :
    ∀ (i : Nat) (a b : Rat), l[i]? = some a → l[i + 1]? = some b → b - a = step l := by
  intro i
  induction i with
  | zero =>
    intro a b ha hb
    unfold step
    rw [List.getD_eq_getElem?_getD, List.getD_eq_getElem?_getD, ha, hb]
    rfl
  | succ k ih =>
    intro a b ha hb
    have hk : k < l.length := by have := getElem?_some_lt ha; omega
    have e := List.getElem?_eq_getElem hk
    rw [← h k _ a b e ha hb]
    exact ih _ _ e ha

theorem even_two {l : List Rat} (h : Even l) (h2 : 2 ≤ l.length) {i : Nat} {a b : Rat} (ha : l[i]? = some a)
    (hb : l[i + 2]? = some b) : b - a = 2 * step l := by
  have hi : i + 1 < l.length := by have := getElem?_some_lt hb; omega
  have e := List.getElem?_eq_getElem hi
  have h1 := even_step h h2 i _ _ ha e
  have h3 := even_step h h2 (i + 1) _ _ e hb
  linarith

/-- One line of the gradient is the slope between the points around. -/
theorem diff1_slope {l : List Rat} (he : Even l) (h2 : 2 ≤ l.length) {i : Nat} (hi : i < l.length) {a b : Rat}
    (ha : l[i - 1]? = some a) (hb : l[min (i + 1) (l.length - 1)]? = some b) (g : Nat → Option Rat) :
    diff1 l.length (step l) g i = slope a b (g (i - 1)) (g (min (i + 1) (l.length - 1))) := by
  unfold diff1
  by_cases h0 : i = 0
  · subst h0
    rw [if_pos rfl]
    have em : min (0 + 1) (l.length - 1) = 1 := by omega
    rw [em] at hb ⊢
    simp only [Nat.zero_sub] at ha ⊢
    rw [← even_step he h2 0 a b ha hb]
    cases g 0 <;> cases g 1 <;> rfl
  · rw [if_neg h0]
    by_cases h1 : i = l.length - 1
    · rw [if_pos h1]
      have em : min (i + 1) (l.length - 1) = l.length - 1 := by omega
      rw [em] at hb ⊢
      have e1 : i - 1 = l.length - 2 := by omega
      rw [e1] at ha ⊢
      have e2 : l.length - 2 + 1 = l.length - 1 := by omega
      rw [← even_step he h2 (l.length - 2) a b ha (e2 ▸ hb)]
      cases g (l.length - 2) <;> cases g (l.length - 1) <;> rfl
    · rw [if_neg h1]
      have em : min (i + 1) (l.length - 1) = i + 1 := by omega
      rw [em] at hb ⊢
      have e2 : i - 1 + 2 = i + 1 := by omega
      rw [← even_two he h2 ha (e2 ▸ hb)]
      cases g (i - 1) <;> cases g (i + 1) <;> rfl

/-- The returned gradient field shows the array it was built from, in the given unit. -/
theorem gradField_ok {ax ay : List Rat} (hx : Inc ax) (hy : Inc ay) (h2x : 2 ≤ ax.length) (h2y : 2 ≤ ay.length) {ux uy u : Sym}
    (d : Nat → Nat → Option Rat) (m : Nat → Nat → Bool) :
    ∃ g, gradField ax ay ux uy u d m = .ok g ∧ g.WF ∧ g.ax = ax ∧ g.ay = ay ∧ g.ux = ux ∧ g.uy = uy ∧ g.uv = SF.unitSym u ∧
      ∀ i j, g.cell i j = if m i j then none else (d i j).map (· * SF.unitNum u) := by
  obtain ⟨g, e, gx, gy, s1, s2, s3, s4, gv, gm, u1, u2, u3⟩ := SF.import_direct (ax := ax) (ay := ay)
    (v := ⟨ax.length, ay.length, fun i j => (d i j).map (· * SF.unitNum u)⟩) (m := .array ⟨ax.length, ay.length, m⟩)
    (ux := ux) (uy := uy) (uv := SF.unitSym u) rfl rfl h2x h2y ⟨rfl, rfl⟩
  simp only [SF.rev_false hx, SF.rev_false hy, Bool.false_eq_true, if_false] at gx gy gv
  have nx : ax ≠ [] := by intro h; rw [h] at h2x; simp at h2x
  have ny : ay ≠ [] := by intro h; rw [h] at h2y; simp at h2y
  refine ⟨g, e, ⟨gx ▸ hx, gy ▸ hy, gx ▸ nx, gy ▸ ny, by rw [s1, gx], by rw [s2, gy], by rw [s3, gx], by rw [s4, gy], ?_⟩,
    gx, gy, u1, u2, u3, ?_⟩
  · intro i j _ _ h
    rw [gv] at h
    rw [gm]
    dsimp only at h ⊢
    rw [h]; simp
  · intro i j
    unfold SF.cell
    rw [gm, gv]
    simp only [SF.MaskArg.get]
    by_cases hm : m i j = true
    · simp [hm]
    · simp only [hm, Bool.false_or, Bool.false_eq_true, if_false]
      by_cases hd : d i j = none
      · rw [hd]; rfl
      · rw [if_neg]
        simpa using hd

/-- Everything about the two gradients of a scalar field, cell by cell. -/
theorem gradients_cells {f : SF} (hf : f.WF) (h2x : 2 ≤ f.ax.length) (h2y : 2 ≤ f.ay.length) :
    ∃ gx gy, gradients f = .ok (gx, gy) ∧ gx.WF ∧ gy.WF ∧ gx.ax = f.ax ∧ gx.ay = f.ay ∧ gy.ax = f.ax ∧ gy.ay = f.ay ∧
      gx.ux = f.ux ∧ gx.uy = f.uy ∧ gy.ux = f.ux ∧ gy.uy = f.uy ∧
      gx.uv = SF.unitSym (f.uv.div f.ux) ∧ gy.uv = SF.unitSym (f.uv.div f.uy) ∧
      ∀ i j,
        gx.cell i j = (if (gradX f.ax f.cell i j).isNone || (gradY f.ay f.cell i j).isNone then none
          else (gradX f.ax f.cell i j).map (· * SF.unitNum (f.uv.div f.ux))) ∧
        gy.cell i j = (if (gradX f.ax f.cell i j).isNone || (gradY f.ay f.cell i j).isNone then none
          else (gradY f.ay f.cell i j).map (· * SF.unitNum (f.uv.div f.uy))) := by
  obtain ⟨gx, e1, w1, a1, a2, a3, a4, a5, a6⟩ := gradField_ok (ux := f.ux) (uy := f.uy) (u := f.uv.div f.ux) hf.incx hf.incy h2x h2y
    (gradX f.ax f.cell) (fun i j => (gradX f.ax f.cell i j).isNone || (gradY f.ay f.cell i j).isNone)
  obtain ⟨gy, e2, w2, b1, b2, b3, b4, b5, b6⟩ := gradField_ok (ux := f.ux) (uy := f.uy) (u := f.uv.div f.uy) hf.incx hf.incy h2x h2y
    (gradY f.ay f.cell) (fun i j => (gradX f.ax f.cell i j).isNone || (gradY f.ay f.cell i j).isNone)
  refine ⟨gx, gy, ?_, w1, w2, a1, a2, b1, b2, a3, a4, b3, b4, a5, b5, fun i j => ⟨a6 i j, b6 i j⟩⟩
  unfold gradients
  rw [if_neg (by omega), e1, e2]

theorem Around.idx {l : List Rat} (hl : Inc l) {x a b : Rat} (h : Around l x a b) {i : Nat} (hi : l[i]? = some x) :
    l[i - 1]? = some a ∧ l[min (i + 1) (l.length - 1)]? = some b := by
  obtain ⟨k, hk, h1, h2⟩ := h
  obtain rfl := hl.idx_inj' hk hi
  exact ⟨h1, h2⟩

theorem SF_cell_of {f : SF} (hf : f.WF) {x y : Rat} {r : Option Rat} (h : f.Reads x y r) {i j : Nat} (hi : f.ax[i]? = some x)
    (hj : f.ay[j]? = some y) : f.cell i j = r := by
  obtain ⟨i', j', h1, h2, h3⟩ := h
  obtain rfl := hf.incx.idx_inj' hi h1
  obtain rfl := hf.incy.idx_inj' hj h2
  exact h3

theorem unit_scale (u : Sym) (v : Rat) : v * SF.unitNum u * (SF.unitSym u).size = v * u.size := by
  rw [mul_assoc, SF.unit_size]

/-! ### C119 -/

/-- C119: on evenly spaced axes, the gradients of a scalar field are two fields on the same grid.  At every point `(x, y)` with
neighbours `x0, x1` along x and `y0, y1` along y (the point itself standing for a missing neighbour), if the four neighbours are
not masked, the first gradient shows `(f(x1, y) - f(x0, y)) / (x1 - x0)` and the second one `(f(x, y1) - f(x, y0)) / (y1 - y0)`,
as physical quantities; if one of the four is masked, both gradients are masked.
Partial: the axes are evenly spaced (see `C120_uneven_violated`). -/
theorem C119_gradients_partial {f : SF} (hf : f.WF) (h2x : 2 ≤ f.ax.length) (h2y : 2 ≤ f.ay.length) (ex : Even f.ax)
    (ey : Even f.ay) :
    ∃ gx gy, gradients f = .ok (gx, gy) ∧ gx.WF ∧ gy.WF ∧ gx.ax = f.ax ∧ gx.ay = f.ay ∧ gy.ax = f.ax ∧ gy.ay = f.ay ∧
      gx.ux = f.ux ∧ gx.uy = f.uy ∧ gy.ux = f.ux ∧ gy.uy = f.uy ∧
      gx.uv.Compat (f.uv.div f.ux) ∧ gy.uv.Compat (f.uv.div f.uy) ∧
      ∀ x y x0 x1 y0 y1, Around f.ax x x0 x1 → Around f.ay y y0 y1 →
        ∀ a b c d, f.Reads x0 y a → f.Reads x1 y b → f.Reads x y0 c → f.Reads x y1 d →
          match a, b, c, d with
          | some a, some b, some c, some d => ∃ p q, gx.Reads x y (some p) ∧ gy.Reads x y (some q) ∧
              p * gx.uv.size = (b - a) / (x1 - x0) * (f.uv.size / f.ux.size) ∧
              q * gy.uv.size = (d - c) / (y1 - y0) * (f.uv.size / f.uy.size)
          | _, _, _, _ => gx.Reads x y none ∧ gy.Reads x y none := by
  obtain ⟨gx, gy, e, w1, w2, a1, a2, b1, b2, u1, u2, u3, u4, v1, v2, hc⟩ := gradients_cells hf h2x h2y
  have compat : ∀ u : Sym, (SF.unitSym u).Compat u := by
    intro u
    unfold SF.unitSym
    by_cases h : u.Compat Sym.one
    · rw [if_pos h]; exact ⟨h.1.symm, h.2.1.symm, h.2.2.symm⟩
    · rw [if_neg h]; exact ⟨rfl, rfl, rfl⟩
  refine ⟨gx, gy, e, w1, w2, a1, a2, b1, b2, u1, u2, u3, u4, v1 ▸ compat _, v2 ▸ compat _, ?_⟩
  intro x y x0 x1 y0 y1 hx hy a b c d ra rb rc rd
  obtain ⟨i, hi, hi0, hi1⟩ := hx
  obtain ⟨j, hj, hj0, hj1⟩ := hy
  have li := getElem?_some_lt hi
  have lj := getElem?_some_lt hj
  obtain ⟨c1, c2⟩ := hc i j
  have gX : gradX f.ax f.cell i j = slope x0 x1 a b := by
    unfold gradX
    rw [diff1_slope ex h2x li hi0 hi1, SF_cell_of hf ra hi0 hj, SF_cell_of hf rb hi1 hj]
  have gY : gradY f.ay f.cell i j = slope y0 y1 c d := by
    unfold gradY
    rw [diff1_slope ey h2y lj hj0 hj1, SF_cell_of hf rc hi hj0, SF_cell_of hf rd hi hj1]
  rw [gX, gY] at c1 c2
  have hx' : gx.ax[i]? = some x := by rw [a1]; exact hi
  have hy' : gx.ay[j]? = some y := by rw [a2]; exact hj
  have hx'' : gy.ax[i]? = some x := by rw [b1]; exact hi
  have hy'' : gy.ay[j]? = some y := by rw [b2]; exact hj
  rcases a with _ | a <;> rcases b with _ | b <;> rcases c with _ | c <;> rcases d with _ | d <;>
    first
    | exact ⟨⟨i, j, hx', hy', by rw [c1]; rfl⟩, ⟨i, j, hx'', hy'', by rw [c2]; rfl⟩⟩
    | (refine ⟨_, _, ⟨i, j, hx', hy', c1⟩, ⟨i, j, hx'', hy'', c2⟩, ?_, ?_⟩
       · rw [v1]; exact unit_scale _ _
       · rw [v2]; exact unit_scale _ _)

/-- A 3×3 field in mm with one masked point; values in m. -/
def sample : SF :=
  { ax := [0, 2, 4], ay := [-1, 0, 1]
    val := ⟨3, 3, fun i j => if i = 0 ∧ j = 0 then none else some (3 * i + 5 * j)⟩
    mask := ⟨3, 3, fun i j => decide (i = 0 ∧ j = 0)⟩, ux := Sym.mm, uy := Sym.mm, uv := Sym.mm }

theorem even3 {a b c : Rat} (h : b - a = c - b) : Even [a, b, c] := by
  intro i p q r hp hq hr
  have : i = 0 := by have := getElem?_some_lt hr; simp at this; omega
  subst this
  simp at hp hq hr
  rw [← hp, ← hq, ← hr]; exact h

theorem sample_WF : sample.WF := by
  refine ⟨by decide +kernel, by decide +kernel, by decide, by decide, rfl, rfl, rfl, rfl, ?_⟩
  intro i j _ _ h
  by_cases hc : i = 0 ∧ j = 0
  · simp [sample, hc]
  · simp [sample, hc] at h

example : sample.WF ∧ Even sample.ax ∧ Even sample.ay :=
  ⟨sample_WF, even3 (by decide +kernel), even3 (by decide +kernel)⟩

example : (match gradients sample with
    | .ok (gx, gy) => ([gx.cell 0 0, gx.cell 1 1, gx.cell 2 2, gx.cell 0 1, gx.cell 1 0], [gy.cell 1 1, gy.cell 2 0])
    | .error _ => ([], [])) = (([none, some (3/2), some (3/2), none, none], [some 5, some 5]) : List (Option Rat) × List (Option Rat)) := by
  decide +kernel

/-! ### C120 -/

/-- The field shows the values of `x ↦ a x + b y + c` wherever it is not masked. -/
def Affine (f : SF) (a b c : Rat) : Prop := ∀ x y v, f.Reads x y (some v) → v = a * x + b * y + c

theorem around_exists {l : List Rat} (h2 : 2 ≤ l.length) {i : Nat} {x : Rat} (hi : l[i]? = some x) :
    ∃ a b, Around l x a b := by
  have li := getElem?_some_lt hi
  exact ⟨_, _, i, hi, List.getElem?_eq_getElem (show i - 1 < l.length by omega),
    List.getElem?_eq_getElem (show min (i + 1) (l.length - 1) < l.length by omega)⟩

theorem around_lt {l : List Rat} (hl : Inc l) (h2 : 2 ≤ l.length) {x a b : Rat} (h : Around l x a b) : a < b := by
  obtain ⟨i, hi, ha, hb⟩ := h
  have li := getElem?_some_lt hi
  have l1 := getElem?_some_lt ha
  have l2 := getElem?_some_lt hb
  rw [List.getElem?_eq_getElem l1] at ha
  rw [List.getElem?_eq_getElem l2] at hb
  rw [← Option.some.inj ha, ← Option.some.inj hb]
  exact (List.pairwise_iff_getElem.mp hl) _ _ l1 l2 (by omega)

theorem around_mem {l : List Rat} {x a b : Rat} (h : Around l x a b) : x ∈ l ∧ a ∈ l ∧ b ∈ l := by
  obtain ⟨i, hi, ha, hb⟩ := h
  exact ⟨List.mem_of_getElem? hi, List.mem_of_getElem? ha, List.mem_of_getElem? hb⟩

theorem reads_exists (f : SF) {x y : Rat} (hx : x ∈ f.ax) (hy : y ∈ f.ay) : ∃ r, f.Reads x y r := by
  obtain ⟨i, hi⟩ := List.getElem?_of_mem hx
  obtain ⟨j, hj⟩ := List.getElem?_of_mem hy
  exact ⟨_, i, j, hi, hj, rfl⟩

/-- C120: on evenly spaced axes the gradients of an affine field are exact wherever they are shown, borders included and
whatever the mask: the physical slopes of the field.
Partial: evenly spaced axes. -/
theorem C120_affine_partial {f : SF} (hf : f.WF) (h2x : 2 ≤ f.ax.length) (h2y : 2 ≤ f.ay.length) (ex : Even f.ax)
    (ey : Even f.ay) {a b c : Rat} (ha : Affine f a b c) :
    ∃ gx gy, gradients f = .ok (gx, gy) ∧
      (∀ x y v, gx.Reads x y (some v) → v * gx.uv.size = a * (f.uv.size / f.ux.size)) ∧
      (∀ x y v, gy.Reads x y (some v) → v * gy.uv.size = b * (f.uv.size / f.uy.size)) := by
  obtain ⟨gx, gy, e, w1, w2, a1, a2, b1, b2, _, _, _, _, _, _, key⟩ := C119_gradients_partial hf h2x h2y ex ey
  refine ⟨gx, gy, e, ?_, ?_⟩
  all_goals
    intro x y v hv
    have hxy : x ∈ f.ax ∧ y ∈ f.ay := by
      obtain ⟨i, j, hi, hj, _⟩ := hv
      first
      | (rw [a1] at hi; rw [a2] at hj; exact ⟨List.mem_of_getElem? hi, List.mem_of_getElem? hj⟩)
      | (rw [b1] at hi; rw [b2] at hj; exact ⟨List.mem_of_getElem? hi, List.mem_of_getElem? hj⟩)
    obtain ⟨i, hi⟩ := List.getElem?_of_mem hxy.1
    obtain ⟨j, hj⟩ := List.getElem?_of_mem hxy.2
    obtain ⟨x0, x1, hx⟩ := around_exists h2x hi
    obtain ⟨y0, y1, hy⟩ := around_exists h2y hj
    have lx := around_lt hf.incx h2x hx
    have ly := around_lt hf.incy h2y hy
    obtain ⟨p, hp⟩ := reads_exists f (around_mem hx).2.1 hxy.2
    obtain ⟨q, hq⟩ := reads_exists f (around_mem hx).2.2 hxy.2
    obtain ⟨r, hr⟩ := reads_exists f hxy.1 (around_mem hy).2.1
    obtain ⟨s, hs⟩ := reads_exists f hxy.1 (around_mem hy).2.2
    have := key x y x0 x1 y0 y1 hx hy p q r s hp hq hr hs
    rcases p with _ | p <;> rcases q with _ | q <;> rcases r with _ | r <;> rcases s with _ | s <;>
      first
      | exact absurd (hv.unique w1 this.1) (by simp)
      | exact absurd (hv.unique w2 this.2) (by simp)
      | skip
    obtain ⟨P, Q, h1, h2, h3, h4⟩ := this
    first
    | (have e1 := Option.some.inj (hv.unique w1 h1)
       rw [e1, h3, ha _ _ _ hp, ha _ _ _ hq]
       have : x1 - x0 ≠ 0 := by intro h; linarith
       field_simp
       ring)
    | (have e1 := Option.some.inj (hv.unique w2 h2)
       rw [e1, h4, ha _ _ _ hr, ha _ _ _ hs]
       have : y1 - y0 ≠ 0 := by intro h; linarith
       field_simp
       ring)

/-- C120: two masked neighbours never matter to a point that does not touch them: the gradient is shown exactly where its four
neighbours are not masked (stated for any field, evenly spaced or not). -/
theorem C120_shown {f : SF} (hf : f.WF) (h2x : 2 ≤ f.ax.length) (h2y : 2 ≤ f.ay.length) :
    ∃ gx gy, gradients f = .ok (gx, gy) ∧
      ∀ x y x0 x1 y0 y1, Around f.ax x x0 x1 → Around f.ay y y0 y1 →
        ((∃ v, gx.Reads x y (some v)) ↔ ¬ (f.Reads x0 y none ∨ f.Reads x1 y none ∨ f.Reads x y0 none ∨ f.Reads x y1 none)) ∧
        ((∃ v, gy.Reads x y (some v)) ↔ ¬ (f.Reads x0 y none ∨ f.Reads x1 y none ∨ f.Reads x y0 none ∨ f.Reads x y1 none)) := by
  obtain ⟨gx, gy, e, w1, w2, a1, a2, b1, b2, _, _, _, _, _, _, hc⟩ := gradients_cells hf h2x h2y
  refine ⟨gx, gy, e, ?_⟩
  intro x y x0 x1 y0 y1 hx hy
  obtain ⟨i, hi, hi0, hi1⟩ := hx
  obtain ⟨j, hj, hj0, hj1⟩ := hy
  have li := getElem?_some_lt hi
  have lj := getElem?_some_lt hj
  have line : ∀ (n : Nat) (h : Rat) (g : Nat → Option Rat) (k : Nat), 2 ≤ n → k < n →
      ((diff1 n h g k).isNone = true ↔ g (k - 1) = none ∨ g (min (k + 1) (n - 1)) = none) := by
    intro n h g k hn hk
    unfold diff1
    by_cases h0 : k = 0
    · subst h0
      rw [if_pos rfl, show min (0 + 1) (n - 1) = 1 by omega]
      cases g 0 <;> cases g 1 <;> simp [nanOp]
    · rw [if_neg h0]
      by_cases h1 : k = n - 1
      · rw [if_pos h1, show min (k + 1) (n - 1) = n - 1 by omega, show k - 1 = n - 2 by omega]
        cases g (n - 2) <;> cases g (n - 1) <;> simp [nanOp]
      · rw [if_neg h1, show min (k + 1) (n - 1) = k + 1 by omega]
        cases g (k - 1) <;> cases g (k + 1) <;> simp [nanOp]
  have r1 : f.Reads x0 y none ↔ f.cell (i - 1) j = none := ⟨fun h => SF_cell_of hf h hi0 hj, fun h => ⟨_, _, hi0, hj, h⟩⟩
  have r2 : f.Reads x1 y none ↔ f.cell (min (i + 1) (f.ax.length - 1)) j = none :=
    ⟨fun h => SF_cell_of hf h hi1 hj, fun h => ⟨_, _, hi1, hj, h⟩⟩
  have r3 : f.Reads x y0 none ↔ f.cell i (j - 1) = none := ⟨fun h => SF_cell_of hf h hi hj0, fun h => ⟨_, _, hi, hj0, h⟩⟩
  have r4 : f.Reads x y1 none ↔ f.cell i (min (j + 1) (f.ay.length - 1)) = none :=
    ⟨fun h => SF_cell_of hf h hi hj1, fun h => ⟨_, _, hi, hj1, h⟩⟩
  have lX := line f.ax.length (step f.ax) (fun k => f.cell k j) i h2x li
  have lY := line f.ay.length (step f.ay) (fun k => f.cell i k) j h2y lj
  rw [r1, r2, r3, r4]
  obtain ⟨c1, c2⟩ := hc i j
  have hm : ((gradX f.ax f.cell i j).isNone || (gradY f.ay f.cell i j).isNone) = true ↔
      (f.cell (i - 1) j = none ∨ f.cell (min (i + 1) (f.ax.length - 1)) j = none ∨ f.cell i (j - 1) = none ∨
        f.cell i (min (j + 1) (f.ay.length - 1)) = none) := by
    rw [Bool.or_eq_true]
    unfold gradX gradY
    rw [lX, lY, or_assoc]
  have shown : ∀ (g : SF), g.WF → g.ax = f.ax → g.ay = f.ay → ((∃ v, g.Reads x y (some v)) ↔ (g.cell i j).isSome = true) := by
    intro g wg p q
    constructor
    · rintro ⟨v, hv⟩
      rw [SF_cell_of wg hv (by rw [p]; exact hi) (by rw [q]; exact hj)]; rfl
    · intro h
      obtain ⟨v, hv⟩ := Option.isSome_iff_exists.mp h
      exact ⟨v, i, j, by rw [p]; exact hi, by rw [q]; exact hj, hv⟩
  rw [shown gx w1 a1 a2, shown gy w2 b1 b2, c1, c2, ← hm]
  cases gradX f.ax f.cell i j <;> cases gradY f.ay f.cell i j <;> simp

/-- C120 fails on every uneven axis: for a field without masked point that varies along x as `a x + b y + c` with `a ≠ 0`, if all
the x-gradients are exact, then the x axis is evenly spaced (the code uses the first step everywhere,
field_treatment.py:57-61). -/
theorem C120_uneven_violated {f : SF} (hf : f.WF) (h2x : 2 ≤ f.ax.length) (h2y : 2 ≤ f.ay.length) (pu : 0 < f.uv.size)
    (px : 0 < f.ux.size) {a b c : Rat} (ha : Affine f a b c) (h0 : a ≠ 0) (hm : ∀ x y, ¬ f.Reads x y none)
    (hne : ¬ Even f.ax) :
    ∃ gx gy, gradients f = .ok (gx, gy) ∧ ∃ x y v, gx.Reads x y (some v) ∧ v * gx.uv.size ≠ a * (f.uv.size / f.ux.size) := by
  obtain ⟨gx, gy, e, w1, w2, a1, a2, b1, b2, _, _, _, _, v1, _, hc⟩ := gradients_cells hf h2x h2y
  refine ⟨gx, gy, e, ?_⟩
  by_contra hcon
  push_neg at hcon
  have val : ∀ i j, i < f.ax.length → j < f.ay.length → ∃ x y, f.ax[i]? = some x ∧ f.ay[j]? = some y ∧
      f.cell i j = some (a * x + b * y + c) := by
    intro i j hi hj
    refine ⟨_, _, List.getElem?_eq_getElem hi, List.getElem?_eq_getElem hj, ?_⟩
    cases hcell : f.cell i j with
    | none => exact absurd ⟨i, j, List.getElem?_eq_getElem hi, List.getElem?_eq_getElem hj, hcell⟩ (hm _ _)
    | some v => rw [ha _ _ v ⟨i, j, List.getElem?_eq_getElem hi, List.getElem?_eq_getElem hj, hcell⟩]
  have hs := step_pos hf.incx h2x
  -- the interior points
  have inner : ∀ (i : Nat) (p q : Rat), f.ax[i]? = some p → f.ax[i + 2]? = some q → q - p = 2 * step f.ax := by
    intro i p q hp hq
    have l2 := getElem?_some_lt hq
    obtain ⟨x, y, hx, hy, _⟩ := val (i + 1) 0 (by omega) (by omega)
    obtain ⟨x', y', hx', hy', c1⟩ := val i 0 (by omega) (by omega)
    obtain ⟨x'', y'', hx'', hy'', c2⟩ := val (i + 2) 0 (by omega) (by omega)
    rw [hp] at hx'; cases hx'
    rw [hq] at hx''; cases hx''
    rw [hy] at hy' hy''; cases hy'; cases hy''
    have gX : gradX f.ax f.cell (i + 1) 0 = some ((a * q + b * y + c - (a * p + b * y + c)) / (2 * step f.ax)) := by
      unfold gradX diff1
      rw [if_neg (by omega), if_neg (by omega)]
      simp only [Nat.add_sub_cancel, c1, nanOp]
      rw [show i + 1 + 1 = i + 2 by omega, c2]
    have gY : (gradY f.ay f.cell (i + 1) 0).isNone = false := by
      obtain ⟨_, _, _, _, d1⟩ := val (i + 1) 0 (by omega) (by omega)
      obtain ⟨_, _, _, _, d2⟩ := val (i + 1) 1 (by omega) (by omega)
      unfold gradY diff1
      rw [if_pos rfl]
      dsimp only
      rw [d1, d2]; rfl
    obtain ⟨k1, _⟩ := hc (i + 1) 0
    rw [gX, gY] at k1
    have k2 := hcon x y _ ⟨i + 1, 0, by rw [a1]; exact hx, by rw [a2]; exact hy, k1⟩
    rw [v1] at k2
    have k3 := (unit_scale (f.uv.div f.ux) _).symm.trans k2
    have hu : (f.uv.div f.ux).size = f.uv.size / f.ux.size := rfl
    rw [hu] at k3
    have hpos : f.uv.size / f.ux.size ≠ 0 := ne_of_gt (div_pos pu px)
    have k4 := mul_right_cancel₀ hpos k3
    rw [div_eq_iff (by linarith)] at k4
    have : a * (q - p) = a * (2 * step f.ax) := by linarith
    exact mul_left_cancel₀ h0 this
  apply hne
  have steps : ∀ (i : Nat) (p q : Rat), f.ax[i]? = some p → f.ax[i + 1]? = some q → q - p = step f.ax := by
    intro i
    induction i with
    | zero =>
      intro p q hp hq
      unfold step
      rw [List.getD_eq_getElem?_getD, List.getD_eq_getElem?_getD, hp, hq]
      rfl
    | succ k ih =>
      intro p q hp hq
      have hk : k < f.ax.length := by have := getElem?_some_lt hp; omega
      have e0 := List.getElem?_eq_getElem hk
      have h1 := ih _ _ e0 hp
      have h2 := inner k _ q e0 hq
      linarith
  intro i p q r hp hq hr
  rw [steps i p q hp hq, steps (i + 1) q r hq hr]

/-- A field `2 x` on the uneven axis 0, 1, 3. -/
def uneven : SF :=
  { ax := [0, 1, 3], ay := [0, 1], val := ⟨3, 2, fun i _ => some (if i = 0 then 0 else if i = 1 then 2 else 6)⟩
    mask := ⟨3, 2, fun _ _ => false⟩, ux := Sym.one, uy := Sym.one, uv := Sym.one }

example : (match gradients uneven with
    | .ok (gx, _) => [gx.cell 0 0, gx.cell 1 0, gx.cell 2 0]
    | .error _ => []) = ([some 2, some 3, some 4] : List (Option Rat)) := by
  decide +kernel

example : ¬ Even [0, 1, 3] := by
  intro h
  exact absurd (h 0 0 1 3 rfl rfl rfl) (by decide +kernel)

/-! ### C121 -/

/-- Component array shown by a vector field. -/
theorem comp_cell {f : VF} (hf : f.WF) {i j : Nat} (hi : i < f.ax.length) (hj : j < f.ay.length) :
    compX f i j = (f.cell i j).map (·.1) ∧ compY f i j = (f.cell i j).map (·.2) := by
  unfold compX compY VF.cell
  by_cases h : f.mask.get i j = true
  · simp [h]
  · simp only [h, Bool.false_eq_true, if_false]
    cases hu : f.cx.get i j with
    | none => exact absurd (hf.nanx i j hi hj hu) h
    | some u => cases hv : f.cy.get i j with
      | none => exact absurd (hf.nany i j hi hj hv) h
      | some v => simp

theorem VF_cell_of {f : VF} (hf : f.WF) {x y : Rat} {r : Option (Rat × Rat)} (h : f.Reads x y r) {i j : Nat}
    (hi : f.ax[i]? = some x) (hj : f.ay[j]? = some y) : f.cell i j = r := by
  obtain ⟨i', j', h1, h2, h3⟩ := h
  obtain rfl := hf.incx.idx_inj' hi h1
  obtain rfl := hf.incy.idx_inj' hj h2
  exact h3

theorem unitSym_compat (u : Sym) : (SF.unitSym u).Compat u := by
  unfold SF.unitSym
  by_cases h : u.Compat Sym.one
  · rw [if_pos h]; exact ⟨h.1.symm, h.2.1.symm, h.2.2.symm⟩
  · rw [if_neg h]; exact ⟨rfl, rfl, rfl⟩

/-- `g` is a field on the grid of `f`, with its axis units. -/
def OnGrid (g : SF) (f : VF) : Prop := g.WF ∧ g.ax = f.ax ∧ g.ay = f.ay ∧ g.ux = f.ux ∧ g.uy = f.uy

theorem gradientsV_cells {f : VF} (hf : f.WF) (h2x : 2 ≤ f.ax.length) (h2y : 2 ≤ f.ay.length) :
    ∃ a b c d, gradientsV f = .ok (a, b, c, d) ∧ OnGrid a f ∧ OnGrid b f ∧ OnGrid c f ∧ OnGrid d f ∧
      a.uv = SF.unitSym (f.uv.div f.ux) ∧ b.uv = SF.unitSym (f.uv.div f.uy) ∧ c.uv = SF.unitSym (f.uv.div f.ux) ∧
      d.uv = SF.unitSym (f.uv.div f.uy) ∧
      ∀ i j,
        a.cell i j = (if gradMask f i j then none else (gradX f.ax (compX f) i j).map (· * SF.unitNum (f.uv.div f.ux))) ∧
        b.cell i j = (if gradMask f i j then none else (gradY f.ay (compX f) i j).map (· * SF.unitNum (f.uv.div f.uy))) ∧
        c.cell i j = (if gradMask f i j then none else (gradX f.ax (compY f) i j).map (· * SF.unitNum (f.uv.div f.ux))) ∧
        d.cell i j = (if gradMask f i j then none else (gradY f.ay (compY f) i j).map (· * SF.unitNum (f.uv.div f.uy))) := by
  obtain ⟨a, e1, w1, a1, a2, a3, a4, a5, a6⟩ := gradField_ok (ux := f.ux) (uy := f.uy) (u := f.uv.div f.ux) hf.incx hf.incy h2x h2y
    (gradX f.ax (compX f)) (gradMask f)
  obtain ⟨b, e2, w2, b1, b2, b3, b4, b5, b6⟩ := gradField_ok (ux := f.ux) (uy := f.uy) (u := f.uv.div f.uy) hf.incx hf.incy h2x h2y
    (gradY f.ay (compX f)) (gradMask f)
  obtain ⟨c, e3, w3, c1, c2, c3, c4, c5, c6⟩ := gradField_ok (ux := f.ux) (uy := f.uy) (u := f.uv.div f.ux) hf.incx hf.incy h2x h2y
    (gradX f.ax (compY f)) (gradMask f)
  obtain ⟨d, e4, w4, d1, d2, d3, d4, d5, d6⟩ := gradField_ok (ux := f.ux) (uy := f.uy) (u := f.uv.div f.uy) hf.incx hf.incy h2x h2y
    (gradY f.ay (compY f)) (gradMask f)
  refine ⟨a, b, c, d, ?_, ⟨w1, a1, a2, a3, a4⟩, ⟨w2, b1, b2, b3, b4⟩, ⟨w3, c1, c2, c3, c4⟩, ⟨w4, d1, d2, d3, d4⟩, a5, b5, c5, d5,
    fun i j => ⟨a6 i j, b6 i j, c6 i j, d6 i j⟩⟩
  unfold gradientsV
  rw [if_neg (by omega), e1, e2, e3, e4]

/-- C121: on evenly spaced axes `get_gradients` of a vector field returns (dVx/dx, dVx/dy, dVy/dx, dVy/dy), in this order: the
slopes of the two components between the neighbours of each point, as physical quantities; the four fields are masked
together, exactly where a neighbour is masked.
Partial: evenly spaced axes. -/
theorem C121_gradients_partial {f : VF} (hf : f.WF) (h2x : 2 ≤ f.ax.length) (h2y : 2 ≤ f.ay.length) (ex : Even f.ax)
    (ey : Even f.ay) :
    ∃ a b c d, gradientsV f = .ok (a, b, c, d) ∧ OnGrid a f ∧ OnGrid b f ∧ OnGrid c f ∧ OnGrid d f ∧
      a.uv.Compat (f.uv.div f.ux) ∧ b.uv.Compat (f.uv.div f.uy) ∧ c.uv.Compat (f.uv.div f.ux) ∧ d.uv.Compat (f.uv.div f.uy) ∧
      ∀ x y x0 x1 y0 y1, Around f.ax x x0 x1 → Around f.ay y y0 y1 →
        ∀ p q r s, f.Reads x0 y p → f.Reads x1 y q → f.Reads x y0 r → f.Reads x y1 s →
          match p, q, r, s with
          | some p, some q, some r, some s => ∃ A B C D,
              a.Reads x y (some A) ∧ b.Reads x y (some B) ∧ c.Reads x y (some C) ∧ d.Reads x y (some D) ∧
              A * a.uv.size = (q.1 - p.1) / (x1 - x0) * (f.uv.size / f.ux.size) ∧
              B * b.uv.size = (s.1 - r.1) / (y1 - y0) * (f.uv.size / f.uy.size) ∧
              C * c.uv.size = (q.2 - p.2) / (x1 - x0) * (f.uv.size / f.ux.size) ∧
              D * d.uv.size = (s.2 - r.2) / (y1 - y0) * (f.uv.size / f.uy.size)
          | _, _, _, _ => a.Reads x y none ∧ b.Reads x y none ∧ c.Reads x y none ∧ d.Reads x y none := by
  obtain ⟨a, b, c, d, e, ga, gb, gc, gd, v1, v2, v3, v4, hc⟩ := gradientsV_cells hf h2x h2y
  refine ⟨a, b, c, d, e, ga, gb, gc, gd, v1 ▸ unitSym_compat _, v2 ▸ unitSym_compat _, v3 ▸ unitSym_compat _,
    v4 ▸ unitSym_compat _, ?_⟩
  intro x y x0 x1 y0 y1 hx hy p q r s rp rq rr rs
  obtain ⟨i, hi, hi0, hi1⟩ := hx
  obtain ⟨j, hj, hj0, hj1⟩ := hy
  have li := getElem?_some_lt hi
  have lj := getElem?_some_lt hj
  have li0 := getElem?_some_lt hi0
  have li1 := getElem?_some_lt hi1
  have lj0 := getElem?_some_lt hj0
  have lj1 := getElem?_some_lt hj1
  have gX1 : gradX f.ax (compX f) i j = slope x0 x1 (p.map (·.1)) (q.map (·.1)) := by
    unfold gradX
    rw [diff1_slope ex h2x li hi0 hi1, (comp_cell hf li0 lj).1, (comp_cell hf li1 lj).1, VF_cell_of hf rp hi0 hj,
      VF_cell_of hf rq hi1 hj]
  have gX2 : gradX f.ax (compY f) i j = slope x0 x1 (p.map (·.2)) (q.map (·.2)) := by
    unfold gradX
    rw [diff1_slope ex h2x li hi0 hi1, (comp_cell hf li0 lj).2, (comp_cell hf li1 lj).2, VF_cell_of hf rp hi0 hj,
      VF_cell_of hf rq hi1 hj]
  have gY1 : gradY f.ay (compX f) i j = slope y0 y1 (r.map (·.1)) (s.map (·.1)) := by
    unfold gradY
    rw [diff1_slope ey h2y lj hj0 hj1, (comp_cell hf li lj0).1, (comp_cell hf li lj1).1, VF_cell_of hf rr hi hj0,
      VF_cell_of hf rs hi hj1]
  have gY2 : gradY f.ay (compY f) i j = slope y0 y1 (r.map (·.2)) (s.map (·.2)) := by
    unfold gradY
    rw [diff1_slope ey h2y lj hj0 hj1, (comp_cell hf li lj0).2, (comp_cell hf li lj1).2, VF_cell_of hf rr hi hj0,
      VF_cell_of hf rs hi hj1]
  obtain ⟨k1, k2, k3, k4⟩ := hc i j
  unfold gradMask at k1 k2 k3 k4
  rw [gX1, gX2, gY1, gY2] at k1 k2 k3 k4
  have on : ∀ {g : SF}, OnGrid g f → ∀ {v : Option Rat}, g.cell i j = v → g.Reads x y v := by
    intro g hg v hv
    exact ⟨i, j, by rw [hg.2.1]; exact hi, by rw [hg.2.2.1]; exact hj, hv⟩
  rcases p with _ | p <;> rcases q with _ | q <;> rcases r with _ | r <;> rcases s with _ | s <;>
    first
    | exact ⟨on ga (by rw [k1]; rfl), on gb (by rw [k2]; rfl), on gc (by rw [k3]; rfl), on gd (by rw [k4]; rfl)⟩
    | (refine ⟨_, _, _, _, on ga k1, on gb k2, on gc k3, on gd k4, ?_, ?_, ?_, ?_⟩
       · rw [v1]; exact unit_scale _ _
       · rw [v2]; exact unit_scale _ _
       · rw [v3]; exact unit_scale _ _
       · rw [v4]; exact unit_scale _ _)

/-- C121: the divergence of a field whose two axes have the same dimension is the physical sum of the slopes of Vx along x and
of Vy along y between the neighbours of each point; it is masked exactly where a neighbour is.
Partial: evenly spaced axes. -/
theorem C121_divergence_partial {f : VF} (hf : f.WF) (h2x : 2 ≤ f.ax.length) (h2y : 2 ≤ f.ay.length) (ex : Even f.ax)
    (ey : Even f.ay) (hu : f.ux.Compat f.uy) (pv : 0 < f.uv.size) (px : 0 < f.ux.size) :
    ∃ g, divergence f = .ok g ∧ OnGrid g f ∧ g.uv.Compat (f.uv.div f.ux) ∧
      ∀ x y x0 x1 y0 y1, Around f.ax x x0 x1 → Around f.ay y y0 y1 →
        ∀ p q r s, f.Reads x0 y p → f.Reads x1 y q → f.Reads x y0 r → f.Reads x y1 s →
          match p, q, r, s with
          | some p, some q, some r, some s => ∃ v, g.Reads x y (some v) ∧
              v * g.uv.size = (q.1 - p.1) / (x1 - x0) * (f.uv.size / f.ux.size) +
                (s.2 - r.2) / (y1 - y0) * (f.uv.size / f.uy.size)
          | _, _, _, _ => g.Reads x y none := by
  obtain ⟨a, b, c, d, e, ga, gb, gc, gd, v1, v2, v3, v4, key⟩ := C121_gradients_partial hf h2x h2y ex ey
  have hv : a.uv.Compat d.uv := by
    refine ⟨?_, ?_, ?_⟩
    · rw [v1.1, v4.1]; simp only [Sym.div]; rw [hu.1]
    · rw [v1.2.1, v4.2.1]; simp only [Sym.div]; rw [hu.2.1]
    · rw [v1.2.2, v4.2.2]; simp only [Sym.div]; rw [hu.2.2]
  obtain ⟨g, eg, wg, rg, ug1, ug2, ug3⟩ := SF.C16_add_pointwise ga.1 gd.1 (ga.2.1.trans gd.2.1.symm)
    (ga.2.2.1.trans gd.2.2.1.symm) hv (ga.2.2.2.1.trans gd.2.2.2.1.symm) (ga.2.2.2.2.trans gd.2.2.2.2.symm)
  have pa : 0 < a.uv.size := by
    obtain ⟨a', b', c', d', e', _, _, _, _, w1, _⟩ := gradientsV_cells hf h2x h2y
    rw [e] at e'; cases e'
    rw [w1]
    exact SF.unitSym_pos (div_pos pv px)
  have eax : g.ax = a.ax ∧ g.ay = a.ay := by
    unfold SF.add at eg
    by_cases h1 : SF.unitsMatch a d = false
    · rw [if_pos h1] at eg; cases eg
    · rw [if_neg h1, if_pos ⟨ga.2.1.trans gd.2.1.symm, ga.2.2.1.trans gd.2.2.1.symm⟩] at eg
      cases eg
      exact ⟨rfl, rfl⟩
  refine ⟨g, by unfold divergence; rw [e]; exact eg, ⟨wg, eax.1.trans ga.2.1, eax.2.trans ga.2.2.1, ug1.trans ga.2.2.2.1,
    ug2.trans ga.2.2.2.2⟩, by rw [ug3]; exact v1, ?_⟩
  intro x y x0 x1 y0 y1 hx hy p q r s rp rq rr rs
  have := key x y x0 x1 y0 y1 hx hy p q r s rp rq rr rs
  rcases p with _ | p <;> rcases q with _ | q <;> rcases r with _ | r <;> rcases s with _ | s <;>
    first
    | exact (rg x y none).mpr ⟨_, _, this.1, this.2.2.2, rfl⟩
    | skip
  obtain ⟨A, B, C, D, hA, _, _, hD, eA, _, _, eD⟩ := this
  refine ⟨_, (rg x y _).mpr ⟨_, _, hA, hD, rfl⟩, ?_⟩
  rw [ug3, ← eA, ← eD]
  field_simp

/-- C121: axes of different dimensions make the divergence fail, as it must. -/
theorem C121_divergence_refused {f : VF} (hf : f.WF) (h2x : 2 ≤ f.ax.length) (h2y : 2 ≤ f.ay.length)
    (hu : ¬ f.ux.Compat f.uy) : divergence f = .error .valueError := by
  obtain ⟨a, b, c, d, e, ga, gb, gc, gd, v1, v2, v3, v4, _⟩ := gradientsV_cells hf h2x h2y
  unfold divergence
  rw [e]
  apply SF.C16_add_refused
  rw [v1, v4]
  intro h
  apply hu
  have h1 := unitSym_compat (f.uv.div f.ux)
  have h2 := unitSym_compat (f.uv.div f.uy)
  have e1 : (f.uv.div f.ux).len = (f.uv.div f.uy).len := by rw [← h1.1, ← h2.1, h.1]
  have e2 : (f.uv.div f.ux).time = (f.uv.div f.uy).time := by rw [← h1.2.1, ← h2.2.1, h.2.1]
  have e3 : (f.uv.div f.ux).mass = (f.uv.div f.uy).mass := by rw [← h1.2.2, ← h2.2.2, h.2.2]
  simp only [Sym.div] at e1 e2 e3
  exact ⟨by omega, by omega, by omega⟩

/-- Velocities in m/s on axes in mm: `Vx = 3 x + y`, `Vy = x - 7 y` (numbers). -/
def sampleV : VF :=
  { ax := [0, 2, 4], ay := [-1, 0, 1]
    cx := ⟨3, 3, fun i j => some (3 * (2 * i) + (j - 1))⟩
    cy := ⟨3, 3, fun i j => some (2 * i - 7 * (j - 1))⟩
    mask := ⟨3, 3, fun _ _ => false⟩, ux := Sym.mm, uy := Sym.mm, uv := Sym.m.div Sym.s }

theorem sampleV_WF : sampleV.WF := by
  refine ⟨by decide +kernel, by decide +kernel, by decide, by decide, rfl, rfl, rfl, rfl, rfl, rfl, ?_, ?_⟩ <;>
    intro i j _ _ h <;> simp [sampleV] at h

example : (match gradientsV sampleV with
    | .ok (a, b, c, d) => [a.cell 0 0, b.cell 1 1, c.cell 2 2, d.cell 2 0]
    | .error _ => []) = ([some 3, some 1, some 1, some (-7)] : List (Option Rat)) := by
  decide +kernel

example : (match divergence sampleV with
    | .ok g => ([g.cell 0 0, g.cell 1 1, g.cell 1 2], g.uv.size)
    | .error _ => ([], 0)) = (([some (-4), some (-4), some (-4)], 1000) : List (Option Rat) × Rat) := by
  decide +kernel

/-! ### C122 -/

/-- C122, the numbers: `get_grad_field` shows at every point the numbers of the two gradients of the chosen component (Vx for
'x', Vy for 'y'), and is masked where they are.
Partial: the unit is wrong, see `C122_unit_violated`. -/
theorem C122_numbers_partial {f : VF} (hf : f.WF) (h2x : 2 ≤ f.ax.length) (h2y : 2 ≤ f.ay.length) (dir : Bool) :
    ∃ a b c d g, gradientsV f = .ok (a, b, c, d) ∧ gradFieldV f dir = .ok g ∧ g.WF ∧ g.ux = f.ux ∧ g.uy = f.uy ∧
      ∀ x y p q, g.Reads x y (some (p, q)) ↔
        (if dir then a else c).Reads x y (some p) ∧ (if dir then b else d).Reads x y (some q) := by
  obtain ⟨a, b, c, d, e, ga, gb, gc, gd, _⟩ := gradientsV_cells hf h2x h2y
  have main : ∀ s t : SF, OnGrid s f → OnGrid t f →
      ∃ g, VF.importArrays f.ax f.ay s.values t.values (.bool false) f.ux f.uy f.uv = .ok g ∧ g.WF ∧ g.ux = f.ux ∧ g.uy = f.uy ∧
        ∀ x y p q, g.Reads x y (some (p, q)) ↔ s.Reads x y (some p) ∧ t.Reads x y (some q) := by
    intro s t hs ht
    have s1 : s.val.nx = f.ax.length := by rw [hs.1.vx, hs.2.1]
    have s2 : s.val.ny = f.ay.length := by rw [hs.1.vy, hs.2.2.1]
    have t1 : t.val.nx = f.ax.length := by rw [ht.1.vx, ht.2.1]
    have t2 : t.val.ny = f.ay.length := by rw [ht.1.vy, ht.2.2.1]
    obtain ⟨g, eg, wg, rg, u1, u2, u3⟩ := VF.C111_import_reads_partial (ax := f.ax) (ay := f.ay) (cx := s.values) (cy := t.values)
      (m := .bool false) (ux := f.ux) (uy := f.uy) (uv := f.uv) s1 s2 t1 t2 h2x h2y s1 s2 (.inl hf.incx) (.inl hf.incy)
      (.inl ⟨hf.incx, hf.incy⟩)
    refine ⟨g, eg, wg, u1, u2, ?_⟩
    intro x y p q
    rw [rg]
    constructor
    · rintro ⟨i, j, hi, hj, h⟩
      simp only [VF.MaskArg.grid, Grid.const, SF.values] at h
      refine ⟨⟨i, j, by rw [hs.2.1]; exact hi, by rw [hs.2.2.1]; exact hj, ?_⟩,
        ⟨i, j, by rw [ht.2.1]; exact hi, by rw [ht.2.2.1]; exact hj, ?_⟩⟩ <;>
      · cases h1 : s.cell i j <;> cases h2 : t.cell i j <;> rw [h1, h2] at h <;> simp [VF.shown] at h ⊢
        simp [h]
    · rintro ⟨⟨i, j, hi, hj, h1⟩, h2⟩
      rw [hs.2.1] at hi
      rw [hs.2.2.1] at hj
      refine ⟨i, j, hi, hj, ?_⟩
      have h3 := SF_cell_of ht.1 h2 (by rw [ht.2.1]; exact hi) (by rw [ht.2.2.1]; exact hj)
      simp only [VF.MaskArg.grid, Grid.const, SF.values, h1, h3, VF.shown]
      rfl
  cases dir with
  | true =>
    obtain ⟨g, eg, w, u1, u2, r⟩ := main a b ga gb
    refine ⟨a, b, c, d, g, e, ?_, w, u1, u2, r⟩
    unfold gradFieldV; rw [e]; exact eg
  | false =>
    obtain ⟨g, eg, w, u1, u2, r⟩ := main c d gc gd
    refine ⟨a, b, c, d, g, e, ?_, w, u1, u2, r⟩
    unfold gradFieldV; rw [e]; exact eg

/-- C122 fails for every field whose x axis has a dimension: the gradient field carries the unit of the velocity itself, not
divided by the unit of the axis (field_treatment.py:579-582). -/
theorem C122_unit_violated {f : VF} (hf : f.WF) (h2x : 2 ≤ f.ax.length) (h2y : 2 ≤ f.ay.length) (dir : Bool)
    (hu : ¬ f.ux.Compat Sym.one) : ∃ g, gradFieldV f dir = .ok g ∧ g.uv = f.uv ∧ ¬ g.uv.Compat (f.uv.div f.ux) := by
  obtain ⟨a, b, c, d, g, e, eg, _⟩ := C122_numbers_partial hf h2x h2y dir
  have : g.uv = f.uv := by
    obtain ⟨a', b', c', d', e', ga, gb, gc, gd, _⟩ := gradientsV_cells hf h2x h2y
    unfold gradFieldV at eg
    rw [e'] at eg
    dsimp only at eg
    have imp : ∀ (s t : SF) (h : VF), VF.importArrays f.ax f.ay s.values t.values (.bool false) f.ux f.uy f.uv = .ok h → h.uv = f.uv := by
      intro s t h hh
      unfold VF.importArrays VF.store at hh
      repeat' split at hh
      all_goals first | cases hh; rfl | cases hh
    exact imp _ _ _ eg
  refine ⟨g, eg, this, ?_⟩
  rw [this]
  rintro ⟨h1, h2, h3⟩
  apply hu
  simp only [Sym.div] at h1 h2 h3
  exact ⟨by simp only [Sym.one]; omega, by simp only [Sym.one]; omega, by simp only [Sym.one]; omega⟩

example : (match gradFieldV sampleV false with
    | .ok g => ([g.cell 0 0, g.cell 1 1], g.uv)
    | .error _ => ([], Sym.one)) = (([some (1, -7), some (1, -7)], Sym.m.div Sym.s) : List (Option (Rat × Rat)) × Sym) := by
  decide +kernel

end IMT.Treat
