import Verif.Pbi.CellModel
import Mathlib.Analysis.Real.Sqrt

/-! C59: positions inside a cell. -/

namespace IMT.Pbi

set_option linter.unusedSectionVars false

variable {K : Type} [Field K] [LinearOrder K] [IsStrictOrderedRing K]

theorem solY_fin {rt : K → K} {c : Cell K} {dy : K} (hD : c.dd ≠ 0) (hdisc : 0 ≤ dy ^ 2 * c.disc) (plus : Bool) :
    solY rt c dy plus = .fin ((dy * c.num + (if plus then 1 else -1) * rt (dy ^ 2 * c.disc)) / (2 * c.dd)) := by
  have h2 : c.dd2 = 2 * c.dd := by unfold Cell.dd2 Cell.dd; ring
  have hD2 : 2 * c.dd ≠ 0 := mul_ne_zero two_ne_zero hD
  unfold solY
  cases plus <;> simp [Fl.div, Fl.sqrt, Fl.sub, Fl.add, Fl.neg, h2, hD, not_lt.mpr hdisc] <;> ring

theorem solX_fin {rt : K → K} {c : Cell K} {dx dy y : K} (hdy : dy ≠ 0) (hE : c.ee ≠ 0) {plus : Bool}
    (hy : solY rt c dy plus = .fin y) :
    solX rt c dx dy plus = .fin (-dx * (c.aa dy + y * c.dd) / (dy * c.ee)) := by
  unfold solX
  rw [hy]
  simp [Fl.div, Fl.mul, Fl.add, hdy, hE]

/-- A root of the quadratic equation in `y`, with the associated `x`, is a zero of the interpolated field. -/
theorem root_zero {c : Cell K} {dx dy y : K} (hdy : dy ≠ 0) (hE : c.ee ≠ 0)
    (hq : c.dd * y ^ 2 - dy * c.num * y + dy ^ 2 * (c.x1 * c.y2 - c.x2 * c.y1) = 0) :
    ZeroAt c dx dy (-dx * (c.aa dy + y * c.dd) / (dy * c.ee)) y := by
  obtain ⟨x, hx⟩ : ∃ x, x = -dx * (c.aa dy + y * c.dd) / (dy * c.ee) := ⟨_, rfl⟩
  rw [← hx]
  have hL : x * (dy * c.ee) + dx * (c.aa dy + y * c.dd) = 0 := by
    rw [hx]; field_simp; ring
  have key1 : c.ee * (c.x1 * (dx - x) * (dy - y) + c.x2 * x * (dy - y) + c.x3 * (dx - x) * y + c.x4 * x * y) = 0 := by
    unfold Cell.ee Cell.aa Cell.dd Cell.num at *
    have hd : dy ≠ 0 := hdy
    apply mul_left_cancel₀ hd
    linear_combination ((c.x2 - c.x1) * dy + (c.x1 - c.x2 - c.x3 + c.x4) * y) * hL -
      dx * (c.x1 - c.x2 - c.x3 + c.x4) * hq
  have key2 : c.ee * (c.y1 * (dx - x) * (dy - y) + c.y2 * x * (dy - y) + c.y3 * (dx - x) * y + c.y4 * x * y) = 0 := by
    unfold Cell.ee Cell.aa Cell.dd Cell.num at *
    have hd : dy ≠ 0 := hdy
    apply mul_left_cancel₀ hd
    linear_combination ((c.y2 - c.y1) * dy + (c.y1 - c.y2 - c.y3 + c.y4) * y) * hL -
      dx * (c.y1 - c.y2 - c.y3 + c.y4) * hq
  unfold ZeroAt bilin
  rw [(mul_eq_zero.mp key1).resolve_left hE, (mul_eq_zero.mp key2).resolve_left hE, zero_div]
  exact ⟨rfl, rfl⟩

theorem disc_eq (c : Cell K) : c.disc = c.num ^ 2 - 4 * c.dd * (c.x1 * c.y2 - c.x2 * c.y1) := by
  unfold Cell.disc Cell.num Cell.dd; ring

/-- A zero of the interpolated field satisfies the quadratic and the linear relations. -/
theorem zero_root {c : Cell K} {dx dy x y : K} (hdx : dx ≠ 0) (hdy : dy ≠ 0) (h : ZeroAt c dx dy x y) :
    c.dd * y ^ 2 - dy * c.num * y + dy ^ 2 * (c.x1 * c.y2 - c.x2 * c.y1) = 0 ∧
    x * (dy * c.ee) + dx * (c.aa dy + y * c.dd) = 0 := by
  obtain ⟨h1, h2⟩ := h
  have hne : dx * dy ≠ 0 := mul_ne_zero hdx hdy
  unfold bilin at h1 h2
  have f1 := (div_eq_zero_iff.mp h1).resolve_right hne
  have f2 := (div_eq_zero_iff.mp h2).resolve_right hne
  unfold Cell.ee Cell.aa Cell.dd Cell.num
  constructor
  · apply mul_left_cancel₀ hdx
    linear_combination ((c.y2 - c.y1) * dy + (c.y1 - c.y2 - c.y3 + c.y4) * y) * f1 -
      ((c.x2 - c.x1) * dy + (c.x1 - c.x2 - c.x3 + c.x4) * y) * f2
  · linear_combination (c.y1 - c.y2 - c.y3 + c.y4) * f1 - (c.x1 - c.x2 - c.x3 + c.x4) * f2

/-- The two closed formulas give exactly the zeros of the interpolated field. -/
theorem sols_spec {rt : K → K} {c : Cell K} {dx dy : K} (hdx : 0 < dx) (hdy : 0 < dy) (hD : c.dd ≠ 0) (hE : c.ee ≠ 0)
    (hdisc : 0 ≤ dy ^ 2 * c.disc) (hrt : rt (dy ^ 2 * c.disc) ^ 2 = dy ^ 2 * c.disc) (p : Fl K × Fl K) :
    p ∈ sols rt c dx dy ↔ ∃ x y, p = (.fin x, .fin y) ∧ ZeroAt c dx dy x y := by
  obtain ⟨s, hs⟩ : ∃ s, s = rt (dy ^ 2 * c.disc) := ⟨_, rfl⟩
  have hY := fun b => solY_fin (rt := rt) hD hdisc b
  have hX := fun b => solX_fin (rt := rt) (dx := dx) hdy.ne' hE (hY b)
  rw [← hs] at hrt hY hX
  have hss : s ^ 2 = dy ^ 2 * (c.num ^ 2 - 4 * c.dd * (c.x1 * c.y2 - c.x2 * c.y1)) := by rw [hrt, disc_eq]
  have hquad : ∀ b : Bool, c.dd * ((dy * c.num + (if b then 1 else -1) * s) / (2 * c.dd)) ^ 2 -
      dy * c.num * ((dy * c.num + (if b then 1 else -1) * s) / (2 * c.dd)) +
      dy ^ 2 * (c.x1 * c.y2 - c.x2 * c.y1) = 0 := by
    intro b
    have hb : ((if b then 1 else -1 : K)) ^ 2 = 1 := by cases b <;> norm_num
    field_simp
    linear_combination hss + s ^ 2 * hb
  constructor
  · intro hp
    have : ∃ b : Bool, p = (solX rt c dx dy b, solY rt c dy b) := by
      simp only [sols, List.mem_cons, List.not_mem_nil, or_false] at hp
      rcases hp with h | h
      · exact ⟨false, h⟩
      · exact ⟨true, h⟩
    obtain ⟨b, rfl⟩ := this
    exact ⟨_, _, by rw [hX, hY], root_zero hdy.ne' hE (hquad b)⟩
  · rintro ⟨x, y, rfl, hz⟩
    obtain ⟨hq, hl⟩ := zero_root hdx.ne' hdy.ne' hz
    have hx : x = -dx * (c.aa dy + y * c.dd) / (dy * c.ee) := by
      rw [eq_div_iff (mul_ne_zero hdy.ne' hE)]
      linear_combination hl
    have hf : (2 * c.dd * y - dy * c.num - s) * (2 * c.dd * y - dy * c.num + s) = 0 := by
      linear_combination 4 * c.dd * hq - hss
    have hD2 : 2 * c.dd ≠ 0 := mul_ne_zero two_ne_zero hD
    simp only [sols, List.mem_cons, List.not_mem_nil, or_false]
    rcases mul_eq_zero.mp hf with h | h
    · right
      have hy : y = (dy * c.num + (if true then 1 else -1) * s) / (2 * c.dd) := by
        rw [eq_div_iff hD2, if_pos rfl]; linear_combination h
      rw [hX, hY, hx, hy]
    · left
      have hy : y = (dy * c.num + (if false = true then 1 else -1) * s) / (2 * c.dd) := by
        rw [eq_div_iff hD2, if_neg (by decide)]; linear_combination h
      rw [hX, hY, hx, hy]

/-- The closed cell, in local coordinates. -/
def InCell (dx dy x y : K) : Prop := 0 ≤ x ∧ x ≤ dx ∧ 0 ≤ y ∧ y ≤ dy

theorem outside_fin {dx dy x y : K} : outside dx dy (.fin x, .fin y) = false ↔ InCell dx dy x y := by
  unfold outside InCell
  simp [Fl.lt, and_assoc]

/-- C59 (exactness): in a regular cell (no corner with `vx + vy = 0`, no null component, and `dd`, `ee` non-zero, that
is, the interpolated field is not degenerate) where the interpolated field has exactly one zero, that zero is the
returned position.  Missing: the other cells, see the `_violated` theorems. -/
theorem C59_unique_zero_partial {rt : K → K} {c : Cell K} {x0 x1 y0 y1 dx dy : K} {pos : K × K}
    (hrt : 0 ≤ dy ^ 2 * c.disc → rt (dy ^ 2 * c.disc) ^ 2 = dy ^ 2 * c.disc) (hdx : 0 < dx) (hdy : 0 < dy)
    (hs : sumZero c = []) (hn : ¬ anyZero c) (hD : c.dd ≠ 0) (hE : c.ee ≠ 0) {x y : K} (hin : InCell dx dy x y) (hz : ZeroAt c dx dy x y)
    (huniq : ∀ x' y', InCell dx dy x' y' → ZeroAt c dx dy x' y' → x' = x ∧ y' = y) :
    inCell rt c x0 x1 y0 y1 dx dy pos = .ok (some (x + x0, y + y0)) := by
  have hdisc : 0 ≤ dy ^ 2 * c.disc := by
    obtain ⟨hq, -⟩ := zero_root hdx.ne' hdy.ne' hz
    have : dy ^ 2 * c.disc = (2 * c.dd * y - dy * c.num) ^ 2 := by
      rw [disc_eq]; linear_combination (-4 * c.dd) * hq
    rw [this]; positivity
  have hspec := sols_spec hdx hdy hD hE hdisc (hrt hdisc)
  have hmem : (Fl.fin x, Fl.fin y) ∈ kept rt c dx dy := by
    unfold kept
    rw [List.mem_filter]
    exact ⟨(hspec _).mpr ⟨x, y, rfl, hz⟩, by rw [outside_fin.mpr hin]; rfl⟩
  have hall : ∀ p ∈ kept rt c dx dy, p = (Fl.fin x, Fl.fin y) := by
    intro p hp
    obtain ⟨hp1, hp2⟩ := List.mem_filter.mp hp
    obtain ⟨x', y', rfl, hz'⟩ := (hspec _).mp hp1
    obtain ⟨rfl, rfl⟩ := huniq x' y' (outside_fin.mp (by simpa using hp2)) hz'
    rfl
  have hloc : local? rt c dx dy = .ok (some (.fin x, .fin y)) := by
    unfold local?
    rcases hk : kept rt c dx dy with _ | ⟨p, _ | ⟨q, l⟩⟩
    · rw [hk] at hmem; simp at hmem
    · have := hall p (by rw [hk]; simp)
      rw [this]
    · have hfil : (p :: q :: l).filter (fun p => !hasNan p) = p :: q :: l := by
        rw [List.filter_eq_self]
        intro a ha
        rw [hall a (by rw [hk]; exact ha)]
        rfl
      have hp := hall p (by rw [hk]; simp)
      simp only [several]
      rw [hfil]
      simp only
      rw [if_pos]
      · rw [hp]
      · rw [List.all_eq_true]
        intro a ha
        rw [hall a (by rw [hk]; exact List.mem_cons_of_mem _ ha), hp]
        simp
  unfold inCell
  rw [hs]
  simp only
  rw [if_neg hn, hloc]
  rfl

/-- A number that is finite and in `[0, b]`, or NaN. -/
def NanOrIn (b : K) : Fl K → Prop
  | .fin a => 0 ≤ a ∧ a ≤ b
  | .nan => True
  | _ => False

theorem nanOrIn_of {b : K} {a : Fl K} (h1 : Fl.lt a (.fin 0) = false) (h2 : Fl.lt (.fin b) a = false) :
    NanOrIn b a := by
  cases a <;> simp [Fl.lt, NanOrIn] at h1 h2 ⊢
  exact ⟨h1, h2⟩

theorem kept_in {rt : K → K} {c : Cell K} {dx dy : K} {p : Fl K × Fl K} (hp : p ∈ kept rt c dx dy) :
    NanOrIn dx p.1 ∧ NanOrIn dy p.2 := by
  obtain ⟨-, h⟩ := List.mem_filter.mp hp
  unfold outside at h
  simp only [Bool.not_eq_true', Bool.or_eq_false_iff] at h
  exact ⟨nanOrIn_of h.1.1.1 h.1.1.2, nanOrIn_of h.1.2 h.2⟩

theorem kept_length (rt : K → K) (c : Cell K) (dx dy : K) : (kept rt c dx dy).length ≤ 2 :=
  List.length_filter_le _ _

theorem finite_in {dx dy : K} {p : Fl K × Fl K} (h1 : NanOrIn dx p.1) (h2 : NanOrIn dy p.2) {q : K × K}
    (h : finite p = some q) : InCell dx dy q.1 q.2 := by
  obtain ⟨a, b⟩ := p
  cases a <;> cases b <;> simp [finite, NanOrIn] at h h1 h2
  subst h
  exact ⟨h1.1, h1.2, h2.1, h2.2⟩

theorem place_in {x0 y0 dx dy : K} {p : Fl K × Fl K} (h1 : NanOrIn dx p.1) (h2 : NanOrIn dy p.2) {r : K × K}
    (h : place x0 y0 p = some r) : InCell dx dy (r.1 - x0) (r.2 - y0) := by
  unfold place at h
  rcases hf : finite p with _ | q
  · rw [hf] at h; simp at h
  · rw [hf] at h
    simp only [Option.map_some, Option.some.injEq] at h
    subst h
    simpa using finite_in h1 h2 hf

theorem local_in {rt : K → K} {c : Cell K} {dx dy : K} {p : Fl K × Fl K} (h : local? rt c dx dy = .ok (some p)) :
    NanOrIn dx p.1 ∧ NanOrIn dy p.2 := by
  unfold local? at h
  rcases hk : kept rt c dx dy with _ | ⟨a, _ | ⟨b, l⟩⟩
  · rw [hk] at h; cases h
  · rw [hk] at h
    cases h
    exact kept_in (rt := rt) (c := c) (by rw [hk]; simp)
  · rw [hk] at h
    have hl : l = [] := by
      have := kept_length rt c dx dy
      rw [hk] at this
      simpa using this
    subst hl
    simp only [several] at h
    have hin : ∀ q ∈ [a, b].filter (fun p => !hasNan p), NanOrIn dx q.1 ∧ NanOrIn dy q.2 ∧ hasNan q = false := by
      intro q hq
      obtain ⟨hq1, hq2⟩ := List.mem_filter.mp hq
      obtain ⟨h1, h2⟩ := kept_in (rt := rt) (c := c) (dx := dx) (dy := dy) (by rw [hk]; exact hq1)
      exact ⟨h1, h2, by simpa using hq2⟩
    have hlen : ([a, b].filter fun p => !hasNan p).length ≤ 2 := List.length_filter_le _ _
    rcases hf : [a, b].filter (fun p => !hasNan p) with _ | ⟨u, _ | ⟨v, w⟩⟩
    · rw [hf] at h; cases h
    · rw [hf] at h hin
      simp at h
      subst h
      exact ⟨(hin u (by simp)).1, (hin u (by simp)).2.1⟩
    · rw [hf] at h hin hlen
      have hw : w = [] := by simpa using hlen
      subst hw
      obtain ⟨u1, u2, u3⟩ := hin u (by simp)
      obtain ⟨v1, v2, v3⟩ := hin v (by simp)
      simp only at h
      by_cases he : ([v].all fun q => decide (q = u)) = true
      · rw [if_pos he] at h; cases h; exact ⟨u1, u2⟩
      · rw [if_neg he] at h
        simp only [Except.ok.injEq, Option.some.injEq] at h
        subst h
        obtain ⟨ua, ub⟩ := u
        obtain ⟨va, vb⟩ := v
        cases ua <;> cases ub <;> simp [NanOrIn, hasNan, Fl.isNan] at u1 u2 u3
        cases va <;> cases vb <;> simp [NanOrIn, hasNan, Fl.isNan] at v1 v2 v3
        simp [Fl.add, Fl.div, NanOrIn]
        refine ⟨⟨?_, ?_⟩, ?_, ?_⟩
        · rw [le_div_iff₀ (by norm_num)]; linarith
        · rw [div_le_iff₀ (by norm_num)]; linarith
        · rw [le_div_iff₀ (by norm_num)]; linarith
        · rw [div_le_iff₀ (by norm_num)]; linarith

/-- C59 (containment): whatever the cell, a position that is returned lies in the closed cell. -/
theorem C59_in_cell {rt : K → K} {c : Cell K} {x0 y0 dx dy : K} (hdx : 0 < dx) (hdy : 0 < dy) {p : K × K}
    (h : inCell rt c x0 (x0 + dx) y0 (y0 + dy) dx dy (x0 + dx / 2, y0 + dy / 2) = .ok (some p)) :
    x0 ≤ p.1 ∧ p.1 ≤ x0 + dx ∧ y0 ≤ p.2 ∧ p.2 ≤ y0 + dy := by
  have hc : x0 ≤ x0 + dx / 2 ∧ x0 + dx / 2 ≤ x0 + dx ∧ y0 ≤ y0 + dy / 2 ∧ y0 + dy / 2 ≤ y0 + dy := by
    refine ⟨by linarith, by linarith, by linarith, by linarith⟩
  unfold inCell at h
  rcases hs : sumZero c with _ | ⟨⟨i, j⟩, _ | ⟨b, l⟩⟩
  · rw [hs] at h
    simp only at h
    by_cases hn : anyZero c
    · rw [if_pos hn] at h; cases h
    · rw [if_neg hn] at h
      rcases hl : local? rt c dx dy with e | _ | q
      · rw [hl] at h; cases h
      · rw [hl] at h; cases h; exact hc
      · rw [hl] at h
        simp only [Except.ok.injEq] at h
        obtain ⟨h1, h2⟩ := local_in hl
        obtain ⟨r1, r2, r3, r4⟩ := place_in h1 h2 h
        refine ⟨by linarith, by linarith, by linarith, by linarith⟩
  · rw [hs] at h
    cases h
    simp only
    refine ⟨?_, ?_, ?_, ?_⟩ <;> split <;> linarith
  · rw [hs] at h
    cases h
    exact hc

/-- C59 fails for degenerate cells: when `dd` is zero, in particular whenever the velocity is an affine function
of the position over the cell, no position is ever computed from the formulas: the cell is dropped (or `IndexError` is
raised). -/
theorem C59_affine_violated {rt : K → K} {c : Cell K} {x0 x1 y0 y1 dx dy : K} {pos : K × K}
    (hrt : ∀ a, 0 < a → 0 < rt a) (hdy : 0 < dy) (hs : sumZero c = []) (hD : c.dd = 0) :
    inCell rt c x0 x1 y0 y1 dx dy pos = .ok none ∨
    inCell rt c x0 x1 y0 y1 dx dy pos = .error .indexError := by
  unfold inCell
  rw [hs]
  simp only
  by_cases hn : anyZero c
  · rw [if_pos hn]; exact .inl rfl
  rw [if_neg hn]
  have h2 : c.dd2 = 0 := by
    have : c.dd2 = 2 * c.dd := by unfold Cell.dd2 Cell.dd; ring
    rw [this, hD, mul_zero]
  have hdq : c.disc = c.num ^ 2 := by rw [disc_eq, hD]; ring
  have hdisc : 0 ≤ dy ^ 2 * c.disc := by rw [hdq]; positivity
  rcases lt_trichotomy c.num 0 with hnum | hnum | hnum
  · left
    have hdn : dy * c.num < 0 := mul_neg_of_pos_of_neg hdy hnum
    have hr : 0 < rt (dy ^ 2 * c.disc) := hrt _ (by rw [hdq]; have := sq_pos_of_neg hnum; positivity)
    have y0' : solY rt c dy false = .ninf := by
      unfold solY
      simp [Fl.div, hD, h2, Fl.sqrt, not_lt.mpr hdisc, Fl.scaleInf, hdn.ne, not_lt.mpr hdn.le, hr.ne', hr, Fl.neg,
        Fl.sub, Fl.add]
    have y1' : solY rt c dy true = .nan := by
      unfold solY
      simp [Fl.div, hD, h2, Fl.sqrt, not_lt.mpr hdisc, Fl.scaleInf, hdn.ne, not_lt.mpr hdn.le, hr.ne', hr, Fl.neg,
        Fl.add]
    have x1' : solX rt c dx dy true = .nan := by unfold solX; rw [y1']; simp [Fl.mul, Fl.add, Fl.div]
    have x0' : solX rt c dx dy false = .nan := by
      unfold solX; rw [y0', hD]; simp [Fl.mul, Fl.add, Fl.div, Fl.scaleInf]
    have hk : kept rt c dx dy = [(.nan, .nan)] := by
      unfold kept sols
      rw [y0', y1', x0', x1']
      simp [outside, Fl.lt]
    unfold local?
    rw [hk]
    rfl
  · right
    have y' : ∀ b, solY rt c dy b = .nan := by
      intro b
      unfold solY
      cases b <;> simp [Fl.div, hD, hnum, Fl.scaleInf, Fl.sub, Fl.add]
    have x' : ∀ b, solX rt c dx dy b = .nan := by
      intro b; unfold solX; rw [y']; simp [Fl.mul, Fl.add, Fl.div]
    have hk : kept rt c dx dy = [(.nan, .nan), (.nan, .nan)] := by
      unfold kept sols
      rw [y', y', x', x']
      simp [outside, Fl.lt]
    unfold local?
    rw [hk]
    rfl
  · left
    have hdn : 0 < dy * c.num := mul_pos hdy hnum
    have hr : 0 < rt (dy ^ 2 * c.disc) := hrt _ (by rw [hdq]; have := sq_pos_of_pos hnum; positivity)
    have y1' : solY rt c dy true = .pinf := by
      unfold solY
      simp [Fl.div, hD, h2, Fl.sqrt, not_lt.mpr hdisc, Fl.scaleInf, hdn, hr.ne', hr, Fl.add, hdy.ne', hnum.ne']
    have y0' : solY rt c dy false = .nan := by
      unfold solY
      simp [Fl.div, hD, h2, Fl.sqrt, not_lt.mpr hdisc, Fl.scaleInf, hdn, hr.ne', hr, Fl.neg, Fl.sub, Fl.add, hdy.ne',
        hnum.ne']
    have x0' : solX rt c dx dy false = .nan := by unfold solX; rw [y0']; simp [Fl.mul, Fl.add, Fl.div]
    have x1' : solX rt c dx dy true = .nan := by
      unfold solX; rw [y1', hD]; simp [Fl.mul, Fl.add, Fl.div, Fl.scaleInf]
    have hk : kept rt c dx dy = [(.nan, .nan)] := by
      unfold kept sols
      rw [y0', y1', x0', x1']
      simp [outside, Fl.lt]
    unfold local?
    rw [hk]
    rfl

end IMT.Pbi
