import Verif.Probe.Corner
import Verif.Quant.Props

/-! C276: reading a value commutes with the transformations of a field. -/

namespace IMT.Probe

open SF (factor)

/-- Every field showing the values of another one, moved and multiplied: the lemma behind the theorems below. -/
theorem whole (main : Bool) {f g : SF} (hf : f.WF) (hg : g.WF) {kx cx ky cy q : Rat} (hkx : 0 < kx) (hky : 0 < ky)
    (hr : ∀ x' y' r', g.Reads x' y' r' ↔ ∃ x y r, f.Reads x y r ∧ x' = kx * x + cx ∧ y' = ky * y + cy ∧ r' = r.map (· * q)) (x y : Rat) :
    g.getValue main (kx * x + cx) (ky * y + cy) = (f.getValue main x y).map (Option.map (· * q)) := by
  have mx : ∀ z, z ∈ f.ax → kx * z + cx ∈ g.ax := by
    intro z hz
    obtain ⟨y, r, h⟩ := (mem_ax hf).1 hz
    exact (mem_ax hg).2 ⟨_, _, (hr _ _ _).2 ⟨z, y, r, h, rfl, rfl, rfl⟩⟩
  have my : ∀ z, z ∈ f.ay → ky * z + cy ∈ g.ay := by
    intro z hz
    obtain ⟨y, r, h⟩ := (mem_ay hf).1 hz
    exact (mem_ay hg).2 ⟨_, _, (hr _ _ _).2 ⟨y, z, r, h, rfl, rfl, rfl⟩⟩
  have nx : ∀ z ∈ g.ax, ∃ z' ∈ f.ax, z = kx * z' + cx := by
    intro z hz
    obtain ⟨y, r, h⟩ := (mem_ax hg).1 hz
    obtain ⟨x', y', r', h', e, -, -⟩ := (hr _ _ _).1 h
    exact ⟨x', (mem_ax hf).2 ⟨_, _, h'⟩, e⟩
  have ny : ∀ z ∈ g.ay, ∃ z' ∈ f.ay, z = ky * z' + cy := by
    intro z hz
    obtain ⟨y, r, h⟩ := (mem_ay hg).1 hz
    obtain ⟨x', y', r', h', -, e, -⟩ := (hr _ _ _).1 h
    exact ⟨y', (mem_ay hf).2 ⟨_, _, h'⟩, e⟩
  have lex : ∀ {a b : Rat}, kx * a + cx ≤ kx * b + cx ↔ a ≤ b := by
    intro a b
    rw [add_le_add_iff_right, mul_le_mul_iff_right₀ hkx]
  have ley : ∀ {a b : Rat}, ky * a + cy ≤ ky * b + cy ↔ a ≤ b := by
    intro a b
    rw [add_le_add_iff_right, mul_le_mul_iff_right₀ hky]
  by_cases h : ((∃ p ∈ g.ax, p ≤ kx * x + cx) ∧ ∃ p ∈ g.ax, kx * x + cx ≤ p) ∧ (∃ p ∈ g.ay, p ≤ ky * y + cy) ∧ ∃ p ∈ g.ay, ky * y + cy ≤ p
  · exact transport main hf hg hkx hky (fun x y r h _ _ => (hr _ _ _).2 ⟨x, y, r, h, rfl, rfl, rfl⟩) nx (fun z hz _ _ => mx z hz) ny (fun z hz _ _ => my z hz) h.1 h.2
  · have o : (∀ a ∈ g.ax, kx * x + cx < a) ∨ (∀ a ∈ g.ax, a < kx * x + cx) ∨ (∀ b ∈ g.ay, ky * y + cy < b) ∨ (∀ b ∈ g.ay, b < ky * y + cy) := by
      by_contra hc
      simp only [not_or, not_forall, not_lt, exists_prop] at hc
      exact h ⟨⟨hc.1, hc.2.1⟩, hc.2.2⟩
    have o' : (∀ a ∈ f.ax, x < a) ∨ (∀ a ∈ f.ax, a < x) ∨ (∀ b ∈ f.ay, y < b) ∨ (∀ b ∈ f.ay, b < y) := by
      rcases o with o | o | o | o
      · exact .inl fun a ha => by have := o _ (mx a ha); by_contra hc; exact absurd (lex.2 (not_lt.1 hc)) (not_le.2 this)
      · exact .inr (.inl fun a ha => by have := o _ (mx a ha); by_contra hc; exact absurd (lex.2 (not_lt.1 hc)) (not_le.2 this))
      · exact .inr (.inr (.inl fun a ha => by have := o _ (my a ha); by_contra hc; exact absurd (ley.2 (not_lt.1 hc)) (not_le.2 this)))
      · exact .inr (.inr (.inr fun a ha => by have := o _ (my a ha); by_contra hc; exact absurd (ley.2 (not_lt.1 hc)) (not_le.2 this)))
    rw [SF.C23_out_of_range main hg o, SF.C23_out_of_range main hf o']
    rfl

/-- C276: within the first and last coordinates left by a crop, a value is read as before. -/
theorem C276_crop (main : Bool) {f g : SF} (hf : f.WF) {a b c d : Rat} (h : f.crop (some (a, b)) (some (c, d)) = .ok g) {x y : Rat}
    (rx : (∃ p ∈ g.ax, p ≤ x) ∧ ∃ p ∈ g.ax, x ≤ p) (ry : (∃ p ∈ g.ay, p ≤ y) ∧ ∃ p ∈ g.ay, y ≤ p) :
    g.getValue main x y = f.getValue main x y := by
  obtain ⟨⟨p, hp, hpx⟩, p', hp', hpx'⟩ := rx
  obtain ⟨⟨q, hq, hqy⟩, q', hq', hqy'⟩ := ry
  have hr := (SF.C06_crop_keeps_readings hf h).1
  have inx : ∀ z ∈ g.ax, z ∈ f.ax ∧ a ≤ z ∧ z ≤ b := by
    intro z hz
    obtain ⟨r, h'⟩ := reads_of_mem hz hq
    have := (hr _ _ _).1 h'
    exact ⟨(mem_ax hf).2 ⟨_, _, this.1⟩, this.2.1⟩
  have iny : ∀ z ∈ g.ay, z ∈ f.ay ∧ c ≤ z ∧ z ≤ d := by
    intro z hz
    obtain ⟨r, h'⟩ := reads_of_mem hp hz
    have := (hr _ _ _).1 h'
    exact ⟨(mem_ay hf).2 ⟨_, _, this.1⟩, this.2.2⟩
  have hg : g.WF := SF.C06_crop_consistent hf h ⟨p, inx p hp⟩ ⟨q, iny q hq⟩
  have := transport main (f := f) (g := g) (kx := 1) (cx := 0) (ky := 1) (cy := 0) (q := 1) hf hg one_pos one_pos (x := x) (y := y)
    (by
      intro x y r h1 h2 h3
      simp only [one_mul, add_zero, mul_one] at h2 h3 ⊢
      rw [hr]
      exact ⟨by simpa using h1, (inx _ h2).2, (iny _ h3).2⟩)
    (fun z hz => ⟨z, (inx z hz).1, by ring⟩)
    (by
      rintro z hz ⟨u, hu, hu'⟩ ⟨v, hv, hv'⟩
      simp only [one_mul, add_zero] at hu' hv' ⊢
      obtain ⟨w, hw⟩ := reads_of_mem hz (iny q hq).1
      exact (mem_ax hg).2 ⟨q, w, (hr _ _ _).2 ⟨hw, ⟨le_trans (inx u hu).2.1 hu', le_trans hv' (inx v hv).2.2⟩, (iny q hq).2⟩⟩)
    (fun z hz => ⟨z, (iny z hz).1, by ring⟩)
    (by
      rintro z hz ⟨u, hu, hu'⟩ ⟨v, hv, hv'⟩
      simp only [one_mul, add_zero] at hu' hv' ⊢
      obtain ⟨w, hw⟩ := reads_of_mem (inx p hp).1 hz
      exact (mem_ay hg).2 ⟨p, w, (hr _ _ _).2 ⟨hw, (inx p hp).2, ⟨le_trans (iny u hu).2.1 hu', le_trans hv' (iny v hv).2.2⟩⟩⟩)
    ⟨⟨p, hp, by simpa using hpx⟩, p', hp', by simpa using hpx'⟩ ⟨⟨q, hq, by simpa using hqy⟩, q', hq', by simpa using hqy'⟩
  simp only [one_mul, add_zero] at this
  rw [this]
  cases f.getValue main x y with
  | error e => rfl
  | ok r => cases r <;> simp [Except.map]

/-- C276: after a change of origin, the value at a moved position, or the refusal, is the one of the position. -/
theorem C276_origin (main : Bool) {f : SF} (hf : f.WF) (ox oy : Option Rat) (x y : Rat) :
    (f.setOrigin ox oy).getValue main (x - ox.getD 0) (y - oy.getD 0) = f.getValue main x y := by
  obtain ⟨w, hr, -⟩ := SF.C12_setOrigin_shifts hf ox oy
  have := whole main (kx := 1) (cx := - ox.getD 0) (ky := 1) (cy := - oy.getD 0) (q := 1) hf w one_pos one_pos (by
    intro x' y' r'
    rw [hr]
    constructor
    · intro h
      exact ⟨_, _, _, h, by ring, by ring, by simp⟩
    · rintro ⟨x, y, r, h, rfl, rfl, rfl⟩
      simpa using h) x y
  rw [show x - ox.getD 0 = 1 * x + - ox.getD 0 by ring, show y - oy.getD 0 = 1 * y + - oy.getD 0 by ring, this]
  cases f.getValue main x y with
  | error e => rfl
  | ok r => cases r <;> simp [Except.map]

/-- C276: after a scaling of the axes by positive factors and of the values by any factor, the value at a scaled position is the
scaled value, and a position is refused exactly when it was. -/
theorem C276_scale_partial (main : Bool) {f : SF} (hf : f.WF) (sx sy sv : Option Unum) (hx : 0 < factor sx) (hy : 0 < factor sy) (x y : Rat) :
    (f.scale sx sy sv).getValue main (x * factor sx) (y * factor sy) = (f.getValue main x y).map (Option.map (· * factor sv)) := by
  obtain ⟨w, hr⟩ := SF.C10_scale_moves_readings hf sx sy sv hx.ne' hy.ne'
  have := whole main (kx := factor sx) (cx := 0) (ky := factor sy) (cy := 0) (q := factor sv) hf w hx hy (by
    intro x' y' r'
    rw [hr]
    constructor
    · rintro ⟨x, y, r, h, rfl, rfl, rfl⟩; exact ⟨x, y, r, h, by ring, by ring, rfl⟩
    · rintro ⟨x, y, r, h, rfl, rfl, rfl⟩; exact ⟨x, y, r, h, by ring, by ring, rfl⟩) x y
  rw [← this, add_zero, add_zero, mul_comm x, mul_comm y]

/-- C276: a change of unit keeps the physical value read at a physical position. -/
theorem C276_unit (main : Bool) {f g : SF} (hf : f.WF) (hpx : 0 < f.ux.size) (hpy : 0 < f.uy.size) (hpv : 0 < f.uv.size) {w : SF.Which} {new : Sym}
    (hn : 0 < new.size) (h : f.changeUnit w new = .ok g) {x y x' y' : Rat} (ex : x' * g.ux.size = x * f.ux.size) (ey : y' * g.uy.size = y * f.uy.size) :
    (g.getValue main x' y').map (Option.map (· * g.uv.size)) = (f.getValue main x y).map (Option.map (· * f.uv.size)) := by
  obtain ⟨hg, hr, -, px, py, pv⟩ := SF.C13_changeUnit_physical hf hpx hpy hpv hn h
  have := whole main (kx := f.ux.size / g.ux.size) (cx := 0) (ky := f.uy.size / g.uy.size) (cy := 0) (q := f.uv.size / g.uv.size) hf hg (div_pos hpx px) (div_pos hpy py) (by
    intro x' y' r'
    rw [hr]
    constructor
    · rintro ⟨x, y, r, h, e1, e2, e3⟩
      refine ⟨x, y, r, h, by field_simp; linarith, by field_simp; linarith, ?_⟩
      cases r <;> cases r' <;> simp at e3 ⊢
      field_simp; linarith
    · rintro ⟨x, y, r, h, rfl, rfl, rfl⟩
      refine ⟨x, y, r, h, by field_simp; ring, by field_simp; ring, ?_⟩
      cases r <;> simp
      field_simp) x y
  have e1 : f.ux.size / g.ux.size * x + 0 = x' := by field_simp; linarith
  have e2 : f.uy.size / g.uy.size * y + 0 = y' := by field_simp; linarith
  rw [e1, e2] at this
  rw [this]
  cases f.getValue main x y with
  | error e => rfl
  | ok r => cases r <;> simp [Except.map]; field_simp

theorem branch_sum (k p1 p2 y : Rat) (a b a' b' : Option Rat) :
    SF.branch p1 p2 y (SF.sumReading k a a') (SF.sumReading k b b') = SF.sumReading k (SF.branch p1 p2 y a b) (SF.branch p1 p2 y a' b') := by
  cases a <;> cases b <;> cases a' <;> cases b' <;> simp only [SF.branch, SF.sumReading]
  congr 1; ring

theorem plane_sum (k : Rat) (a b c a' b' c' : Option Rat) (φ : Rat → Rat → Rat → Rat)
    (h : ∀ a b c a' b' c', φ (a + a' * k) (b + b' * k) (c + c' * k) = φ a b c + φ a' b' c' * k) :
    SF.plane (SF.sumReading k a a') (SF.sumReading k b b') (SF.sumReading k c c') φ = SF.sumReading k (SF.plane a b c φ) (SF.plane a' b' c' φ) := by
  cases a <;> cases b <;> cases c <;> cases a' <;> cases b' <;> cases c' <;> simp [SF.plane, SF.sumReading, h]

theorem cellInterp_sum (main : Bool) (k u w : Rat) (a b c d a' b' c' d' : Option Rat) :
    SF.cellInterp main u w (SF.sumReading k a a') (SF.sumReading k b b') (SF.sumReading k c c') (SF.sumReading k d d') =
      SF.sumReading k (SF.cellInterp main u w a b c d) (SF.cellInterp main u w a' b' c' d') := by
  unfold SF.cellInterp
  split <;> split <;> exact plane_sum _ _ _ _ _ _ _ _ (by intros; ring)

theorem sum_none {k : Rat} {a b : Option Rat} : SF.sumReading k a b = none ↔ a = none ∨ b = none := by
  cases a <;> cases b <;> simp [SF.sumReading]

theorem corner_sum (main : Bool) (k x x1 x2 y y1 y2 : Rat) (a b c d a' b' c' d' : Option Rat) :
    corner main x x1 x2 y y1 y2 (SF.sumReading k a a') (SF.sumReading k b b') (SF.sumReading k c c') (SF.sumReading k d d') =
      SF.sumReading k (corner main x x1 x2 y y1 y2 a b c d) (corner main x x1 x2 y y1 y2 a' b' c' d') := by
  unfold corner
  by_cases h1 : a = none ∨ d = none
  · rw [if_pos (by rw [sum_none, sum_none]; tauto), if_pos h1]; rfl
  by_cases h2 : a' = none ∨ d' = none
  · rw [if_pos (by rw [sum_none, sum_none]; tauto), if_pos h2, sum_none.2 (.inr rfl)]
  rw [if_neg (by rw [sum_none, sum_none]; tauto), if_neg h1, if_neg h2]
  split
  · rfl
  · split
    · exact branch_sum _ _ _ _ _ _ _ _
    · split
      · exact branch_sum _ _ _ _ _ _ _ _
      · exact cellInterp_sum _ _ _ _ _ _ _ _ _ _ _ _

/-- C276: the sum of two fields of one grid reads the sum of the values, NaN where one of them is. -/
theorem C276_sum (main : Bool) {f g : SF} (hf : f.WF) (hg : g.WF) (hx : f.ax = g.ax) (hy : f.ay = g.ay)
    (hv : f.uv.Compat g.uv) (hux : f.ux = g.ux) (huy : f.uy = g.uy) (x y : Rat) :
    ∃ h, f.add g = .ok h ∧ h.getValue main x y =
      (f.getValue main x y).bind fun a => (g.getValue main x y).map fun b => SF.sumReading (g.uv.size / f.uv.size) a b := by
  obtain ⟨h, e, w, hr, -⟩ := SF.C16_add_pointwise hf hg hx hy hv hux huy
  refine ⟨h, e, ?_⟩
  set k := g.uv.size / f.uv.size
  have eax : ∀ z, z ∈ h.ax ↔ z ∈ f.ax := by
    intro z
    rw [mem_ax w, mem_ax hf]
    constructor
    · rintro ⟨y, r, h'⟩; obtain ⟨a, b, h1, -, -⟩ := (hr _ _ _).1 h'; exact ⟨y, a, h1⟩
    · rintro ⟨y, a, h1⟩
      obtain ⟨b, hb⟩ := reads_of_mem (f := g) (x := z) (y := y) (hx ▸ (mem_ax hf).2 ⟨_, _, h1⟩) (hy ▸ (mem_ay hf).2 ⟨_, _, h1⟩)
      exact ⟨y, _, (hr _ _ _).2 ⟨a, b, h1, hb, rfl⟩⟩
  have eay : ∀ z, z ∈ h.ay ↔ z ∈ f.ay := by
    intro z
    rw [mem_ay w, mem_ay hf]
    constructor
    · rintro ⟨y, r, h'⟩; obtain ⟨a, b, h1, -, -⟩ := (hr _ _ _).1 h'; exact ⟨y, a, h1⟩
    · rintro ⟨y, a, h1⟩
      obtain ⟨b, hb⟩ := reads_of_mem (f := g) (x := y) (y := z) (hx ▸ (mem_ax hf).2 ⟨_, _, h1⟩) (hy ▸ (mem_ay hf).2 ⟨_, _, h1⟩)
      exact ⟨y, _, (hr _ _ _).2 ⟨a, b, h1, hb, rfl⟩⟩
  by_cases hc : ((∃ p ∈ f.ax, p ≤ x) ∧ ∃ p ∈ f.ax, x ≤ p) ∧ (∃ p ∈ f.ay, p ≤ y) ∧ ∃ p ∈ f.ay, y ≤ p
  · obtain ⟨x1, x2, ax⟩ := around_exists hf.incx hc.1.1 hc.1.2
    obtain ⟨y1, y2, ay⟩ := around_exists hf.incy hc.2.1 hc.2.2
    obtain ⟨a, ha⟩ := reads_of_mem ax.1 ay.1
    obtain ⟨b, hb⟩ := reads_of_mem ax.2.1 ay.1
    obtain ⟨c, hc⟩ := reads_of_mem ax.1 ay.2.1
    obtain ⟨d, hd⟩ := reads_of_mem ax.2.1 ay.2.1
    obtain ⟨a', ha'⟩ := reads_of_mem (f := g) (hx ▸ ax.1) (hy ▸ ay.1)
    obtain ⟨b', hb'⟩ := reads_of_mem (f := g) (hx ▸ ax.2.1) (hy ▸ ay.1)
    obtain ⟨c', hc'⟩ := reads_of_mem (f := g) (hx ▸ ax.1) (hy ▸ ay.2.1)
    obtain ⟨d', hd'⟩ := reads_of_mem (f := g) (hx ▸ ax.2.1) (hy ▸ ay.2.1)
    have ax' : Around h.ax x x1 x2 := ⟨(eax _).2 ax.1, (eax _).2 ax.2.1, ax.2.2.imp id fun t => ⟨t.1, t.2.1, fun z hz => t.2.2 z ((eax z).1 hz)⟩⟩
    have ay' : Around h.ay y y1 y2 := ⟨(eay _).2 ay.1, (eay _).2 ay.2.1, ay.2.2.imp id fun t => ⟨t.1, t.2.1, fun z hz => t.2.2 z ((eay z).1 hz)⟩⟩
    rw [value_of_corners main hf ax ay ha hb hc hd, value_of_corners main hg (hx ▸ ax) (hy ▸ ay) ha' hb' hc' hd',
      value_of_corners main w ax' ay' ((hr _ _ _).2 ⟨_, _, ha, ha', rfl⟩) ((hr _ _ _).2 ⟨_, _, hb, hb', rfl⟩) ((hr _ _ _).2 ⟨_, _, hc, hc', rfl⟩)
        ((hr _ _ _).2 ⟨_, _, hd, hd', rfl⟩), corner_sum]
    rfl
  · have o : (∀ a ∈ f.ax, x < a) ∨ (∀ a ∈ f.ax, a < x) ∨ (∀ b ∈ f.ay, y < b) ∨ (∀ b ∈ f.ay, b < y) := by
      by_contra hn
      simp only [not_or, not_forall, not_lt, exists_prop] at hn
      exact hc ⟨⟨hn.1, hn.2.1⟩, hn.2.2⟩
    rw [SF.C23_out_of_range main hf o, SF.C23_out_of_range main w (by simpa only [eax, eay] using o)]
    rfl

/-- C276: the product with a number reads the product of the value. -/
theorem C276_product (main : Bool) {f : SF} (hf : f.WF) (q x y : Rat) :
    (f.mulNum q).getValue main x y = (f.getValue main x y).map (Option.map (· * q)) := by
  have := whole main (kx := 1) (cx := 0) (ky := 1) (cy := 0) (q := q) hf (Temporal.mulNum_WF hf q) one_pos one_pos (by
    intro x' y' r'
    rw [SF.reads_map (f := f) (g := f.mulNum q) rfl rfl (fun c => c.map (· * q)) (fun i j _ _ => Temporal.mulNum_cell q i j)]
    constructor
    · rintro ⟨r, h, rfl⟩; exact ⟨x', y', r, h, by ring, by ring, rfl⟩
    · rintro ⟨x, y, r, h, rfl, rfl, rfl⟩; exact ⟨r, by simpa using h, rfl⟩) x y
  simpa using this

/-- C276: the opposite reads the opposite of the value. -/
theorem C276_opposite (main : Bool) {f : SF} (hf : f.WF) (x y : Rat) :
    f.neg.getValue main x y = (f.getValue main x y).map (Option.map (fun v => -v)) := by
  have wn : f.neg.WF := SF.setValues_WF hf (by simp [Grid.map, SF.values, hf.vx]) (by simp [Grid.map, SF.values, hf.vy])
  have := whole main (kx := 1) (cx := 0) (ky := 1) (cy := 0) (q := -1) hf wn one_pos one_pos (by
    intro x' y' r'
    rw [SF.reads_map (f := f) (g := f.neg) rfl rfl (fun c => c.map (fun v => -v)) (fun i j _ _ => SF.setValues_cell _ _ _ _)]
    constructor
    · rintro ⟨r, h, rfl⟩; exact ⟨x', y', r, h, by ring, by ring, by cases r <;> simp⟩
    · rintro ⟨x, y, r, h, rfl, rfl, rfl⟩; exact ⟨r, by simpa using h, by cases r <;> simp⟩) x y
  simpa using this

/-- Four points, one of them masked. -/
def square : SF := ⟨[0, 1], [0, 1], ⟨2, 2, fun i j => some ((i : Rat) + 2 * j)⟩, ⟨2, 2, fun i j => decide (i = 0 ∧ j = 1)⟩, Sym.m, Sym.m, Sym.one⟩

theorem square_WF : square.WF := by
  refine ⟨by unfold Inc square; decide +kernel, by unfold Inc square; decide +kernel, by simp [square], by simp [square], rfl, rfl, rfl, rfl, ?_⟩
  intro i j _ _ h
  cases h

/-- C276 fails for a mirrored field: only two opposite corners of the cell are tested for a mask (core/scalarfield.py:572), and they are
other points once the axis is reversed, so that a value read in a field is lost in its mirror image, whatever the diagonal taken. -/
theorem C276_mirror_violated :
    ∃ f : SF, f.WF ∧ f.getValue true (1 / 2) (1 / 4) = .ok (some 1) ∧
      ∀ main, (f.scale (some ⟨-1, Sym.one⟩) none none).getValue main (-(1 / 2)) (1 / 4) = .ok none := by
  refine ⟨square, square_WF, by decide +kernel, ?_⟩
  intro main
  cases main <;> decide +kernel

example : SF.sample.getValue true (1 / 2) (-1) = .ok (some 5) ∧
    (SF.sample.scale (some ⟨2, Sym.one⟩) none (some ⟨3, Sym.m⟩)).getValue true 1 (-1) = .ok (some 15) := by decide +kernel

example : (SF.sample.setOrigin (some 1) none).getValue true (-(1 / 2)) (-1) = SF.sample.getValue true (1 / 2) (-1) := by decide +kernel

example : (SF.sample.crop (some (0, 1)) (some (-1, 0))).map (fun g => g.getValue true (1 / 2) (-1)) = .ok (.ok (some 5)) := by decide +kernel

example : (SF.sample.add SF.sample).map (fun g => g.getValue true (1 / 2) (-1)) = .ok (.ok (some 10)) := by decide +kernel

end IMT.Probe
