import Verif.Scalar.GeomLemmas

/-!
Properties C06, C08, C09, C10, C12, C13, C22: geometric operations on scalar fields move readings as announced.
-/

namespace IMT.SF

/-- A 3 × 2 field with one masked point, used in the examples. -/
def sample : SF where
  ax := [0, 1, 3]
  ay := [-1, 1/2]
  val := ⟨3, 2, fun i j => if i = 1 ∧ j = 1 then none else some (10 * i + j)⟩
  mask := ⟨3, 2, fun i j => i == 1 && j == 1⟩
  ux := Sym.mm
  uy := Sym.m
  uv := Sym.s

theorem sample_WF : sample.WF := by
  refine ⟨by decide +kernel, by decide +kernel, by decide, by decide, rfl, rfl, rfl, rfl, ?_⟩
  intro i j hi hj h
  simp only [sample] at h ⊢
  by_cases hc : i = 1 ∧ j = 1
  · simp [hc.1, hc.2]
  · rw [if_neg hc] at h; cases h

/-- C06: after a crop by values the field shows exactly what it showed, at exactly the grid points of the closed
window; units are kept. -/
theorem C06_crop_keeps_readings {f g : SF} (hf : f.WF) {a b c d : Rat}
    (h : f.crop (some (a, b)) (some (c, d)) = .ok g) :
    (∀ x y r, g.Reads x y r ↔ f.Reads x y r ∧ (a ≤ x ∧ x ≤ b) ∧ (c ≤ y ∧ y ≤ d)) ∧
    g.ux = f.ux ∧ g.uy = f.uy ∧ g.uv = f.uv := by
  unfold crop at h
  simp only at h
  cases h1 : Axis.cropInds f.ax a b with
  | error e => rw [h1] at h; cases h
  | ok p =>
    obtain ⟨x0, x1⟩ := p
    cases h2 : Axis.cropInds f.ay c d with
    | error e => rw [h1, h2] at h; cases h
    | ok q =>
      obtain ⟨y0, y1⟩ := q
      rw [h1, h2] at h
      cases h
      refine ⟨?_, rfl, rfl, rfl⟩
      intro x y r
      rw [cut_reads]
      constructor
      · rintro ⟨i, j, hi, hj, hr, p, q⟩
        exact ⟨⟨i, j, hi, hj, hr⟩, (Axis.cropInds_window hf.incx h1 hi).mp p,
          (Axis.cropInds_window hf.incy h2 hj).mp q⟩
      · rintro ⟨⟨i, j, hi, hj, hr⟩, p, q⟩
        exact ⟨i, j, hi, hj, hr, (Axis.cropInds_window hf.incx h1 hi).mpr p,
          (Axis.cropInds_window hf.incy h2 hj).mpr q⟩

/-- C06: a crop whose window holds at least one grid point gives a consistent field. -/
theorem C06_crop_consistent {f g : SF} (hf : f.WF) {a b c d : Rat}
    (h : f.crop (some (a, b)) (some (c, d)) = .ok g)
    (hx : ∃ x ∈ f.ax, a ≤ x ∧ x ≤ b) (hy : ∃ y ∈ f.ay, c ≤ y ∧ y ≤ d) : g.WF := by
  have hr := (C06_crop_keeps_readings hf h).1
  unfold crop at h
  simp only at h
  cases h1 : Axis.cropInds f.ax a b with
  | error e => rw [h1] at h; cases h
  | ok p =>
    obtain ⟨x0, x1⟩ := p
    cases h2 : Axis.cropInds f.ay c d with
    | error e => rw [h1, h2] at h; cases h
    | ok q =>
      obtain ⟨y0, y1⟩ := q
      rw [h1, h2] at h
      cases h
      obtain ⟨x, hx, hxw⟩ := hx
      obtain ⟨y, hy, hyw⟩ := hy
      obtain ⟨i, hi⟩ := List.getElem?_of_mem hx
      obtain ⟨j, hj⟩ := List.getElem?_of_mem hy
      obtain ⟨i', j', hi', hj', _⟩ := (hr x y _).mpr ⟨⟨i, j, hi, hj, rfl⟩, hxw, hyw⟩
      refine cut_WF hf ?_ ?_
      · intro e; simp only [cut] at hi'; rw [e] at hi'; simp at hi'
      · intro e; simp only [cut] at hj'; rw [e] at hj'; simp at hj'

/-- C06: a missing interval stands for the whole axis. -/
theorem C06_crop_missing_interval {f g : SF} (hf : f.WF) {a b : Rat} (h : f.crop (some (a, b)) none = .ok g)
    (x y : Rat) (r : Option Rat) : g.Reads x y r ↔ f.Reads x y r ∧ (a ≤ x ∧ x ≤ b) := by
  obtain ⟨c, hc⟩ : ∃ c, f.ay.head? = some c := by
    cases e : f.ay with
    | nil => exact absurd e hf.ney
    | cons c _ => exact ⟨c, rfl⟩
  obtain ⟨d, hd⟩ : ∃ c, f.ay.getLast? = some c := ⟨_, List.getLast?_eq_some_getLast hf.ney⟩
  have h' : f.crop (some (a, b)) (some (c, d)) = .ok g := by
    unfold crop at h ⊢
    simp only [hc, hd] at h ⊢
    exact h
  rw [(C06_crop_keeps_readings hf h').1]
  constructor
  · rintro ⟨p, q, _⟩; exact ⟨p, q⟩
  · rintro ⟨⟨i, j, hi, hj, hr⟩, q⟩
    refine ⟨⟨i, j, hi, hj, hr⟩, q, ?_, ?_⟩
    · rw [head?_eq_get0] at hc
      exact hf.incy.get_le hc hj (Nat.zero_le _)
    · rw [getLast?_eq_get] at hd
      exact hf.incy.get_le hj hd (by have := getElem?_some_lt hj; omega)

/-- C06: same law for crops by indices: point number `k` of the result is point number `a + k` of the field. -/
theorem C06_cropInd_keeps_readings {f : SF} {a b c d : Int} (ha : 0 ≤ a) (hab : a ≤ b) (hb : b ≠ 0)
    (hc : 0 ≤ c) (hcd : c ≤ d) (hd : d ≠ 0) :
    ∃ g, f.cropInd (some (a, b)) (some (c, d)) = .ok g ∧
      (∀ k : Nat, g.ax[k]? = if a + k ≤ b then f.ax[a.toNat + k]? else none) ∧
      (∀ k : Nat, g.ay[k]? = if c + k ≤ d then f.ay[c.toNat + k]? else none) ∧
      (∀ k l : Nat, g.cell k l = f.cell (a.toNat + k) (c.toNat + l)) ∧
      g.ux = f.ux ∧ g.uy = f.uy ∧ g.uv = f.uv := by
  have e1 : Axis.cropIndsInd a b = .ok (a.toNat, b.toNat) := by
    unfold Axis.cropIndsInd; rw [if_neg (by omega), if_neg (by omega)]
  have e2 : Axis.cropIndsInd c d = .ok (c.toNat, d.toNat) := by
    unfold Axis.cropIndsInd; rw [if_neg (by omega), if_neg (by omega)]
  refine ⟨f.cut a.toNat b.toNat c.toNat d.toNat, ?_, ?_, ?_, ?_, rfl, rfl, rfl⟩
  · unfold cropInd; simp only [Option.getD_some, e1, e2]
  · intro k
    simp only [cut]
    rw [slice_getElem?]
    by_cases h : a + k ≤ b
    · rw [if_pos h, if_pos (by omega)]
    · rw [if_neg h, if_neg (by omega)]
  · intro k
    simp only [cut]
    rw [slice_getElem?]
    by_cases h : c + k ≤ d
    · rw [if_pos h, if_pos (by omega)]
    · rw [if_neg h, if_neg (by omega)]
  · intro k l; exact cut_cell _ _ _ _ _ _ _

example : (sample.crop (some (1/2, 3)) (some (0, 2))).map (fun g => (g.ax, g.ay, g.cell 0 0, g.cell 1 0))
    = .ok ([1, 3], [1/2], none, some 21) := by decide +kernel

/-- C08: rotating a field by any multiple `90 k` of a quarter turn moves every reading, masked points included,
to the rotated point, keeps the field consistent, and exchanges the axis units for odd `k`.
The field has at least two points per axis. -/
theorem C08_rotate_moves_readings {f : SF} (hf : f.WF) (h2x : 2 ≤ f.ax.length) (h2y : 2 ≤ f.ay.length)
    (k : Int) :
    ∃ g, f.rotate (90 * k) = .ok g ∧ g.WF ∧
      (∀ x y r, f.Reads x y r ↔ g.Reads (turn k (x, y)).1 (turn k (x, y)).2 r) ∧
      g.uv = f.uv ∧
      (g.ux, g.uy) = (if k % 2 = 0 then (f.ux, f.uy) else (f.uy, f.ux)) := by
  obtain ⟨g, h1, h2, h3, h4, h5, _⟩ := rotate_spec hf h2x h2y k
  exact ⟨g, h1, h2, h3, h4, h5⟩

/-- C08: other angles are refused. -/
theorem C08_rotate_refused (f : SF) {a : Int} (h : a % 90 ≠ 0) : f.rotate a = .error .valueError := by
  unfold rotate; rw [if_pos h]

/-- C08 fails for a single-point axis: the coordinate of the only column is not negated. -/
theorem C08_single_point_violated :
    ∃ f g : SF, f.WF ∧ f.rotate (90 * 2) = .ok g ∧
      ¬ (∀ x y r, f.Reads x y r ↔ g.Reads (turn 2 (x, y)).1 (turn 2 (x, y)).2 r) := by
  refine ⟨{ sample with ax := [1], val := ⟨1, 2, fun _ _ => some 5⟩, mask := ⟨1, 2, fun _ _ => false⟩ }, _,
    ?_, rfl, ?_⟩
  · refine ⟨by decide +kernel, by decide +kernel, by decide, by decide, rfl, rfl, rfl, rfl, ?_⟩
    intro i j _ _ h; cases h
  · intro h
    have h1 := (h 1 (-1) (some 5)).mp ⟨0, 0, rfl, rfl, rfl⟩
    obtain ⟨i, j, hi, _, _⟩ := h1
    simp only [turn] at hi
    have hi0 : i = 0 := by
      have := getElem?_some_lt hi
      simpa [fixAxis] using this
    subst hi0
    revert hi
    decide +kernel

example : ∃ g, sample.rotate 90 = .ok g ∧ g.ax = [-1/2, 1] ∧ g.ay = [0, 1, 3] ∧ g.ux = Sym.m :=
  ⟨_, rfl, by decide +kernel, by decide +kernel, rfl⟩

/-- C09: rotations compose: two successive rotations are one rotation by the sum, whatever the field. -/
theorem C09_rotate_compose {f : SF} (hf : f.WF) (h2x : 2 ≤ f.ax.length) (h2y : 2 ≤ f.ay.length)
    (a b : Int) :
    ∃ g h k, f.rotate (90 * a) = .ok g ∧ g.rotate (90 * b) = .ok h ∧ f.rotate (90 * (a + b)) = .ok k ∧
      h.Equal k := by
  obtain ⟨g, e1, w1, r1, v1, u1, l1⟩ := rotate_spec hf h2x h2y a
  have hl : 2 ≤ g.ax.length ∧ 2 ≤ g.ay.length := by
    by_cases h : a % 2 = 0
    · rw [if_pos h] at l1; simp only [Prod.mk.injEq] at l1; omega
    · rw [if_neg h] at l1; simp only [Prod.mk.injEq] at l1; omega
  obtain ⟨h, e2, w2, r2, v2, u2, _⟩ := rotate_spec w1 hl.1 hl.2 b
  obtain ⟨k, e3, w3, r3, v3, u3, _⟩ := rotate_spec hf h2x h2y (a + b)
  refine ⟨g, h, k, e1, e2, e3, ext_of_reads w2 w3 ?_ ?_ ?_ ?_⟩
  · intro x y r
    -- every point is the image of some point
    have hp : (x, y) = turn (a + b) (turn (-(a + b)) (x, y)) := by
      rw [turn_add]; simp [turn]
    obtain ⟨px, py, hpq⟩ : ∃ px py, (x, y) = turn (a + b) (px, py) := ⟨_, _, hp⟩
    have hq : (x, y) = turn b (turn a (px, py)) := by rw [turn_add, add_comm b a]; exact hpq
    have s1 := r1 px py r
    have s2 := r2 (turn a (px, py)).1 (turn a (px, py)).2 r
    have s3 := r3 px py r
    rw [← hpq] at s3
    simp only [Prod.mk.eta, ← hq] at s2
    rw [← s2, ← s1, s3]
  all_goals
    by_cases ha : a % 2 = 0 <;> by_cases hb : b % 2 = 0 <;>
      simp only [ha, hb, if_true, if_false, Prod.mk.injEq, show (a + b) % 2 = 0 ↔ (a % 2 = 0 ↔ b % 2 = 0) by omega, iff_true, iff_false, not_true_eq_false] at u1 u2 u3 <;>
      first
      | rw [u2.1, u3.1]; first | exact u1.1 | exact u1.2
      | rw [u2.2, u3.2]; first | exact u1.1 | exact u1.2
      | rw [v2, v1, v3]

/-- C09: a rotation by a multiple of a full turn changes nothing. -/
theorem C09_full_turn {f : SF} (hf : f.WF) (h2x : 2 ≤ f.ax.length) (h2y : 2 ≤ f.ay.length) (n : Int) :
    ∃ g, f.rotate (90 * (4 * n)) = .ok g ∧ g.Equal f := by
  obtain ⟨g, e1, w1, r1, v1, u1, _⟩ := rotate_spec hf h2x h2y (4 * n)
  have h2 : (4 * n) % 2 = 0 := by omega
  rw [if_pos h2] at u1
  simp only [Prod.mk.injEq] at u1
  refine ⟨g, e1, ext_of_reads w1 hf ?_ u1.1 u1.2 v1⟩
  intro x y r
  have h4 : (4 * n) % 4 = 0 := by omega
  rw [r1 x y r]
  simp [turn, h4]

/-- C09: rotating and rotating back gives the original field. -/
theorem C09_rotate_back {f : SF} (hf : f.WF) (h2x : 2 ≤ f.ax.length) (h2y : 2 ≤ f.ay.length) (a : Int) :
    ∃ g h, f.rotate (90 * a) = .ok g ∧ g.rotate (90 * (-a)) = .ok h ∧ h.Equal f := by
  obtain ⟨g, h, k, e1, e2, e3, he⟩ := C09_rotate_compose hf h2x h2y a (-a)
  obtain ⟨k', e4, he'⟩ := C09_full_turn hf h2x h2y 0
  have : k = k' := by
    have : a + -a = 4 * 0 := by omega
    rw [this, e4] at e3
    exact (Except.ok.inj e3).symm
  subst this
  refine ⟨g, h, e1, e2, ?_⟩
  exact ⟨he.ax.trans he'.ax, he.ay.trans he'.ay, he.ux.trans he'.ux, he.uy.trans he'.uy, he.uv.trans he'.uv,
    fun i j hi hj => (he.cell i j hi hj).trans (he'.cell i j (he.ax ▸ hi) (he.ay ▸ hj)),
    fun i j hi hj => (he.mask i j hi hj).trans (he'.mask i j (he.ax ▸ hi) (he.ay ▸ hj))⟩

/-- C10: scaling by non-zero factors multiplies the coordinates and the values of every reading, masked points
included, and leaves a consistent field (increasing axes) even for negative factors. -/
theorem C10_scale_moves_readings {f : SF} (hf : f.WF) (sx sy sv : Option Unum)
    (hx : factor sx ≠ 0) (hy : factor sy ≠ 0) :
    (f.scale sx sy sv).WF ∧
    (∀ x' y' r', (f.scale sx sy sv).Reads x' y' r' ↔
      ∃ x y r, f.Reads x y r ∧ x' = x * factor sx ∧ y' = y * factor sy ∧ r' = r.map (· * factor sv)) := by
  obtain ⟨wx, mx, rxe⟩ := scaleAxis_spec hf.incx f.ux sx hx
  obtain ⟨wy, my, rye⟩ := scaleAxis_spec hf.incy f.uy sy hy
  exact scale_core hf sv mx my wx wy

/-- C10: the units follow, so that every physical coordinate is multiplied by the physical factor. -/
theorem C10_scale_units (f : SF) (sx sy sv : Option Unum) :
    (f.scale sx sy sv).ux.size = f.ux.size * (usym sx).size ∧
    (f.scale sx sy sv).uy.size = f.uy.size * (usym sy).size ∧
    (f.scale sx sy sv).uv.size = f.uv.size * (usym sv).size := by
  have hu : ∀ (l : List Rat) (u : Sym) (s : Option Unum), (scaleAxis l u s).2.1.size = u.size * (usym s).size := by
    intro l u s
    cases s with
    | none => simp [scaleAxis, usym, Sym.one]
    | some s =>
      simp only [scaleAxis]
      split <;> simp [Sym.mul, usym]
  unfold scale
  refine ⟨?_, ?_, ?_⟩
  · rw [← hu f.ax f.ux sx]
    cases sv <;> simp only [scaleVals] <;> (repeat' split) <;> rfl
  · rw [← hu f.ay f.uy sy]
    cases sv <;> simp only [scaleVals] <;> (repeat' split) <;> rfl
  · cases sv with
    | none => (simp only [scaleVals]; (repeat' split) <;> simp [setValues, usym, Sym.one])
    | some s => (simp only [scaleVals]; (repeat' split) <;> simp [setValues, usym, Sym.mul])

example : (sample.scale (some ⟨-2, Sym.one⟩) none (some ⟨3, Sym.m⟩)).ax = [-6, -2, 0] ∧
    (sample.scale (some ⟨-2, Sym.one⟩) none (some ⟨3, Sym.m⟩)).cell 0 1 = some 63 ∧
    (sample.scale (some ⟨-2, Sym.one⟩) none (some ⟨3, Sym.m⟩)).cell 1 1 = none := by decide +kernel

/-- C12: moving the origin shifts every reading and nothing else. -/
theorem C12_setOrigin_shifts {f : SF} (hf : f.WF) (ox oy : Option Rat) :
    (f.setOrigin ox oy).WF ∧
    (∀ x y r, (f.setOrigin ox oy).Reads x y r ↔ f.Reads (x + ox.getD 0) (y + oy.getD 0) r) ∧
    (f.setOrigin ox oy).ux = f.ux ∧ (f.setOrigin ox oy).uy = f.uy ∧ (f.setOrigin ox oy).uv = f.uv := by
  have e : f.setOrigin ox oy = { f with ax := f.ax.map (· - ox.getD 0), ay := f.ay.map (· - oy.getD 0) } := by
    unfold setOrigin; cases ox <;> cases oy <;> simp
  rw [e]
  refine ⟨⟨hf.incx.map_sub _, hf.incy.map_sub _, by simpa using hf.nex, by simpa using hf.ney, ?_, ?_, ?_, ?_, ?_⟩,
    ?_, rfl, rfl, rfl⟩
  · simpa using hf.vx
  · simpa using hf.vy
  · simpa using hf.mx
  · simpa using hf.my
  · intro i j hi hj h; exact hf.nan i j (by simpa using hi) (by simpa using hj) h
  · intro x y r
    refine Iff.trans (reads_axmap (f := f) (ψ := fun r => r) (φx := (· - ox.getD 0)) (φy := (· - oy.getD 0))
      (σx := fun i => i) (σy := fun i => i) ?_ ?_
        ?_ x y r) ?_
    · exact AxMap.map _ _
    · exact AxMap.map _ _
    · exact fun i j _ _ => rfl
    constructor
    · rintro ⟨x', y', r', h, rfl, rfl, rfl⟩
      simpa using h
    · intro h; exact ⟨_, _, _, h, by simp, by simp, rfl⟩

example : (sample.setOrigin (some 1) none).ax = [-1, 0, 2] := by decide +kernel

/-- C13: changing a unit rewrites coordinates or values so that the physical quantities (number times size of
the unit) of every reading are unchanged. -/
theorem C13_changeUnit_physical {f g : SF} (hf : f.WF) (hpx : 0 < f.ux.size) (hpy : 0 < f.uy.size)
    (hpv : 0 < f.uv.size) {w : Which} {new : Sym} (hn : 0 < new.size) (h : f.changeUnit w new = .ok g) :
    g.WF ∧
    (∀ x' y' r', g.Reads x' y' r' ↔ ∃ x y r, f.Reads x y r ∧ x' * g.ux.size = x * f.ux.size ∧
      y' * g.uy.size = y * f.uy.size ∧
      r'.map (· * g.uv.size) = r.map (· * f.uv.size)) ∧
    (match w with
      | .x => g.ux = new ∧ g.uy = f.uy ∧ g.uv = f.uv
      | .y => g.ux = f.ux ∧ g.uy = new ∧ g.uv = f.uv
      | .values => g.ux = f.ux ∧ g.uy = f.uy ∧ g.uv = new) ∧
    0 < g.ux.size ∧ 0 < g.uy.size ∧ 0 < g.uv.size := by
  cases w with
  | x =>
    unfold changeUnit Unum.asUnit at h
    simp only at h
    split at h
    · cases h
      refine ⟨⟨hf.incx.map_mul_pos ?_, hf.incy, by simpa using hf.nex, hf.ney, ?_, hf.vy, ?_, hf.my, ?_⟩, ?_,
        ⟨rfl, rfl, rfl⟩, hn, hpy, hpv⟩
      · simp only [one_mul]; positivity
      · simpa using hf.vx
      · simpa using hf.mx
      · intro i j hi hj h; exact hf.nan i j (by simpa using hi) hj h
      · intro x' y' r'
        refine Iff.trans (reads_axmap (f := f) (ψ := fun r => r) (φx := (· * (1 * f.ux.size / new.size)))
          (φy := fun y => y) (σx := fun i => i) (σy := fun i => i) ?_ ?_
        ?_ x' y' r') ?_
        · exact AxMap.map _ _
        · exact AxMap.id _
        · exact fun i j _ _ => rfl
        simp only [one_mul, mul_size_iff hn, map_same_iff hpv, mul_left_inj' (ne_of_gt hpy)]
    · cases h
  | y =>
    unfold changeUnit Unum.asUnit at h
    simp only at h
    split at h
    · cases h
      refine ⟨⟨hf.incx, hf.incy.map_mul_pos ?_, hf.nex, by simpa using hf.ney, hf.vx, ?_, hf.mx, ?_, ?_⟩, ?_,
        ⟨rfl, rfl, rfl⟩, hpx, hn, hpv⟩
      · simp only [one_mul]; positivity
      · simpa using hf.vy
      · simpa using hf.my
      · intro i j hi hj h; exact hf.nan i j hi (by simpa using hj) h
      · intro x' y' r'
        refine Iff.trans (reads_axmap (f := f) (ψ := fun r => r) (φx := fun x => x)
          (φy := (· * (1 * f.uy.size / new.size))) (σx := fun i => i) (σy := fun i => i) ?_ ?_
        ?_ x' y' r') ?_
        · exact AxMap.id _
        · exact AxMap.map _ _
        · exact fun i j _ _ => rfl
        simp only [one_mul, mul_size_iff hn, map_same_iff hpv, mul_left_inj' (ne_of_gt hpx)]
    · cases h
  | values =>
    unfold changeUnit Unum.asUnit at h
    simp only at h
    split at h
    · cases h
      have hw := setValues_WF (v := f.values.map (Option.map (· * (1 * f.uv.size / new.size)))) hf
        (by simp [Grid.map, values, hf.vx]) (by simp [Grid.map, values, hf.vy])
      refine ⟨⟨hw.incx, hw.incy, hw.nex, hw.ney, hw.vx, hw.vy, hw.mx, hw.my, hw.nan⟩, ?_,
        ⟨rfl, rfl, rfl⟩, hpx, hpy, hn⟩
      intro x' y' r'
      refine Iff.trans (reads_axmap (f := f) (ψ := fun r => r.map (· * (1 * f.uv.size / new.size)))
          (φx := fun x => x) (φy := fun y => y) (σx := fun i => i) (σy := fun i => i) ?_ ?_
        ?_ x' y' r') ?_
      · exact AxMap.id _
      · exact AxMap.id _
      · exact fun i j _ _ => setValues_cell f (f.values.map (Option.map (· * (1 * f.uv.size / new.size)))) i j
      simp only [setValues, one_mul, map_size_iff hn, mul_left_inj' (ne_of_gt hpx), mul_left_inj' (ne_of_gt hpy)]
    · cases h

/-- C13: changing to a unit of another dimension is refused. -/
theorem C13_changeUnit_refused {f : SF} {new : Sym} (h : ¬ f.ux.Compat new) :
    f.changeUnit .x new = .error .valueError := by
  unfold changeUnit Unum.asUnit; simp [h, Except.map]

example : (sample.changeUnit .x Sym.cm).map (fun g => (g.ax, g.ux)) = .ok ([0, 1/10, 3/10], Sym.cm) := by
  decide +kernel

end IMT.SF
