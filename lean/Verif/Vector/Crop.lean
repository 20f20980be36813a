import Verif.Vector.Geom

/-! Properties C107 (crop), C108 (origin and units), C109 (extend), C110 (iteration) of vector fields. -/

namespace IMT.VF
open SF (AxMap mul_size_iff)

variable {f g : VF}

/-! ### C107 -/

/-- C107: cropping keeps exactly the readings inside the window, bounds included, and the units. -/
theorem C107_crop_keeps_readings (hf : f.WF) {a b c d : Rat} (h : f.crop (some (a, b)) (some (c, d)) = .ok g) :
    (∀ x y r, g.Reads x y r ↔ f.Reads x y r ∧ (a ≤ x ∧ x ≤ b) ∧ (c ≤ y ∧ y ≤ d)) ∧
    g.ux = f.ux ∧ g.uy = f.uy ∧ g.uv = f.uv := by
  unfold crop at h
  simp only [interval] at h
  cases h1 : Axis.cropInds f.ax a b with
  | error e => rw [h1] at h; cases h
  | ok p =>
    obtain ⟨x0, x1⟩ := p
    cases h2 : Axis.cropInds f.ay c d with
    | error e => rw [h1, h2] at h; cases h
    | ok q =>
      obtain ⟨y0, y1⟩ := q
      rw [h1, h2] at h
      cases h
      refine ⟨?_, rfl, rfl, rfl⟩
      intro x y r
      rw [cut_reads]
      constructor
      · rintro ⟨i, j, hi, hj, hr, p, q⟩
        exact ⟨⟨i, j, hi, hj, hr⟩, (Axis.cropInds_window hf.incx h1 hi).mp p, (Axis.cropInds_window hf.incy h2 hj).mp q⟩
      · rintro ⟨⟨i, j, hi, hj, hr⟩, p, q⟩
        exact ⟨i, j, hi, hj, hr, (Axis.cropInds_window hf.incx h1 hi).mpr p, (Axis.cropInds_window hf.incy h2 hj).mpr q⟩

/-- C107: a window holding a grid point gives a consistent field. -/
theorem C107_crop_consistent (hf : f.WF) {a b c d : Rat} (h : f.crop (some (a, b)) (some (c, d)) = .ok g)
    (hx : ∃ x ∈ f.ax, a ≤ x ∧ x ≤ b) (hy : ∃ y ∈ f.ay, c ≤ y ∧ y ≤ d) : g.WF := by
  have hr := (C107_crop_keeps_readings hf h).1
  have hl : g.Loose := by
    unfold crop at h
    simp only [interval] at h
    cases h1 : Axis.cropInds f.ax a b with
    | error e => rw [h1] at h; cases h
    | ok p => cases h2 : Axis.cropInds f.ay c d with
      | error e => rw [h1, h2] at h; cases h
      | ok q => rw [h1, h2] at h; cases h; exact cut_loose hf.loose _ _ _ _
  obtain ⟨x, hx, hxw⟩ := hx
  obtain ⟨y, hy, hyw⟩ := hy
  obtain ⟨i, hi⟩ := List.getElem?_of_mem hx
  obtain ⟨j, hj⟩ := List.getElem?_of_mem hy
  obtain ⟨i', j', hi', hj', _⟩ := (hr x y _).mpr ⟨⟨i, j, hi, hj, rfl⟩, hxw, hyw⟩
  refine hl.wf ?_ ?_
  · intro e; rw [e] at hi'; simp at hi'
  · intro e; rw [e] at hj'; simp at hj'

/-- C107: a missing interval stands for the whole axis. -/
theorem C107_crop_missing_interval (hf : f.WF) {a b : Rat} :
    (f.crop (some (a, b)) none = .ok g → ∀ x y r, g.Reads x y r ↔ f.Reads x y r ∧ (a ≤ x ∧ x ≤ b)) ∧
    (f.crop none (some (a, b)) = .ok g → ∀ x y r, g.Reads x y r ↔ f.Reads x y r ∧ (a ≤ y ∧ y ≤ b)) := by
  have key : ∀ l : List Rat, Inc l → l ≠ [] → ∃ c d, interval l none = some (c, d) ∧ ∀ (j : Nat) y, l[j]? = some y → c ≤ y ∧ y ≤ d := by
    intro l hl hne
    obtain ⟨c, hc⟩ : ∃ c, l.head? = some c := by
      cases l with
      | nil => exact absurd rfl hne
      | cons c _ => exact ⟨c, rfl⟩
    obtain ⟨d, hd⟩ : ∃ c, l.getLast? = some c := ⟨_, List.getLast?_eq_some_getLast hne⟩
    refine ⟨c, d, by unfold interval; rw [hc, hd], fun j y hj => ⟨?_, ?_⟩⟩
    · rw [head?_eq_get0] at hc
      exact hl.get_le hc hj (Nat.zero_le _)
    · rw [getLast?_eq_get] at hd
      exact hl.get_le hj hd (by have := getElem?_some_lt hj; omega)
  constructor
  · intro h x y r
    obtain ⟨c, d, e, hcd⟩ := key f.ay hf.incy hf.ney
    have h' : f.crop (some (a, b)) (some (c, d)) = .ok g := by
      unfold crop at h ⊢
      rw [e] at h
      exact h
    rw [(C107_crop_keeps_readings hf h').1]
    constructor
    · rintro ⟨p, q, _⟩; exact ⟨p, q⟩
    · rintro ⟨⟨i, j, hi, hj, hr⟩, q⟩; exact ⟨⟨i, j, hi, hj, hr⟩, q, hcd j y hj⟩
  · intro h x y r
    obtain ⟨c, d, e, hcd⟩ := key f.ax hf.incx hf.nex
    have h' : f.crop (some (c, d)) (some (a, b)) = .ok g := by
      unfold crop at h ⊢
      rw [e] at h
      exact h
    rw [(C107_crop_keeps_readings hf h').1]
    constructor
    · rintro ⟨p, _, q⟩; exact ⟨p, q⟩
    · rintro ⟨⟨i, j, hi, hj, hr⟩, q⟩; exact ⟨⟨i, j, hi, hj, hr⟩, hcd i x hi, q⟩

/-- C107: crops by indices keep the points `a … b` and `c … d`, bounds included. -/
theorem C107_cropInd_keeps_readings {a b c d : Int} (ha : 0 ≤ a) (hab : a ≤ b) (hb : b ≠ 0)
    (hc : 0 ≤ c) (hcd : c ≤ d) (hd : d ≠ 0) :
    ∃ g, f.cropInd (some (a, b)) (some (c, d)) = .ok g ∧
      (∀ k : Nat, g.ax[k]? = if a + k ≤ b then f.ax[a.toNat + k]? else none) ∧
      (∀ k : Nat, g.ay[k]? = if c + k ≤ d then f.ay[c.toNat + k]? else none) ∧
      (∀ k l : Nat, g.cell k l = f.cell (a.toNat + k) (c.toNat + l)) ∧
      g.ux = f.ux ∧ g.uy = f.uy ∧ g.uv = f.uv := by
  have e1 : Axis.cropIndsInd a b = .ok (a.toNat, b.toNat) := by
    unfold Axis.cropIndsInd; rw [if_neg (by omega), if_neg (by omega)]
  have e2 : Axis.cropIndsInd c d = .ok (c.toNat, d.toNat) := by
    unfold Axis.cropIndsInd; rw [if_neg (by omega), if_neg (by omega)]
  refine ⟨f.cut a.toNat b.toNat c.toNat d.toNat, ?_, ?_, ?_, ?_, rfl, rfl, rfl⟩
  · unfold cropInd; simp only [Option.getD_some, e1, e2]
  · intro k
    simp only [cut]
    rw [slice_getElem?]
    by_cases h : a + k ≤ b
    · rw [if_pos h, if_pos (by omega)]
    · rw [if_neg h, if_neg (by omega)]
  · intro k
    simp only [cut]
    rw [slice_getElem?]
    by_cases h : c + k ≤ d
    · rw [if_pos h, if_pos (by omega)]
    · rw [if_neg h, if_neg (by omega)]
  · intro k l; exact cut_cell _ _ _ _ _ _ _

example : (match sample.crop (some (1/2, 3)) (some (0, 2)) with
    | .ok g => (g.ax, g.ay, g.cell 0 0, g.cell 1 0)
    | .error _ => ([], [], none, none)) =
    (([1, 3], [1/2], some (11, 1), some (21, 0)) : List Rat × List Rat × Option (Rat × Rat) × Option (Rat × Rat)) := by
  decide +kernel

/-! ### C108 -/

/-- C108: moving the origin shifts every reading and nothing else. -/
theorem C108_setOrigin_shifts (hf : f.WF) (ox oy : Option Rat) :
    (f.setOrigin ox oy).WF ∧
    (∀ x y r, (f.setOrigin ox oy).Reads x y r ↔ f.Reads (x + ox.getD 0) (y + oy.getD 0) r) ∧
    (f.setOrigin ox oy).ux = f.ux ∧ (f.setOrigin ox oy).uy = f.uy ∧ (f.setOrigin ox oy).uv = f.uv := by
  have e : f.setOrigin ox oy = { f with ax := f.ax.map (· - ox.getD 0), ay := f.ay.map (· - oy.getD 0) } := by
    unfold setOrigin; cases ox <;> cases oy <;> simp
  rw [e]
  refine ⟨⟨hf.incx.map_sub _, hf.incy.map_sub _, by simpa using hf.nex, by simpa using hf.ney, ?_, ?_, ?_, ?_, ?_, ?_, ?_, ?_⟩,
    ?_, rfl, rfl, rfl⟩
  · simpa using hf.xx
  · simpa using hf.xy
  · simpa using hf.yx
  · simpa using hf.yy
  · simpa using hf.mx
  · simpa using hf.my
  · intro i j hi hj h; exact hf.nanx i j (by simpa using hi) (by simpa using hj) h
  · intro i j hi hj h; exact hf.nany i j (by simpa using hi) (by simpa using hj) h
  · intro x y r
    refine Iff.trans (reads_axmap (f := f) (ψ := fun r => r) (φx := (· - ox.getD 0)) (φy := (· - oy.getD 0))
      (σx := fun i => i) (σy := fun i => i) ?_ ?_ ?_ x y r) ?_
    · exact AxMap.map _ _
    · exact AxMap.map _ _
    · exact fun i j _ _ => rfl
    constructor
    · rintro ⟨x', y', r', h, rfl, rfl, rfl⟩
      simpa using h
    · intro h; exact ⟨_, _, _, h, by simp, by simp, rfl⟩

/-- A vector times a number. -/
def smul (q : Rat) (w : Rat × Rat) : Rat × Rat := (w.1 * q, w.2 * q)

theorem smul_size_iff {r s : Option (Rat × Rat)} {u n : Rat} (hn : 0 < n) :
    r.map (smul n) = s.map (smul u) ↔ r = s.map (smul (u / n)) := by
  cases r <;> cases s <;> simp [smul, mul_size_iff hn, Prod.ext_iff]

theorem smul_same_iff {r s : Option (Rat × Rat)} {n : Rat} (hn : 0 < n) : r.map (smul n) = s.map (smul n) ↔ r = s := by
  rw [smul_size_iff hn]
  cases s <;> simp [smul, div_self (ne_of_gt hn)]

theorem map_cell {cx cy : Grid (Option Rat)} {q : Rat} {u : Sym} (hx : cx = f.cx.map (Option.map (· * q)))
    (hy : cy = f.cy.map (Option.map (· * q))) (i j : Nat) :
    ({ f with cx := cx, cy := cy, uv := u } : VF).cell i j = (f.cell i j).map (smul q) := by
  subst hx; subst hy
  unfold cell
  simp only [Grid.map]
  by_cases h : f.mask.get i j = true
  · simp [h]
  · simp only [h, Bool.false_eq_true, if_false]
    cases f.cx.get i j <;> cases f.cy.get i j <;> rfl

/-- C108: changing a unit keeps the physical position (number times size of the unit) and the physical vector of every
reading. -/
theorem C108_changeUnit_physical (hf : f.WF) (hpx : 0 < f.ux.size) (hpy : 0 < f.uy.size)
    (hpv : 0 < f.uv.size) {w : SF.Which} {new : Sym} (hn : 0 < new.size) (h : f.changeUnit w new = .ok g) :
    g.WF ∧
    (∀ x' y' r', g.Reads x' y' r' ↔ ∃ x y r, f.Reads x y r ∧ x' * g.ux.size = x * f.ux.size ∧
      y' * g.uy.size = y * f.uy.size ∧ r'.map (smul g.uv.size) = r.map (smul f.uv.size)) ∧
    (match w with
      | .x => g.ux = new ∧ g.uy = f.uy ∧ g.uv = f.uv
      | .y => g.ux = f.ux ∧ g.uy = new ∧ g.uv = f.uv
      | .values => g.ux = f.ux ∧ g.uy = f.uy ∧ g.uv = new) ∧
    0 < g.ux.size ∧ 0 < g.uy.size ∧ 0 < g.uv.size := by
  cases w with
  | x =>
    unfold changeUnit Unum.asUnit at h
    simp only at h
    split at h
    · cases h
      refine ⟨⟨hf.incx.map_mul_pos ?_, hf.incy, by simpa using hf.nex, hf.ney, ?_, hf.xy, ?_, hf.yy, ?_, hf.my, ?_, ?_⟩, ?_,
        ⟨rfl, rfl, rfl⟩, hn, hpy, hpv⟩
      · simp only [one_mul]; positivity
      · simpa using hf.xx
      · simpa using hf.yx
      · simpa using hf.mx
      · intro i j hi hj h; exact hf.nanx i j (by simpa using hi) hj h
      · intro i j hi hj h; exact hf.nany i j (by simpa using hi) hj h
      · intro x' y' r'
        refine Iff.trans (reads_axmap (f := f) (ψ := fun r => r) (φx := (· * (1 * f.ux.size / new.size)))
          (φy := fun y => y) (σx := fun i => i) (σy := fun i => i) ?_ ?_ ?_ x' y' r') ?_
        · exact AxMap.map _ _
        · exact AxMap.id _
        · exact fun i j _ _ => rfl
        simp only [one_mul, mul_size_iff hn, smul_same_iff hpv, mul_left_inj' (ne_of_gt hpy)]
    · cases h
  | y =>
    unfold changeUnit Unum.asUnit at h
    simp only at h
    split at h
    · cases h
      refine ⟨⟨hf.incx, hf.incy.map_mul_pos ?_, hf.nex, by simpa using hf.ney, hf.xx, ?_, hf.yx, ?_, hf.mx, ?_, ?_, ?_⟩, ?_,
        ⟨rfl, rfl, rfl⟩, hpx, hn, hpv⟩
      · simp only [one_mul]; positivity
      · simpa using hf.xy
      · simpa using hf.yy
      · simpa using hf.my
      · intro i j hi hj h; exact hf.nanx i j hi (by simpa using hj) h
      · intro i j hi hj h; exact hf.nany i j hi (by simpa using hj) h
      · intro x' y' r'
        refine Iff.trans (reads_axmap (f := f) (ψ := fun r => r) (φx := fun x => x)
          (φy := (· * (1 * f.uy.size / new.size))) (σx := fun i => i) (σy := fun i => i) ?_ ?_ ?_ x' y' r') ?_
        · exact AxMap.id _
        · exact AxMap.map _ _
        · exact fun i j _ _ => rfl
        simp only [one_mul, mul_size_iff hn, smul_same_iff hpv, mul_left_inj' (ne_of_gt hpx)]
    · cases h
  | values =>
    unfold changeUnit Unum.asUnit at h
    simp only at h
    split at h
    · cases h
      refine ⟨⟨hf.incx, hf.incy, hf.nex, hf.ney, hf.xx, hf.xy, hf.yx, hf.yy, hf.mx, hf.my, ?_, ?_⟩, ?_,
        ⟨rfl, rfl, rfl⟩, hpx, hpy, hn⟩
      · intro i j hi hj h; exact hf.nanx i j hi hj (by simpa [Grid.map] using h)
      · intro i j hi hj h; exact hf.nany i j hi hj (by simpa [Grid.map] using h)
      intro x' y' r'
      refine Iff.trans (reads_axmap (f := f) (ψ := fun r => r.map (smul (1 * f.uv.size / new.size)))
          (φx := fun x => x) (φy := fun y => y) (σx := fun i => i) (σy := fun i => i) ?_ ?_ ?_ x' y' r') ?_
      · exact AxMap.id _
      · exact AxMap.id _
      · exact fun i j _ _ => map_cell rfl rfl i j
      simp only [one_mul, smul_size_iff hn, mul_left_inj' (ne_of_gt hpx), mul_left_inj' (ne_of_gt hpy)]
    · cases h

/-- C108: changing to a unit of another dimension is refused. -/
theorem C108_changeUnit_refused {new : Sym} :
    (¬ f.ux.Compat new → f.changeUnit .x new = .error .valueError) ∧
    (¬ f.uy.Compat new → f.changeUnit .y new = .error .valueError) ∧
    (¬ f.uv.Compat new → f.changeUnit .values new = .error .valueError) := by
  refine ⟨?_, ?_, ?_⟩ <;> intro h <;> unfold changeUnit Unum.asUnit <;> simp [h, Except.map]

example : (match sample.changeUnit .values (Sym.cm.div Sym.s) with
    | .ok g => (g.cell 1 1, g.uv)
    | .error _ => (none, Sym.one)) = (some (1100, 100), Sym.cm.div Sym.s) := by decide +kernel

/-! ### C109 -/

/-- C109: extending keeps every reading at its coordinates; the new points are masked. -/
theorem C109_extend_reads (hf : f.WF) (h2x : 2 ≤ f.ax.length) (h2y : 2 ≤ f.ay.length) (nl nr nu nd : Nat) :
    ∃ g, f.extend nl nr nu nd = .ok g ∧ g.WF ∧
      (∀ x y r, x ∈ f.ax → y ∈ f.ay → (g.Reads x y r ↔ f.Reads x y r)) ∧
      (∀ x y r, g.Reads x y r → ¬ (x ∈ f.ax ∧ y ∈ f.ay) → r = none) ∧
      g.ax.length = nl + f.ax.length + nr ∧ g.ay.length = nd + f.ay.length + nu ∧
      g.ux = f.ux ∧ g.uy = f.uy ∧ g.uv = f.uv := by
  obtain ⟨ax, ex, ix, lx, ox, _⟩ := Axis.extend_spec hf.incx h2x nl nr
  obtain ⟨ay, ey, iy, ly, oy, _⟩ := Axis.extend_spec hf.incy h2y nd nu
  have e : f.extend nl nr nu nd = .ok
      { f with ax := ax, ay := ay, cx := SF.padGrid f.cx nl nr nd nu (some 0),
               cy := SF.padGrid f.cy nl nr nd nu (some 0), mask := SF.padGrid f.mask nl nr nd nu true } := by
    unfold extend; rw [ex, ey]
  have hin : ∀ {α : Type} (g : Grid α) (d : α) i j, g.nx = f.ax.length → g.ny = f.ay.length → i < f.ax.length → j < f.ay.length →
      (SF.padGrid g nl nr nd nu d).get (nl + i) (nd + j) = g.get i j := by
    intro α g d i j h1 h2 hi hj
    have hc : nl ≤ nl + i ∧ nl + i < nl + f.ax.length ∧ nd ≤ nd + j ∧ nd + j < nd + f.ay.length := by omega
    simp only [SF.padGrid, h1, h2, if_pos hc]
    rw [Nat.add_sub_cancel_left, Nat.add_sub_cancel_left]
  have hout : ∀ {α : Type} (g : Grid α) (d : α) i j, g.nx = f.ax.length → g.ny = f.ay.length →
      ¬ (nl ≤ i ∧ i < nl + f.ax.length ∧ nd ≤ j ∧ j < nd + f.ay.length) → (SF.padGrid g nl nr nd nu d).get i j = d := by
    intro α g d i j h1 h2 hc
    simp only [SF.padGrid, h1, h2, if_neg hc]
  have idxx : ∀ i x, ax[i]? = some x → x ∈ f.ax → nl ≤ i ∧ i < nl + f.ax.length ∧ f.ax[i - nl]? = some x := by
    intro i x hi hx
    obtain ⟨k, hk⟩ := List.getElem?_of_mem hx
    have lk := getElem?_some_lt hk
    have h1 := ox k lk
    rw [hk] at h1
    have := ix.idx_inj hi h1
    subst this
    exact ⟨by omega, by omega, by rw [Nat.add_sub_cancel_left]; exact hk⟩
  have idxy : ∀ i x, ay[i]? = some x → x ∈ f.ay → nd ≤ i ∧ i < nd + f.ay.length ∧ f.ay[i - nd]? = some x := by
    intro i x hi hx
    obtain ⟨k, hk⟩ := List.getElem?_of_mem hx
    have lk := getElem?_some_lt hk
    have h1 := oy k lk
    rw [hk] at h1
    have := iy.idx_inj hi h1
    subst this
    exact ⟨by omega, by omega, by rw [Nat.add_sub_cancel_left]; exact hk⟩
  have hcell : ∀ i j, i < f.ax.length → j < f.ay.length →
      ({ f with ax := ax, ay := ay, cx := SF.padGrid f.cx nl nr nd nu (some 0),
                cy := SF.padGrid f.cy nl nr nd nu (some 0), mask := SF.padGrid f.mask nl nr nd nu true } : VF).cell (nl + i) (nd + j)
        = f.cell i j := by
    intro i j hi hj
    unfold cell
    simp only [hin f.cx _ i j hf.xx hf.xy hi hj, hin f.cy _ i j hf.yx hf.yy hi hj, hin f.mask _ i j hf.mx hf.my hi hj]
  refine ⟨_, e, ⟨ix, iy, ?_, ?_, ?_, ?_, ?_, ?_, ?_, ?_, ?_, ?_⟩, ?_, ?_, lx, ly, rfl, rfl, rfl⟩
  · intro h; simp only at h; rw [h] at lx; simp at lx; omega
  · intro h; simp only at h; rw [h] at ly; simp at ly; omega
  · simp [SF.padGrid, hf.xx, lx]
  · simp [SF.padGrid, hf.xy, ly]
  · simp [SF.padGrid, hf.yx, lx]
  · simp [SF.padGrid, hf.yy, ly]
  · simp [SF.padGrid, hf.mx, lx]
  · simp [SF.padGrid, hf.my, ly]
  · intro i j hi hj h
    by_cases hc : nl ≤ i ∧ i < nl + f.ax.length ∧ nd ≤ j ∧ j < nd + f.ay.length
    · simp only at h ⊢
      rw [show i = nl + (i - nl) by omega, show j = nd + (j - nd) by omega] at h ⊢
      rw [hin _ _ _ _ hf.xx hf.xy (by omega) (by omega)] at h
      rw [hin _ _ _ _ hf.mx hf.my (by omega) (by omega)]
      exact hf.nanx _ _ (by omega) (by omega) h
    · exact hout _ _ i j hf.mx hf.my hc
  · intro i j hi hj h
    by_cases hc : nl ≤ i ∧ i < nl + f.ax.length ∧ nd ≤ j ∧ j < nd + f.ay.length
    · simp only at h ⊢
      rw [show i = nl + (i - nl) by omega, show j = nd + (j - nd) by omega] at h ⊢
      rw [hin _ _ _ _ hf.yx hf.yy (by omega) (by omega)] at h
      rw [hin _ _ _ _ hf.mx hf.my (by omega) (by omega)]
      exact hf.nany _ _ (by omega) (by omega) h
    · exact hout _ _ i j hf.mx hf.my hc
  · intro x y r hx hy
    constructor
    · rintro ⟨i, j, hi, hj, rfl⟩
      obtain ⟨a1, a2, a3⟩ := idxx i x hi hx
      obtain ⟨b1, b2, b3⟩ := idxy j y hj hy
      refine ⟨i - nl, j - nd, a3, b3, ?_⟩
      rw [← hcell (i - nl) (j - nd) (by omega) (by omega), show nl + (i - nl) = i by omega, show nd + (j - nd) = j by omega]
    · rintro ⟨i, j, hi, hj, rfl⟩
      have li := getElem?_some_lt hi
      have lj := getElem?_some_lt hj
      exact ⟨nl + i, nd + j, by rw [ox i li, hi], by rw [oy j lj, hj], hcell i j li lj⟩
  · intro x y r h hn
    obtain ⟨i, j, hi, hj, rfl⟩ := h
    apply cell_masked
    refine hout f.mask true i j hf.mx hf.my ?_
    rintro ⟨a1, a2, a3, a4⟩
    apply hn
    simp only at hi hj
    constructor
    · have := ox (i - nl) (by omega)
      rw [show nl + (i - nl) = i by omega, hi] at this
      exact List.mem_of_getElem? this.symm
    · have := oy (j - nd) (by omega)
      rw [show nd + (j - nd) = j by omega, hj] at this
      exact List.mem_of_getElem? this.symm

example : (match sample.extend 1 2 0 1 with
    | .ok g => (g.ax, g.ay, [g.cell 0 0, g.cell 1 1, g.cell 1 2, g.cell 3 2])
    | .error _ => ([], [], [])) =
    (([-1, 0, 1, 3, 5, 7], [-5/2, -1, 1/2], [none, some (0, 2), none, some (21, 0)]) : List Rat × List Rat × List (Option (Rat × Rat))) := by
  decide +kernel

/-! ### C110 -/

/-- C110: iterating over a field yields exactly the unmasked points, each with its indices, its coordinates and the two
components of its vector. -/
theorem C110_iter_complete (hf : f.WF) (i j : Nat) (x y : Rat) (u v : Option Rat) :
    ((i, j), (x, y), (u, v)) ∈ f.iter ↔
      f.ax[i]? = some x ∧ f.ay[j]? = some y ∧ ∃ a b, f.cell i j = some (a, b) ∧ u = some a ∧ v = some b := by
  unfold iter
  simp only [List.mem_filterMap, Prod.exists]
  constructor
  · rintro ⟨a, b, hm, h⟩
    simp only [List.mem_flatMap, List.mem_range, List.mem_map, Prod.mk.injEq] at hm
    obtain ⟨a', ha, b', hb, rfl, rfl⟩ := hm
    rw [List.getElem?_eq_getElem ha, List.getElem?_eq_getElem hb] at h
    simp only at h
    rcases hf.cell_cases ha hb with ⟨h1, h2⟩ | ⟨h1, p, q, h3, h4, h5⟩
    · rw [if_pos h1] at h; cases h
    · rw [h1, h3, h4] at h
      simp only [Bool.false_eq_true, if_false, Option.some.injEq, Prod.mk.injEq] at h
      obtain ⟨⟨rfl, rfl⟩, ⟨rfl, rfl⟩, rfl, rfl⟩ := h
      exact ⟨List.getElem?_eq_getElem ha, List.getElem?_eq_getElem hb, p, q, h5, rfl, rfl⟩
  · rintro ⟨hx, hy, a, b, hc, rfl, rfl⟩
    have li := getElem?_some_lt hx
    have lj := getElem?_some_lt hy
    refine ⟨i, j, ?_, ?_⟩
    · simp only [List.mem_flatMap, List.mem_range, List.mem_map, Prod.mk.injEq]
      exact ⟨i, li, j, lj, rfl, rfl⟩
    · rw [hx, hy]
      rcases hf.cell_cases li lj with ⟨h1, h2⟩ | ⟨h1, p, q, h3, h4, h5⟩
      · rw [h2] at hc; cases hc
      · rw [h5] at hc
        cases hc
        simp [h1, h3, h4]

example : sample.iter.length = 5 := by decide +kernel

end IMT.VF
