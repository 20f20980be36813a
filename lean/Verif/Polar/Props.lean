import Verif.Polar.Model
import Verif.Mirror.Vec
import Verif.Vector.Geom

/-!
Properties C215 (magnitude), C216 (angle), C217 (smallest and largest magnitude), C218 (components and mask as scalar fields).
-/

namespace IMT.Polar

open Real

variable {f : VF}

/-! ### helper lemmas -/

theorem cell_some {i j : Nat} {u v : Rat} (h : f.cell i j = some (u, v)) :
    f.mask.get i j = false ∧ f.cx.get i j = some u ∧ f.cy.get i j = some v := by
  unfold VF.cell at h
  by_cases hm : f.mask.get i j = true
  · rw [if_pos hm] at h; cases h
  · rw [if_neg hm] at h
    cases hu : f.cx.get i j with
    | none => simp [hu] at h
    | some a => cases hv : f.cy.get i j with
      | none => simp [hu, hv] at h
      | some b =>
        simp only [hu, hv, Option.some.injEq, Prod.mk.injEq] at h
        exact ⟨by simpa using hm, by rw [h.1], by rw [h.2]⟩

theorem magnitude_some {i j : Nat} {u v : Rat} (h : f.cell i j = some (u, v)) :
    (magnitude f).get i j = some √((u : ℝ) ^ 2 + (v : ℝ) ^ 2) := by
  obtain ⟨h1, h2, h3⟩ := cell_some h
  simp [magnitude, h1, h2, h3, norm2]

theorem magnitude_none (hf : f.WF) {i j : Nat} (hi : i < f.ax.length) (hj : j < f.ay.length) (h : f.cell i j = none) :
    f.mask.get i j = true ∧ (magnitude f).get i j = none := by
  have hm : f.mask.get i j = true := by rw [hf.cellMask hi hj, h]; rfl
  exact ⟨hm, by simp [magnitude, hm]⟩

theorem theta_some {i j : Nat} {u v : Rat} (h : f.cell i j = some (u, v)) : (theta f).get i j = some (Pbi.theta u v) := by
  obtain ⟨h1, h2, h3⟩ := cell_some h
  have hm := magnitude_some h
  simp only [theta, h1, h2, h3, hm, acos, below, nonNull, Bool.not_false, Bool.true_and, decide_eq_true_eq, Option.map_some]
  unfold Pbi.theta
  by_cases h0 : (u : ℝ) ^ 2 + (v : ℝ) ^ 2 = 0
  · rw [if_pos h0, if_neg (by simp [h0])]
  · rw [if_neg h0, if_pos (Pbi.norm_pos h0).ne']
    by_cases hv : v < 0
    · rw [if_pos hv, if_pos (by exact_mod_cast hv)]
    · rw [if_neg hv, if_neg (by exact_mod_cast hv)]

theorem theta_none (hf : f.WF) {i j : Nat} (hi : i < f.ax.length) (hj : j < f.ay.length) (h : f.cell i j = none) : (theta f).get i j = some 0 := by
  have hm : f.mask.get i j = true := by rw [hf.cellMask hi hj, h]; rfl
  simp [theta, hm]

/-! ### C215 -/

/-- C215, for fields with at least two points in each direction: the magnitude is a field on the same points, masked at the same points, which shows the
length of the vector at each other point. -/
theorem C215_magnitude_partial (hf : f.WF) (hx : 2 ≤ f.ax.length) (hy : 2 ≤ f.ay.length) :
    ∃ g, magnitudeAsSf f = .ok g ∧ g.ax = f.ax ∧ g.ay = f.ay ∧ g.ux = f.ux ∧ g.uy = f.uy ∧ g.uv = f.uv ∧
      (∀ x y, f.Reads x y none → ∀ r, g.Reads x y r ↔ r = none) ∧
      (∀ x y u v, f.Reads x y (some (u, v)) → ∃ m : ℝ, (∀ r, g.Reads x y r ↔ r = some m) ∧ 0 ≤ m ∧ m ^ 2 = u ^ 2 + v ^ 2) := by
  have e : magnitudeAsSf f = .ok ⟨f.ax, f.ay, magnitude f, ⟨f.mask.nx, f.mask.ny, fun i j => f.mask.get i j || ((magnitude f).get i j).isNone⟩,
      f.ux, f.uy, f.uv⟩ := by
    unfold magnitudeAsSf imported; rw [if_neg (by omega)]
  refine ⟨_, e, rfl, rfl, rfl, rfl, rfl, ?_, ?_⟩
  · rintro x y ⟨i, j, hi, hj, hc⟩ r
    obtain ⟨hm, hn⟩ := magnitude_none hf (getElem?_some_lt hi) (getElem?_some_lt hj) hc
    constructor
    · rintro ⟨i', j', hi', hj', rfl⟩
      obtain rfl := hf.incx.idx_inj' hi hi'
      obtain rfl := hf.incy.idx_inj' hj hj'
      simp [hm]
    · rintro rfl
      exact ⟨i, j, hi, hj, by simp [hm]⟩
  · rintro x y u v ⟨i, j, hi, hj, hc⟩
    have hm := (cell_some hc).1
    have hn := magnitude_some hc
    refine ⟨√((u : ℝ) ^ 2 + (v : ℝ) ^ 2), fun r => ?_, sqrt_nonneg _, sq_sqrt (by positivity)⟩
    constructor
    · rintro ⟨i', j', hi', hj', rfl⟩
      obtain rfl := hf.incx.idx_inj' hi hi'
      obtain rfl := hf.incy.idx_inj' hj hj'
      simp [hm, hn]
    · rintro rfl
      exact ⟨i, j, hi, hj, by simp [hm, hn]⟩

/-- C215 fails for fields of one line or one column: IndexError. -/
theorem C215_line_violated (h : f.ax.length < 2 ∨ f.ay.length < 2) : magnitudeAsSf f = .error .indexError := by
  unfold magnitudeAsSf imported; rw [if_pos (by omega)]

/-! ### C216 -/

/-- C216, at the points that are not masked of fields with at least two points in each direction: the angle `t` is in [0, 2π[ and the vector is
`m (cos t, sin t)`, `m` being its magnitude; null vectors have the angle 0. -/
theorem C216_theta_partial (hf : f.WF) (hx : 2 ≤ f.ax.length) (hy : 2 ≤ f.ay.length) :
    ∃ g k, thetaAsSf f = .ok g ∧ magnitudeAsSf f = .ok k ∧ g.ax = f.ax ∧ g.ay = f.ay ∧ g.ux = f.ux ∧ g.uy = f.uy ∧
      (∀ x y u v, f.Reads x y (some (u, v)) → ∃ t m : ℝ, (∀ r, g.Reads x y r ↔ r = some t) ∧ k.Reads x y (some m) ∧
        0 ≤ t ∧ t < 2 * π ∧ m * cos t = u ∧ m * sin t = v ∧ (m = 0 → t = 0)) := by
  have e : thetaAsSf f = .ok ⟨f.ax, f.ay, theta f, ⟨f.ax.length, f.ay.length, fun i j => false || ((theta f).get i j).isNone⟩,
      f.ux, f.uy, f.uv⟩ := by
    unfold thetaAsSf imported; rw [if_neg (by omega)]
  have e' : magnitudeAsSf f = .ok ⟨f.ax, f.ay, magnitude f, ⟨f.mask.nx, f.mask.ny, fun i j => f.mask.get i j || ((magnitude f).get i j).isNone⟩,
      f.ux, f.uy, f.uv⟩ := by
    unfold magnitudeAsSf imported; rw [if_neg (by omega)]
  refine ⟨_, _, e, e', rfl, rfl, rfl, rfl, ?_⟩
  rintro x y u v ⟨i, j, hi, hj, hc⟩
  have hm := (cell_some hc).1
  have hn := magnitude_some hc
  have ht := theta_some hc
  obtain ⟨r1, r2⟩ := Pbi.theta_range u v
  obtain ⟨s1, s2⟩ := Pbi.theta_spec u v
  refine ⟨Pbi.theta u v, √((u : ℝ) ^ 2 + (v : ℝ) ^ 2), fun r => ?_, ⟨i, j, hi, hj, by simp [hm, hn]⟩, r1, r2, s1, s2, ?_⟩
  · constructor
    · rintro ⟨i', j', hi', hj', rfl⟩
      obtain rfl := hf.incx.idx_inj' hi hi'
      obtain rfl := hf.incy.idx_inj' hj hj'
      simp [ht]
    · rintro rfl
      exact ⟨i, j, hi, hj, by simp [ht]⟩
  · intro h0
    have : (u : ℝ) ^ 2 + (v : ℝ) ^ 2 = 0 := by
      have := congrArg (fun z => z ^ 2) h0
      rw [sq_sqrt (by positivity)] at this
      simpa using this
    unfold Pbi.theta
    rw [if_pos this]

/-- C216 fails at masked points: the angle field is not masked there, it shows the angle 0. -/
theorem C216_masked_violated (hf : f.WF) (hx : 2 ≤ f.ax.length) (hy : 2 ≤ f.ay.length) :
    ∃ g, thetaAsSf f = .ok g ∧ ∀ x y, f.Reads x y none → g.Reads x y (some 0) := by
  have e : thetaAsSf f = .ok ⟨f.ax, f.ay, theta f, ⟨f.ax.length, f.ay.length, fun i j => false || ((theta f).get i j).isNone⟩,
      f.ux, f.uy, f.uv⟩ := by
    unfold thetaAsSf imported; rw [if_neg (by omega)]
  refine ⟨_, e, ?_⟩
  rintro x y ⟨i, j, hi, hj, hc⟩
  have ht := theta_none hf (getElem?_some_lt hi) (getElem?_some_lt hj) hc
  exact ⟨i, j, hi, hj, by simp [ht]⟩

/-- C216 fails for the unit: the angles bear the unit of the vectors. -/
theorem C216_unit_violated {g : RSF} (h : thetaAsSf f = .ok g) : g.uv = f.uv := by
  unfold thetaAsSf imported at h
  split at h
  · cases h
  · cases h; rfl

/-! ### C217 -/

theorem mem_speeds (hf : f.WF) {s : Option ℝ} :
    s ∈ speeds f ↔ ∃ x y u v, f.Reads x y (some (u, v)) ∧ s = some √((u : ℝ) ^ 2 + (v : ℝ) ^ 2) := by
  unfold speeds
  simp only [List.mem_map, List.mem_filter, List.mem_flatMap, List.mem_range, Bool.not_eq_true', Prod.exists, Prod.mk.injEq]
  constructor
  · rintro ⟨i, j, ⟨⟨i', hi, j', hj, rfl, rfl⟩, hm⟩, rfl⟩
    have hc := hf.cellMask hi hj
    rw [hm] at hc
    cases hr : f.cell i' j' with
    | none => simp [hr] at hc
    | some w =>
      obtain ⟨u, v⟩ := w
      exact ⟨_, _, u, v, ⟨i', j', List.getElem?_eq_getElem hi, List.getElem?_eq_getElem hj, hr⟩, magnitude_some hr⟩
  · rintro ⟨x, y, u, v, ⟨i, j, hi, hj, hc⟩, rfl⟩
    exact ⟨i, j, ⟨⟨i, getElem?_some_lt hi, j, getElem?_some_lt hj, rfl, rfl⟩, (cell_some hc).1⟩, magnitude_some hc⟩

theorem fold_extreme {pick : ℝ → ℝ → ℝ} {R : ℝ → ℝ → Prop} (hr : ∀ a, R a a) (ht : ∀ a b c, R a b → R b c → R a c) (hl : ∀ a b, R (pick a b) a)
    (hl' : ∀ a b, R (pick a b) b) (hp : ∀ a b, pick a b = a ∨ pick a b = b) (l : List (Option ℝ)) (a : ℝ) (hn : none ∉ l) :
    ∃ m, l.foldl (pickN pick) (some a) = some m ∧ (m = a ∨ some m ∈ l) ∧ R m a ∧ ∀ b, some b ∈ l → R m b := by
  induction l generalizing a with
  | nil => exact ⟨a, rfl, .inl rfl, hr a, by simp⟩
  | cons c l ih =>
    cases c with
    | none => simp at hn
    | some c =>
      obtain ⟨m, e, h1, h2, h3⟩ := ih (pick a c) (fun h => hn (List.mem_cons_of_mem _ h))
      refine ⟨m, e, ?_, ht _ _ _ h2 (hl a c), ?_⟩
      · rcases h1 with rfl | h1
        · rcases hp a c with h | h
          · exact .inl h
          · exact .inr (by simp [h])
        · exact .inr (List.mem_cons_of_mem _ h1)
      · intro b hb
        rcases List.mem_cons.mp hb with hb | hb
        · cases hb; exact ht _ _ _ h2 (hl' a _)
        · exact h3 b hb

theorem extreme_ok {pick : ℝ → ℝ → ℝ} {R : ℝ → ℝ → Prop} (hr : ∀ a, R a a) (ht : ∀ a b c, R a b → R b c → R a c) (hl : ∀ a b, R (pick a b) a)
    (hl' : ∀ a b, R (pick a b) b) (hp : ∀ a b, pick a b = a ∨ pick a b = b) {l : List (Option ℝ)} (hn : none ∉ l) (hne : l ≠ []) :
    ∃ m, extreme pick l = .ok (some m) ∧ some m ∈ l ∧ ∀ b, some b ∈ l → R m b := by
  cases l with
  | nil => exact absurd rfl hne
  | cons a l =>
    cases a with
    | none => simp at hn
    | some a =>
      obtain ⟨m, e, h1, h2, h3⟩ := fold_extreme hr ht hl hl' hp l a (fun h => hn (List.mem_cons_of_mem _ h))
      refine ⟨m, by simp only [extreme, e], ?_, ?_⟩
      · rcases h1 with rfl | h1
        · simp
        · exact List.mem_cons_of_mem _ h1
      · intro b hb
        rcases List.mem_cons.mp hb with hb | hb
        · cases hb; exact h2
        · exact h3 b hb

theorem speeds_none (hf : f.WF) : none ∉ speeds f := by
  rw [mem_speeds hf]
  rintro ⟨_, _, _, _, -, h⟩
  cases h

/-- C217: `min` is the magnitude of some vector of the field, and no vector is shorter. -/
theorem C217_min (hf : f.WF) (h : ∃ x y w, f.Reads x y (some w)) :
    ∃ m : ℝ, vmin f = .ok (some m) ∧ (∃ x y u v, f.Reads x y (some (u, v)) ∧ m = √((u : ℝ) ^ 2 + (v : ℝ) ^ 2)) ∧
      ∀ x y u v, f.Reads x y (some (u, v)) → m ≤ √((u : ℝ) ^ 2 + (v : ℝ) ^ 2) := by
  obtain ⟨x, y, ⟨u, v⟩, h⟩ := h
  have hne : speeds f ≠ [] := List.ne_nil_of_mem ((mem_speeds hf).mpr ⟨x, y, u, v, h, rfl⟩)
  obtain ⟨m, e, h1, h2⟩ := extreme_ok (R := (· ≤ ·)) (pick := min) le_refl (fun _ _ _ => le_trans) min_le_left min_le_right min_choice (speeds_none hf) hne
  refine ⟨m, e, ?_, fun x y u v h => h2 _ ((mem_speeds hf).mpr ⟨x, y, u, v, h, rfl⟩)⟩
  obtain ⟨x, y, u, v, h, e⟩ := (mem_speeds hf).mp h1
  exact ⟨x, y, u, v, h, Option.some.inj e⟩

/-- C217: `max` is the magnitude of some vector of the field, and no vector is longer. -/
theorem C217_max (hf : f.WF) (h : ∃ x y w, f.Reads x y (some w)) :
    ∃ m : ℝ, vmax f = .ok (some m) ∧ (∃ x y u v, f.Reads x y (some (u, v)) ∧ m = √((u : ℝ) ^ 2 + (v : ℝ) ^ 2)) ∧
      ∀ x y u v, f.Reads x y (some (u, v)) → √((u : ℝ) ^ 2 + (v : ℝ) ^ 2) ≤ m := by
  obtain ⟨x, y, ⟨u, v⟩, h⟩ := h
  have hne : speeds f ≠ [] := List.ne_nil_of_mem ((mem_speeds hf).mpr ⟨x, y, u, v, h, rfl⟩)
  obtain ⟨m, e, h1, h2⟩ := extreme_ok (R := fun a b => b ≤ a) (pick := max) le_refl (fun _ _ _ h k => le_trans k h) le_max_left le_max_right max_choice
    (speeds_none hf) hne
  refine ⟨m, e, ?_, fun x y u v h => h2 _ ((mem_speeds hf).mpr ⟨x, y, u, v, h, rfl⟩)⟩
  obtain ⟨x, y, u, v, h, e⟩ := (mem_speeds hf).mp h1
  exact ⟨x, y, u, v, h, Option.some.inj e⟩

/-- C217: a field masked everywhere has no smallest nor largest magnitude: ValueError. -/
theorem C217_masked (hf : f.WF) (h : ∀ x y r, f.Reads x y r → r = none) : vmin f = .error .valueError ∧ vmax f = .error .valueError := by
  have : speeds f = [] := by
    refine List.eq_nil_iff_forall_not_mem.mpr fun s hs => ?_
    obtain ⟨x, y, u, v, hr, -⟩ := (mem_speeds hf).mp hs
    cases h _ _ _ hr
  unfold vmin vmax
  rw [this]
  exact ⟨rfl, rfl⟩

/-! ### C218 -/

open Mirror (compX compY)

/-- C218, for fields with at least two points in each direction: the components and the mask are fields on the same points. The first show the
components where the field shows a vector and are masked elsewhere; the last shows 1 where the field is masked, 0 elsewhere. -/
theorem C218_parts_partial (hf : f.WF) (hx : 2 ≤ f.ax.length) (hy : 2 ≤ f.ay.length) :
    ∃ a b m, compX f = .ok a ∧ compY f = .ok b ∧ maskAsSf f = .ok m ∧ a.WF ∧ b.WF ∧ m.WF ∧
      (∀ x y r, a.Reads x y r ↔ ∃ w, f.Reads x y w ∧ r = w.map Prod.fst) ∧
      (∀ x y r, b.Reads x y r ↔ ∃ w, f.Reads x y w ∧ r = w.map Prod.snd) ∧
      (∀ x y r, m.Reads x y r ↔ ∃ w, f.Reads x y w ∧ r = some (if w = none then 1 else 0)) ∧
      (a.ux = f.ux ∧ a.uy = f.uy ∧ a.uv = f.uv) ∧ (b.ux = f.ux ∧ b.uy = f.uy ∧ b.uv = f.uv) := by
  obtain ⟨a, ha, wa, ra, ua⟩ := SF.C15_import_reads_partial (m := .array f.mask) (ux := f.ux) (uy := f.uy) (uv := f.uv) hf.xx hf.xy hx hy
    ⟨by rw [hf.mx, hf.xx], by rw [hf.my, hf.xy]⟩ (.inl hf.incx) (.inl hf.incy) (.inl ⟨hf.incx, hf.incy⟩)
  obtain ⟨b, hb, wb, rb, ub⟩ := SF.C15_import_reads_partial (m := .array f.mask) (ux := f.ux) (uy := f.uy) (uv := f.uv) hf.yx hf.yy hx hy
    ⟨by rw [hf.mx, hf.yx], by rw [hf.my, hf.yy]⟩ (.inl hf.incx) (.inl hf.incy) (.inl ⟨hf.incx, hf.incy⟩)
  obtain ⟨m, hm, wm, rm, um⟩ := SF.C15_import_reads_partial (m := .bool false) (ux := f.ux) (uy := f.uy) (uv := f.uv)
    (v := ⟨f.mask.nx, f.mask.ny, fun i j => some (if f.mask.get i j then 1 else 0)⟩) hf.mx hf.my hx hy
    trivial (.inl hf.incx) (.inl hf.incy) (.inl ⟨hf.incx, hf.incy⟩)
  have hc : ∀ {i j : Nat} {x y : Rat}, f.ax[i]? = some x → f.ay[j]? = some y →
      (if f.mask.get i j then none else f.cx.get i j) = (f.cell i j).map Prod.fst ∧
      (if f.mask.get i j then none else f.cy.get i j) = (f.cell i j).map Prod.snd ∧
      (if f.mask.get i j then (1 : Rat) else 0) = if f.cell i j = none then 1 else 0 := by
    intro i j x y hi hj
    have h1 := hf.cellMask (getElem?_some_lt hi) (getElem?_some_lt hj)
    cases hr : f.cell i j with
    | none => rw [hr] at h1; simp [h1]
    | some w =>
      obtain ⟨u, v⟩ := w
      obtain ⟨k1, k2, k3⟩ := cell_some hr
      simp [k1, k2, k3]
  refine ⟨a, b, m, ha, hb, hm, wa, wb, wm, fun x y r => ?_, fun x y r => ?_, fun x y r => ?_, ua, ub⟩
  · rw [ra]
    constructor
    · rintro ⟨i, j, hi, hj, rfl⟩
      exact ⟨_, ⟨i, j, hi, hj, rfl⟩, (hc hi hj).1⟩
    · rintro ⟨w, ⟨i, j, hi, hj, rfl⟩, rfl⟩
      exact ⟨i, j, hi, hj, (hc hi hj).1.symm⟩
  · rw [rb]
    constructor
    · rintro ⟨i, j, hi, hj, rfl⟩
      exact ⟨_, ⟨i, j, hi, hj, rfl⟩, (hc hi hj).2.1⟩
    · rintro ⟨w, ⟨i, j, hi, hj, rfl⟩, rfl⟩
      exact ⟨i, j, hi, hj, (hc hi hj).2.1.symm⟩
  · rw [rm]
    constructor
    · rintro ⟨i, j, hi, hj, rfl⟩
      exact ⟨_, ⟨i, j, hi, hj, rfl⟩, congrArg some (hc hi hj).2.2⟩
    · rintro ⟨w, ⟨i, j, hi, hj, rfl⟩, rfl⟩
      exact ⟨i, j, hi, hj, (congrArg some (hc hi hj).2.2).symm⟩

/-- C218 fails for fields of one line or one column: IndexError. -/
theorem C218_line_violated (h : f.ax.length < 2 ∨ f.ay.length < 2) :
    compX f = .error .indexError ∧ compY f = .error .indexError ∧ maskAsSf f = .error .indexError :=
  ⟨SF.C15_import_single_point _ _ _ _ _ _ _ h, SF.C15_import_single_point _ _ _ _ _ _ _ h, SF.C15_import_single_point _ _ _ _ _ _ _ h⟩

/-! ### examples -/

example : VF.sample.WF ∧ 2 ≤ VF.sample.ax.length ∧ 2 ≤ VF.sample.ay.length ∧ VF.sample.Reads 1 (1/2) (some (11, 1)) ∧ VF.sample.Reads 0 (1/2) none :=
  ⟨VF.sample_WF, by decide, by decide, ⟨1, 1, by decide +kernel, by decide +kernel, by decide +kernel⟩,
    ⟨0, 1, by decide +kernel, by decide +kernel, by decide +kernel⟩⟩

end IMT.Polar
