import Verif.Line.Section
import Verif.Profile.Integral
import Verif.Scalar.Border
import Verif.Scalar.Import
import Mathlib.Tactic.FieldSimp
import Mathlib.Tactic.Linarith

/-! C188 and C189: the integrals of a scalar field; C190: its export to points. -/

namespace IMT.Line

open Profile (Prof F MaskArg IsArgsort pts)

variable {srt : List Rat → List Nat}

/-! ### specification -/

/-- The area under the broken line through the points. -/
def area (l : List (Rat × Rat)) : Rat := ((l.zip l.tail).map fun s => (s.2.1 - s.1.1) * ((s.1.2 + s.2.2) / 2)).sum

/-- The mean. -/
def avg (l : List Rat) : Rat := l.sum / l.length

/-- The positions of a closed interval. -/
def win (l : List Rat) (a b : Rat) : List Rat := l.filter fun v => decide (a ≤ v ∧ v ≤ b)

/-- `n + 1` evenly spaced positions. -/
def even (a h : Rat) (n : Nat) : List Rat := (List.range (n + 1)).map fun k : ℕ => a + k * h

/-! ### lemmas -/

theorem trapz_area (l : List (Rat × Rat)) : Profile.trapz l = area l := by
  induction l with
  | nil => rfl
  | cons a l ih =>
    cases l with
    | nil => rfl
    | cons b l =>
      rw [Profile.trapz, ih]
      simp only [area, List.tail_cons, List.zip_cons_cons, List.map_cons, List.sum_cons]
      ring

/-- The broken line of an affine function. -/
theorem area_affine (l : List Rat) (hne : l ≠ []) (A B : Rat) :
    area (l.map fun q => (q, A + B * q)) = (l.getLast hne - l.head hne) * (A + B * ((l.head hne + l.getLast hne) / 2)) := by
  rw [← trapz_area]
  induction l with
  | nil => exact absurd rfl hne
  | cons a l ih =>
    cases l with
    | nil => simp [Profile.trapz]
    | cons b l =>
      simp only [List.map_cons, Profile.trapz] at ih ⊢
      rw [ih (by simp)]
      simp only [List.head_cons, List.getLast_cons_cons]
      rw [show (b :: l).getLast (by simp) = (b :: l).getLast (List.cons_ne_nil b l) from rfl]
      ring

theorem sum_affine (l : List Rat) (A B : Rat) : (l.map fun q => A + B * q).sum = A * l.length + B * l.sum := by
  induction l with
  | nil => simp
  | cons a l ih => simp only [List.map_cons, List.sum_cons, ih, List.length_cons]; push_cast; ring

theorem avg_affine (l : List Rat) (hne : l ≠ []) (A B : Rat) : avg (l.map fun q => A + B * q) = A + B * avg l := by
  have : (l.length : Rat) ≠ 0 := by
    have := List.length_pos_iff.2 hne
    positivity
  unfold avg
  rw [sum_affine, List.length_map]
  field_simp

theorem even_sum (a h : Rat) (n : Nat) : (even a h n).sum = (n + 1) * (a + n * h / 2) := by
  unfold even
  induction n with
  | zero => simp
  | succ n ih => rw [List.range_succ, List.map_append, List.sum_append, ih]; push_cast; simp; ring

theorem even_avg (a h : Rat) (n : Nat) : avg (even a h n) = a + n * h / 2 := by
  unfold avg
  rw [even_sum]
  have : ((even a h n).length : Rat) = n + 1 := by unfold even; simp
  rw [this, mul_div_cancel_left₀ _ (by positivity)]

theorem even_ne (a h : Rat) (n : Nat) : (even a h n : List Rat) ≠ [] := by unfold even; simp

theorem even_head (a h : Rat) (n : Nat) : (even a h n).head (even_ne a h n) = a := by
  have : even a h n = a :: ((List.range n).map fun k : ℕ => a + (k + 1 : ℕ) * h) := by
    unfold even; rw [List.range_succ_eq_map]; simp [Function.comp_def]
  simp only [this, List.head_cons]

theorem even_last (a h : Rat) (n : Nat) : (even a h n).getLast (even_ne a h n) = a + n * h := by
  have : even a h n = ((List.range n).map fun k : ℕ => a + k * h) ++ [a + n * h] := by
    unfold even; rw [List.range_succ]; simp
  simp only [this, List.getLast_append_of_ne_nil, List.getLast_singleton, ne_eq, List.cons_ne_nil, not_false_eq_true]

/-- The integral of a profile without masked point. -/
theorem line_sum {f : SF} {d : Dir} {p : Prof} {R : Rat → Option Rat → Prop} (ha : Along f d p R) (G : Rat → Rat)
    (hG : ∀ q ∈ other f d, ∀ r, R q r → r = some (G q)) :
    integrateLine f (.ok p) = .ok ⟨area ((other f d).map fun q => (q, G q)), f.uv.mul f.ux⟩ := by
  have hy : p.y = (other f d).map fun q => some (G q) := by
    apply List.ext_getElem
    · rw [ha.ok.1, ha.x, List.length_map]
    · intro k h1 h2
      have hk : k < p.x.length := by rw [← ha.ok.1]; exact h1
      have hm : (p.x[k], p.y[k]) ∈ pts p := by
        rw [Profile.pts_valid ha.ok, List.mem_iff_getElem]
        exact ⟨k, by rw [List.length_zip]; omega, by simp⟩
      obtain ⟨hq, hr⟩ := (ha.shows _ _).1 hm
      rw [hG _ hq _ hr]
      simp [ha.x]
  have hm : p.m.any id = false := by rw [ha.ok.2.1, hy]; simp
  unfold integrateLine
  simp only
  rw [hm, if_neg (by simp), trapz_area, Profile.getY_valid ha.ok, hy, ha.x, List.map_map]
  congr 3
  rw [List.zip_eq_zipWith, List.zipWith_map_right, List.zipWith_self]
  rfl

/-- A profile with a masked point has no integral. -/
theorem line_masked {f : SF} {d : Dir} {p : Prof} {R : Rat → Option Rat → Prop} (ha : Along f d p R) {q : Rat} (hq : q ∈ other f d)
    (hR : R q none) : integrateLine f (.ok p) = .error .exception := by
  have hm := (ha.shows q none).2 ⟨hq, hR⟩
  rw [Profile.pts_valid ha.ok] at hm
  have hy := List.of_mem_zip hm
  have : p.m.any id = true := by
    rw [ha.ok.2.1, List.any_eq_true]
    exact ⟨true, List.mem_map.2 ⟨none, hy.2, rfl⟩, rfl⟩
  unfold integrateLine
  simp only
  rw [this, if_pos rfl]

theorem forall₂_vals {P : Rat → Rat → Prop} {F : Rat → Rat} (l vals : List Rat) (h : List.Forall₂ P l vals)
    (hF : ∀ v ∈ l, ∀ w, P v w → w = F v) : vals = l.map F := by
  induction h with
  | nil => rfl
  | cons h _ ih =>
    rw [List.map_cons, hF _ (by simp) _ h, ih fun v hv => hF v (List.mem_cons_of_mem _ hv)]

/-! ### C188 -/

/-- **C188** The integral over a line is the area under the broken line of the means over the interval. -/
theorem C188_area (hs : IsArgsort srt) {f : SF} (hf : f.WF) (d : Dir) {a b : Rat} {F : Rat → Rat → Rat}
    (hne : win (axe f d) a b ≠ []) (hF : ∀ v ∈ win (axe f d) a b, ∀ q ∈ other f d, Sees f d v q (some (F v q))) :
    ∃ u, integrateLine f (getProfileBetween srt f d a b) = .ok u ∧
      u.num = area ((other f d).map fun q => (q, avg ((win (axe f d) a b).map fun v => F v q))) := by
  obtain ⟨p, hp, ha⟩ := C187_interval hs hf d a b
  rw [hp]
  refine ⟨_, line_sum ha (fun q => avg ((win (axe f d) a b).map fun v => F v q)) ?_, rfl⟩
  rintro q hq r (⟨vals, -, h1, rfl⟩ | ⟨h1, -⟩)
  · have : vals = (win (axe f d) a b).map fun v => F v q := by
      apply forall₂_vals _ _ h1
      intro v hv w hw
      have := sees_unique hf hw (hF v hv q hq)
      simpa using this
    rw [this]
    rfl
  · exfalso
    rcases h1 with h1 | ⟨v, hv, h3, h4, h5⟩
    · obtain ⟨v, hv⟩ := List.exists_mem_of_ne_nil _ hne
      obtain ⟨h2, h3⟩ := List.mem_filter.1 hv
      exact h1 v h2 (by simpa using h3)
    · have := hF v (List.mem_filter.2 ⟨hv, by simpa using ⟨h3, h4⟩⟩) q hq
      exact absurd (sees_unique hf h5 this) (by simp)

/-- **C188** On a field affine in each coordinate it is the integral of the field at the mean position of the lines. -/
theorem C188_exact (hs : IsArgsort srt) {f : SF} (hf : f.WF) (d : Dir) {a b A B C D : Rat} (hne : win (axe f d) a b ≠ [])
    (ho : other f d ≠ [])
    (hF : ∀ v ∈ win (axe f d) a b, ∀ q ∈ other f d, Sees f d v q (some (A + B * v + C * q + D * v * q))) :
    ∃ u, integrateLine f (getProfileBetween srt f d a b) = .ok u ∧
      u.num = ((other f d).getLast ho - (other f d).head ho) *
        (A + B * avg (win (axe f d) a b) + (C + D * avg (win (axe f d) a b)) * (((other f d).head ho + (other f d).getLast ho) / 2)) := by
  obtain ⟨u, h1, h2⟩ := C188_area hs hf d hne hF
  refine ⟨u, h1, ?_⟩
  rw [h2, ← area_affine _ ho]
  congr 1
  refine List.map_congr_left fun q _ => ?_
  have : ((win (axe f d) a b).map fun v => A + B * v + C * q + D * v * q) = (win (axe f d) a b).map fun v => (A + C * q) + (B + D * q) * v :=
    List.map_congr_left fun v _ => by ring
  rw [this, avg_affine _ hne]
  simp only [Prod.mk.injEq, true_and]
  ring

/-- **C188** With a masked value in the interval, or no line, the integral is refused. -/
theorem C188_refused (hs : IsArgsort srt) {f : SF} (hf : f.WF) (d : Dir) {a b : Rat}
    (h : win (axe f d) a b = [] ∨ ∃ v ∈ win (axe f d) a b, ∃ q, Sees f d v q none) :
    integrateLine f (getProfileBetween srt f d a b) = .error .exception := by
  obtain ⟨p, hp, ha⟩ := C187_interval hs hf d a b
  rw [hp]
  rcases h with h | ⟨v, hv, q, hq⟩
  · have ho : other f d ≠ [] := by cases d; exacts [hf.ney, hf.nex]
    obtain ⟨q, hq⟩ := List.exists_mem_of_ne_nil _ ho
    refine line_masked ha hq (.inr ⟨.inl fun v hv hab => ?_, rfl⟩)
    have : v ∈ win (axe f d) a b := List.mem_filter.2 ⟨hv, by simpa using hab⟩
    rw [h] at this
    simp at this
  · obtain ⟨-, k, -, h2, -⟩ := (sees_iff ..).1 hq
    obtain ⟨h3, h4⟩ := List.mem_filter.1 hv
    have h4 : a ≤ v ∧ v ≤ b := by simpa using h4
    exact line_masked ha (List.mem_of_getElem? h2) (.inr ⟨.inr ⟨v, h3, h4.1, h4.2, hq⟩, rfl⟩)

/-- **C188** For lines of constant y the unit is that of the values times that of the positions. -/
theorem C188_unit_partial {f : SF} {p : Res Prof} {u : Unum} (h : integrateLine f p = .ok u) : u.sym = f.uv.mul f.ux := by
  unfold integrateLine at h
  split at h
  · cases h
  · split at h
    · cases h
    · cases h; rfl

/-- **C188** For lines of constant x it is the unit of the wrong axis: an integral along `y` in the unit of `x`. -/
theorem C188_unit_violated {f : SF} {p : Res Prof} {u : Unum} (h : integrateLine f p = .ok u) (hv : f.uv.size ≠ 0) (hu : f.ux ≠ f.uy) :
    u.sym ≠ f.uv.mul f.uy := by
  rw [C188_unit_partial h]
  intro he
  apply hu
  simp only [Sym.mul, Sym.mk.injEq] at he
  obtain ⟨h1, h2, h3, h4⟩ := he
  have h4 := mul_left_cancel₀ hv h4
  cases hx : f.ux
  cases hy : f.uy
  rw [hx, hy] at h1 h2 h3 h4
  simp only at h1 h2 h3 h4
  rw [h4, show _ = _ from Int.add_left_cancel h1, show _ = _ from Int.add_left_cancel h2, show _ = _ from Int.add_left_cancel h3]

/-! ### C189 -/

theorem crop_window {f : SF} (hf : f.WF) {a b c d : Rat} (hx : win f.ax a b ≠ []) (hy : win f.ay c d ≠ []) :
    ∃ g, f.crop (some (a, b)) (some (c, d)) = .ok g ∧ g.WF ∧ g.ax = win f.ax a b ∧ g.ay = win f.ay c d ∧
      (∀ x y r, g.Reads x y r ↔ f.Reads x y r ∧ (a ≤ x ∧ x ≤ b) ∧ (c ≤ y ∧ y ≤ d)) ∧ g.ux = f.ux ∧ g.uy = f.uy ∧ g.uv = f.uv := by
  obtain ⟨x, hx'⟩ := List.exists_mem_of_ne_nil _ hx
  obtain ⟨y, hy'⟩ := List.exists_mem_of_ne_nil _ hy
  obtain ⟨hxm, hxw⟩ := List.mem_filter.1 hx'
  obtain ⟨hym, hyw⟩ := List.mem_filter.1 hy'
  have hxw : a ≤ x ∧ x ≤ b := by simpa using hxw
  have hyw : c ≤ y ∧ y ≤ d := by simpa using hyw
  obtain ⟨i, hi⟩ := List.mem_iff_getElem?.1 hxm
  obtain ⟨j, hj⟩ := List.mem_iff_getElem?.1 hym
  obtain ⟨x0, x1, hx0, hx1, k1, k2⟩ := SF.head_last_of_mem hf.incx hi
  obtain ⟨y0, y1, hy0, hy1, k3, k4⟩ := SF.head_last_of_mem hf.incy hj
  obtain ⟨lo, hi', e1, e2, e3⟩ := Axis.cropInds_ok hf.incx hx0 hx1 (a := a) (b := b) (by linarith) (by linarith) (by linarith)
  obtain ⟨lo', hi'', e4, e5, e6⟩ := Axis.cropInds_ok hf.incy hy0 hy1 (a := c) (b := d) (by linarith) (by linarith) (by linarith)
  have hc : f.crop (some (a, b)) (some (c, d)) = .ok (f.cut lo hi' lo' hi'') := by
    unfold SF.crop
    simp only
    rw [e1, e4]
  obtain ⟨hr, r1, r2, r3⟩ := SF.C06_crop_keeps_readings hf hc
  refine ⟨_, hc, SF.C06_crop_consistent hf hc ⟨x, hxm, hxw⟩ ⟨y, hym, hyw⟩, ?_, ?_, hr, r1, r2, r3⟩
  · show slice f.ax lo (hi' + 1) = _
    rw [e2, e3, Axis.slice_filter hf.incx]
    rfl
  · show slice f.ay lo' (hi'' + 1) = _
    rw [e5, e6, Axis.slice_filter hf.incy]
    rfl

theorem map_range_getD (l : List Rat) (g : Nat → Rat) (h : Rat → Rat) (hg : ∀ i (hi : i < l.length), g i = h l[i]) :
    (List.range l.length).map g = l.map h := by
  apply List.ext_getElem
  · simp
  · intro k h1 h2
    simp only [List.getElem_map, List.getElem_range]
    exact hg k (by simpa using h2)

theorem total_eq {g : SF} {F : Rat → Rat → Rat} (hF : ∀ x ∈ g.ax, ∀ y ∈ g.ay, g.Reads x y (some (F x y))) (hg : g.WF) :
    total g = (g.ax.map fun x => (g.ay.map fun y => F x y).sum).sum := by
  unfold total
  congr 1
  apply map_range_getD _ _ (fun x => (g.ay.map fun y => F x y).sum)
  intro i hi
  congr 1
  apply map_range_getD _ _ (fun y => F g.ax[i] y)
  intro j hj
  have := hF g.ax[i] (List.getElem_mem hi) g.ay[j] (List.getElem_mem hj)
  obtain ⟨i', j', e1, e2, e3⟩ := this
  rw [hg.incx.idx_inj' e1 (List.getElem?_eq_getElem hi), hg.incy.idx_inj' e2 (List.getElem?_eq_getElem hj)] at e3
  rw [e3]
  rfl

/-- **C189** The integral over a surface is the mean of the values on the grid points of the closed window, times the extents between the first
and the last of them. -/
theorem C189_mean {f : SF} (hf : f.WF) {a b c d : Rat} {F : Rat → Rat → Rat} (hx : win f.ax a b ≠ []) (hy : win f.ay c d ≠ [])
    (hF : ∀ x ∈ win f.ax a b, ∀ y ∈ win f.ay c d, f.Reads x y (some (F x y))) :
    integrateSurface f (some (a, b)) (some (c, d)) = .ok
      ⟨((win f.ax a b).getLast hx - (win f.ax a b).head hx) * ((win f.ay c d).getLast hy - (win f.ay c d).head hy) *
        avg ((win f.ax a b).map fun x => avg ((win f.ay c d).map fun y => F x y)), (f.uv.mul f.ux).mul f.uy⟩ := by
  obtain ⟨g, hg, hw, gx, gy, hr, u1, u2, u3⟩ := crop_window hf hx hy
  have hin : ∀ (l : List Rat) (a b v : Rat), v ∈ win l a b → v ∈ l ∧ a ≤ v ∧ v ≤ b := by
    intro l a b v hv
    obtain ⟨h1, h2⟩ := List.mem_filter.1 hv
    exact ⟨h1, by simpa using h2⟩
  have hF' : ∀ x ∈ g.ax, ∀ y ∈ g.ay, g.Reads x y (some (F x y)) := by
    intro x hx y hy
    rw [gx] at hx
    rw [gy] at hy
    exact (hr x y _).2 ⟨hF x hx y hy, (hin _ _ _ _ hx).2, (hin _ _ _ _ hy).2⟩
  have hm : g.mask.any id = false := by
    by_contra hm
    have hm : g.anyMasked = true := by unfold SF.anyMasked; simpa using hm
    obtain ⟨i, j, h1, h2, h3⟩ := (SF.anyMasked_iff g).1 hm
    rw [hw.mx] at h1
    rw [hw.my] at h2
    rw [SF.Reads.cellMask hw h1 h2] at h3
    obtain ⟨i', j', e1, e2, e3⟩ := hF' g.ax[i] (List.getElem_mem h1) g.ay[j] (List.getElem_mem h2)
    rw [hw.incx.idx_inj' e1 (List.getElem?_eq_getElem h1), hw.incy.idx_inj' e2 (List.getElem?_eq_getElem h2)] at e3
    rw [e3] at h3
    simp at h3
  have mono : ∀ {l : List Rat} (hl : Inc l) (hne : l ≠ []), l.head hne ≤ l.getLast hne := by
    intro l hl hne
    obtain ⟨x0, x1, hx0, hx1, -, k2⟩ := SF.head_last_of_mem hl (show l[0]? = some (l.head hne) by rw [← List.head?_eq_getElem?, List.head?_eq_some_head hne])
    rw [List.getLast?_eq_some_getLast hne] at hx1
    simp only [Option.some.injEq] at hx1
    rw [hx1]
    exact k2
  unfold integrateSurface
  rw [hg]
  simp only
  rw [hm, if_neg (by simp), if_neg (by rw [gx, gy]; push Not; exact ⟨hx, hy⟩), total_eq hF' hw, u1, u2, u3]
  simp only [gx, gy]
  have ex : (win f.ax a b).getLastD 0 = (win f.ax a b).getLast hx := by rw [List.getLastD_eq_getLast?, List.getLast?_eq_some_getLast hx]; rfl
  have ex' : (win f.ax a b).headD 0 = (win f.ax a b).head hx := by rw [List.headD_eq_head?_getD, List.head?_eq_some_head hx]; rfl
  have ey : (win f.ay c d).getLastD 0 = (win f.ay c d).getLast hy := by rw [List.getLastD_eq_getLast?, List.getLast?_eq_some_getLast hy]; rfl
  have ey' : (win f.ay c d).headD 0 = (win f.ay c d).head hy := by rw [List.headD_eq_head?_getD, List.head?_eq_some_head hy]; rfl
  have mx := mono (gx ▸ hw.incx) hx
  have my := mono (gy ▸ hw.incy) hy
  rw [ex, ex', ey, ey', abs_of_nonneg (by linarith), abs_of_nonneg (by linarith)]
  congr 2
  have lx : ((win f.ax a b).length : Rat) ≠ 0 := by have := List.length_pos_iff.2 hx; positivity
  have ly : ((win f.ay c d).length : Rat) ≠ 0 := by have := List.length_pos_iff.2 hy; positivity
  have e : avg ((win f.ax a b).map fun x => avg ((win f.ay c d).map fun y => F x y)) =
      ((win f.ax a b).map fun x => ((win f.ay c d).map fun y => F x y).sum).sum / (win f.ay c d).length / (win f.ax a b).length := by
    unfold avg
    rw [List.length_map]
    congr 1
    simp only [List.length_map]
    induction win f.ax a b with
    | nil => simp
    | cons x l ih => simp only [List.map_cons, List.sum_cons, ih]; ring
  rw [e]
  field_simp

/-- **C189** On evenly spaced positions it is exact for fields affine in each coordinate: the area times the value at the centre. -/
theorem C189_exact {f : SF} (hf : f.WF) {a b c d : Rat} {x0 h y0 k A B C D : Rat} {n m : Nat} (hx : win f.ax a b = even x0 h n)
    (hy : win f.ay c d = even y0 k m)
    (hF : ∀ x ∈ win f.ax a b, ∀ y ∈ win f.ay c d, f.Reads x y (some (A + B * x + C * y + D * x * y))) :
    integrateSurface f (some (a, b)) (some (c, d)) = .ok
      ⟨(n * h) * (m * k) * (A + B * (x0 + n * h / 2) + C * (y0 + m * k / 2) + D * (x0 + n * h / 2) * (y0 + m * k / 2)),
        (f.uv.mul f.ux).mul f.uy⟩ := by
  have hx' : win f.ax a b ≠ [] := by rw [hx]; exact even_ne _ _ _
  have hy' : win f.ay c d ≠ [] := by rw [hy]; exact even_ne _ _ _
  rw [C189_mean hf hx' hy' hF]
  congr 2
  simp only [hx, hy]
  rw [even_head, even_last, even_head, even_last]
  have e1 : ∀ x, avg ((even y0 k m).map fun y => A + B * x + C * y + D * x * y) = (A + C * (y0 + m * k / 2)) + (B + D * (y0 + m * k / 2)) * x := by
    intro x
    have : ((even y0 k m).map fun y => A + B * x + C * y + D * x * y) = (even y0 k m).map fun y => (A + B * x) + (C + D * x) * y :=
      List.map_congr_left fun y _ => by ring
    rw [this, avg_affine _ (even_ne _ _ _), even_avg]
    ring
  simp only [e1]
  rw [avg_affine _ (even_ne _ _ _), even_avg]
  ring

/-- **C189** The integral lies between the area times the smallest and the area times the largest value. -/
theorem C189_bounds {f : SF} (hf : f.WF) {a b c d lo hi : Rat} {F : Rat → Rat → Rat} (hx : win f.ax a b ≠ []) (hy : win f.ay c d ≠ [])
    (hF : ∀ x ∈ win f.ax a b, ∀ y ∈ win f.ay c d, f.Reads x y (some (F x y)) ∧ lo ≤ F x y ∧ F x y ≤ hi) {S : Rat}
    (hS : S = ((win f.ax a b).getLast hx - (win f.ax a b).head hx) * ((win f.ay c d).getLast hy - (win f.ay c d).head hy)) :
    ∃ u, integrateSurface f (some (a, b)) (some (c, d)) = .ok u ∧ S * lo ≤ u.num ∧ u.num ≤ S * hi := by
  refine ⟨_, C189_mean hf hx hy fun x hx y hy => (hF x hx y hy).1, ?_⟩
  have havg : ∀ (l : List Rat) (g : Rat → Rat), l ≠ [] → (∀ v ∈ l, lo ≤ g v ∧ g v ≤ hi) → lo ≤ avg (l.map g) ∧ avg (l.map g) ≤ hi := by
    intro l g hne hg
    have hp : (0 : Rat) < l.length := by have := List.length_pos_iff.2 hne; positivity
    have hb : lo * l.length ≤ (l.map g).sum ∧ (l.map g).sum ≤ hi * l.length := by
      clear hne hp
      induction l with
      | nil => simp
      | cons v l ih =>
        obtain ⟨h1, h2⟩ := hg v (by simp)
        obtain ⟨h3, h4⟩ := ih fun w hw => hg w (List.mem_cons_of_mem _ hw)
        simp only [List.map_cons, List.sum_cons, List.length_cons]
        push_cast
        constructor <;> linarith
    unfold avg
    rw [List.length_map, le_div_iff₀ hp, div_le_iff₀ hp]
    exact hb
  have mono : ∀ {l : List Rat} (hl : Inc l) (a b : Rat) (hne : win l a b ≠ []), 0 ≤ (win l a b).getLast hne - (win l a b).head hne := by
    intro l hl a b hne
    have hl' : Inc (win l a b) := hl.sublist List.filter_sublist
    obtain ⟨x0, x1, hx0, hx1, -, k2⟩ := SF.head_last_of_mem hl' (show (win l a b)[0]? = some ((win l a b).head hne) by
      rw [← List.head?_eq_getElem?, List.head?_eq_some_head hne])
    rw [List.getLast?_eq_some_getLast hne] at hx1
    simp only [Option.some.injEq] at hx1
    rw [hx1]
    linarith
  have hS0 : 0 ≤ S := by rw [hS]; exact mul_nonneg (mono hf.incx a b hx) (mono hf.incy c d hy)
  obtain ⟨h1, h2⟩ := havg _ (fun x => avg ((win f.ay c d).map fun y => F x y)) hx fun x hx' =>
    havg _ (fun y => F x y) hy fun y hy' => (hF x hx' y hy').2
  show S * lo ≤ _ * _ * _ ∧ _ * _ * _ ≤ S * hi
  rw [← hS]
  exact ⟨mul_le_mul_of_nonneg_left h1 hS0, mul_le_mul_of_nonneg_left h2 hS0⟩

/-- **C189** With a masked value in the window the integral is refused. -/
theorem C189_masked {f : SF} (hf : f.WF) {a b c d x y : Rat} (hx : a ≤ x ∧ x ≤ b) (hy : c ≤ y ∧ y ≤ d) (h : f.Reads x y none) :
    integrateSurface f (some (a, b)) (some (c, d)) = .error .exception := by
  obtain ⟨i, j, hi, hj, -⟩ := id h
  have wx : win f.ax a b ≠ [] := List.ne_nil_of_mem (List.mem_filter.2 ⟨List.mem_of_getElem? hi, by simpa using hx⟩)
  have wy : win f.ay c d ≠ [] := List.ne_nil_of_mem (List.mem_filter.2 ⟨List.mem_of_getElem? hj, by simpa using hy⟩)
  obtain ⟨g, hg, hw, -, -, hr, -⟩ := crop_window hf wx wy
  have hm : g.mask.any id = true := by
    by_contra hc
    exact SF.no_mask_reads (SF.WF.loose hw) (f := g) (by simpa [SF.anyMasked] using hc) x y ((hr x y none).2 ⟨h, hx, hy⟩)
  unfold integrateSurface
  rw [hg]
  simp only
  rw [hm, if_pos rfl]

theorem win_self {l : List Rat} (hl : Inc l) {a b : Rat} (h1 : l.head? = some a) (h2 : l.getLast? = some b) : win l a b = l := by
  unfold win
  rw [List.filter_eq_self]
  intro v hv
  obtain ⟨i, hi⟩ := List.mem_iff_getElem?.1 hv
  obtain ⟨p, q, hp, hq, h3, h4⟩ := SF.head_last_of_mem hl hi
  rw [h1] at hp
  rw [h2] at hq
  cases hp
  cases hq
  simpa using ⟨h3, h4⟩

/-- **C189** Without intervals the window is the whole field. -/
theorem C189_whole {f : SF} {a b c d : Rat} (hx : f.ax.head? = some a) (hx' : f.ax.getLast? = some b) (hy : f.ay.head? = some c)
    (hy' : f.ay.getLast? = some d) : integrateSurface f none none = integrateSurface f (some (a, b)) (some (c, d)) := by
  unfold integrateSurface SF.crop
  simp only [hx, hx', hy, hy']

/-- **C189** The integral is not additive: cut in its middle, a field of three columns has the sum of the integrals of its halves only if its
middle column has the mean of the sums of its sides. -/
theorem C189_additive_violated {f : SF} (hf : f.WF) {x0 h c d : Rat} {F : Rat → Rat → Rat} (hh : 0 < h) (hx : f.ax = [x0, x0 + h, x0 + 2 * h])
    (hy : f.ay.head? = some c) (hy' : f.ay.getLast? = some d) (hcd : c < d) (hF : ∀ x ∈ f.ax, ∀ y ∈ f.ay, f.Reads x y (some (F x y))) :
    ∃ u v w, integrateSurface f (some (x0, x0 + 2 * h)) (some (c, d)) = .ok u ∧
      integrateSurface f (some (x0, x0 + h)) (some (c, d)) = .ok v ∧
      integrateSurface f (some (x0 + h, x0 + 2 * h)) (some (c, d)) = .ok w ∧
      (u.num = v.num + w.num ↔ avg (f.ay.map (F x0)) + avg (f.ay.map (F (x0 + 2 * h))) = 2 * avg (f.ay.map (F (x0 + h)))) := by
  have wy : win f.ay c d = f.ay := win_self hf.incy hy hy'
  have w1 : win f.ax x0 (x0 + 2 * h) = [x0, x0 + h, x0 + 2 * h] := by
    rw [hx]
    simp [win, List.filter_cons, show 0 ≤ h by linarith, show x0 ≤ x0 + h by linarith, show x0 + h ≤ x0 + 2 * h by linarith, show x0 ≤ x0 + 2 * h by linarith]
  have w2 : win f.ax x0 (x0 + h) = [x0, x0 + h] := by
    rw [hx]
    simp [win, List.filter_cons, show 0 ≤ h by linarith, show ¬ x0 + 2 * h ≤ x0 + h by linarith, show ¬ 2 * h ≤ h by linarith]
  have w3 : win f.ax (x0 + h) (x0 + 2 * h) = [x0 + h, x0 + 2 * h] := by
    rw [hx]
    simp [win, List.filter_cons, show ¬ x0 + h ≤ x0 by linarith, show ¬ h ≤ 0 by linarith, show x0 + h ≤ x0 + 2 * h by linarith, show h ≤ 2 * h by linarith]
  have hsub : ∀ (a b : Rat), ∀ x ∈ win f.ax a b, ∀ y ∈ win f.ay c d, f.Reads x y (some (F x y)) := by
    intro a b x hx y hy
    exact hF x (List.mem_filter.1 hx).1 y (List.mem_filter.1 hy).1
  have ny : win f.ay c d ≠ [] := by rw [wy]; exact hf.ney
  refine ⟨_, _, _, C189_mean hf (by rw [w1]; simp) ny (hsub _ _), C189_mean hf (by rw [w2]; simp) ny (hsub _ _),
    C189_mean hf (by rw [w3]; simp) ny (hsub _ _), ?_⟩
  have e1 : f.ay.head hf.ney = c := by rw [List.head?_eq_some_head hf.ney] at hy; simpa using hy
  have e2 : f.ay.getLast hf.ney = d := by rw [List.getLast?_eq_some_getLast hf.ney] at hy'; simpa using hy'
  simp only [w1, w2, w3, wy, e1, e2]
  simp only [List.map_cons, List.map_nil, List.getLast_cons_cons, List.getLast_singleton, List.head_cons]
  generalize avg (f.ay.map fun y => F x0 y) = m0
  generalize avg (f.ay.map fun y => F (x0 + h) y) = m1
  generalize avg (f.ay.map fun y => F (x0 + 2 * h) y) = m2
  have hd : d - c ≠ 0 := by linarith
  have hh' : h ≠ 0 := by linarith
  simp only [avg, List.sum_cons, List.sum_nil, List.length_cons, List.length_nil]
  push_cast
  constructor
  · intro he
    have : h * (d - c) * (m0 + m2 - 2 * m1) = 0 := by linarith
    rcases mul_eq_zero.1 this with h1 | h1
    · exact absurd h1 (mul_ne_zero hh' hd)
    · linarith
  · intro he
    have : m2 = 2 * m1 - m0 := by linarith
    rw [this]
    ring

/-! ### C190 -/

/-- **C190** The points of the export are the positions that neither the field nor the given mask hides, each once, with its value. -/
theorem C190_scatter {f : SF} (hf : f.WF) {mask : Option (Grid Bool)} {l : List ((Rat × Rat) × Option Rat)} (h : scatter f mask = .ok l) :
    (∀ x y v, ((x, y), v) ∈ l ↔ v ≠ none ∧ ∃ i j : Nat, f.ax[i]? = some x ∧ f.ay[j]? = some y ∧ f.cell i j = v ∧
      ∀ m, mask = some m → m.get i j = false) ∧ (l.map Prod.fst).Nodup := by
  unfold scatter at h
  by_cases hb : badShape f mask = true
  · rw [if_pos hb] at h; cases h
  · rw [if_neg hb] at h
    by_cases hk : kept f mask = []
    · rw [if_pos hk] at h; cases h
    · rw [if_neg hk] at h
      cases h
      constructor
      · intro x y v
        rw [List.mem_map]
        constructor
        · rintro ⟨⟨⟨i, j⟩, q⟩, hq, rfl⟩
          obtain ⟨h1, h2⟩ := List.mem_filter.1 hq
          obtain ⟨h3, h4, h5, h6⟩ := (SF.C22_iter_complete hf i j x y v).1 h1
          refine ⟨h6, i, j, h3, h4, h5, ?_⟩
          rintro m rfl
          simp only [hides, Bool.not_eq_true', Bool.or_eq_false_iff] at h2
          exact h2.1
        · rintro ⟨hv, i, j, h1, h2, h3, h4⟩
          refine ⟨((i, j), (x, y), v), List.mem_filter.2 ⟨(SF.C22_iter_complete hf i j x y v).2 ⟨h1, h2, h3, hv⟩, ?_⟩, rfl⟩
          have : f.mask.get i j = false := by
            rw [SF.Reads.cellMask hf (getElem?_some_lt h1) (getElem?_some_lt h2), h3]
            cases v <;> simp_all
          simp only [this, Bool.or_false, Bool.not_eq_true']
          cases mask with
          | none => rfl
          | some m => exact h4 m rfl
      · rw [List.map_map]
        have hnd : (kept f mask).Pairwise fun p q => p.1.1 < q.1.1 ∨ (p.1.1 = q.1.1 ∧ p.1.2 < q.1.2) :=
          (List.pairwise_map.1 (SF.C22_iter_order f)).sublist List.filter_sublist
        rw [List.Nodup, List.pairwise_map]
        refine hnd.imp_of_mem ?_
        rintro ⟨⟨i, j⟩, ⟨x, y⟩, v⟩ ⟨⟨i', j'⟩, ⟨x', y'⟩, v'⟩ h1 h2 h3 h4
        obtain ⟨a1, a2, -⟩ := (SF.C22_iter_complete hf i j x y v).1 (List.mem_filter.1 h1).1
        obtain ⟨b1, b2, -⟩ := (SF.C22_iter_complete hf i' j' x' y' v').1 (List.mem_filter.1 h2).1
        simp only [Function.comp, Prod.mk.injEq] at h4
        rw [h4.1] at a1
        rw [h4.2] at a2
        have := hf.incx.idx_inj' a1 b1
        have := hf.incy.idx_inj' a2 b2
        simp only at h3
        omega

/-- **C190** A mask of another shape is refused; so is, with another error, an export without any point; every other one is made. -/
theorem C190_refused {f : SF} (hf : f.WF) (mask : Option (Grid Bool)) :
    ((∃ m, mask = some m ∧ (m.nx ≠ f.ax.length ∨ m.ny ≠ f.ay.length)) → scatter f mask = .error .valueError) ∧
    ((∀ m, mask = some m → m.nx = f.ax.length ∧ m.ny = f.ay.length) →
      (scatter f mask = .error .typeError ↔
        ∀ i j, i < f.ax.length → j < f.ay.length → f.cell i j = none ∨ ∃ m, mask = some m ∧ m.get i j = true) ∧
      (scatter f mask = .error .typeError ∨ ∃ l, scatter f mask = .ok l)) := by
  constructor
  · rintro ⟨m, rfl, hm⟩
    unfold scatter
    rw [if_pos (by simpa [badShape] using hm)]
  · intro hm
    have h0 : ¬ badShape f mask = true := by
      cases mask with
      | none => simp [badShape]
      | some m => simp [badShape, hm m rfl]
    unfold scatter
    rw [if_neg h0]
    by_cases he : kept f mask = []
    · rw [if_pos he]
      refine ⟨⟨fun _ i j hi hj => ?_, fun _ => rfl⟩, .inl rfl⟩
      by_contra hc
      push Not at hc
      have hmem := (SF.C22_iter_complete hf i j f.ax[i] f.ay[j] (f.cell i j)).2
        ⟨List.getElem?_eq_getElem hi, List.getElem?_eq_getElem hj, rfl, hc.1⟩
      have := List.filter_eq_nil_iff.1 he _ hmem
      have hmk : f.mask.get i j = false := by
        rw [SF.Reads.cellMask hf hi hj]
        cases h : f.cell i j
        · exact absurd h hc.1
        · rfl
      apply this
      simp only [hmk, Bool.or_false, Bool.not_eq_true']
      cases mask with
      | none => rfl
      | some m => simpa [hides] using hc.2 m rfl
    · rw [if_neg he]
      refine ⟨⟨fun h => (by cases h), fun h => ?_⟩, .inr ⟨_, rfl⟩⟩
      exfalso
      obtain ⟨⟨⟨i, j⟩, ⟨x, y⟩, v⟩, hq⟩ := List.exists_mem_of_ne_nil _ he
      obtain ⟨h1, h2⟩ := List.mem_filter.1 hq
      obtain ⟨h3, h4, h5, h6⟩ := (SF.C22_iter_complete hf i j x y v).1 h1
      rcases h i j (getElem?_some_lt h3) (getElem?_some_lt h4) with h | ⟨m, rfl, hb⟩
      · exact h6 (by rw [← h5, h])
      · simp [hides, hb] at h2

/-- **C190** In particular a field whose points are all masked has no export. -/
theorem C190_masked_violated {f : SF} (hf : f.WF) (h : ∀ x y v, ¬ f.Reads x y (some v)) : scatter f none = .error .typeError := by
  refine (((C190_refused hf none).2 (by simp)).1).2 fun i j hi hj => .inl ?_
  cases hc : f.cell i j with
  | none => rfl
  | some v => exact absurd ⟨i, j, List.getElem?_eq_getElem hi, List.getElem?_eq_getElem hj, hc⟩ (h f.ax[i] f.ay[j] v)

/-! ### concrete cases -/

/-- A field without masked point, affine in each coordinate. -/
def plain : SF where
  ax := [0, 1, 2]
  ay := [0, 2]
  val := ⟨3, 2, fun i j => some (1 + 10 * (i : Rat) + 2 * j)⟩
  mask := ⟨3, 2, fun _ _ => false⟩
  ux := .mm
  uy := .m
  uv := .s

example : integrateLine plain (getProfileBetween Profile.argsort plain .x (1/2) 4) = .ok ⟨34, Sym.s.mul .mm⟩ ∧
    integrateLine plain (getProfile true Profile.argsort plain .y 1 .linear) = .ok ⟨24, Sym.s.mul .mm⟩ ∧
    integrateLine demo (getProfileBetween Profile.argsort demo .x (1/2) 4) = .error .exception ∧
    integrateSurface plain none (some (0, 5)) = .ok ⟨48, (Sym.s.mul .mm).mul .m⟩ ∧
    integrateSurface demo none (some (0, 1)) = .ok ⟨0, (Sym.s.mul .mm).mul .m⟩ ∧
    integrateSurface demo none none = .error .exception ∧
    integrateSurface demo (some (1/4, 1/2)) none = .error .indexError ∧
    scatter demo none = .ok [((0, 0), some 0), ((0, 2), some 1), ((1, 0), some 10), ((1, 2), some 11), ((3, 0), some 20)] ∧
    scatter demo (some ⟨2, 2, fun _ _ => false⟩) = .error .valueError := by
  decide +kernel

-- the hypotheses of the theorems above
example : plain.WF ∧ win plain.ax 0 2 = even 0 1 2 ∧ win plain.ay 0 2 = even 0 2 1 ∧
    ∀ x ∈ plain.ax, ∀ y ∈ plain.ay, plain.Reads x y (some (1 + 10 * x + 1 * y + 0 * x * y)) := by
  refine ⟨⟨by decide +kernel, by decide +kernel, by decide +kernel, by decide +kernel, rfl, rfl, rfl, rfl, ?_⟩, by decide +kernel,
    by decide +kernel, ?_⟩
  · intro i j _ _ h; simp [plain] at h
  · intro x hx y hy
    simp only [plain, List.mem_cons, List.not_mem_nil, or_false] at hx hy
    rcases hx with rfl | rfl | rfl <;> rcases hy with rfl | rfl
    exacts [⟨0, 0, by decide +kernel⟩, ⟨0, 1, by decide +kernel⟩, ⟨1, 0, by decide +kernel⟩, ⟨1, 1, by decide +kernel⟩,
      ⟨2, 0, by decide +kernel⟩, ⟨2, 1, by decide +kernel⟩]

end IMT.Line
