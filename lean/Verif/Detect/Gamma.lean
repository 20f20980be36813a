import Verif.Detect.GammaModel
import Verif.Crit.Motif
import Verif.Centre.Props
import Verif.Scalar.Border

/-! C371: the vortices found by the criterion gamma1. -/

namespace IMT.Detect

open Centre (zonesCenters Lab Pick IsLab IsPick Band OnePerZone IsBary Regular bounds IsMin IsMax)
open Zone (Linked)

/-! ### specification -/

/-- The other points at most `r` steps away, relatively to a point. -/
noncomputable def others (r : Nat) : Finset (Int × Int) :=
  (Finset.Icc (-(r : Int)) r ×ˢ Finset.Icc (-(r : Int)) r).filter fun p => p ≠ (0, 0) ∧ p.1 ^ 2 + p.2 ^ 2 ≤ (r : Int) ^ 2

/-- The sine of the angle from `a` to `b`; zero when one of them is null. -/
def sine (sq : Rat → Rat) (ax ay bx bY : Rat) : Rat :=
  if sq (bx ^ 2 + bY ^ 2) * sq (ax ^ 2 + ay ^ 2) = 0 then 0 else (ax * bY - ay * bx) / (sq (bx ^ 2 + bY ^ 2) * sq (ax ^ 2 + ay ^ 2))

/-- Mean, over the other points at most `r` steps away, of the sine of the angle from the position to the velocity. -/
noncomputable def turning (sq : Rat → Rat) (f : VF) (r i j : Nat) : Rat :=
  (∑ p ∈ others r, sine sq (p.1 * (f.ax.getD 1 0 - f.ax.getD 0 0)) (p.2 * (f.ay.getD 1 0 - f.ay.getD 0 0))
    ((f.cx.get (p.1 + i).toNat (p.2 + j).toNat).getD 0) ((f.cy.get (p.1 + i).toNat (p.2 + j).toNat).getD 0)) / (others r).card

/-- The field `g` shows the mean sine at the points that are more than `r` points away from the borders, and nothing else. -/
def ShowsTurning (sq : Rat → Rat) (f : VF) (r : Nat) (g : SF) : Prop :=
  ∀ x y v, g.Reads x y v ↔ ∃ i j, f.ax[i]? = some x ∧ f.ay[j]? = some y ∧ (r ≤ i ∧ i + r < f.ax.length) ∧ (r ≤ j ∧ j + r < f.ay.length) ∧
    v = some (turning sq f r i j)

/-! ### lemmas -/

theorem side {a b c : Int} (h : a ^ 2 + b ^ 2 ≤ c ^ 2) (hc : 0 ≤ c) : -c ≤ a ∧ a ≤ c :=
  abs_le_of_sq_le_sq' (by nlinarith [sq_nonneg b]) hc

theorem motif_toFinset {r : Nat} (hr : 1 ≤ r) :
    ((Crit.disc r).eraseIdx ((Crit.disc r).length / 2)).toFinset = others r := by
  have h0 : (0 : Rat) < r := by exact_mod_cast hr
  ext ⟨a, b⟩
  rw [List.mem_toFinset, Crit.mem_motif h0]
  simp only [others, Finset.mem_filter, Finset.mem_product, Finset.mem_Icc, ne_eq, Prod.mk.injEq]
  constructor
  · rintro ⟨h1, h2⟩
    have h2 : a ^ 2 + b ^ 2 ≤ (r : Int) ^ 2 := by exact_mod_cast h2
    exact ⟨⟨side h2 (by omega), side (by rw [add_comm]; exact h2) (by omega)⟩, by tauto, h2⟩
  · rintro ⟨_, h1, h2⟩
    exact ⟨by tauto, by exact_mod_cast h2⟩

theorem value_turning (sq : Rat → Rat) (f : VF) {r : Nat} (hr : 1 ≤ r) (i j : Nat) :
    Crit.value sq .gamma1 (velocities f) ((Crit.disc r).eraseIdx ((Crit.disc r).length / 2)) i j = turning sq f r i j := by
  have h0 : (0 : Rat) < r := by exact_mod_cast hr
  have hn := Crit.motif_nodup h0
  show Crit.gamma1 sq _ _ _ _ = _
  unfold Crit.gamma1 Crit.total turning
  rw [← motif_toFinset hr, List.sum_toFinset _ hn, List.toFinset_card_of_nodup hn]
  congr 2
  apply List.map_congr_left
  intro m _
  simp only [Crit.term, sine, velocities, sub_zero, if_true]
  by_cases h : sq ((f.cx.get (m.1 + ↑i).toNat (m.2 + ↑j).toNat).getD 0 ^ 2 + (f.cy.get (m.1 + ↑i).toNat (m.2 + ↑j).toNat).getD 0 ^ 2) *
      sq ((↑m.1 * (f.ax.getD 1 0 - f.ax.getD 0 0)) ^ 2 + (↑m.2 * (f.ay.getD 1 0 - f.ay.getD 0 0)) ^ 2) = 0
  · rw [if_pos h, if_neg (not_not.mpr h)]
  · rw [if_neg h, if_pos h]

/-- The points away from the borders. -/
def inner (n r i : Nat) : Bool := decide (r ≤ i ∧ i + r < n)

/-- The field of gamma. -/
noncomputable def shown (sq : Rat → Rat) (f : VF) (r : Nat) : SF where
  ax := f.ax
  ay := f.ay
  val := ⟨f.ax.length, f.ay.length, fun i j => some (if inner f.ax.length r i && inner f.ay.length r j then turning sq f r i j else 0)⟩
  mask := ⟨f.ax.length, f.ay.length, fun i j => !(inner f.ax.length r i && inner f.ay.length r j)⟩
  ux := f.ux
  uy := f.uy
  uv := Sym.one

theorem unmasked_any {f : VF} (hm : f.mask.any id = false) {i j : Nat} (hi : i < f.mask.nx) (hj : j < f.mask.ny) : f.mask.get i j = false := by
  by_contra h
  have : f.mask.any id = true := by
    unfold Grid.any
    simp only [List.any_eq_true, List.mem_range, id]
    exact ⟨i, hi, j, hj, by simpa using h⟩
  rw [hm] at this
  cases this

theorem clear_iff {f : VF} (hf : f.WF) (hm : f.mask.any id = false) {r i j : Nat} (hi : i < f.ax.length) (hj : j < f.ay.length) :
    Crit.Clear f.ax.length f.ay.length (fun a b => f.mask.get a.toNat b.toNat) r i j ↔ (inner f.ax.length r i && inner f.ay.length r j) = true := by
  simp only [inner, Bool.and_eq_true, decide_eq_true_eq]
  constructor
  · intro h
    have a1 := h (i - r) j (by push_cast; ring_nf; exact le_refl _)
    have a2 := h (i + r) j (by push_cast; ring_nf; exact le_refl _)
    have a3 := h i (j - r) (by push_cast; ring_nf; exact le_refl _)
    have a4 := h i (j + r) (by push_cast; ring_nf; exact le_refl _)
    omega
  · rintro ⟨⟨h1, h2⟩, h3, h4⟩ a b hab
    have hab' : (a - i) ^ 2 + (b - j) ^ 2 ≤ (r : Int) ^ 2 := by exact_mod_cast hab
    have b1 := side hab' (by omega)
    have b2 := side (by rw [add_comm]; exact hab') (by omega)
    refine ⟨by omega, unmasked_any hm ?_ ?_⟩
    · rw [hf.mx]; omega
    · rw [hf.my]; omega

theorem gamma_shown (sq : Rat → Rat) {f : VF} (hf : f.WF) (hm : f.mask.any id = false) {r : Nat} (hr : 1 ≤ r) (hx : 2 ≤ f.ax.length) (hy : 2 ≤ f.ay.length) :
    ∃ g, gammaField sq f r = .ok g ∧ g.ax = f.ax ∧ g.ay = f.ay ∧ g.WF ∧
      ∀ i j, i < f.ax.length → j < f.ay.length →
        g.mask.get i j = !(inner f.ax.length r i && inner f.ay.length r j) ∧
        ((inner f.ax.length r i && inner f.ay.length r j) = true → g.cell i j = some (turning sq f r i j)) := by
  have h1 : (1 : Rat) ≤ r := by exact_mod_cast hr
  have h0 : (0 : Rat) < r := by linarith
  unfold gammaField
  rw [Crit.criterion_ok sq .gamma1 _ _ _ _ h1]
  simp only
  obtain ⟨g, e, gx, gy, s1, s2, s3, s4, gv, gm, _⟩ := SF.import_direct (ax := f.ax) (ay := f.ay) (ux := f.ux) (uy := f.uy) (uv := Sym.one)
    (v := ⟨f.ax.length, f.ay.length, fun i j => some ((if Crit.hidden f.ax.length f.ay.length r (fun a b => f.mask.get a.toNat b.toNat)
        ((Crit.disc r).eraseIdx ((Crit.disc r).length / 2)) i j then none
      else some (Crit.value sq .gamma1 (velocities f) ((Crit.disc r).eraseIdx ((Crit.disc r).length / 2)) i j)).getD 0)⟩)
    (m := .array ⟨f.ax.length, f.ay.length, fun i j => (if Crit.hidden f.ax.length f.ay.length r (fun a b => f.mask.get a.toNat b.toNat)
        ((Crit.disc r).eraseIdx ((Crit.disc r).length / 2)) i j then none
      else some (Crit.value sq .gamma1 (velocities f) ((Crit.disc r).eraseIdx ((Crit.disc r).length / 2)) i j)).isNone⟩) rfl rfl hx hy ⟨rfl, rfl⟩
  rw [SF.rev_false hf.incx] at gx
  rw [SF.rev_false hf.incy] at gy
  simp only [SF.rev_false hf.incx, SF.rev_false hf.incy, Bool.false_eq_true, if_false] at gx gy gv
  have hcell : ∀ i j, i < f.ax.length → j < f.ay.length →
        g.mask.get i j = !(inner f.ax.length r i && inner f.ay.length r j) ∧
        ((inner f.ax.length r i && inner f.ay.length r j) = true → g.cell i j = some (turning sq f r i j)) := by
    intro i j hi hj
    have hh := (Crit.hidden_iff (mask := fun a b => f.mask.get a.toNat b.toNat) h0 hi hj).trans (clear_iff hf hm hi hj)
    have hmask : g.mask.get i j = !(inner f.ax.length r i && inner f.ay.length r j) := by
      rw [gm]
      simp only [SF.MaskArg.get, Option.isNone_some, Bool.or_false]
      cases hb : (inner f.ax.length r i && inner f.ay.length r j)
      · have : Crit.hidden f.ax.length f.ay.length r (fun a b => f.mask.get a.toNat b.toNat) ((Crit.disc r).eraseIdx ((Crit.disc r).length / 2)) i j = true := by
          rw [← Bool.not_eq_false, hh, hb]
          decide
        rw [this]
        rfl
      · rw [hh.mpr hb]
        rfl
    refine ⟨hmask, fun hb => ?_⟩
    unfold SF.cell
    rw [hmask, hb, gv]
    simp only [Bool.not_true, Bool.false_eq_true, if_false, hh.mpr hb, Option.getD_some]
    rw [value_turning sq f hr]
  refine ⟨g, e, gx, gy, ⟨gx ▸ hf.incx, gy ▸ hf.incy, gx ▸ hf.nex, gy ▸ hf.ney, by rw [gx, s1], by rw [gy, s2], by rw [gx, s3], by rw [gy, s4], ?_⟩, hcell⟩
  intro i j _ _ h
  rw [gv] at h
  cases h

theorem range_inner {n r : Nat} (h : 2 * r < n) : (List.range n).filter (inner n r) = List.range' r (n - 2 * r) := by
  have e : List.range n = List.range' 0 r ++ (List.range' r (n - 2 * r) ++ List.range' (n - r) r) := by
    rw [List.range_eq_range']
    have := List.range'_append_1 (s := r) (m := n - 2 * r) (n := r)
    rw [show n - r = r + (n - 2 * r) by omega, this]
    have := List.range'_append_1 (s := 0) (m := r) (n := n - 2 * r + r)
    rw [Nat.zero_add] at this
    rw [this]
    congr 1
    omega
  rw [e, List.filter_append, List.filter_append, List.filter_eq_nil_iff.mpr, List.filter_eq_self.mpr, List.filter_eq_nil_iff.mpr]
  · simp
  · intro a ha
    rw [List.mem_range'_1] at ha
    simp only [inner, decide_eq_true_eq]
    omega
  · intro a ha
    rw [List.mem_range'_1] at ha
    simp only [inner, decide_eq_true_eq]
    omega
  · intro a ha
    rw [List.mem_range'_1] at ha
    simp only [inner, decide_eq_true_eq]
    omega

theorem firstLast_inner {n r : Nat} (h : 2 * r < n) : SF.firstLast ((List.range n).filter (inner n r)) = .ok (r, n - r - 1) := by
  rw [range_inner h]
  obtain ⟨k, hk⟩ : ∃ k, n - 2 * r = k + 1 := ⟨n - 2 * r - 1, by omega⟩
  unfold SF.firstLast
  rw [hk, List.head?_range', List.getLast?_range']
  simp
  omega


theorem crop_at {f : VF} {g : SF} {r : Nat} (hr : 1 ≤ r) (hx : 2 * r < f.ax.length) (hy : 2 * r < f.ay.length) (gx : g.ax = f.ax) (gy : g.ay = f.ay) (hg : g.WF)
    (hm : ∀ i j, i < f.ax.length → j < f.ay.length → g.mask.get i j = !(inner f.ax.length r i && inner f.ay.length r j)) :
    gammaCropped g = .ok (g.cut r (f.ax.length - r - 1) r (f.ay.length - r - 1)) := by
  have nx : g.mask.nx = f.ax.length := by rw [hg.mx, gx]
  have ny : g.mask.ny = f.ay.length := by rw [hg.my, gy]
  have hany : g.anyMasked = true := by
    rw [SF.anyMasked_iff]
    refine ⟨0, 0, by omega, by omega, ?_⟩
    rw [hm 0 0 (by omega) (by omega)]
    have : inner f.ax.length r 0 = false := by simp only [inner, decide_eq_false_iff_not]; omega
    rw [this]
    rfl
  have hrow : (List.range g.mask.nx).filter g.rowValid = (List.range f.ax.length).filter (inner f.ax.length r) := by
    rw [nx]
    apply List.filter_congr
    intro i hi
    rw [List.mem_range] at hi
    rw [Bool.eq_iff_iff]
    unfold SF.rowValid
    simp only [List.any_eq_true, List.mem_range, Bool.not_eq_true', ny]
    constructor
    · rintro ⟨j, hj, h⟩
      rw [hm i j hi hj, Bool.not_eq_false', Bool.and_eq_true] at h
      exact h.1
    · intro h
      refine ⟨r, by omega, ?_⟩
      rw [hm i r hi (by omega), h]
      have : inner f.ay.length r r = true := by simp only [inner, decide_eq_true_eq]; omega
      rw [this]
      rfl
  have hcol : (List.range g.mask.ny).filter g.colValid = (List.range f.ay.length).filter (inner f.ay.length r) := by
    rw [ny]
    apply List.filter_congr
    intro j hj
    rw [List.mem_range] at hj
    rw [Bool.eq_iff_iff]
    unfold SF.colValid
    simp only [List.any_eq_true, List.mem_range, Bool.not_eq_true', nx]
    constructor
    · rintro ⟨i, hi, h⟩
      rw [hm i j hi hj, Bool.not_eq_false', Bool.and_eq_true] at h
      exact h.2
    · intro h
      refine ⟨r, by omega, ?_⟩
      rw [hm r j (by omega) hj, h]
      have : inner f.ax.length r r = true := by simp only [inner, decide_eq_true_eq]; omega
      rw [this]
      rfl
  have hinds : ∀ n, 2 * r < n → Axis.cropIndsInd ((r : Nat) : Int) ((n - r - 1 : Nat) : Int) = .ok (r, n - r - 1) := by
    intro n hn
    unfold Axis.cropIndsInd
    rw [if_neg (by omega), if_neg (by omega)]
    simp
  have hsoft : g.softCrop = .ok (g.cut r (f.ax.length - r - 1) r (f.ay.length - r - 1)) := by
    unfold SF.softCrop
    rw [hrow, hcol, firstLast_inner hx, firstLast_inner hy]
    simp only [SF.cropInd, Option.getD_some, hinds _ hx, hinds _ hy]
  have hnone : (g.cut r (f.ax.length - r - 1) r (f.ay.length - r - 1)).anyMasked = false := by
    rw [← Bool.not_eq_true, SF.anyMasked_iff]
    rintro ⟨i, j, hi, hj, h⟩
    simp only [SF.cut, Grid.sub, nx, ny] at hi hj h
    rw [hm _ _ (by omega) (by omega)] at h
    have h1 : inner f.ax.length r (r + i) = true := by simp only [inner, decide_eq_true_eq]; omega
    have h2 : inner f.ay.length r (r + j) = true := by simp only [inner, decide_eq_true_eq]; omega
    rw [h1, h2] at h
    cases h
  have hloop : ∀ n, SF.hardLoop n (g.cut r (f.ax.length - r - 1) r (f.ay.length - r - 1)) = some (.ok (g.cut r (f.ax.length - r - 1) r (f.ay.length - r - 1))) := by
    intro n
    cases n <;> simp [SF.hardLoop, hnone]
  unfold gammaCropped SF.cropMaskedHard
  rw [hany, hsoft]
  simp [hloop, Except.map]

theorem extremes {g : SF} (hx : g.ax ≠ []) (hy : g.ay ≠ []) (h : ∀ q : Zone.Cell g.ax.length g.ay.length, ∃ v, g.cell q.1 q.2 = some v) :
    (∃ v, IsMin g v) ∧ ∃ v, IsMax g v := by
  have hne : (Finset.univ : Finset (Zone.Cell g.ax.length g.ay.length)).Nonempty :=
    ⟨(⟨0, List.length_pos_iff.mpr hx⟩, ⟨0, List.length_pos_iff.mpr hy⟩), Finset.mem_univ _⟩
  obtain ⟨a, _, ha⟩ := Finset.exists_min_image Finset.univ (Centre.value g) hne
  obtain ⟨b, _, hb⟩ := Finset.exists_max_image Finset.univ (Centre.value g) hne
  have hv : ∀ q u, g.cell q.1 q.2 = some u → Centre.value g q = u := by
    intro q u hu
    unfold Centre.value
    rw [hu]
    rfl
  refine ⟨⟨Centre.value g a, ?_, ?_⟩, ⟨Centre.value g b, ?_, ?_⟩⟩
  · rw [Centre.reads_iff]
    obtain ⟨v, hv'⟩ := h a
    exact ⟨a, by rw [hv', hv a v hv']⟩
  · intro x y u hu
    obtain ⟨q, hq⟩ := Centre.reads_iff.mp ⟨x, y, hu⟩
    rw [← hv q u hq]
    exact ha q (Finset.mem_univ _)
  · rw [Centre.reads_iff]
    obtain ⟨v, hv'⟩ := h b
    exact ⟨b, by rw [hv', hv b v hv']⟩
  · intro x y u hu
    obtain ⟨q, hq⟩ := Centre.reads_iff.mp ⟨x, y, hu⟩
    rw [← hv q u hq]
    exact hb q (Finset.mem_univ _)

theorem regular_slice {l : List Rat} (h : Regular l) (a b : Nat) : Regular (slice l a b) := by
  obtain ⟨x0, d, h⟩ := h
  refine ⟨x0 + a * d, d, ?_⟩
  intro i x hx
  rw [slice_getElem?] at hx
  split at hx
  · rw [h _ _ hx]
    push_cast
    ring
  · cases hx

/-- The centres of the zones between two bounds of the same sign. -/
theorem centres {L : Lab} (hL : IsLab L) (pick : Pick) {g : SF} (hx : Regular g.ax) (hy : Regular g.ay) (nx : g.ax ≠ []) (ny : g.ay ≠ [])
    (hv : ∀ q : Zone.Cell g.ax.length g.ay.length, ∃ v, g.cell q.1 q.2 = some v) {lo hi : Rat} (h : lo < hi)
    (h0 : ∀ v, (bounds lo hi).1 ≤ v → v ≤ (bounds lo hi).2 → v ≠ 0) :
    ∃ r, zonesCenters L pick (lo, hi) false .ponderated g = .ok r ∧
      OnePerZone (Band g (bounds lo hi).1 (bounds lo hi).2) (IsBary g (Band g (bounds lo hi).1 (bounds lo hi).2) fun q => |Centre.value g q|) (r.getD []) := by
  obtain ⟨⟨mn, hmn⟩, mx, hmx⟩ := extremes nx ny hv
  obtain ⟨r, hr, hn, hs⟩ := Centre.C254_centres_partial hL pick (k := .ponderated) (.inr rfl) hx hy h hmn hmx (by
    intro _ c hc
    obtain ⟨v, h1, h2, h3⟩ := hc
    refine ⟨c, ⟨⟨v, h1, h2, h3⟩, ⟨v, h1, h2, h3⟩, .refl⟩, ?_⟩
    unfold Centre.value
    rw [h1]
    exact h0 v h2 h3)
  refine ⟨r, hr, ?_⟩
  cases r with
  | none =>
    have := hn.mp rfl
    exact ⟨[], by simp, List.Pairwise.nil, fun q hq => absurd hq (this q), List.Forall₂.nil⟩
  | some l =>
    have := hs l rfl
    unfold Centre.weight at this
    simpa using this

/-! ### theorems -/

/-- C371: on a field without masked values, with evenly spaced axes and more than `2 r` points along each, `get_critical_points(kind='gam_vort',
window_size=r)` gives one focus for each connected zone where the mean sine of the velocities around is above `2/π` (`c`), and one clockwise focus for each
zone where it is below `-2/π`, at their barycentres weighted by the mean sine.  Zones are looked for only at more than `r` points from the borders. -/
theorem C371_centres_partial (sq : Rat → Rat) {L : Lab} (hL : IsLab L) (pick : Pick) {c : Rat} (hc0 : 0 < c) (hc1 : c < 1) {f : VF} (hf : f.WF)
    (hm : f.mask.any id = false) (hx : Regular f.ax) (hy : Regular f.ay) {r : Nat} (hr : 1 ≤ r) (h2x : 2 * r < f.ax.length) (h2y : 2 * r < f.ay.length) :
    ∃ g foc focc, gamVort sq L pick c f r = .ok (foc, focc) ∧ ShowsTurning sq f r g ∧
      OnePerZone (Band g (bounds c 1).1 (bounds c 1).2) (IsBary g (Band g (bounds c 1).1 (bounds c 1).2) fun q => |Centre.value g q|) foc ∧
      OnePerZone (Band g (bounds (-1) (-c)).1 (bounds (-1) (-c)).2) (IsBary g (Band g (bounds (-1) (-c)).1 (bounds (-1) (-c)).2) fun q => |Centre.value g q|) focc := by
  obtain ⟨g, e, gx, gy, hg, hcell⟩ := gamma_shown sq hf hm hr (by omega) (by omega)
  have hcrop := crop_at hr h2x h2y gx gy hg fun i j hi hj => (hcell i j hi hj).1
  have hshows : ShowsTurning sq f r (g.cut r (f.ax.length - r - 1) r (f.ay.length - r - 1)) := by
    intro x y v
    rw [SF.cut_reads, gx, gy]
    constructor
    · rintro ⟨i, j, hi, hj, hv, h1, h2⟩
      have li := getElem?_some_lt hi
      have lj := getElem?_some_lt hj
      refine ⟨i, j, hi, hj, by omega, by omega, ?_⟩
      rw [← hv, (hcell i j li lj).2]
      simp only [inner, Bool.and_eq_true, decide_eq_true_eq]
      omega
    · rintro ⟨i, j, hi, hj, h1, h2, rfl⟩
      have li := getElem?_some_lt hi
      have lj := getElem?_some_lt hj
      refine ⟨i, j, hi, hj, ?_, by omega, by omega⟩
      rw [(hcell i j li lj).2]
      simp only [inner, Bool.and_eq_true, decide_eq_true_eq]
      omega
  have lx : (g.cut r (f.ax.length - r - 1) r (f.ay.length - r - 1)).ax.length = f.ax.length - 2 * r := by
    simp only [SF.cut, slice_length, gx]
    omega
  have ly : (g.cut r (f.ax.length - r - 1) r (f.ay.length - r - 1)).ay.length = f.ay.length - 2 * r := by
    simp only [SF.cut, slice_length, gy]
    omega
  have rx : Regular (g.cut r (f.ax.length - r - 1) r (f.ay.length - r - 1)).ax := regular_slice (gx ▸ hx) _ _
  have ry : Regular (g.cut r (f.ax.length - r - 1) r (f.ay.length - r - 1)).ay := regular_slice (gy ▸ hy) _ _
  have hv : ∀ q : Zone.Cell (g.cut r (f.ax.length - r - 1) r (f.ay.length - r - 1)).ax.length (g.cut r (f.ax.length - r - 1) r (f.ay.length - r - 1)).ay.length,
      ∃ v, (g.cut r (f.ax.length - r - 1) r (f.ay.length - r - 1)).cell q.1 q.2 = some v := by
    rintro ⟨⟨i, hi⟩, ⟨j, hj⟩⟩
    rw [SF.cut_cell]
    rw [lx] at hi
    rw [ly] at hj
    refine ⟨_, (hcell _ _ (by simp only; omega) (by simp only; omega)).2 ?_⟩
    simp only [inner, Bool.and_eq_true, decide_eq_true_eq]
    omega
  have nx : (g.cut r (f.ax.length - r - 1) r (f.ay.length - r - 1)).ax ≠ [] := by
    rw [← List.length_pos_iff, lx]
    omega
  have ny : (g.cut r (f.ax.length - r - 1) r (f.ay.length - r - 1)).ay ≠ [] := by
    rw [← List.length_pos_iff, ly]
    omega
  obtain ⟨a, ea, ha⟩ := centres hL pick rx ry nx ny hv (lo := -1) (hi := -c) (by linarith) (by
    intro v _ h
    simp only [bounds, abs_neg, abs_of_pos hc0] at h
    linarith)
  obtain ⟨b, eb, hb⟩ := centres hL pick rx ry nx ny hv (lo := c) (hi := 1) hc1 (by
    intro v h _
    simp only [bounds, abs_of_pos hc0] at h
    linarith)
  refine ⟨_, b.getD [], a.getD [], ?_, hshows, hb, ha⟩
  unfold gamVort
  rw [hm, e]
  simp only [Bool.false_eq_true, if_false, hcrop, ea, eb]

/-- C371 is violated: with `2 r` points or less along one axis there is no empty result but an IndexError. -/
theorem C371_small_violated (sq : Rat → Rat) (L : Lab) (pick : Pick) (c : Rat) {f : VF} (hf : f.WF) (hm : f.mask.any id = false) {r : Nat} (hr : 1 ≤ r)
    (h : f.ax.length ≤ 2 * r ∨ f.ay.length ≤ 2 * r) : gamVort sq L pick c f r = .error .indexError := by
  unfold gamVort
  rw [hm]
  simp only [Bool.false_eq_true, if_false]
  by_cases h2 : f.ay.length < 2 ∨ f.ax.length < 2
  · unfold gammaField
    rw [Crit.criterion_ok sq .gamma1 _ _ _ _ (by exact_mod_cast hr)]
    unfold SF.importArrays
    simp only [if_pos h2]
  · obtain ⟨g, e, gx, gy, hg, hcell⟩ := gamma_shown sq hf hm hr (by omega) (by omega)
    have hmask : ∀ i j, i < g.mask.nx → j < g.mask.ny → g.mask.get i j = true := by
      intro i j hi hj
      rw [hg.mx, gx] at hi
      rw [hg.my, gy] at hj
      rw [(hcell i j hi hj).1, Bool.not_eq_true', ← Bool.not_eq_true]
      simp only [inner, Bool.and_eq_true, decide_eq_true_eq]
      omega
    have hany : g.anyMasked = true := by
      rw [SF.anyMasked_iff]
      have a1 := List.length_pos_iff.mpr hg.nex
      have a2 := List.length_pos_iff.mpr hg.ney
      rw [← hg.mx] at a1
      rw [← hg.my] at a2
      exact ⟨0, 0, a1, a2, hmask 0 0 a1 a2⟩
    have hrow : (List.range g.mask.nx).filter g.rowValid = [] := by
      rw [List.filter_eq_nil_iff]
      intro i hi
      rw [List.mem_range] at hi
      unfold SF.rowValid
      simp only [List.any_eq_true, List.mem_range, Bool.not_eq_true']
      rintro ⟨j, hj, h⟩
      rw [hmask i j hi hj] at h
      cases h
    have hcr : gammaCropped g = .error .indexError := by
      unfold gammaCropped SF.cropMaskedHard SF.softCrop
      rw [hrow, hany]
      rfl
    rw [e]
    simp only [hcr]

/-- A rotation around the origin, carried by a uniform flow of velocity `u` along x. -/
def spin (u : Rat) : VF where
  ax := [-1, 0, 1]
  ay := [-1, 0, 1]
  cx := ⟨3, 3, fun _ j => some (u - 3 * ((j : Rat) - 1))⟩
  cy := ⟨3, 3, fun i _ => some (3 * ((i : Rat) - 1))⟩
  mask := ⟨3, 3, fun _ _ => false⟩
  ux := Sym.one
  uy := Sym.one
  uv := Sym.one

theorem three_inc : Inc [(-1 : Rat), 0, 1] := by unfold Inc; decide +kernel

theorem spin_WF (u : Rat) : (spin u).WF :=
  ⟨three_inc, three_inc, by simp [spin], by simp [spin], rfl, rfl, rfl, rfl, rfl, rfl, fun _ _ _ _ h => (by cases h), fun _ _ _ _ h => (by cases h)⟩

theorem others_one : others 1 = {(1, 0), (-1, 0), (0, 1), (0, -1)} := by decide

theorem spin_turning {sq : Rat → Rat} (hs : ∀ a, 0 ≤ a → sq (a ^ 2) = a) : turning sq (spin 0) 1 1 1 = 1 ∧ turning sq (spin 4) 1 1 1 = 3 / 10 := by
  have s1 : sq 1 = 1 := by simpa using hs 1 (by norm_num)
  have s9 : sq 9 = 3 := by have := hs 3 (by norm_num); norm_num at this; exact this
  have s25 : sq 25 = 5 := by have := hs 5 (by norm_num); norm_num at this; exact this
  have s49 : sq 49 = 7 := by have := hs 7 (by norm_num); norm_num at this; exact this
  unfold turning
  rw [others_one]
  constructor
  · rw [Finset.sum_insert (by decide), Finset.sum_insert (by decide), Finset.sum_insert (by decide), Finset.sum_singleton]
    simp [spin, sine]
    norm_num [s1, s9, s25, s49]
  · rw [Finset.sum_insert (by decide), Finset.sum_insert (by decide), Finset.sum_insert (by decide), Finset.sum_singleton]
    simp [spin, sine]
    norm_num [s1, s9, s25, s49]

/-- Zones of a field of one point. -/
theorem single (L : Lab) (pick : Pick) {g : SF} {x y v lo hi : Rat} (hx : g.ax = [x]) (hy : g.ay = [y]) (hv : g.cell 0 0 = some v) (h : lo < hi) :
    zonesCenters L pick (lo, hi) false .ponderated g = .ok (if (bounds lo hi).1 ≤ v ∧ v ≤ (bounds lo hi).2 then some [(x, y)] else none) := by
  obtain ⟨ax, ay, val, mask, ux, uy, uv⟩ := g
  simp only at hx hy
  subst hx hy
  have hc : Zone.cells [x].length [y].length = [(⟨0, by simp⟩, ⟨0, by simp⟩)] := rfl
  have hvis : Centre.visible ⟨[x], [y], val, mask, ux, uy, uv⟩ = [v] := by
    unfold Centre.visible
    simp only [hc, Centre.grid, List.filterMap_cons, List.filterMap_nil, hv]
  have hw : (bounds lo hi).1 < (bounds lo hi).2 := by
    unfold bounds
    have a1 := abs_nonneg lo
    have a2 := abs_nonneg hi
    simp only
    linarith
  unfold zonesCenters
  rw [Centre.widen_bounds, if_neg (ne_of_lt hw), if_neg (by simpa using hw), if_neg (by simp), hvis]
  simp only [List.min?_cons, List.max?_cons, List.min?_nil, List.max?_nil, Option.elim, Bool.false_eq_true, if_false]
  by_cases hb : (bounds lo hi).1 ≤ v ∧ v ≤ (bounds lo hi).2
  · rw [if_neg (by push Not; exact hb), if_pos hb]
    have hin : (Zone.cells [x].length [y].length).filter (Centre.inside ⟨[x], [y], val, mask, ux, uy, uv⟩ (bounds lo hi)) = [(⟨0, by simp⟩, ⟨0, by simp⟩)] := by
      rw [hc]
      simp only [List.filter_cons, Centre.inside, Centre.grid, hv, hb.1, hb.2, List.filter_nil]
      rfl
    unfold Centre.found
    simp only [hin]
    rfl
  · rw [if_pos (by by_contra hn; push Not at hn; exact hb hn), if_neg hb]

/-- C371 is violated: the vortices found depend on the velocity of the frame, as gamma1 and not gamma2 is used: a vortex found in a fluid at rest is not
found when the whole is carried by a uniform flow. -/
theorem C371_moving_violated {sq : Rat → Rat} (hs : ∀ a, 0 ≤ a → sq (a ^ 2) = a) (L : Lab) (pick : Pick) {c : Rat} (h1 : 1 / 2 ≤ c) (h2 : c < 1) :
    gamVort sq L pick c (spin 0) 1 = .ok ([(0, 0)], []) ∧ gamVort sq L pick c (spin 4) 1 = .ok ([], []) ∧
    ∀ i j, (spin 4).cell i j = ((spin 0).cell i j).map fun p => (p.1 + 4, p.2) := by
  have hgo : ∀ u v, turning sq (spin u) 1 1 1 = v → gamVort sq L pick c (spin u) 1 =
      .ok (if (bounds c 1).1 ≤ v ∧ v ≤ (bounds c 1).2 then [(0, 0)] else [], if (bounds (-1) (-c)).1 ≤ v ∧ v ≤ (bounds (-1) (-c)).2 then [(0, 0)] else []) := by
    intro u v hv
    obtain ⟨g, e, gx, gy, hg, hcell⟩ := gamma_shown sq (spin_WF u) (r := 1) rfl (le_refl _) (by simp [spin]) (by simp [spin])
    have hcrop := crop_at (f := spin u) (r := 1) (le_refl _) (by simp [spin]) (by simp [spin]) gx gy hg fun i j hi hj => (hcell i j hi hj).1
    have cx : (g.cut 1 ((spin u).ax.length - 1 - 1) 1 ((spin u).ay.length - 1 - 1)).ax = [0] := by
      simp only [SF.cut, gx]
      rfl
    have cy : (g.cut 1 ((spin u).ax.length - 1 - 1) 1 ((spin u).ay.length - 1 - 1)).ay = [0] := by
      simp only [SF.cut, gy]
      rfl
    have cv : (g.cut 1 ((spin u).ax.length - 1 - 1) 1 ((spin u).ay.length - 1 - 1)).cell 0 0 = some v := by
      rw [SF.cut_cell, (hcell 1 1 (by simp [spin]) (by simp [spin])).2 rfl, hv]
    unfold gamVort
    rw [e, show (spin u).mask.any id = false from rfl]
    simp only [Bool.false_eq_true, if_false, hcrop, single L pick cx cy cv (show -1 < -c by linarith), single L pick cx cy cv h2]
    split <;> split <;> rfl
  have habs : |c| = c := abs_of_pos (by linarith)
  refine ⟨?_, ?_, ?_⟩
  · rw [hgo 0 1 (spin_turning hs).1, if_pos, if_neg]
    · simp only [bounds, abs_neg, habs]
      rintro ⟨_, h⟩
      linarith
    · simp only [bounds, habs, abs_one]
      constructor <;> linarith
  · rw [hgo 4 (3 / 10) (spin_turning hs).2, if_neg, if_neg]
    · simp only [bounds, abs_neg, habs]
      rintro ⟨_, h⟩
      linarith
    · simp only [bounds, habs, abs_one]
      rintro ⟨h, _⟩
      linarith
  · intro i j
    simp only [VF.cell, spin, Bool.false_eq_true, if_false, Option.map_some, Option.some.injEq, Prod.mk.injEq, and_true]
    ring

/-- There are such square roots. -/
example : ∃ sq : Rat → Rat, ∀ a, 0 ≤ a → sq (a ^ 2) = a := by
  classical
  refine ⟨fun x => if h : ∃ a, 0 ≤ a ∧ a ^ 2 = x then h.choose else 0, ?_⟩
  intro a ha
  have h : ∃ b, 0 ≤ b ∧ b ^ 2 = a ^ 2 := ⟨a, ha, rfl⟩
  simp only [dif_pos h]
  exact (pow_left_inj₀ h.choose_spec.1 ha (by norm_num)).mp h.choose_spec.2

/-- The hypotheses of C371_centres_partial hold for a vortex carried by any uniform flow, with the whole numbers of steps that fit. -/
example (u : Rat) : (spin u).WF ∧ (spin u).mask.any id = false ∧ Regular (spin u).ax ∧ Regular (spin u).ay ∧ 2 * 1 < (spin u).ax.length := by
  have h : Regular [-1, 0, 1] := by
    refine ⟨-1, 1, ?_⟩
    intro i x hx
    match i with
    | 0 => simp at hx; rw [← hx]; norm_num
    | 1 => simp at hx; rw [← hx]; norm_num
    | 2 => simp at hx; rw [← hx]; norm_num
    | k + 3 => simp at hx
  exact ⟨spin_WF u, rfl, h, h, by simp [spin]⟩

end IMT.Detect
