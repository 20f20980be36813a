import Verif.Scalar.Value
import Verif.Scalar.Geom
import Verif.Scalar.Arith

/-! Lemmas for C276: reading a value from the corners of a cell. -/

namespace IMT.Probe

open SF (branch plane cellInterp interpAt factor)

/-! ### reading from the corners -/

/-- `x1` and `x2` are `x` itself, or the two lines around it. -/
def Around (l : List Rat) (x x1 x2 : Rat) : Prop :=
  x1 ∈ l ∧ x2 ∈ l ∧ ((x1 = x ∧ x2 = x) ∨ (x1 < x ∧ x < x2 ∧ ∀ z ∈ l, ¬ (x1 < z ∧ z < x2)))

/-- The value from those of the corners. -/
def corner (main : Bool) (x x1 x2 y y1 y2 : Rat) (a b c d : Option Rat) : Option Rat :=
  if a = none ∨ d = none then none
  else if x1 = x2 ∧ y1 = y2 then a
  else if x1 = x2 then branch y1 y2 y a c
  else if y1 = y2 then branch x1 x2 x a b
  else cellInterp main ((x - x1) / (x2 - x1)) ((y - y1) / (y2 - y1)) a b c d

theorem around_exists {l : List Rat} (hl : Inc l) {x : Rat} (h1 : ∃ p ∈ l, p ≤ x) (h2 : ∃ p ∈ l, x ≤ p) : ∃ x1 x2, Around l x x1 x2 := by
  obtain ⟨p, hp, hpx⟩ := h1
  obtain ⟨q, hq, hxq⟩ := h2
  obtain ⟨i, hi⟩ := List.mem_iff_getElem?.1 hp
  obtain ⟨j, hj⟩ := List.mem_iff_getElem?.1 hq
  obtain ⟨a, -, ha, -, ha', -⟩ := SF.head_last_of_mem hl hi
  obtain ⟨-, b, -, hb, -, hb'⟩ := SF.head_last_of_mem hl hj
  obtain ⟨m, n, -, hc⟩ := Axis.C01_bounds_bracket hl ha hb (le_trans ha' hpx) (le_trans hxq hb')
  rcases hc with ⟨-, hm⟩ | ⟨-, rfl, lo, hi, h1, h2, h3, h4⟩
  · exact ⟨x, x, List.mem_of_getElem? hm, List.mem_of_getElem? hm, .inl ⟨rfl, rfl⟩⟩
  · refine ⟨lo, hi, List.mem_of_getElem? h1, List.mem_of_getElem? h2, .inr ⟨h3, h4, ?_⟩⟩
    rintro z hz ⟨h5, h6⟩
    obtain ⟨k, hk⟩ := List.mem_iff_getElem?.1 hz
    have := hl.idx_lt h1 hk h5
    have := hl.idx_lt hk h2 h6
    omega

theorem around_bounds {l : List Rat} (hl : Inc l) {x x1 x2 : Rat} (h : Around l x x1 x2) :
    ∃ i j : Nat, l[i]? = some x1 ∧ l[j]? = some x2 ∧ Axis.bounds l x = .ok (i, j) ∧ (i = j ↔ x1 = x2) ∧ (x1 ≠ x2 → j = i + 1) := by
  obtain ⟨h1, h2, h3⟩ := h
  obtain ⟨i, hi⟩ := List.mem_iff_getElem?.1 h1
  obtain ⟨j, hj⟩ := List.mem_iff_getElem?.1 h2
  rcases h3 with ⟨rfl, rfl⟩ | ⟨h4, h5, h6⟩
  · exact ⟨i, i, hi, hi, SF.bounds_node hl hi, by simp, by simp⟩
  · have hij := hl.idx_lt hi hj (by linarith)
    have hj' : j = i + 1 := by
      by_contra hc
      have hlt : i + 1 < l.length := by have := getElem?_some_lt hj; omega
      have hz := List.getElem?_eq_getElem hlt
      refine h6 _ (List.mem_of_getElem? hz) ⟨?_, ?_⟩
      · exact hl.get_lt hi hz (by omega)
      · exact hl.get_lt hz hj (by omega)
    subst hj'
    exact ⟨i, i + 1, hi, hj, SF.bounds_between hl hi hj h4 h5, by constructor <;> intro h <;> [omega; linarith], fun _ => rfl⟩

theorem mask_iff {f : SF} (hf : f.WF) {i j : Nat} (hi : i < f.ax.length) (hj : j < f.ay.length) : f.mask.get i j = true ↔ f.cell i j = none := by
  constructor
  · intro h; unfold SF.cell; rw [if_pos h]
  · intro h
    by_contra hm
    have : f.val.get i j = none := by
      unfold SF.cell at h; rwa [if_neg hm] at h
    exact hm (hf.nan i j hi hj this)

theorem reads_at {f : SF} (hf : f.WF) {x y : Rat} {r : Option Rat} (h : f.Reads x y r) {i j : Nat} (hi : f.ax[i]? = some x) (hj : f.ay[j]? = some y) : f.cell i j = r := by
  obtain ⟨i', j', h1, h2, h3⟩ := h
  rw [← h3, hf.incx.idx_inj h1 hi, hf.incy.idx_inj h2 hj]

/-- `get_value` from the values shown at the corners. -/
theorem value_of_corners (main : Bool) {f : SF} (hf : f.WF) {x x1 x2 y y1 y2 : Rat} (hx : Around f.ax x x1 x2) (hy : Around f.ay y y1 y2) {a b c d : Option Rat}
    (ha : f.Reads x1 y1 a) (hb : f.Reads x2 y1 b) (hc : f.Reads x1 y2 c) (hd : f.Reads x2 y2 d) :
    f.getValue main x y = .ok (corner main x x1 x2 y y1 y2 a b c d) := by
  obtain ⟨i0, i1, hi0, hi1, ex, ix, jx⟩ := around_bounds hf.incx hx
  obtain ⟨j0, j1, hj0, hj1, ey, iy, jy⟩ := around_bounds hf.incy hy
  unfold SF.getValue
  rw [ex, ey]
  simp only
  congr 1
  have ca := reads_at hf ha hi0 hj0
  have cb := reads_at hf hb hi1 hj0
  have cc := reads_at hf hc hi0 hj1
  have cd := reads_at hf hd hi1 hj1
  unfold interpAt corner
  have hcond : (f.mask.get i0 j0 || f.mask.get i1 j1) = true ↔ a = none ∨ d = none := by
    rw [Bool.or_eq_true, mask_iff hf (getElem?_some_lt hi0) (getElem?_some_lt hj0), mask_iff hf (getElem?_some_lt hi1) (getElem?_some_lt hj1), ca, cd]
  by_cases h0 : a = none ∨ d = none
  · rw [if_pos (hcond.2 h0), if_pos h0]
  · rw [if_neg (fun h => h0 (hcond.1 h)), if_neg h0]
    by_cases hxx : x1 = x2
    · by_cases hyy : y1 = y2
      · rw [if_pos ⟨ix.2 hxx, iy.2 hyy⟩, if_pos ⟨hxx, hyy⟩, ca]
      · rw [if_neg (show ¬ (i0 = i1 ∧ j0 = j1) from fun h => hyy (iy.1 h.2)), if_neg (show ¬ (x1 = x2 ∧ y1 = y2) from fun h => hyy h.2),
          if_pos (ix.2 hxx), if_pos hxx, ca, cc, SF.getD_of_getElem? hj0, SF.getD_of_getElem? hj1]
    · rw [if_neg (show ¬ (i0 = i1 ∧ j0 = j1) from fun h => hxx (ix.1 h.1)), if_neg (show ¬ (x1 = x2 ∧ y1 = y2) from fun h => hxx h.1),
        if_neg (show ¬ i0 = i1 from fun h => hxx (ix.1 h)), if_neg hxx]
      by_cases hyy : y1 = y2
      · rw [if_pos (iy.2 hyy), if_pos hyy, ca, cb, SF.getD_of_getElem? hi0, SF.getD_of_getElem? hi1]
      · rw [if_neg (show ¬ j0 = j1 from fun h => hyy (iy.1 h)), if_neg hyy]
        have ei := jx hxx
        have ej := jy hyy
        subst ei ej
        rw [ca, cb, cc, cd, SF.getD_of_getElem? hi0, SF.getD_of_getElem? hi1, SF.getD_of_getElem? hj0, SF.getD_of_getElem? hj1]

/-! ### transformations of the corners -/

theorem branch_map {k c p1 p2 y q : Rat} (hk : 0 < k) (a b : Option Rat) :
    branch (k * p1 + c) (k * p2 + c) (k * y + c) (a.map (· * q)) (b.map (· * q)) = (branch p1 p2 y a b).map (· * q) := by
  cases a <;> cases b <;> simp only [branch, Option.map_some, Option.map_none]
  congr 1
  rw [show k * p1 + c - (k * y + c) = k * (p1 - y) by ring, show k * p2 + c - (k * y + c) = k * (p2 - y) by ring,
    show k * p1 + c - (k * p2 + c) = k * (p1 - p2) by ring, abs_mul, abs_mul, abs_mul, abs_of_pos hk]
  by_cases h : |p1 - p2| = 0
  · rw [h]; simp
  · field_simp

theorem plane_map (u v w : Option Rat) (q : Rat) (φ : Rat → Rat → Rat → Rat) (h : ∀ a b c, φ (a * q) (b * q) (c * q) = φ a b c * q) :
    plane (u.map (· * q)) (v.map (· * q)) (w.map (· * q)) φ = (plane u v w φ).map (· * q) := by
  cases u <;> cases v <;> cases w <;> simp [plane, h]

theorem cellInterp_map (main : Bool) (u w q : Rat) (a b c d : Option Rat) :
    cellInterp main u w (a.map (· * q)) (b.map (· * q)) (c.map (· * q)) (d.map (· * q)) = (cellInterp main u w a b c d).map (· * q) := by
  unfold cellInterp
  split
  · split
    · exact plane_map _ _ _ _ _ (by intros; ring)
    · exact plane_map _ _ _ _ _ (by intros; ring)
  · split
    · exact plane_map _ _ _ _ _ (by intros; ring)
    · exact plane_map _ _ _ _ _ (by intros; ring)

theorem corner_map (main : Bool) {kx cx ky cy q x x1 x2 y y1 y2 : Rat} (hkx : 0 < kx) (hky : 0 < ky) (a b c d : Option Rat) :
    corner main (kx * x + cx) (kx * x1 + cx) (kx * x2 + cx) (ky * y + cy) (ky * y1 + cy) (ky * y2 + cy)
      (a.map (· * q)) (b.map (· * q)) (c.map (· * q)) (d.map (· * q)) = (corner main x x1 x2 y y1 y2 a b c d).map (· * q) := by
  have ex : kx * x1 + cx = kx * x2 + cx ↔ x1 = x2 := by
    constructor
    · intro h; have : kx * x1 = kx * x2 := by linarith
      exact mul_left_cancel₀ hkx.ne' this
    · rintro rfl; rfl
  have ey : ky * y1 + cy = ky * y2 + cy ↔ y1 = y2 := by
    constructor
    · intro h; have : ky * y1 = ky * y2 := by linarith
      exact mul_left_cancel₀ hky.ne' this
    · rintro rfl; rfl
  unfold corner
  simp only [Option.map_eq_none_iff, ex, ey]
  split
  · rfl
  · split
    · rfl
    · split
      · exact branch_map hky _ _
      · split
        · exact branch_map hkx _ _
        · rw [show kx * x + cx - (kx * x1 + cx) = kx * (x - x1) by ring, show kx * x2 + cx - (kx * x1 + cx) = kx * (x2 - x1) by ring,
            show ky * y + cy - (ky * y1 + cy) = ky * (y - y1) by ring, show ky * y2 + cy - (ky * y1 + cy) = ky * (y2 - y1) by ring,
            mul_div_mul_left _ _ hkx.ne', mul_div_mul_left _ _ hky.ne']
          exact cellInterp_map _ _ _ _ _ _ _ _

theorem mem_ax {f : SF} (hf : f.WF) {x : Rat} : x ∈ f.ax ↔ ∃ y r, f.Reads x y r := by
  constructor
  · intro h
    obtain ⟨i, hi⟩ := List.mem_iff_getElem?.1 h
    obtain ⟨y, l, hy⟩ := List.exists_cons_of_ne_nil hf.ney
    exact ⟨y, _, i, 0, hi, by rw [hy]; rfl, rfl⟩
  · rintro ⟨y, r, i, j, hi, -, -⟩; exact List.mem_of_getElem? hi

theorem mem_ay {f : SF} (hf : f.WF) {y : Rat} : y ∈ f.ay ↔ ∃ x r, f.Reads x y r := by
  constructor
  · intro h
    obtain ⟨j, hj⟩ := List.mem_iff_getElem?.1 h
    obtain ⟨x, l, hx⟩ := List.exists_cons_of_ne_nil hf.nex
    exact ⟨x, _, 0, j, by rw [hx]; rfl, hj, rfl⟩
  · rintro ⟨x, r, i, j, -, hj, -⟩; exact List.mem_of_getElem? hj

theorem reads_of_mem {f : SF} {x y : Rat} (hx : x ∈ f.ax) (hy : y ∈ f.ay) : ∃ r, f.Reads x y r := by
  obtain ⟨i, hi⟩ := List.mem_iff_getElem?.1 hx
  obtain ⟨j, hj⟩ := List.mem_iff_getElem?.1 hy
  exact ⟨_, i, j, hi, hj, rfl⟩

/-- Brackets of a part of an axis, moved. -/
theorem around_back {l m : List Rat} {k c : Rat} (hk : 0 < k) (h1 : ∀ z ∈ m, ∃ z' ∈ l, z = k * z' + c)
    (h2 : ∀ z ∈ l, (∃ p ∈ m, p ≤ k * z + c) → (∃ p ∈ m, k * z + c ≤ p) → k * z + c ∈ m) {x u1 u2 : Rat} (h : Around m (k * x + c) u1 u2) :
    ∃ x1 x2, u1 = k * x1 + c ∧ u2 = k * x2 + c ∧ Around l x x1 x2 := by
  obtain ⟨a1, a2, a3⟩ := h
  obtain ⟨x1, m1, rfl⟩ := h1 u1 a1
  obtain ⟨x2, m2, rfl⟩ := h1 u2 a2
  refine ⟨x1, x2, rfl, rfl, m1, m2, ?_⟩
  rcases a3 with ⟨e1, e2⟩ | ⟨e1, e2, e3⟩
  · left
    have f1 : k * x1 = k * x := by linarith
    have f2 : k * x2 = k * x := by linarith
    exact ⟨mul_left_cancel₀ hk.ne' f1, mul_left_cancel₀ hk.ne' f2⟩
  · right
    refine ⟨lt_of_mul_lt_mul_left (by linarith) hk.le, lt_of_mul_lt_mul_left (by linarith) hk.le, ?_⟩
    rintro z hz ⟨g1, g2⟩
    have g1' := mul_lt_mul_of_pos_left g1 hk
    have g2' := mul_lt_mul_of_pos_left g2 hk
    exact e3 _ (h2 z hz ⟨_, a1, by linarith⟩ ⟨_, a2, by linarith⟩) ⟨by linarith, by linarith⟩

/-- The main lemma: a field showing part of another one, moved and multiplied. -/
theorem transport (main : Bool) {f g : SF} (hf : f.WF) (hg : g.WF) {kx cx ky cy q : Rat} (hkx : 0 < kx) (hky : 0 < ky)
    (hr : ∀ x y r, f.Reads x y r → kx * x + cx ∈ g.ax → ky * y + cy ∈ g.ay → g.Reads (kx * x + cx) (ky * y + cy) (r.map (· * q)))
    (hx1 : ∀ z ∈ g.ax, ∃ z' ∈ f.ax, z = kx * z' + cx) (hx2 : ∀ z ∈ f.ax, (∃ p ∈ g.ax, p ≤ kx * z + cx) → (∃ p ∈ g.ax, kx * z + cx ≤ p) → kx * z + cx ∈ g.ax)
    (hy1 : ∀ z ∈ g.ay, ∃ z' ∈ f.ay, z = ky * z' + cy) (hy2 : ∀ z ∈ f.ay, (∃ p ∈ g.ay, p ≤ ky * z + cy) → (∃ p ∈ g.ay, ky * z + cy ≤ p) → ky * z + cy ∈ g.ay)
    {x y : Rat} (rx : (∃ p ∈ g.ax, p ≤ kx * x + cx) ∧ ∃ p ∈ g.ax, kx * x + cx ≤ p) (ry : (∃ p ∈ g.ay, p ≤ ky * y + cy) ∧ ∃ p ∈ g.ay, ky * y + cy ≤ p) :
    g.getValue main (kx * x + cx) (ky * y + cy) = (f.getValue main x y).map (Option.map (· * q)) := by
  obtain ⟨u1, u2, hu⟩ := around_exists hg.incx rx.1 rx.2
  obtain ⟨v1, v2, hv⟩ := around_exists hg.incy ry.1 ry.2
  obtain ⟨x1, x2, rfl, rfl, hx⟩ := around_back hkx hx1 hx2 hu
  obtain ⟨y1, y2, rfl, rfl, hy⟩ := around_back hky hy1 hy2 hv
  obtain ⟨a, ha⟩ := reads_of_mem hx.1 hy.1
  obtain ⟨b, hb⟩ := reads_of_mem hx.2.1 hy.1
  obtain ⟨c, hc⟩ := reads_of_mem hx.1 hy.2.1
  obtain ⟨d, hd⟩ := reads_of_mem hx.2.1 hy.2.1
  rw [value_of_corners main hf hx hy ha hb hc hd,
    value_of_corners main hg hu hv (hr _ _ _ ha hu.1 hv.1) (hr _ _ _ hb hu.2.1 hv.1) (hr _ _ _ hc hu.1 hv.2.1) (hr _ _ _ hd hu.2.1 hv.2.1),
    corner_map main hkx hky]
  rfl

end IMT.Probe
