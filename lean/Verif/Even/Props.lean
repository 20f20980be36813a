import Verif.Even.Lemmas
import Verif.Vector.Arith
import Mathlib.Tactic.FieldSimp

/-! C256 to C258: even spacing of fields and records. -/

namespace IMT.Even

open Mirror (compX compY)
open Turb (TVF)
open Temporal (TF mapRes)

variable {f : SF}

theorem Mesh.lt {l : List Rat} (hi : Inc l) {x a b : Rat} (h : Mesh l x a b) : a < b := by
  obtain ⟨⟨i, h1, h2⟩, -⟩ := h
  exact hi.get_lt h1 h2 (by omega)

theorem blend_affine {a b c d u v w x y : Rat} (h1 : a < b) (h2 : c < d) :
    blend a b c d (u * a + v * c + w) (u * b + v * c + w) (u * a + v * d + w) (u * b + v * d + w) x y = u * x + v * y + w := by
  have e1 : b - a ≠ 0 := by linarith
  have e2 : d - c ≠ 0 := by linarith
  unfold blend
  rw [div_eq_iff (mul_ne_zero e1 e2)]
  ring

theorem blend_le {a b c d p q r s x y hi : Rat} (h1 : a < b) (h2 : c < d) (x1 : a ≤ x) (x2 : x ≤ b) (y1 : c ≤ y) (y2 : y ≤ d) (hp : p ≤ hi) (hq : q ≤ hi)
    (hr : r ≤ hi) (hs : s ≤ hi) : blend a b c d p q r s x y ≤ hi := by
  unfold blend
  rw [div_le_iff₀ (mul_pos (by linarith) (by linarith))]
  have k1 : (d - y) * p + (y - c) * r ≤ (d - c) * hi := by
    have := mul_le_mul_of_nonneg_left hp (by linarith : 0 ≤ d - y)
    have := mul_le_mul_of_nonneg_left hr (by linarith : 0 ≤ y - c)
    linarith
  have k2 : (d - y) * q + (y - c) * s ≤ (d - c) * hi := by
    have := mul_le_mul_of_nonneg_left hq (by linarith : 0 ≤ d - y)
    have := mul_le_mul_of_nonneg_left hs (by linarith : 0 ≤ y - c)
    linarith
  have := mul_le_mul_of_nonneg_left k1 (by linarith : 0 ≤ b - x)
  have := mul_le_mul_of_nonneg_left k2 (by linarith : 0 ≤ x - a)
  linarith

theorem blend_ge {a b c d p q r s x y lo : Rat} (h1 : a < b) (h2 : c < d) (x1 : a ≤ x) (x2 : x ≤ b) (y1 : c ≤ y) (y2 : y ≤ d) (hp : lo ≤ p) (hq : lo ≤ q)
    (hr : lo ≤ r) (hs : lo ≤ s) : lo ≤ blend a b c d p q r s x y := by
  unfold blend
  rw [le_div_iff₀ (mul_pos (by linarith) (by linarith))]
  have k1 : (d - c) * lo ≤ (d - y) * p + (y - c) * r := by
    have := mul_le_mul_of_nonneg_left hp (by linarith : 0 ≤ d - y)
    have := mul_le_mul_of_nonneg_left hr (by linarith : 0 ≤ y - c)
    linarith
  have k2 : (d - c) * lo ≤ (d - y) * q + (y - c) * s := by
    have := mul_le_mul_of_nonneg_left hq (by linarith : 0 ≤ d - y)
    have := mul_le_mul_of_nonneg_left hs (by linarith : 0 ≤ y - c)
    linarith
  have := mul_le_mul_of_nonneg_left k1 (by linarith : 0 ≤ b - x)
  have := mul_le_mul_of_nonneg_left k2 (by linarith : 0 ≤ x - a)
  linarith

/-- The extent of an axis: its first and last points and its smallest step. -/
structure Extent (l : List Rat) (a b d : Rat) : Prop where
  head : l.head? = some a
  last : l.getLast? = some b
  step : IsStep l d

theorem extent_exists {l : List Rat} (h : 2 ≤ l.length) : ∃ a b d, Extent l a b d := by
  obtain ⟨d, hd⟩ := exists_step h
  cases l with
  | nil => simp at h
  | cons a l => exact ⟨a, (a :: l).getLast (by simp), d, rfl, List.getLast?_eq_getLast (by simp), hd⟩

/-- **C256** make_evenly_spaced of a field without masked point gives a field on evenly spaced axes between the same ends, whose values are the bilinear
interpolation of the field; units are kept.  Missing: the number of points is one less than the resolution asks for, so that there must be at least two
of them left along each axis (see `C256_step_violated`). -/
theorem C256_resample_partial {I : Lin2} (hI : IsLin2 I) (hf : f.WF) (hc : Clear f) {res a b c d dx dy : Rat} (hr : 0 < res)
    (ex : Extent f.ax a b dx) (ey : Extent f.ay c d dy) (hnx : 2 ≤ (b - a) * res / dx) (hny : 2 ≤ (d - c) * res / dy) :
    ∃ g n m, evenly I res f = .ok g ∧ g.WF ∧ Clear g ∧ Spaced g.ax a b n ∧ Spaced g.ay c d m ∧
      ((n : Rat) ≤ (b - a) * res / dx ∧ (b - a) * res / dx < n + 1) ∧ ((m : Rat) ≤ (d - c) * res / dy ∧ (d - c) * res / dy < m + 1) ∧
      (∀ x y w, g.Reads x y (some w) → Bilin f x y w) ∧ g.ux = f.ux ∧ g.uy = f.uy ∧ g.uv = f.uv := by
  have two : ∀ {l : List Rat} {a b d : Rat}, Extent l a b d → 2 ≤ l.length := by
    intro l a b d h
    obtain ⟨i, _, _, _, h2, _⟩ := h.step.1
    have := getElem?_some_lt h2
    omega
  have key : ∀ q : Rat, 2 ≤ q → 2 ≤ q.floor.toNat ∧ ((q.floor.toNat : Nat) : Rat) ≤ q ∧ q < ((q.floor.toNat : Nat) : Rat) + 1 := by
    intro q hq
    have h1 : (2 : Int) ≤ q.floor := Rat.le_floor_iff.2 (by exact_mod_cast hq)
    have h2 : ((q.floor.toNat : Nat) : Int) = q.floor := Int.toNat_of_nonneg (by omega)
    have h3 : ((q.floor.toNat : Nat) : Rat) = (q.floor : Rat) := by exact_mod_cast congrArg (fun z : Int => (z : Rat)) h2
    rw [h3]
    exact ⟨by omega, Rat.floor_le q, by have := @Rat.lt_floor q; linarith⟩
  have e1 : (b - a) / (dx / res) = (b - a) * res / dx := by rw [div_div_eq_mul_div]
  have e2 : (d - c) / (dy / res) = (d - c) * res / dy := by rw [div_div_eq_mul_div]
  obtain ⟨k1, k2, k3⟩ := key _ hnx
  obtain ⟨k4, k5, k6⟩ := key _ hny
  obtain ⟨g, h1, h2, h3, h4, h5, h6, h7⟩ := evenly_ok hI hf hc hr (two ex) (two ey) ex.head ex.last ey.head ey.last ex.step ey.step
    (by unfold count; rw [e1]; exact k1) (by unfold count; rw [e2]; exact k4)
  unfold count at h4 h5
  rw [e1] at h4
  rw [e2] at h5
  exact ⟨g, _, _, h1, h2, h3, h4, h5, ⟨k2, k3⟩, ⟨k5, k6⟩, h6, h7⟩

/-- **C256** Affine fields stay what they are. -/
theorem C256_affine {g : SF} (hf : f.WF) (hb : ∀ x y w, g.Reads x y (some w) → Bilin f x y w) {u v w : Rat}
    (ha : ∀ x y z, f.Reads x y (some z) → z = u * x + v * y + w) : ∀ x y z, g.Reads x y (some z) → z = u * x + v * y + w := by
  intro x y z hz
  obtain ⟨a, b, c, d, p, q, r, s, mx, my, r1, r2, r3, r4, rfl⟩ := hb x y z hz
  rw [ha _ _ _ r1, ha _ _ _ r2, ha _ _ _ r3, ha _ _ _ r4]
  exact blend_affine (mx.lt hf.incx) (my.lt hf.incy)

/-- **C256** No new extremum appears. -/
theorem C256_bounds {g : SF} (hf : f.WF) (hb : ∀ x y w, g.Reads x y (some w) → Bilin f x y w) {lo hi : Rat}
    (ha : ∀ x y z, f.Reads x y (some z) → lo ≤ z ∧ z ≤ hi) : ∀ x y z, g.Reads x y (some z) → lo ≤ z ∧ z ≤ hi := by
  intro x y z hz
  obtain ⟨a, b, c, d, p, q, r, s, mx, my, r1, r2, r3, r4, rfl⟩ := hb x y z hz
  exact ⟨blend_ge (mx.lt hf.incx) (my.lt hf.incy) mx.2.1 mx.2.2 my.2.1 my.2.2 (ha _ _ _ r1).1 (ha _ _ _ r2).1 (ha _ _ _ r3).1 (ha _ _ _ r4).1,
    blend_le (mx.lt hf.incx) (my.lt hf.incy) mx.2.1 mx.2.2 my.2.1 my.2.2 (ha _ _ _ r1).2 (ha _ _ _ r2).2 (ha _ _ _ r3).2 (ha _ _ _ r4).2⟩

/-- **C256** The step is never the one asked for, the smallest one of the axis over `res`: it is always greater. -/
theorem C256_step_violated {l : List Rat} {n : Nat} {a b d res : Rat} (hn : 2 ≤ n) (hd : 0 < d) (hr : 0 < res) (hq : (n : Rat) ≤ (b - a) * res / d)
    (hs : Spaced l a b n) {p q : Rat} (hp : l[0]? = some p) (hq' : l[1]? = some q) : d / res < q - p := by
  have e1 := hs.2 0 (by omega)
  have e2 := hs.2 1 (by omega)
  rw [hp, Option.some.injEq] at e1
  rw [hq', Option.some.injEq] at e2
  have hn' : (2 : Rat) ≤ n := by exact_mod_cast hn
  rw [le_div_iff₀ hd] at hq
  have : q - p = (b - a) / (n - 1) := by rw [e1, e2]; push_cast; ring
  rw [this, div_lt_div_iff₀ hr (by linarith)]
  nlinarith

/-- A regular axis of `n` points with the step `d`. -/
def Regular (l : List Rat) (a d : Rat) (n : Nat) : Prop := l.length = n ∧ ∀ k : Nat, k < n → l[k]? = some (a + k * d)

theorem regular_extent {l : List Rat} {a d : Rat} {n : Nat} (hn : 2 ≤ n) (h : Regular l a d n) : Extent l a (a + (n - 1) * d) d := by
  refine ⟨?_, ?_, ⟨0, a, a + d, ?_, ?_, by ring⟩, ?_⟩
  · rw [List.head?_eq_getElem?, h.2 0 (by omega)]; simp
  · rw [List.getLast?_eq_getElem?, h.1, h.2 (n - 1) (by omega), Nat.cast_sub (by omega)]; simp
  · rw [h.2 0 (by omega)]; simp
  · rw [h.2 1 (by omega)]; simp
  · intro i p q h1 h2
    have hi := getElem?_some_lt h2
    rw [h.1] at hi
    rw [h.2 i (by omega), Option.some.injEq] at h1
    rw [h.2 (i + 1) hi, Option.some.injEq] at h2
    rw [← h1, ← h2]
    push_cast
    linarith

/-- **C256** A field that is evenly spaced already changes: `n` points become `n - 1`. -/
theorem C256_even_violated {I : Lin2} (hI : IsLin2 I) (hf : f.WF) (hc : Clear f) {a d c e : Rat} {n m : Nat} (hx : Regular f.ax a d n) (hy : Regular f.ay c e m)
    (hd : 0 < d) (he : 0 < e) (hn : 3 ≤ n) (hm : 3 ≤ m) :
    ∃ g, evenly I 1 f = .ok g ∧ g.ax.length = n - 1 ∧ g.ay.length = m - 1 := by
  have q1 : (a + ((n : Rat) - 1) * d - a) * 1 / d = (n : Rat) - 1 := by field_simp; ring
  have q2 : (c + ((m : Rat) - 1) * e - c) * 1 / e = (m : Rat) - 1 := by field_simp; ring
  have hn' : (3 : Rat) ≤ n := by exact_mod_cast hn
  have hm' : (3 : Rat) ≤ m := by exact_mod_cast hm
  obtain ⟨g, k, l, h1, -, -, s1, s2, b1, b2, -⟩ := C256_resample_partial hI hf hc (res := 1) (by norm_num) (regular_extent (by omega) hx)
    (regular_extent (by omega) hy) (by rw [q1]; linarith) (by rw [q2]; linarith)
  rw [q1] at b1
  rw [q2] at b2
  have f1 : k = n - 1 := by
    have h1 : (k : Rat) + 1 ≤ n := by linarith
    have h2 : (n : Rat) < k + 2 := by linarith
    have h1 : k + 1 ≤ n := by exact_mod_cast h1
    have h2 : n < k + 2 := by exact_mod_cast h2
    omega
  have f2 : l = m - 1 := by
    have h1 : (l : Rat) + 1 ≤ m := by linarith
    have h2 : (m : Rat) < l + 2 := by linarith
    have h1 : l + 1 ≤ m := by exact_mod_cast h1
    have h2 : m < l + 2 := by exact_mod_cast h2
    omega
  exact ⟨g, h1, by rw [s1.1, f1], by rw [s2.1, f2]⟩

/-- **C256** A field with two points along x is refused (at the resolution 1), though it is evenly spaced. -/
theorem C256_two_violated (I : Lin2) {a b c d dy : Rat} (hx : f.ax = [a, b]) (hab : a < b) (hy : 2 ≤ f.ay.length) (hi : Inc f.ay) (ey : Extent f.ay c d dy) :
    evenly I 1 f = .error .indexError := by
  have ex : Extent f.ax a b (b - a) := by
    rw [hx]
    refine ⟨rfl, rfl, ⟨0, a, b, rfl, rfl, rfl⟩, ?_⟩
    intro i p q h1 h2
    match i with
    | 0 => simp at h1 h2; rw [h1, h2]
    | i + 1 => simp at h2
  unfold evenly
  rw [newAxis_eq (by rw [hx]; simpa [Inc] using hab) (by rw [hx]; simp) ex.head ex.last ex.step (by norm_num),
    newAxis_eq hi hy ey.head ey.last ey.step (by norm_num)]
  simp only
  have : ((b - a) / ((b - a) / 1)).floor.toNat = 1 := by
    have : (b - a) / ((b - a) / 1) = 1 := by rw [div_one, div_self (by linarith)]
    rw [this]
    decide +kernel
  rw [this]
  unfold SF.importArrays
  simp only
  rw [if_pos]
  right
  simp [points, Reshape.linspace]

/-! ### C257: vector fields -/

/-- `w` is the bilinear interpolation at `(x, y)` of the component `π` of the vector field. -/
def BilinV (f : VF) (π : Rat × Rat → Rat) (x y w : Rat) : Prop :=
  ∃ a b c d p q r s, Mesh f.ax x a b ∧ Mesh f.ay y c d ∧ f.Reads a c (some p) ∧ f.Reads b c (some q) ∧ f.Reads a d (some r) ∧ f.Reads b d (some s) ∧
    w = blend a b c d (π p) (π q) (π r) (π s) x y

/-- Nothing is masked. -/
def ClearV (f : VF) : Prop := ∀ x y, ¬ f.Reads x y none

theorem comp_clear {s : SF} {h : VF} {π : Rat × Rat → Rat} (hs : Mirror.IsComp s h π) (hc : ClearV h) : Clear s := by
  rintro x y ⟨i, j, h1, h2, e⟩
  rw [hs.ax] at h1
  rw [hs.ay] at h2
  rw [hs.cell i j (getElem?_some_lt h1) (getElem?_some_lt h2), Option.map_eq_none_iff] at e
  exact hc x y ⟨i, j, h1, h2, e⟩

theorem comp_bilin {s : SF} {h : VF} {π : Rat × Rat → Rat} (hs : Mirror.IsComp s h π) {x y w : Rat} (hb : Bilin s x y w) : BilinV h π x y w := by
  obtain ⟨a, b, c, d, p, q, r, t, mx, my, r1, r2, r3, r4, e⟩ := hb
  rw [hs.ax] at mx
  rw [hs.ay] at my
  obtain ⟨p', q1, e1⟩ := (hs.reads _ _ _).1 r1
  obtain ⟨q', q2, e2⟩ := (hs.reads _ _ _).1 r2
  obtain ⟨r', q3, e3⟩ := (hs.reads _ _ _).1 r3
  obtain ⟨t', q4, e4⟩ := (hs.reads _ _ _).1 r4
  obtain ⟨p', rfl, rfl⟩ := Option.map_eq_some_iff.1 e1.symm
  obtain ⟨q', rfl, rfl⟩ := Option.map_eq_some_iff.1 e2.symm
  obtain ⟨r', rfl, rfl⟩ := Option.map_eq_some_iff.1 e3.symm
  obtain ⟨t', rfl, rfl⟩ := Option.map_eq_some_iff.1 e4.symm
  exact ⟨a, b, c, d, p', q', r', t', mx, my, q1, q2, q3, q4, e⟩

theorem spaced_unique {l k : List Rat} {a b : Rat} {n : Nat} (h1 : Spaced l a b n) (h2 : Spaced k a b n) : l = k := by
  apply List.ext_getElem?
  intro i
  by_cases hi : i < n
  · rw [h1.2 i hi, h2.2 i hi]
  · rw [List.getElem?_eq_none (by rw [h1.1]; omega), List.getElem?_eq_none (by rw [h2.1]; omega)]

theorem comps_exist {h : VF} (hh : h.WF) (hx : 2 ≤ h.ax.length) (hy : 2 ≤ h.ay.length) :
    ∃ s t, compX h = .ok s ∧ compY h = .ok t ∧ Mirror.IsComp s h Prod.fst ∧ Mirror.IsComp t h Prod.snd := by
  obtain ⟨s, e1⟩ : ∃ s, compX h = .ok s := Turb.import_defined hx hy
  obtain ⟨t, e2⟩ : ∃ s, compY h = .ok s := Turb.import_defined hx hy
  exact ⟨s, t, e1, e2, Mirror.compX_ok hh e1, Mirror.compY_ok hh e2⟩

theorem Extent.two {l : List Rat} {a b d : Rat} (h : Extent l a b d) : 2 ≤ l.length := by
  obtain ⟨i, _, _, _, h2, _⟩ := h.step.1
  have := getElem?_some_lt h2
  omega

theorem count_unique {q : Rat} {n m : Nat} (h1 : (n : Rat) ≤ q ∧ q < n + 1) (h2 : (m : Rat) ≤ q ∧ q < m + 1) : n = m := by
  have a : (n : Rat) < m + 1 := by linarith
  have b : (m : Rat) < n + 1 := by linarith
  have a : n < m + 1 := by exact_mod_cast a
  have b : m < n + 1 := by exact_mod_cast b
  omega

/-- **C257** make_evenly_spaced of a vector field without masked point gives both components, bilinearly interpolated, on the same evenly spaced axes,
with the units of the field.  Missing: what is missing for scalar fields. -/
theorem C257_vector_partial {I : Lin2} (hI : IsLin2 I) {h : VF} (hh : h.WF) (hc : ClearV h) {res a b c d dx dy : Rat} (hr : 0 < res)
    (ex : Extent h.ax a b dx) (ey : Extent h.ay c d dy) (hnx : 2 ≤ (b - a) * res / dx) (hny : 2 ≤ (d - c) * res / dy) :
    ∃ g n m, evenlyV I res h = .ok g ∧ g.WF ∧ ClearV g ∧ Spaced g.ax a b n ∧ Spaced g.ay c d m ∧
      ((n : Rat) ≤ (b - a) * res / dx ∧ (b - a) * res / dx < n + 1) ∧ ((m : Rat) ≤ (d - c) * res / dy ∧ (d - c) * res / dy < m + 1) ∧
      (∀ x y w, g.Reads x y (some w) → BilinV h Prod.fst x y w.1 ∧ BilinV h Prod.snd x y w.2) ∧ g.ux = h.ux ∧ g.uy = h.uy ∧ g.uv = h.uv := by
  obtain ⟨s, t, e1, e2, c1, c2⟩ := comps_exist hh ex.two ey.two
  obtain ⟨g1, n, m, f1, w1, cl1, sx1, sy1, b1, b2, r1, -⟩ := C256_resample_partial hI c1.wf (comp_clear c1 hc) hr (by rw [c1.ax]; exact ex)
    (by rw [c1.ay]; exact ey) hnx hny
  obtain ⟨g2, n', m', f2, w2, cl2, sx2, sy2, b1', b2', r2, -⟩ := C256_resample_partial hI c2.wf (comp_clear c2 hc) hr (by rw [c2.ax]; exact ex)
    (by rw [c2.ay]; exact ey) hnx hny
  obtain rfl := count_unique b1 b1'
  obtain rfl := count_unique b2 b2'
  have hn : 2 ≤ n := by
    have : (1 : Rat) < n := by linarith
    exact_mod_cast this
  have hm : 2 ≤ m := by
    have : (1 : Rat) < m := by linarith
    exact_mod_cast this
  have ax := spaced_unique sx1 sx2
  have ay := spaced_unique sy1 sy2
  obtain ⟨g, e, w, hg, u⟩ := VF.C111_import_reads_partial (cx := g1.values) (cy := g2.values) (m := .bool false) (ux := h.ux) (uy := h.uy) (uv := h.uv)
    w1.vx w1.vy (by rw [ax]; exact w2.vx) (by rw [ay]; exact w2.vy) (by rw [sx1.1]; exact hn) (by rw [sy1.1]; exact hm) w1.vx w1.vy
    (.inl w1.incx) (.inl w1.incy) (.inl ⟨w1.incx, w1.incy⟩)
  have hval : ∀ i j x y r, g1.ax[i]? = some x → g1.ay[j]? = some y → r = VF.shown false (g1.cell i j) (g2.cell i j) →
      ∃ u v, r = some (u, v) ∧ g1.Reads x y (some u) ∧ g2.Reads x y (some v) := by
    intro i j x y r hi hj hr
    obtain ⟨u, hu⟩ := clear_cell cl1 (getElem?_some_lt hi) (getElem?_some_lt hj)
    obtain ⟨v, hv⟩ := clear_cell cl2 (by rw [← ax]; exact getElem?_some_lt hi) (by rw [← ay]; exact getElem?_some_lt hj)
    rw [hu, hv] at hr
    exact ⟨u, v, hr, ⟨i, j, hi, hj, hu⟩, ⟨i, j, by rw [← ax]; exact hi, by rw [← ay]; exact hj, hv⟩⟩
  have gax : g.ax = g1.ax ∧ g.ay = g1.ay := by
    rw [VF.import_direct (m := .bool false) (cx := g1.values) (cy := g2.values) w1.vx w1.vy (by rw [ax]; exact w2.vx) (by rw [ay]; exact w2.vy) (by rw [sx1.1]; exact hn) (by rw [sy1.1]; exact hm) w1.vx w1.vy] at e
    cases e
    simp only [VF.setMask, SF.rev_false w1.incx, SF.rev_false w1.incy, Bool.false_eq_true, if_false, and_self]
  refine ⟨g, n, m, ?_, w, ?_, by rw [gax.1]; exact sx1, by rw [gax.2]; exact sy1, b1, b2, ?_, u⟩
  · unfold evenlyV
    rw [e1, e2]
    simp only
    rw [f1, f2]
    exact e
  · intro x y hxy
    obtain ⟨i, j, hi, hj, e⟩ := (hg x y none).1 hxy
    obtain ⟨_, _, e, -⟩ := hval i j x y none hi hj e
    cases e
  · intro x y p hxy
    obtain ⟨i, j, hi, hj, e⟩ := (hg x y (some p)).1 hxy
    obtain ⟨u, v, e, q1, q2⟩ := hval i j x y (some p) hi hj e
    cases e
    exact ⟨comp_bilin c1 (r1 x y u q1), comp_bilin c2 (r2 x y v q2)⟩

/-! ### C258: records -/

/-- **C258** make_evenly_spaced of a record of scalar fields without masked point resamples each of them; the axes of the record are the new ones, and
times and units stay. -/
theorem C258_record_partial {I : Lin2} (hI : IsLin2 I) {t : TF} (ht : Temporal.Consistent t) (hne : t.fields ≠ []) (hc : ∀ f ∈ t.fields, Clear f)
    {res a b c d dx dy : Rat} (hr : 0 < res) (ex : Extent t.ax a b dx) (ey : Extent t.ay c d dy) (hnx : 2 ≤ (b - a) * res / dx)
    (hny : 2 ≤ (d - c) * res / dy) :
    ∃ r n m, evenlyT I res t = .ok r ∧ Temporal.Consistent r ∧ r.times = t.times ∧ r.ut = t.ut ∧ r.ux = t.ux ∧ r.uy = t.uy ∧
      r.fields.length = t.fields.length ∧ Spaced r.ax a b n ∧ Spaced r.ay c d m ∧
      ((n : Rat) ≤ (b - a) * res / dx ∧ (b - a) * res / dx < n + 1) ∧ ((m : Rat) ≤ (d - c) * res / dy ∧ (d - c) * res / dy < m + 1) ∧
      ∀ (k : Nat) f g, t.fields[k]? = some f → r.fields[k]? = some g → Clear g ∧ (∀ x y w, g.Reads x y (some w) → Bilin f x y w) ∧ g.uv = f.uv := by
  have each : ∀ f ∈ t.fields, _ := fun f hf => C256_resample_partial hI (ht.wf f hf) (hc f hf) hr (by rw [ht.ax f hf]; exact ex)
    (by rw [ht.ay f hf]; exact ey) hnx hny
  obtain ⟨k, hk⟩ := Temporal.mapRes_exists (g := evenly I res) (l := t.fields) fun f hf => by
    obtain ⟨g, _, _, h, -⟩ := each f hf
    exact ⟨g, h⟩
  obtain ⟨hl, hget⟩ := Temporal.mapRes_get hk
  have hpre : ∀ (i : Nat) g, k[i]? = some g → ∃ f, t.fields[i]? = some f ∧ f ∈ t.fields ∧ evenly I res f = .ok g := by
    intro i g hg
    have hi : i < t.fields.length := by rw [← hl]; exact getElem?_some_lt hg
    have hf := List.getElem?_eq_getElem hi
    exact ⟨_, hf, List.getElem_mem hi, hget i _ g hf hg⟩
  cases k with
  | nil => exact absurd (List.length_eq_zero_iff.1 hl.symm) hne
  | cons g0 l =>
    obtain ⟨f0, -, m0, e0⟩ := hpre 0 g0 rfl
    obtain ⟨g0', n, m, e0', w0, c0, sx0, sy0, bx, by', r0, u0⟩ := each f0 m0
    rw [e0] at e0'
    cases e0'
    have all : ∀ g ∈ g0 :: l, g.WF ∧ g.ax = g0.ax ∧ g.ay = g0.ay ∧ g.ux = t.ux ∧ g.uy = t.uy := by
      intro g hg
      obtain ⟨i, hi⟩ := List.getElem?_of_mem hg
      obtain ⟨f, -, hf, e⟩ := hpre i g hi
      obtain ⟨g', n', m', e', w, -, sx, sy, bx', by'', -, u1, u2, -⟩ := each f hf
      rw [e] at e'
      cases e'
      obtain rfl := count_unique bx bx'
      obtain rfl := count_unique by' by''
      exact ⟨w, spaced_unique sx sx0, spaced_unique sy sy0, by rw [u1, ht.ux f hf], by rw [u2, ht.uy f hf]⟩
    refine ⟨{ t with fields := g0 :: l, ax := g0.ax, ay := g0.ay }, n, m, ?_, ⟨?_, fun g hg => (all g hg).1, fun g hg => (all g hg).2.1,
      fun g hg => (all g hg).2.2.1, fun g hg => (all g hg).2.2.2.1, fun g hg => (all g hg).2.2.2.2⟩, rfl, rfl, rfl, rfl, hl, sx0, sy0, bx, by', ?_⟩
    · unfold evenlyT
      rw [hk]
    · exact ht.paired.trans hl.symm
    · intro i f g hf hg
      obtain ⟨f', hf', mf, e⟩ := hpre i g hg
      rw [hf] at hf'
      cases hf'
      obtain ⟨g', _, _, e', -, cl, -, -, -, -, rd, -, -, u⟩ := each f mf
      rw [e] at e'
      cases e'
      exact ⟨cl, rd, u⟩

/-- **C258** The same for records of vector fields. -/
theorem C258_vectors_partial {I : Lin2} (hI : IsLin2 I) {t : TVF} {u : Sym} (ht : Turb.Record t u) (hc : ∀ f ∈ t.fields, ClearV f)
    {res a b c d dx dy : Rat} (hr : 0 < res) (ex : Extent t.ax a b dx) (ey : Extent t.ay c d dy) (hnx : 2 ≤ (b - a) * res / dx)
    (hny : 2 ≤ (d - c) * res / dy) :
    ∃ r n m, evenlyTV I res t = .ok r ∧ Turb.Record r u ∧ r.times = t.times ∧ r.ut = t.ut ∧ r.ux = t.ux ∧ r.uy = t.uy ∧
      r.fields.length = t.fields.length ∧ Spaced r.ax a b n ∧ Spaced r.ay c d m ∧
      ((n : Rat) ≤ (b - a) * res / dx ∧ (b - a) * res / dx < n + 1) ∧ ((m : Rat) ≤ (d - c) * res / dy ∧ (d - c) * res / dy < m + 1) ∧
      ∀ (k : Nat) f g, t.fields[k]? = some f → r.fields[k]? = some g → ClearV g ∧
        ∀ x y w, g.Reads x y (some w) → BilinV f Prod.fst x y w.1 ∧ BilinV f Prod.snd x y w.2 := by
  have each : ∀ f ∈ t.fields, _ := fun f hf => C257_vector_partial hI (ht.wf f hf) (hc f hf) hr (by rw [ht.ax f hf]; exact ex)
    (by rw [ht.ay f hf]; exact ey) hnx hny
  obtain ⟨k, hk⟩ := Temporal.mapRes_exists (g := evenlyV I res) (l := t.fields) fun f hf => by
    obtain ⟨g, _, _, h, -⟩ := each f hf
    exact ⟨g, h⟩
  obtain ⟨hl, hget⟩ := Temporal.mapRes_get hk
  have hpre : ∀ (i : Nat) g, k[i]? = some g → ∃ f, t.fields[i]? = some f ∧ f ∈ t.fields ∧ evenlyV I res f = .ok g := by
    intro i g hg
    have hi : i < t.fields.length := by rw [← hl]; exact getElem?_some_lt hg
    have hf := List.getElem?_eq_getElem hi
    exact ⟨_, hf, List.getElem_mem hi, hget i _ g hf hg⟩
  cases k with
  | nil => exact absurd (List.length_eq_zero_iff.1 hl.symm) ht.ne
  | cons g0 l =>
    obtain ⟨f0, -, m0, e0⟩ := hpre 0 g0 rfl
    obtain ⟨g0', n, m, e0', w0, c0, sx0, sy0, bx, by', r0, u0⟩ := each f0 m0
    rw [e0] at e0'
    cases e0'
    have all : ∀ g ∈ g0 :: l, g.WF ∧ g.ax = g0.ax ∧ g.ay = g0.ay ∧ g.ux = t.ux ∧ g.uy = t.uy ∧ g.uv = u := by
      intro g hg
      obtain ⟨i, hi⟩ := List.getElem?_of_mem hg
      obtain ⟨f, -, hf, e⟩ := hpre i g hi
      obtain ⟨g', n', m', e', w, -, sx, sy, bx', by'', -, u1, u2, u3⟩ := each f hf
      rw [e] at e'
      cases e'
      obtain rfl := count_unique bx bx'
      obtain rfl := count_unique by' by''
      exact ⟨w, spaced_unique sx sx0, spaced_unique sy sy0, by rw [u1, ht.ux f hf], by rw [u2, ht.uy f hf], by rw [u3, ht.uv f hf]⟩
    have hn : 2 ≤ n := by
      have : (1 : Rat) < n := by linarith
      exact_mod_cast this
    have hm : 2 ≤ m := by
      have : (1 : Rat) < m := by linarith
      exact_mod_cast this
    refine ⟨{ t with fields := g0 :: l, ax := g0.ax, ay := g0.ay }, n, m, ?_, ⟨ht.paired.trans hl.symm, ht.inc, by simp, fun g hg => (all g hg).1,
      fun g hg => (all g hg).2.1, fun g hg => (all g hg).2.2.1, fun g hg => (all g hg).2.2.2.1, fun g hg => (all g hg).2.2.2.2.1,
      fun g hg => (all g hg).2.2.2.2.2, ht.size, ht.tsize, by show 2 ≤ g0.ax.length; rw [sx0.1]; exact hn, by show 2 ≤ g0.ay.length; rw [sy0.1]; exact hm⟩,
      rfl, rfl, rfl, rfl, hl, sx0, sy0, bx, by', ?_⟩
    · unfold evenlyTV
      rw [hk]
    · intro i f g hf hg
      obtain ⟨f', hf', mf, e⟩ := hpre i g hg
      rw [hf] at hf'
      cases hf'
      obtain ⟨g', _, _, e', -, cl, -, -, -, -, rd, -⟩ := each f mf
      rw [e] at e'
      cases e'
      exact ⟨cl, rd⟩

/-! ### C259: reducing the resolution of vector fields -/

/-- Mean of a list of vectors, `none` (masked) when there is none. -/
def meanV (l : List (Rat × Rat)) : Option (Rat × Rat) :=
  if l = [] then none else some ((l.map Prod.fst).sum / l.length, (l.map Prod.snd).sum / l.length)

/-- The visible vectors of a block of `F` by `F` points. -/
def blockV (h : VF) (F k l : Nat) : List (Rat × Rat) :=
  (List.range F).flatMap fun i => (List.range F).filterMap fun j => h.cell (k * F + i) (l * F + j)

theorem mean_map {l : List (Rat × Rat)} (π : Rat × Rat → Rat) : SF.mean (l.map π) = if l = [] then none else some ((l.map π).sum / l.length) := by
  unfold SF.mean
  simp only [List.map_eq_nil_iff, List.length_map]

theorem block_comp {s : SF} {h : VF} {π : Rat × Rat → Rat} (hs : Mirror.IsComp s h π) {F k l : Nat} (hk : k < h.ax.length / F) (hl : l < h.ay.length / F) :
    ((List.range F).flatMap fun i => (List.range F).filterMap fun j => s.cell (k * F + i) (l * F + j)) = (blockV h F k l).map π := by
  unfold blockV
  rw [List.map_flatMap]
  apply List.flatMap_congr
  intro i hi
  rw [List.map_filterMap]
  apply List.filterMap_congr
  intro j hj
  have h1 := SF.block_le hk
  have h2 := SF.block_le hl
  rw [List.mem_range] at hi hj
  exact hs.cell _ _ (by omega) (by omega)

/-- **C259** reduce_spatial_resolution of a vector field by an even factor `2 h`, with two blocks or more along each axis: one point per complete block, at
the middle of the two central coordinates, masked when no point of the block is visible and holding otherwise the mean of the visible vectors.
Missing: odd factors; the units are kept by the copy only. -/
theorem C259_blocks_partial {f : VF} (hf : f.WF) {h : Nat} (hh : 1 ≤ h) (h2x : 2 ≤ f.ax.length / (2 * h)) (h2y : 2 ≤ f.ay.length / (2 * h)) (inplace : Bool) :
    ∃ g, reduceV f (2 * h) inplace = .ok g ∧ g.WF ∧ g.ax.length = f.ax.length / (2 * h) ∧ g.ay.length = f.ay.length / (2 * h) ∧
      (∀ k, k < g.ax.length → ∃ a b, f.ax[2 * h * k + h - 1]? = some a ∧ f.ax[2 * h * k + h]? = some b ∧ g.ax[k]? = some ((a + b) / 2)) ∧
      (∀ l, l < g.ay.length → ∃ a b, f.ay[2 * h * l + h - 1]? = some a ∧ f.ay[2 * h * l + h]? = some b ∧ g.ay[l]? = some ((a + b) / 2)) ∧
      (∀ k l, k < g.ax.length → l < g.ay.length → g.cell k l = meanV (blockV f (2 * h) k l)) ∧
      (inplace = false → g.ux = f.ux ∧ g.uy = f.uy ∧ g.uv = f.uv) := by
  have lx : 2 ≤ f.ax.length := by have := Nat.div_le_self f.ax.length (2 * h); omega
  have ly : 2 ≤ f.ay.length := by have := Nat.div_le_self f.ay.length (2 * h); omega
  obtain ⟨s, t, e1, e2, c1, c2⟩ := comps_exist hf lx ly
  obtain ⟨g1, f1, w1, lx1, ly1, ax1, ay1, v1⟩ := SF.C21_reduce_blocks c1.wf hh (by rw [c1.ax]; exact h2x) (by rw [c1.ay]; exact h2y) true
  obtain ⟨g2, f2, w2, lx2, ly2, ax2, ay2, v2⟩ := SF.C21_reduce_blocks c2.wf hh (by rw [c2.ax]; exact h2x) (by rw [c2.ay]; exact h2y) true
  rw [c1.ax] at lx1 ax1
  rw [c1.ay] at ly1 ay1
  rw [c2.ax] at lx2 ax2
  rw [c2.ay] at ly2 ay2
  have nx : g2.val.nx = g1.ax.length := by rw [w2.vx, lx2, lx1]
  have ny : g2.val.ny = g1.ay.length := by rw [w2.vy, ly2, ly1]
  obtain ⟨g, e, w, hg, u⟩ := VF.C111_import_reads_partial (cx := g1.values) (cy := g2.values) (m := .array g1.mask)
    (ux := if inplace then Sym.one else f.ux) (uy := if inplace then Sym.one else f.uy) (uv := if inplace then Sym.one else f.uv)
    w1.vx w1.vy nx ny (by rw [lx1]; exact h2x) (by rw [ly1]; exact h2y) w1.mx w1.my
    (.inl w1.incx) (.inl w1.incy) (.inl ⟨w1.incx, w1.incy⟩)
  have gax : g.ax = g1.ax ∧ g.ay = g1.ay := by
    rw [VF.import_direct (m := .array g1.mask) (cx := g1.values) (cy := g2.values) w1.vx w1.vy nx ny (by rw [lx1]; exact h2x) (by rw [ly1]; exact h2y) w1.mx w1.my] at e
    cases e
    simp only [VF.setMask, SF.rev_false w1.incx, SF.rev_false w1.incy, Bool.false_eq_true, if_false, and_self]
  refine ⟨g, ?_, w, by rw [gax.1]; exact lx1, by rw [gax.2]; exact ly1, by rw [gax.1]; exact ax1, by rw [gax.2]; exact ay1, ?_, ?_⟩
  · unfold reduceV
    rw [e1, e2]
    simp only
    rw [f1, f2]
    exact e
  · intro k l hk hl
    rw [gax.1] at hk
    rw [gax.2] at hl
    have r1 : g.Reads g1.ax[k] g1.ay[l] (g.cell k l) := ⟨k, l, by rw [gax.1]; exact List.getElem?_eq_getElem hk, by rw [gax.2]; exact List.getElem?_eq_getElem hl, rfl⟩
    have r2 := (hg g1.ax[k] g1.ay[l] (VF.shown (g1.mask.get k l) (g1.cell k l) (g2.cell k l))).2
      ⟨k, l, List.getElem?_eq_getElem hk, List.getElem?_eq_getElem hl, rfl⟩
    rw [r1.unique w r2]
    have m1 := v1 k l hk hl
    have m2 := v2 k l (by rw [lx2, ← lx1]; exact hk) (by rw [ly2, ← ly1]; exact hl)
    rw [block_comp c1 (by rw [← lx1]; exact hk) (by rw [← ly1]; exact hl), mean_map] at m1
    rw [block_comp c2 (by rw [← lx1]; exact hk) (by rw [← ly1]; exact hl), mean_map] at m2
    unfold meanV
    by_cases hb : blockV f (2 * h) k l = []
    · rw [if_pos hb] at m1 ⊢
      rw [m1]
      unfold VF.shown
      split <;> rfl
    · rw [if_neg hb] at m1 m2 ⊢
      rw [m1, m2]
      have : g1.mask.get k l = false := by
        by_contra hm
        unfold SF.cell at m1
        rw [Bool.not_eq_false] at hm
        rw [hm] at m1
        cases m1
      rw [this]
      rfl
  · rintro rfl
    exact u

theorem import_units {ax ay : List Rat} {cx cy : Grid (Option Rat)} {m : VF.MaskArg} {ux uy uv : Sym} {g : VF}
    (h : VF.importArrays ax ay cx cy m ux uy uv = .ok g) : g.ux = ux ∧ g.uy = uy ∧ g.uv = uv := by
  have st : ∀ {cx cy : Grid (Option Rat)} {m : Grid Bool}, VF.store ax ay cx cy m ux uy uv = .ok g → g.ux = ux ∧ g.uy = uy ∧ g.uv = uv := by
    intro cx cy m h
    unfold VF.store at h
    split at h
    · cases h
    · cases h
      exact ⟨rfl, rfl, rfl⟩
  unfold VF.importArrays at h
  split at h
  · cases h
  · split at h
    · cases h
    · split at h <;> exact st h

/-- **C259** In place, the units of the field are lost whatever they were. -/
theorem C259_units_violated {f g : VF} {fact : Nat} (e : reduceV f fact true = .ok g) : g.ux = Sym.one ∧ g.uy = Sym.one ∧ g.uv = Sym.one := by
  unfold reduceV at e
  split at e
  · split at e
    · exact import_units e
    all_goals cases e
  all_goals cases e

/-- **C259** The factor 1, which changes nothing in a scalar field, and the odd ones are refused. -/
theorem C259_odd_violated {f : VF} (hf : f.WF) {fact : Nat} (ho : fact % 2 = 1) (inplace : Bool) : ¬ ∃ g, reduceV f fact inplace = .ok g := by
  rintro ⟨g, e⟩
  unfold reduceV at e
  split at e
  · rename_i s t hs ht
    split at e
    · rename_i g1 g2 h1 h2
      by_cases h3 : 3 ≤ fact
      · exact SF.C21_odd_violated s h3 ho true ⟨_, h1⟩
      · have : fact = 1 := by omega
        rw [this, SF.C21_one_inplace_violated (Mirror.compX_ok hf hs).wf] at h1
        cases h1
    all_goals cases e
  all_goals cases e

end IMT.Even
