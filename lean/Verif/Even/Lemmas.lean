import Verif.Even.Model
import Verif.Reshape.Even
import Verif.Scalar.Reduce
import Verif.Turb.Lemmas

/-! Specification and lemmas for C256 to C259: even spacing of fields and records. -/

namespace IMT.Even

open Reshape (linspace linspace_get linspace_length linspace_inc)
open Mirror (compX compY)
open Turb (TVF)
open Temporal (TF mapRes)

/-! ### specification -/

/-- The value at `(x, y)` of the function that is `p`, `q`, `r`, `s` at `(a, c)`, `(b, c)`, `(a, d)`, `(b, d)` and bilinear in between. -/
def blend (a b c d p q r s x y : Rat) : Rat :=
  ((b - x) * ((d - y) * p + (y - c) * r) + (x - a) * ((d - y) * q + (y - c) * s)) / ((b - a) * (d - c))

/-- What `scipy.interpolate.interp2d` does with kind='linear' on a rectangular grid: bilinear interpolation in the mesh of the point. -/
def IsLin2 (I : Lin2) : Prop :=
  ∀ (ax ay : List Rat) (v : Nat → Nat → Rat) (i j : Nat) (a b c d x y : Rat), Inc ax → Inc ay → ax[i]? = some a → ax[i + 1]? = some b →
    ay[j]? = some c → ay[j + 1]? = some d → a ≤ x → x ≤ b → c ≤ y → y ≤ d →
    I ax ay v x y = blend a b c d (v i j) (v (i + 1) j) (v i (j + 1)) (v (i + 1) (j + 1)) x y

/-- Two consecutive items of a list around `x`. -/
def Mesh (l : List Rat) (x a b : Rat) : Prop := (∃ i : Nat, l[i]? = some a ∧ l[i + 1]? = some b) ∧ a ≤ x ∧ x ≤ b

/-- `w` is the bilinear interpolation of the field at `(x, y)`. -/
def Bilin (f : SF) (x y w : Rat) : Prop :=
  ∃ a b c d p q r s, Mesh f.ax x a b ∧ Mesh f.ay y c d ∧ f.Reads a c (some p) ∧ f.Reads b c (some q) ∧ f.Reads a d (some r) ∧ f.Reads b d (some s) ∧
    w = blend a b c d p q r s x y

/-- `l` has `n` evenly spaced items from `a` to `b`. -/
def Spaced (l : List Rat) (a b : Rat) (n : Nat) : Prop := l.length = n ∧ ∀ k : Nat, k < n → l[k]? = some (a + k * ((b - a) / (n - 1)))

/-- `d` is the smallest step of the axis. -/
def IsStep (l : List Rat) (d : Rat) : Prop :=
  (∃ (i : Nat) (a b : Rat), l[i]? = some a ∧ l[i + 1]? = some b ∧ b - a = d) ∧ ∀ (i : Nat) (a b : Rat), l[i]? = some a → l[i + 1]? = some b → d ≤ b - a

/-- Nothing is masked. -/
def Clear (f : SF) : Prop := ∀ x y, ¬ f.Reads x y none

/-! ### lemmas -/

theorem steps_mem {l : List Rat} {d : Rat} : d ∈ steps l ↔ ∃ (i : Nat) (a b : Rat), l[i]? = some a ∧ l[i + 1]? = some b ∧ b - a = d := by
  unfold steps
  rw [List.mem_iff_getElem?]
  constructor
  · rintro ⟨i, h⟩
    rw [List.getElem?_zipWith_eq_some] at h
    obtain ⟨a, b, h1, h2, h3⟩ := h
    rw [List.getElem?_tail] at h2
    exact ⟨i, a, b, h1, h2, h3⟩
  · rintro ⟨i, a, b, h1, h2, h3⟩
    refine ⟨i, ?_⟩
    rw [List.getElem?_zipWith_eq_some]
    exact ⟨a, b, h1, by rw [List.getElem?_tail]; exact h2, h3⟩

theorem min_step {l : List Rat} {d : Rat} (h : IsStep l d) : (steps l).min? = some d := by
  rw [List.min?_eq_some_iff]
  refine ⟨steps_mem.2 h.1, ?_⟩
  intro e he
  obtain ⟨i, a, b, h1, h2, rfl⟩ := steps_mem.1 he
  exact h.2 i a b h1 h2

theorem exists_step {l : List Rat} (h : 2 ≤ l.length) : ∃ d, IsStep l d := by
  have hne : steps l ≠ [] := by
    intro h0
    have : l[1] - l[0] ∈ steps l := steps_mem.2 ⟨0, l[0], l[1], List.getElem?_eq_getElem _, List.getElem?_eq_getElem _, rfl⟩
    rw [h0] at this
    cases this
  obtain ⟨d, hd⟩ : ∃ d, (steps l).min? = some d := by
    cases e : (steps l).min? with
    | none => rw [List.min?_eq_none_iff] at e; exact absurd e hne
    | some d => exact ⟨d, rfl⟩
  rw [List.min?_eq_some_iff] at hd
  exact ⟨d, steps_mem.1 hd.1, fun i a b h1 h2 => hd.2 _ (steps_mem.2 ⟨i, a, b, h1, h2, rfl⟩)⟩

theorem step_pos {l : List Rat} {d : Rat} (hi : Inc l) (h : IsStep l d) : 0 < d := by
  obtain ⟨i, a, b, h1, h2, rfl⟩ := h.1
  have := hi.get_lt h1 h2 (by omega)
  linarith

theorem mesh_exists : ∀ {l : List Rat} {x a b : Rat}, 2 ≤ l.length → l.head? = some a → l.getLast? = some b → a ≤ x → x ≤ b → ∃ c d, Mesh l x c d
  | [], _, _, _, h, _, _, _, _ => by simp at h
  | [_], _, _, _, h, _, _, _, _ => by simp at h
  | [p, q], x, a, b, _, h1, h2, h3, h4 => by
    simp only [List.head?_cons, Option.some.injEq] at h1
    simp only [List.getLast?_cons_cons, List.getLast?_singleton, Option.some.injEq] at h2
    exact ⟨p, q, ⟨0, rfl, rfl⟩, by rw [h1]; exact h3, by rw [h2]; exact h4⟩
  | p :: q :: r :: l, x, a, b, _, h1, h2, h3, h4 => by
    simp only [List.head?_cons, Option.some.injEq] at h1
    by_cases hq : x ≤ q
    · exact ⟨p, q, ⟨0, rfl, rfl⟩, by rw [h1]; exact h3, hq⟩
    · obtain ⟨c, d, ⟨i, e1, e2⟩, m⟩ := mesh_exists (l := q :: r :: l) (x := x) (a := q) (b := b) (by simp) rfl (by rw [List.getLast?_cons_cons] at h2; exact h2)
        (le_of_lt (not_le.1 hq)) h4
      exact ⟨c, d, ⟨i + 1, by simpa using e1, by simpa using e2⟩, m⟩

theorem points_spaced {l : List Rat} {a b : Rat} (ha : l.head? = some a) (hb : l.getLast? = some b) {n : Nat} (hn : 2 ≤ n) : Spaced (points l n) a b n := by
  obtain ⟨k, rfl⟩ : ∃ k, n = k + 1 := ⟨n - 1, by omega⟩
  unfold points
  rw [ha, hb]
  refine ⟨linspace_length _ _ _, ?_⟩
  intro i hi
  rw [Option.getD_some, Option.getD_some, linspace_get _ _ _ _ (by omega)]
  push_cast
  rw [add_sub_cancel_right]

theorem spaced_bounds {l : List Rat} {a b : Rat} {n : Nat} (hn : 2 ≤ n) (hab : a < b) (h : Spaced l a b n) {k : Nat} {x : Rat} (hk : l[k]? = some x) :
    a ≤ x ∧ x ≤ b := by
  have hlt : k < n := by rw [← h.1]; exact getElem?_some_lt hk
  have e := h.2 k hlt
  rw [hk, Option.some.injEq] at e
  have hp : (0 : Rat) < (n : Rat) - 1 := by
    have : (2 : Rat) ≤ n := by exact_mod_cast hn
    linarith
  have hk0 : (0 : Rat) ≤ k := by exact_mod_cast Nat.zero_le k
  have hk1 : (k : Rat) ≤ (n : Rat) - 1 := by
    have : (k : Rat) + 1 ≤ n := by exact_mod_cast hlt
    linarith
  have hd : 0 ≤ (b - a) / ((n : Rat) - 1) := div_nonneg (by linarith) (le_of_lt hp)
  have h2 := mul_le_mul_of_nonneg_right hk1 hd
  rw [mul_div_cancel₀ _ (ne_of_gt hp)] at h2
  have h1 := mul_nonneg hk0 hd
  rw [e]
  constructor <;> linarith

theorem spaced_inc {l : List Rat} {a b : Rat} {n : Nat} (hn : 2 ≤ n) (hab : a < b) (h : Spaced l a b n) : Inc l := by
  have hp : (0 : Rat) < (n : Rat) - 1 := by
    have : (2 : Rat) ≤ n := by exact_mod_cast hn
    linarith
  have hd : 0 < (b - a) / ((n : Rat) - 1) := div_pos (by linarith) hp
  unfold Inc
  rw [List.pairwise_iff_getElem]
  intro i j hi hj hij
  have e1 := h.2 i (by rw [← h.1]; exact hi)
  have e2 := h.2 j (by rw [← h.1]; exact hj)
  rw [List.getElem?_eq_getElem hi, Option.some.injEq] at e1
  rw [List.getElem?_eq_getElem hj, Option.some.injEq] at e2
  rw [e1, e2]
  have : (i : Rat) < j := by exact_mod_cast hij
  have := mul_lt_mul_of_pos_right this hd
  linarith

theorem ends_lt {l : List Rat} (hi : Inc l) (h2 : 2 ≤ l.length) {a b : Rat} (ha : l.head? = some a) (hb : l.getLast? = some b) : a < b := by
  rw [List.head?_eq_getElem?] at ha
  rw [List.getLast?_eq_getElem?] at hb
  exact hi.get_lt ha hb (by omega)

theorem newAxis_eq {l : List Rat} (hi : Inc l) (h2 : 2 ≤ l.length) {a b d res : Rat} (ha : l.head? = some a) (hb : l.getLast? = some b) (hd : IsStep l d)
    (hr : 0 < res) : newAxis l res = .ok (points l ((b - a) / (d / res)).floor.toNat) := by
  have hq : quot l res = (b - a) / (d / res) := by
    unfold quot
    rw [ha, hb, min_step hd, Option.getD_some, Option.getD_some, Option.getD_some]
  have h0 : 0 < (b - a) / (d / res) := div_pos (by have := ends_lt hi h2 ha hb; linarith) (div_pos (step_pos hi hd) hr)
  unfold newAxis
  rw [if_neg (by omega), hq, if_neg (by linarith)]

theorem clear_cell {f : SF} (hc : Clear f) {i j : Nat} (hi : i < f.ax.length) (hj : j < f.ay.length) : ∃ v, f.cell i j = some v := by
  cases e : f.cell i j with
  | none => exact absurd ⟨i, j, List.getElem?_eq_getElem hi, List.getElem?_eq_getElem hj, e⟩ (hc _ _)
  | some v => exact ⟨v, rfl⟩

/-- The interpolator on a field is the interpolation in one mesh. -/
theorem interp_bilin {I : Lin2} (hI : IsLin2 I) {f : SF} (hf : f.WF) (hc : Clear f) {x y a b c d : Rat} (mx : Mesh f.ax x a b) (my : Mesh f.ay y c d) :
    Bilin f x y (I f.ax f.ay (fun i j => (f.cell i j).getD 0) x y) := by
  obtain ⟨⟨i, i1, i2⟩, x1, x2⟩ := id mx
  obtain ⟨⟨j, j1, j2⟩, y1, y2⟩ := id my
  obtain ⟨p, hp⟩ := clear_cell hc (getElem?_some_lt i1) (getElem?_some_lt j1)
  obtain ⟨q, hq⟩ := clear_cell hc (getElem?_some_lt i2) (getElem?_some_lt j1)
  obtain ⟨r, hr⟩ := clear_cell hc (getElem?_some_lt i1) (getElem?_some_lt j2)
  obtain ⟨s, hs⟩ := clear_cell hc (getElem?_some_lt i2) (getElem?_some_lt j2)
  refine ⟨a, b, c, d, p, q, r, s, mx, my, ⟨i, j, i1, j1, hp⟩, ⟨i + 1, j, i2, j1, hq⟩, ⟨i, j + 1, i1, j2, hr⟩, ⟨i + 1, j + 1, i2, j2, hs⟩, ?_⟩
  rw [hI f.ax f.ay _ i j a b c d x y hf.incx hf.incy i1 i2 j1 j2 x1 x2 y1 y2, hp, hq, hr, hs]
  simp only [Option.getD_some]

/-- Number of points along an axis. -/
def count (a b d res : Rat) : Nat := ((b - a) / (d / res)).floor.toNat

theorem evenly_ok {I : Lin2} (hI : IsLin2 I) {f : SF} (hf : f.WF) (hc : Clear f) {res a b c d dx dy : Rat} (hr : 0 < res) (hx : 2 ≤ f.ax.length)
    (hy : 2 ≤ f.ay.length) (ha : f.ax.head? = some a) (hb : f.ax.getLast? = some b) (hc' : f.ay.head? = some c) (hd : f.ay.getLast? = some d)
    (hdx : IsStep f.ax dx) (hdy : IsStep f.ay dy) (hnx : 2 ≤ count a b dx res) (hny : 2 ≤ count c d dy res) :
    ∃ g, evenly I res f = .ok g ∧ g.WF ∧ Clear g ∧ Spaced g.ax a b (count a b dx res) ∧ Spaced g.ay c d (count c d dy res) ∧
      (∀ x y w, g.Reads x y (some w) → Bilin f x y w) ∧ g.ux = f.ux ∧ g.uy = f.uy ∧ g.uv = f.uv := by
  have sx := points_spaced ha hb hnx
  have sy := points_spaced hc' hd hny
  have lx := ends_lt hf.incx hx ha hb
  have ly := ends_lt hf.incy hy hc' hd
  unfold evenly
  rw [newAxis_eq hf.incx hx ha hb hdx hr, newAxis_eq hf.incy hy hc' hd hdy hr]
  simp only
  unfold count at *
  obtain ⟨g, e, gx, gy, w, hcell, u⟩ := SF.import_inc (v := ⟨_, _, fun i j => some (I f.ax f.ay (fun i j => (f.cell i j).getD 0)
      ((points f.ax ((b - a) / (dx / res)).floor.toNat).getD i 0) ((points f.ay ((d - c) / (dy / res)).floor.toNat).getD j 0))⟩)
    (m := .bool false) (ux := f.ux) (uy := f.uy) (uv := f.uv) rfl rfl (by rw [sx.1]; exact hnx) (by rw [sy.1]; exact hny) trivial
    (spaced_inc hnx lx sx) (spaced_inc hny ly sy)
  have hcell' : ∀ i j, g.cell i j = some (I f.ax f.ay (fun i j => (f.cell i j).getD 0)
      ((points f.ax ((b - a) / (dx / res)).floor.toNat).getD i 0) ((points f.ay ((d - c) / (dy / res)).floor.toNat).getD j 0)) := by
    intro i j
    rw [hcell]
    simp [SF.MaskArg.get]
  refine ⟨g, e, w, ?_, by rw [gx]; exact sx, by rw [gy]; exact sy, ?_, u⟩
  · rintro x y ⟨i, j, -, -, h⟩
    rw [hcell'] at h
    cases h
  · rintro x y v ⟨i, j, h1, h2, h⟩
    rw [hcell'] at h
    rw [gx] at h1
    rw [gy] at h2
    have b1 := spaced_bounds hnx lx sx h1
    have b2 := spaced_bounds hny ly sy h2
    obtain ⟨a', b', mx⟩ := mesh_exists hx ha hb b1.1 b1.2
    obtain ⟨c', d', my⟩ := mesh_exists hy hc' hd b2.1 b2.2
    have := interp_bilin hI hf hc mx my
    rw [List.getD_eq_getElem?_getD, h1, Option.getD_some, List.getD_eq_getElem?_getD, h2, Option.getD_some, Option.some.injEq] at h
    rw [h] at this
    exact this

end IMT.Even
