import Verif.Fill.Vec
import Mathlib.Algebra.BigOperators.Field
import Mathlib.Algebra.BigOperators.Intervals
import Mathlib.Algebra.Order.BigOperators.Group.Finset
import Mathlib.Tactic.FieldSimp

/-! C251: smoothing of fields by a uniform filter. -/

namespace IMT.Fill

open Finset

/-! ### specification -/

/-- Sum of the values of an array. -/
def total (nx ny : Nat) (a : Nat → Nat → Rat) : Rat := ∑ i ∈ range nx, ∑ j ∈ range ny, a i j

/-- Mean of the square of `size` by `size` values beginning at `(i, j)`. -/
def blockMean (size : Nat) (a : Nat → Nat → Rat) (i j : Nat) : Rat := (∑ p ∈ range size, ∑ q ∈ range size, a (i + p) (j + q)) / (size * size)

/-- The array `b` is a smoothing of `a` with squares of `size` by `size`. -/
structure Smoothed (nx ny size : Nat) (a b : Nat → Nat → Rat) : Prop where
  /-- Far enough from the borders, the mean of the square around the point. -/
  mean : ∀ i j, size / 2 ≤ i → i + size ≤ nx + size / 2 → size / 2 ≤ j → j + size ≤ ny + size / 2 → b i j = blockMean size a (i - size / 2) (j - size / 2)
  /-- Nowhere a new extremum. -/
  bounds : ∀ lo hi, (∀ i j, i < nx → j < ny → lo ≤ a i j ∧ a i j ≤ hi) → ∀ i j, i < nx → j < ny → lo ≤ b i j ∧ b i j ≤ hi
  /-- For an odd size the sum of the values is kept, borders included. -/
  total : size % 2 = 1 → total nx ny b = total nx ny a

/-! ### the filter -/

theorem list_sum_range (n : Nat) (g : Nat → Rat) : ((List.range n).map g).sum = ∑ i ∈ range n, g i := by
  induction n with
  | zero => simp
  | succ n ih => rw [List.range_succ, List.map_append, List.sum_append, ih, sum_range_succ]; simp

theorem reflect_lt {n : Nat} (hn : 0 < n) (k : Int) : reflect n k < n := by
  unfold reflect
  have h1 := Int.emod_nonneg k (b := 2 * (n : Int)) (by omega)
  have h2 := Int.emod_lt_of_pos k (b := 2 * (n : Int)) (by omega)
  split <;> omega

theorem reflect_in {n i : Nat} (hi : i < n) : reflect n (i : Int) = i := by
  unfold reflect
  rw [Int.emod_eq_of_lt (by omega) (by omega)]
  simp [hi]

theorem reflect_period (n : Nat) (k : Int) : reflect n (k + 2 * n) = reflect n k := by
  unfold reflect
  rw [Int.add_emod_right]

theorem reflect_sym {n : Nat} (hn : 0 < n) (k : Int) : reflect n (-1 - k) = reflect n k := by
  unfold reflect
  have h1 := Int.emod_nonneg k (b := 2 * (n : Int)) (by omega)
  have h2 := Int.emod_lt_of_pos k (b := 2 * (n : Int)) (by omega)
  have : (-1 - k) % (2 * (n : Int)) = 2 * n - 1 - k % (2 * n) := by
    have e : -1 - k = (2 * n - 1 - k % (2 * n)) + 2 * n * (-(k / (2 * n)) - 1) := by
      have := Int.mul_ediv_add_emod k (2 * n)
      ring_nf at this ⊢
      linarith
    rw [e, Int.add_mul_emod_self_left, Int.emod_eq_of_lt (by omega) (by omega)]
  rw [this]
  split <;> split <;> omega

/-- A sum over a whole period. -/
theorem period_sum {n : Nat} (hn : 0 < n) (a : Nat → Rat) (k : Int) :
    ∑ m ∈ range (2 * n), a (reflect n (k + m)) = 2 * ∑ i ∈ range n, a i := by
  have step : ∀ k : Int, ∑ m ∈ range (2 * n), a (reflect n (k + 1 + m)) = ∑ m ∈ range (2 * n), a (reflect n (k + m)) := by
    intro k
    have h1 := sum_range_succ (fun m : Nat => a (reflect n (k + m))) (2 * n)
    have h2 := sum_range_succ' (fun m : Nat => a (reflect n (k + m))) (2 * n)
    rw [h2] at h1
    have e : reflect n (k + ((2 * n : Nat) : Int)) = reflect n (k + ((0 : Nat) : Int)) := by
      rw [show k + ((2 * n : Nat) : Int) = (k + ((0 : Nat) : Int)) + 2 * n by push_cast; ring, reflect_period]
    simp only [e] at h1
    have h3 := add_right_cancel h1
    rw [← h3]
    apply sum_congr rfl
    intro m _
    congr 2
    push_cast; ring
  have zero : ∑ m ∈ range (2 * n), a (reflect n ((0 : Int) + m)) = 2 * ∑ i ∈ range n, a i := by
    rw [two_mul n, sum_range_add, two_mul]
    congr 1
    · apply sum_congr rfl
      intro m hm
      rw [zero_add, reflect_in (mem_range.1 hm)]
    · rw [← sum_range_reflect]
      apply sum_congr rfl
      intro m hm
      have hm := mem_range.1 hm
      rw [← reflect_sym hn, ← reflect_period]
      congr 1
      rw [show (-1 - (0 + ((n + (n - 1 - m) : Nat) : Int)) + 2 * n : Int) = (m : Int) by omega, reflect_in hm]
  have hup : ∀ c : Nat, ∑ m ∈ range (2 * n), a (reflect n ((c : Int) + m)) = 2 * ∑ i ∈ range n, a i := by
    intro c
    induction c with
    | zero => exact_mod_cast zero
    | succ c ih => rw [← ih, ← step (c : Int)]; push_cast; rfl
  have hdn : ∀ c : Nat, ∑ m ∈ range (2 * n), a (reflect n (-(c : Int) + m)) = 2 * ∑ i ∈ range n, a i := by
    intro c
    induction c with
    | zero => simpa using zero
    | succ c ih => rw [← ih, ← step (-((c + 1 : Nat) : Int))]; apply sum_congr rfl; intro m _; congr 2; push_cast; ring
  rcases Int.le_total 0 k with h | h
  · have := hup k.toNat
    rwa [Int.toNat_of_nonneg h] at this
  · have := hdn (-k).toNat
    rwa [Int.toNat_of_nonneg (by omega), neg_neg] at this

/-- Opposite shifts. -/
theorem shift_sum {n : Nat} (hn : 0 < n) (a : Nat → Rat) (k : Int) :
    (∑ i ∈ range n, a (reflect n ((i : Int) + k))) + ∑ i ∈ range n, a (reflect n ((i : Int) - k)) = 2 * ∑ i ∈ range n, a i := by
  rw [← period_sum hn a (k - n), two_mul n, sum_range_add, add_comm]
  congr 1
  · rw [← sum_range_reflect]
    apply sum_congr rfl
    intro m hm
    have hm := mem_range.1 hm
    rw [← reflect_sym hn]
    congr 2
    omega
  · apply sum_congr rfl
    intro m _
    congr 2
    push_cast; ring

theorem uniform1_eq (n size : Nat) (a : Nat → Rat) (i : Nat) :
    uniform1 n size a i = (∑ k ∈ range size, a (reflect n ((i : Int) + (k : Int) - ((size / 2 : Nat) : Int)))) / size := by
  unfold uniform1
  rw [list_sum_range]

theorem uniform1_total {n size : Nat} (hn : 0 < n) (hs : size % 2 = 1) (a : Nat → Rat) : ∑ i ∈ range n, uniform1 n size a i = ∑ i ∈ range n, a i := by
  have h0 : (size : Rat) ≠ 0 := by
    have : size ≠ 0 := by omega
    exact_mod_cast this
  simp only [uniform1_eq]
  rw [← sum_div, div_eq_iff h0, sum_comm]
  have h1 : ∀ b : Int, ∑ k ∈ range size, ∑ i ∈ range n, a (reflect n ((i : Int) + ((k : Int) - b))) =
      ∑ k ∈ range size, ∑ i ∈ range n, a (reflect n ((i : Int) + (((size - 1 - k : Nat) : Int) - b))) := by
    intro b
    rw [← sum_range_reflect]
  have e0 : ∑ k ∈ range size, ∑ i ∈ range n, a (reflect n ((i : Int) + (k : Int) - ((size / 2 : Nat) : Int))) =
      ∑ k ∈ range size, ∑ i ∈ range n, a (reflect n ((i : Int) + ((k : Int) - ((size / 2 : Nat) : Int)))) := by
    apply sum_congr rfl; intro k _; apply sum_congr rfl; intro i _; congr 2; ring
  have h2 : (∑ k ∈ range size, ∑ i ∈ range n, a (reflect n ((i : Int) + ((k : Int) - ((size / 2 : Nat) : Int))))) +
      ∑ k ∈ range size, ∑ i ∈ range n, a (reflect n ((i : Int) + ((k : Int) - ((size / 2 : Nat) : Int)))) = 2 * (size * ∑ i ∈ range n, a i) := by
    conv_lhs => rhs; rw [h1]
    rw [← sum_add_distrib]
    have : ∀ k ∈ range size, (∑ i ∈ range n, a (reflect n ((i : Int) + ((k : Int) - ((size / 2 : Nat) : Int))))) +
        ∑ i ∈ range n, a (reflect n ((i : Int) + (((size - 1 - k : Nat) : Int) - ((size / 2 : Nat) : Int)))) = 2 * ∑ i ∈ range n, a i := by
      intro k hk
      have hk := mem_range.1 hk
      rw [← shift_sum hn a ((k : Int) - ((size / 2 : Nat) : Int))]
      congr 1
      apply sum_congr rfl
      intro i _
      congr 2
      omega
    rw [sum_congr rfl this, sum_const, card_range, nsmul_eq_mul]
    ring
  rw [e0]
  linarith

theorem uniform1_inner {n size i : Nat} (a : Nat → Rat) (h1 : size / 2 ≤ i) (h2 : i + size ≤ n + size / 2) :
    uniform1 n size a i = (∑ k ∈ range size, a (i - size / 2 + k)) / size := by
  rw [uniform1_eq]
  congr 1
  apply sum_congr rfl
  intro k hk
  have hk := mem_range.1 hk
  rw [show (i : Int) + (k : Int) - ((size / 2 : Nat) : Int) = ((i - size / 2 + k : Nat) : Int) by omega, reflect_in (by omega)]

theorem uniform1_bounds {n size : Nat} (hn : 0 < n) (hs : 0 < size) {a : Nat → Rat} {lo hi : Rat} (h : ∀ i, i < n → lo ≤ a i ∧ a i ≤ hi) (i : Nat) :
    lo ≤ uniform1 n size a i ∧ uniform1 n size a i ≤ hi := by
  have h0 : (0 : Rat) < size := by exact_mod_cast hs
  rw [uniform1_eq, le_div_iff₀ h0, div_le_iff₀ h0]
  have := fun k : Int => h _ (reflect_lt hn k)
  constructor
  · calc lo * size = ∑ _k ∈ range size, lo := by rw [sum_const, card_range, nsmul_eq_mul, mul_comm]
      _ ≤ _ := sum_le_sum fun k _ => (this _).1
  · calc _ ≤ ∑ _k ∈ range size, hi := sum_le_sum fun k _ => (this _).2
      _ = hi * size := by rw [sum_const, card_range, nsmul_eq_mul, mul_comm]

theorem uniform_smoothed {nx ny size : Nat} (hx : 0 < nx) (hy : 0 < ny) (hs : 0 < size) (a : Nat → Nat → Rat) :
    (size ≤ 1 → ∀ i j, uniform nx ny size a i j = a i j) ∧
    (∀ i j, size / 2 ≤ i → i + size ≤ nx + size / 2 → size / 2 ≤ j → j + size ≤ ny + size / 2 →
      uniform nx ny size a i j = blockMean size a (i - size / 2) (j - size / 2)) ∧
    (∀ lo hi, (∀ i j, i < nx → j < ny → lo ≤ a i j ∧ a i j ≤ hi) → ∀ i j, i < nx → j < ny →
      lo ≤ uniform nx ny size a i j ∧ uniform nx ny size a i j ≤ hi) ∧
    (size % 2 = 1 → total nx ny (uniform nx ny size a) = total nx ny a) := by
  have h0 : (size : Rat) ≠ 0 := by
    have : size ≠ 0 := by omega
    exact_mod_cast this
  by_cases h1 : size ≤ 1
  · have e : size = 1 := by omega
    subst e
    simp [uniform, blockMean]
  · have e : uniform nx ny size a = fun i j => uniform1 ny size (fun j => uniform1 nx size (fun i => a i j) i) j := by
      unfold uniform
      rw [if_neg h1]
    rw [e]
    refine ⟨fun h => absurd h h1, ?_, ?_, ?_⟩
    · intro i j a1 a2 a3 a4
      simp only
      rw [uniform1_inner _ a3 a4]
      unfold blockMean
      simp only [uniform1_inner _ a1 a2]
      rw [sum_comm, ← sum_div]
      field_simp
    · intro lo hi hb i j hi' hj'
      exact uniform1_bounds hy hs (fun q hq => uniform1_bounds hx hs (fun p hp => hb p q hp hq) i) j
    · intro ho
      unfold total
      simp only [uniform1_total hy ho]
      rw [sum_comm]
      simp only [uniform1_total hx ho]
      rw [sum_comm]

theorem uniform_is {nx ny size : Nat} (hx : 0 < nx) (hy : 0 < ny) (hs : 0 < size) (a : Nat → Nat → Rat) :
    Smoothed nx ny size a (uniform nx ny size a) :=
  let h := uniform_smoothed hx hy hs a
  ⟨h.2.1, h.2.2.1, h.2.2.2⟩

theorem uniform1_congr {n size : Nat} (hn : 0 < n) {a b : Nat → Rat} (h : ∀ i, i < n → a i = b i) (i : Nat) : uniform1 n size a i = uniform1 n size b i := by
  rw [uniform1_eq, uniform1_eq]
  congr 1
  apply sum_congr rfl
  intro k _
  exact h _ (reflect_lt hn _)

theorem uniform_congr {nx ny size : Nat} (hx : 0 < nx) (hy : 0 < ny) {a b : Nat → Nat → Rat} (h : ∀ i j, i < nx → j < ny → a i j = b i j) {i j : Nat}
    (hi : i < nx) (hj : j < ny) : uniform nx ny size a i j = uniform nx ny size b i j := by
  unfold uniform
  split
  · exact h i j hi hj
  · exact uniform1_congr hy (fun q hq => uniform1_congr hx (fun p hp => h p q hp hq) i) j

theorem smoothed_congr {nx ny size : Nat} (hs : 0 < size) {a b c : Nat → Nat → Rat} (h : Smoothed nx ny size a b) (hc : ∀ i j, i < nx → j < ny → c i j = b i j) :
    Smoothed nx ny size a c := by
  refine ⟨?_, ?_, ?_⟩
  · intro i j a1 a2 a3 a4
    rw [hc i j (by omega) (by omega)]
    exact h.mean i j a1 a2 a3 a4
  · intro lo hi hb i j h1 h2
    rw [hc i j h1 h2]
    exact h.bounds lo hi hb i j h1 h2
  · intro ho
    rw [← h.total ho]
    unfold total
    apply sum_congr rfl
    intro i hi
    apply sum_congr rfl
    intro j hj
    exact hc i j (mem_range.1 hi) (mem_range.1 hj)

/-! ### C251 -/

/-- The values of a scalar field without masked points. -/
def vals (g : SF) (i j : Nat) : Rat := (g.cell i j).getD 0

theorem filled_cell {f g : SF} (h : Fills f g) {i j : Nat} (hi : i < f.ax.length) (hj : j < f.ay.length) : g.cell i j = some (vals g i j) := by
  unfold vals
  cases e : g.cell i j with
  | none => exact absurd ⟨i, j, by rw [h.ax]; exact List.getElem?_eq_getElem hi, by rw [h.ay]; exact List.getElem?_eq_getElem hj, e⟩ (h.all f.ax[i] f.ay[j])
  | some v => rfl

/-- **C251** `smooth(tos='uniform')` fills the field, then gives every point the mean of the square of `size` by `size` points around it.  Axes and units
stay, nothing is masked, the values stay between the bounds of the visible ones, and for an odd size the sum of the filled values stays.  Missing:
the visible points next to masked ones must not be on one line. -/
theorem C251_smooth_partial {s : Scipy} (hs : s.Ok) {f : SF} {size : Nat} (h0 : 0 < size) (hf : f.WF) (he : f.anyMasked = true → Enough f true) :
    ∃ h g, fill s .linear true f = .ok h ∧ Fills f h ∧ smooth s size f = .ok g ∧ g.WF ∧ g.ax = f.ax ∧ g.ay = f.ay ∧ g.ux = f.ux ∧ g.uy = f.uy ∧
      g.uv = f.uv ∧ (∀ x y, ¬ g.Reads x y none) ∧ Smoothed f.ax.length f.ay.length size (vals h) (vals g) ∧
      (size = 1 → ∀ x y v, h.Reads x y (some v) → g.Reads x y (some v)) ∧
      ∀ lo hi, (∀ x y v, f.Reads x y (some v) → lo ≤ v ∧ v ≤ hi) → ∀ x y v, g.Reads x y (some v) → lo ≤ v ∧ v ≤ hi := by
  obtain ⟨⟨h, e, hh, hb, -, -⟩, -⟩ := C248_linear_partial hs true hf he
  have hx : 0 < f.ax.length := List.length_pos_iff.2 hf.nex
  have hy : 0 < f.ay.length := List.length_pos_iff.2 hf.ney
  have nx : h.val.nx = f.ax.length := by rw [hh.wf.vx, hh.ax]
  have ny : h.val.ny = f.ay.length := by rw [hh.wf.vy, hh.ay]
  have hmask : ∀ i j, i < f.ax.length → j < f.ay.length → h.mask.get i j = false := by
    intro i j hi hj
    rw [mask_of_cell hh.wf (by rw [hh.ax]; exact hi) (by rw [hh.ay]; exact hj), filled_cell hh hi hj]
    rfl
  set g : SF := { h with val := ⟨h.val.nx, h.val.ny, fun i j => some (uniform h.val.nx h.val.ny size (fun i j => (h.cell i j).getD 0) i j)⟩ } with hg
  have hs' : smooth s size f = .ok g := by unfold smooth; simp only [e]; rfl
  have hu := uniform_is hx hy h0 (vals h)
  have hc : ∀ i j, i < f.ax.length → j < f.ay.length → g.cell i j = some (uniform f.ax.length f.ay.length size (vals h) i j) := by
    intro i j hi hj
    show (if h.mask.get i j = true then none else some _) = _
    rw [hmask i j hi hj, nx, ny]
    rfl
  have hv : ∀ i j, i < f.ax.length → j < f.ay.length → vals g i j = uniform f.ax.length f.ay.length size (vals h) i j := by
    intro i j hi hj
    unfold vals
    rw [hc i j hi hj]; rfl
  refine ⟨h, g, e, hh, hs', ⟨hh.wf.incx, hh.wf.incy, hh.wf.nex, hh.wf.ney, hh.wf.vx, hh.wf.vy, hh.wf.mx, hh.wf.my, ?_⟩, hh.ax, hh.ay, hh.ux, hh.uy, hh.uv,
    ?_, ⟨?_, ?_, ?_⟩, ?_, ?_⟩
  · intro i j hi hj hn
    cases hn
  · rintro x y ⟨i, j, hi, hj, hn⟩
    rw [show g.ax = f.ax from hh.ax] at hi
    rw [show g.ay = f.ay from hh.ay] at hj
    rw [hc i j (getElem?_some_lt hi) (getElem?_some_lt hj)] at hn
    cases hn
  · intro i j a1 a2 a3 a4
    rw [hv i j (by omega) (by omega)]
    exact hu.mean i j a1 a2 a3 a4
  · intro lo hi hb i j h1 h2
    rw [hv i j h1 h2]
    exact hu.bounds lo hi hb i j h1 h2
  · intro ho
    rw [← hu.total ho]
    unfold total
    apply sum_congr rfl
    intro i hi
    apply sum_congr rfl
    intro j hj
    exact hv i j (mem_range.1 hi) (mem_range.1 hj)
  · rintro rfl x y v ⟨i, j, hi, hj, hr⟩
    refine ⟨i, j, hi, hj, ?_⟩
    rw [hh.ax] at hi; rw [hh.ay] at hj
    rw [hc i j (getElem?_some_lt hi) (getElem?_some_lt hj), (uniform_smoothed hx hy h0 (vals h)).1 (le_refl 1)]
    unfold vals
    rw [hr]; rfl
  · rintro lo hi hlo x y v ⟨i, j, hi', hj', hr⟩
    rw [show g.ax = f.ax from hh.ax] at hi'
    rw [show g.ay = f.ay from hh.ay] at hj'
    have li := getElem?_some_lt hi'
    have lj := getElem?_some_lt hj'
    rw [hc i j li lj] at hr
    simp only [Option.some.injEq] at hr
    rw [← hr]
    refine hu.bounds lo hi ?_ i j li lj
    intro p q hp hq
    exact hb lo hi hlo _ _ _ ⟨p, q, by rw [hh.ax]; exact List.getElem?_eq_getElem hp, by rw [hh.ay]; exact List.getElem?_eq_getElem hq, filled_cell hh hp hq⟩

theorem sum_nat (n : Nat) : ∑ p ∈ range n, (p : Rat) = n * (n - 1) / 2 := by
  induction n with
  | zero => simp
  | succ n ih => rw [sum_range_succ, ih]; push_cast; ring

theorem blockMean_affine {size : Nat} (h0 : 0 < size) {a : Nat → Nat → Rat} {i j : Nat} {α β γ : Rat}
    (h : ∀ p q, p < size → q < size → a (i + p) (j + q) = α * (i + p : Nat) + β * (j + q : Nat) + γ) :
    blockMean size a i j = α * (i + (size - 1) / 2) + β * (j + (size - 1) / 2) + γ := by
  have h1 : (size : Rat) ≠ 0 := by
    have : size ≠ 0 := by omega
    exact_mod_cast this
  unfold blockMean
  have : ∑ p ∈ range size, ∑ q ∈ range size, a (i + p) (j + q) =
      ∑ p ∈ range size, (size * (α * (i + p) + β * j + γ) + β * (size * (size - 1) / 2)) := by
    apply sum_congr rfl
    intro p hp
    rw [← sum_nat, mul_sum]
    calc ∑ q ∈ range size, a (i + p) (j + q) = ∑ q ∈ range size, ((α * (i + p) + β * j + γ) + β * q) := by
          apply sum_congr rfl
          intro q hq
          rw [h p q (mem_range.1 hp) (mem_range.1 hq)]
          push_cast; ring
      _ = _ := by rw [sum_add_distrib, sum_const, card_range, nsmul_eq_mul]
  rw [this]
  have e : ∀ p ∈ range size, (size * (α * (i + p) + β * j + γ) + β * (size * (size - 1) / 2) : Rat) =
      (size * (α * i + β * j + γ) + β * (size * (size - 1) / 2)) + size * α * p := by
    intro p _; ring
  rw [sum_congr rfl e, sum_add_distrib, ← mul_sum, sum_nat, sum_const, card_range, nsmul_eq_mul]
  field_simp
  ring

/-- The smoothing of an affine function of the indices. -/
theorem smooth_affine {s : Scipy} (hs : s.Ok) {f : SF} {size : Nat} (h0 : 0 < size) (hf : f.WF) (hm : f.anyMasked = false) {x0 dx y0 dy : Rat}
    (hx : ∀ (i : Nat) x, f.ax[i]? = some x → x = x0 + i * dx) (hy : ∀ (j : Nat) y, f.ay[j]? = some y → y = y0 + j * dy) {a b c : Rat}
    (ha : ∀ x y v, f.Reads x y (some v) → v = a * x + b * y + c) :
    ∃ g, smooth s size f = .ok g ∧ ∀ (i j : Nat) x y, g.ax[i]? = some x → g.ay[j]? = some y → size / 2 ≤ i → i + size ≤ f.ax.length + size / 2 →
      size / 2 ≤ j → j + size ≤ f.ay.length + size / 2 →
      g.Reads x y (some (a * (x + ((size - 1 : Rat) / 2 - (size / 2 : Nat)) * dx) + b * (y + ((size - 1 : Rat) / 2 - (size / 2 : Nat)) * dy) + c)) := by
  obtain ⟨h, g, -, hh, e, wf, gx, gy, -, -, -, all, sm, -, -⟩ := C251_smooth_partial hs h0 hf (fun h => by rw [hm] at h; cases h)
  refine ⟨g, e, ?_⟩
  intro i j x y hi hj a1 a2 a3 a4
  refine ⟨i, j, hi, hj, ?_⟩
  rw [gx] at hi; rw [gy] at hj
  have li := getElem?_some_lt hi
  have lj := getElem?_some_lt hj
  have hg : g.cell i j = some (vals g i j) := by
    unfold vals
    cases e : g.cell i j with
    | none => exact absurd ⟨i, j, by rw [gx]; exact hi, by rw [gy]; exact hj, e⟩ (all x y)
    | some v => rfl
  rw [hg, sm.mean i j a1 a2 a3 a4, blockMean_affine (α := a * dx) (β := b * dy) (γ := a * x0 + b * y0 + c) h0, hx i x hi, hy j y hj]
  · congr 1
    rw [Nat.cast_sub a1, Nat.cast_sub a3]
    ring
  · intro p q hp hq
    have lp : i - size / 2 + p < f.ax.length := by omega
    have lq : j - size / 2 + q < f.ay.length := by omega
    have ep := List.getElem?_eq_getElem lp
    have eq := List.getElem?_eq_getElem lq
    have hno := SF.no_mask_reads hf.loose hm
    have hc : f.cell (i - size / 2 + p) (j - size / 2 + q) = some (vals h (i - size / 2 + p) (j - size / 2 + q)) := by
      cases e : f.cell (i - size / 2 + p) (j - size / 2 + q) with
      | none => exact absurd ⟨_, _, ep, eq, e⟩ (hno _ _)
      | some v =>
        have h1 := hh.keep _ _ v ⟨_, _, ep, eq, e⟩
        have h2 : h.Reads _ _ (some (vals h (i - size / 2 + p) (j - size / 2 + q))) :=
          ⟨_, _, by rw [hh.ax]; exact ep, by rw [hh.ay]; exact eq, filled_cell hh lp lq⟩
        exact h1.unique hh.wf h2
    have := ha _ _ _ ⟨_, _, ep, eq, hc⟩
    rw [this, hx _ _ ep, hy _ _ eq]
    ring

/-- **C251** With an odd size, a regularly spaced field of an affine function is unchanged far enough from the borders. -/
theorem C251_affine {s : Scipy} (hs : s.Ok) {f : SF} {r : Nat} (hf : f.WF) (hm : f.anyMasked = false) {x0 dx y0 dy : Rat}
    (hx : ∀ (i : Nat) x, f.ax[i]? = some x → x = x0 + i * dx) (hy : ∀ (j : Nat) y, f.ay[j]? = some y → y = y0 + j * dy) {a b c : Rat}
    (ha : ∀ x y v, f.Reads x y (some v) → v = a * x + b * y + c) :
    ∃ g, smooth s (2 * r + 1) f = .ok g ∧ ∀ (i j : Nat) x y, g.ax[i]? = some x → g.ay[j]? = some y → r ≤ i → i + r < f.ax.length → r ≤ j →
      j + r < f.ay.length → g.Reads x y (some (a * x + b * y + c)) := by
  obtain ⟨g, e, h⟩ := smooth_affine hs (size := 2 * r + 1) (by omega) hf hm hx hy ha
  refine ⟨g, e, fun i j x y hi hj a1 a2 a3 a4 => ?_⟩
  have e2 : (2 * r + 1) / 2 = r := by omega
  have := h i j x y hi hj (by omega) (by omega) (by omega) (by omega)
  rw [e2] at this
  have e3 : ((((2 * r + 1 : Nat) : Rat) - 1) / 2 - (r : Nat) : Rat) = 0 := by push_cast; ring
  rw [e3, zero_mul, zero_mul, add_zero, add_zero] at this
  exact this

/-- **C251** With an even size the smoothed field is that of the point half a step below: the same field is shifted. -/
theorem C251_even_violated {s : Scipy} (hs : s.Ok) {f : SF} {r : Nat} (h0 : 0 < r) (hf : f.WF) (hm : f.anyMasked = false) {x0 dx y0 dy : Rat}
    (hx : ∀ (i : Nat) x, f.ax[i]? = some x → x = x0 + i * dx) (hy : ∀ (j : Nat) y, f.ay[j]? = some y → y = y0 + j * dy) {a b c : Rat}
    (ha : ∀ x y v, f.Reads x y (some v) → v = a * x + b * y + c) :
    ∃ g, smooth s (2 * r) f = .ok g ∧ ∀ (i j : Nat) x y, g.ax[i]? = some x → g.ay[j]? = some y → r ≤ i → i + r ≤ f.ax.length → r ≤ j →
      j + r ≤ f.ay.length → g.Reads x y (some (a * (x - dx / 2) + b * (y - dy / 2) + c)) := by
  obtain ⟨g, e, h⟩ := smooth_affine hs (size := 2 * r) (by omega) hf hm hx hy ha
  refine ⟨g, e, fun i j x y hi hj a1 a2 a3 a4 => ?_⟩
  have e2 : (2 * r) / 2 = r := by omega
  have := h i j x y hi hj (by omega) (by omega) (by omega) (by omega)
  rw [e2] at this
  have e3 : ((((2 * r : Nat) : Rat) - 1) / 2 - (r : Nat) : Rat) = -(1 / 2) := by push_cast; ring
  rw [e3] at this
  have e4 : a * (x + -(1 / 2) * dx) + b * (y + -(1 / 2) * dy) + c = a * (x - dx / 2) + b * (y - dy / 2) + c := by ring
  rw [e4] at this
  exact this

/-- **C251** A field masked beyond some abscissa cannot be smoothed. -/
theorem C251_wall_violated (s : Scipy) {f : SF} (size : Nat) (hf : f.WF) {k : Nat} (h0 : 0 < k) (hk : k < f.ax.length)
    (hm : ∀ i j, i < f.ax.length → j < f.ay.length → f.mask.get i j = decide (k ≤ i)) : smooth s size f = .error .exception := by
  unfold smooth
  rw [(C248_wall_violated s hf h0 hk hm).1]

/-- The components of a vector field without masked points. -/
def vals1 (g : VF) (i j : Nat) : Rat := ((g.cell i j).getD (0, 0)).1

/-- See `vals1`. -/
def vals2 (g : VF) (i j : Nat) : Rat := ((g.cell i j).getD (0, 0)).2

/-- **C251** The same for a vector field: its components are smoothed separately.  Missing: the visible points next to masked ones must not be on
one line. -/
theorem C251_vector_partial {s : Scipy} (hs : s.Ok) {f : VF} {size : Nat} (h0 : 0 < size) (hf : f.WF) (hx : 2 ≤ f.ax.length) (hy : 2 ≤ f.ay.length)
    (he : (∃ x y, f.Reads x y none) → ∀ sx, Mirror.compX f = .ok sx → Enough sx true) :
    ∃ h g, vfill s .linear .linear true f = .ok h ∧ VFills f h ∧ vsmooth s size f = .ok g ∧ g.WF ∧ g.ax = f.ax ∧ g.ay = f.ay ∧ g.ux = f.ux ∧
      g.uy = f.uy ∧ g.uv = f.uv ∧ (∀ x y, ¬ g.Reads x y none) ∧ Smoothed f.ax.length f.ay.length size (vals1 h) (vals1 g) ∧
      Smoothed f.ax.length f.ay.length size (vals2 h) (vals2 g) := by
  obtain ⟨h, e, hh, -, -, -⟩ := C250_linear_partial hs true hf hx hy he
  have px : 0 < f.ax.length := by omega
  have py : 0 < f.ay.length := by omega
  have nx : h.cx.nx = f.ax.length := by rw [hh.wf.xx, hh.ax]
  have ny : h.cx.ny = f.ay.length := by rw [hh.wf.xy, hh.ay]
  have nx' : h.cy.nx = f.ax.length := by rw [hh.wf.yx, hh.ax]
  have ny' : h.cy.ny = f.ay.length := by rw [hh.wf.yy, hh.ay]
  have hcell : ∀ i j, i < f.ax.length → j < f.ay.length → ∃ u v, h.cell i j = some (u, v) := by
    intro i j hi hj
    cases e : h.cell i j with
    | none => exact absurd ⟨i, j, by rw [hh.ax]; exact List.getElem?_eq_getElem hi, by rw [hh.ay]; exact List.getElem?_eq_getElem hj, e⟩ (hh.all f.ax[i] f.ay[j])
    | some w => exact ⟨w.1, w.2, rfl⟩
  have hget : ∀ i j, i < f.ax.length → j < f.ay.length → h.mask.get i j = false ∧ h.cx.get i j = some (vals1 h i j) ∧ h.cy.get i j = some (vals2 h i j) := by
    intro i j hi hj
    obtain ⟨u, v, huv⟩ := hcell i j hi hj
    unfold vals1 vals2
    rw [huv]
    unfold VF.cell at huv
    split at huv
    · cases huv
    · rename_i hmk
      refine ⟨by simpa using hmk, ?_⟩
      cases hx : h.cx.get i j <;> cases hy : h.cy.get i j <;> simp_all
  set g : VF := { h with
    cx := ⟨h.cx.nx, h.cx.ny, fun i j => some (uniform h.cx.nx h.cx.ny size (fun i j => (h.cx.get i j).getD 0) i j)⟩
    cy := ⟨h.cy.nx, h.cy.ny, fun i j => some (uniform h.cy.nx h.cy.ny size (fun i j => (h.cy.get i j).getD 0) i j)⟩ } with hg
  have hc : ∀ i j, i < f.ax.length → j < f.ay.length →
      g.cell i j = some (uniform f.ax.length f.ay.length size (vals1 h) i j, uniform f.ax.length f.ay.length size (vals2 h) i j) := by
    intro i j hi hj
    rw [← uniform_congr px py (a := fun i j => (h.cx.get i j).getD 0) (b := vals1 h) (fun p q hp hq => by simp [(hget p q hp hq).2.1]) hi hj,
      ← uniform_congr px py (a := fun i j => (h.cy.get i j).getD 0) (b := vals2 h) (fun p q hp hq => by simp [(hget p q hp hq).2.2]) hi hj]
    refine VF.cell_some (hget i j hi hj).1 ?_ ?_
    · show some (uniform h.cx.nx h.cx.ny size _ i j) = _
      rw [nx, ny]
    · show some (uniform h.cy.nx h.cy.ny size _ i j) = _
      rw [nx', ny']
  refine ⟨h, g, e, hh, by unfold vsmooth; simp only [e]; rfl, ⟨hh.wf.incx, hh.wf.incy, hh.wf.nex, hh.wf.ney, hh.wf.xx, hh.wf.xy, hh.wf.yx, hh.wf.yy,
    hh.wf.mx, hh.wf.my, fun i j _ _ hn => (by cases hn), fun i j _ _ hn => (by cases hn)⟩, hh.ax, hh.ay, hh.ux, hh.uy, hh.uv, ?_, ?_, ?_⟩
  · rintro x y ⟨i, j, hi, hj, hn⟩
    rw [show g.ax = f.ax from hh.ax] at hi
    rw [show g.ay = f.ay from hh.ay] at hj
    rw [hc i j (getElem?_some_lt hi) (getElem?_some_lt hj)] at hn
    cases hn
  · refine smoothed_congr h0 (uniform_is px py h0 (vals1 h)) fun i j hi hj => ?_
    unfold vals1
    rw [hc i j hi hj]; rfl
  · refine smoothed_congr h0 (uniform_is px py h0 (vals2 h)) fun i j hi hj => ?_
    unfold vals2
    rw [hc i j hi hj]; rfl

end IMT.Fill
