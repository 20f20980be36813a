import Verif.Crit.LocalModel
import Verif.Crit.Units

/-!
Properties C139 (vorticity by Stokes' theorem), C140 (non-local residual vorticity) and C141 (enstrophy).
-/

namespace IMT.Crit

set_option linter.unusedSectionVars false

section
variable {K : Type} [Field K] [LinearOrder K] [IsStrictOrderedRing K]

/-! ### lemmas -/

theorem trapz_sum (h : K) (g : Nat → K) (n : Nat) : trapz h g n = ((List.range n).map fun k => h * (g k + g (k + 1)) / 2).sum := by
  induction n with
  | zero => simp [trapz]
  | succ n ih => rw [trapz, ih, List.range_succ, List.map_append, List.sum_append]; simp

theorem sum_telescope (g : Nat → K) (n : Nat) : ((List.range n).map fun k => g (k + 1) - g k).sum = g n - g 0 := by
  induction n with
  | zero => simp
  | succ n ih => rw [List.range_succ, List.map_append, List.sum_append, ih]; simp

theorem sum_add' {α : Type} (l : List α) (f g : α → K) : (l.map fun a => f a + g a).sum = (l.map f).sum + (l.map g).sum := by
  induction l with
  | nil => simp
  | cons a l ih => simp only [List.map_cons, List.sum_cons, ih]; ring

theorem sum_swap {α β : Type} (l : List α) (m : List β) (f : α → β → K) :
    (l.map fun a => (m.map fun b => f a b).sum).sum = (m.map fun b => (l.map fun a => f a b).sum).sum := by
  induction l with
  | nil => simp
  | cons a l ih => simp only [List.map_cons, List.sum_cons, ih, sum_add']

/-- The circulation around one cell. -/
theorem cell_circ (dx dy : K) (vx vy : Nat → Nat → K) (i j : Nat) : circulation dx dy 2 vx vy i j =
    (dy * (vy (i + 1) j + vy (i + 1) (j + 1)) / 2 - dy * (vy i j + vy i (j + 1)) / 2) -
      (dx * (vx i (j + 1) + vx (i + 1) (j + 1)) / 2 - dx * (vx i j + vx (i + 1) j) / 2) := by
  simp only [circulation, trapz, Nat.add_sub_cancel, show 2 - 1 = 1 from rfl, show i + 2 - 1 = i + 1 by omega, show j + 2 - 1 = j + 1 by omega,
    Nat.add_zero, Nat.zero_add]
  ring

/-- A window of `n + 1` points: sides as sums. -/
theorem circ_sides (dx dy : K) (n : Nat) (vx vy : Nat → Nat → K) (i j : Nat) : circulation dx dy (n + 1) vx vy i j =
    (trapz dy (fun k => vy (i + n) (j + k)) n - trapz dy (fun k => vy i (j + k)) n) -
      (trapz dx (fun k => vx (i + k) (j + n)) n - trapz dx (fun k => vx (i + k) j) n) := by
  have hneg : ∀ (h : K) (g : Nat → K) (n : Nat), trapz h (fun k => -g k) n = -trapz h g n := by
    intro h g n
    induction n with
    | zero => simp [trapz]
    | succ n ih => rw [trapz, trapz, ih]; ring
  unfold circulation
  rw [hneg, hneg, Nat.add_sub_cancel, show i + (n + 1) - 1 = i + n by omega, show j + (n + 1) - 1 = j + n by omega]
  ring

/-! ### C139 -/

/-- C139: the discrete Stokes theorem: the circulation around a window of `n + 1` by `n + 1` points is the sum of the circulations around
its cells, for every velocity. -/
theorem C139_sum (dx dy : K) (n : Nat) (vx vy : Nat → Nat → K) (i j : Nat) :
    circulation dx dy (n + 1) vx vy i j =
      ((List.range n).map fun a => ((List.range n).map fun b => circulation dx dy 2 vx vy (i + a) (j + b)).sum).sum := by
  rw [circ_sides]
  have e1 : ((List.range n).map fun a => ((List.range n).map fun b => circulation dx dy 2 vx vy (i + a) (j + b)).sum) =
      (List.range n).map fun a =>
        (trapz dy (fun k => vy (i + (a + 1)) (j + k)) n - trapz dy (fun k => vy (i + a) (j + k)) n) +
        -1 * ((dx * (vx (i + a) (j + n) + vx (i + (a + 1)) (j + n)) / 2) - (dx * (vx (i + a) j + vx (i + (a + 1)) j) / 2)) := by
    apply List.map_congr_left
    intro a _
    have e2 : ((List.range n).map fun b => circulation dx dy 2 vx vy (i + a) (j + b)) = (List.range n).map fun b =>
        ((dy * (vy (i + (a + 1)) (j + b) + vy (i + (a + 1)) (j + (b + 1))) / 2) +
          -1 * (dy * (vy (i + a) (j + b) + vy (i + a) (j + (b + 1))) / 2)) +
        -1 * ((fun k => dx * (vx (i + a) (j + k) + vx (i + (a + 1)) (j + k)) / 2) (b + 1) -
          (fun k => dx * (vx (i + a) (j + k) + vx (i + (a + 1)) (j + k)) / 2) b) := by
      apply List.map_congr_left
      intro b _
      rw [cell_circ]
      simp only [Nat.add_assoc]
      ring
    rw [e2, sum_add', sum_add', sum_mul, sum_mul,
      sum_telescope (fun k => dx * (vx (i + a) (j + k) + vx (i + (a + 1)) (j + k)) / 2) n, trapz_sum, trapz_sum, Nat.add_zero]
    ring
  rw [e1, sum_add', sum_mul, sum_telescope (fun a => trapz dy (fun k => vy (i + a) (j + k)) n) n]
  have e3 : ((List.range n).map fun a => (dx * (vx (i + a) (j + n) + vx (i + (a + 1)) (j + n)) / 2) -
      (dx * (vx (i + a) j + vx (i + (a + 1)) j) / 2)).sum =
      trapz dx (fun k => vx (i + k) (j + n)) n - trapz dx (fun k => vx (i + k) j) n := by
    rw [trapz_sum, trapz_sum]
    have : ∀ (f g : Nat → K), ((List.range n).map fun a => f a - g a).sum = ((List.range n).map f).sum - ((List.range n).map g).sum := by
      intro f g
      have := sum_add' (List.range n) f (fun a => -1 * g a)
      rw [sum_mul] at this
      rw [sub_eq_add_neg, ← neg_one_mul, ← this]
      congr 1
      apply List.map_congr_left
      intro a _; ring
    rw [this]
  rw [e3, Nat.add_zero]
  ring

/-- C139: a value is masked exactly when a point of the window is masked; windows of one value each do not look outside. -/
theorem C139_masked (dx dy : K) (w : Nat) (vx vy : Nat → Nat → K) (mask : Nat → Nat → Bool) (i j : Nat) :
    stokes dx dy w vx vy mask i j = none ↔ ∃ a b, a < w ∧ b < w ∧ mask (i + a) (j + b) = true := by
  unfold stokes
  constructor
  · intro h
    split at h
    · next hm =>
      rw [List.any_eq_true] at hm
      obtain ⟨a, ha, hm⟩ := hm
      rw [List.any_eq_true] at hm
      obtain ⟨b, hb, hm⟩ := hm
      exact ⟨a, b, List.mem_range.mp ha, List.mem_range.mp hb, hm⟩
    · cases h
  · rintro ⟨a, b, ha, hb, hm⟩
    rw [if_pos]
    rw [List.any_eq_true]
    refine ⟨a, List.mem_range.mpr ha, ?_⟩
    rw [List.any_eq_true]
    exact ⟨b, List.mem_range.mpr hb, hm⟩

/-- C139: the value depends only on the velocities on the border of the window. -/
theorem C139_border (dx dy : K) (n : Nat) {vx vy vx' vy' : Nat → Nat → K} (mask : Nat → Nat → Bool) (i j : Nat)
    (hx : ∀ k, k ≤ n → vx (i + k) j = vx' (i + k) j ∧ vx (i + k) (j + n) = vx' (i + k) (j + n))
    (hy : ∀ k, k ≤ n → vy i (j + k) = vy' i (j + k) ∧ vy (i + n) (j + k) = vy' (i + n) (j + k)) :
    stokes dx dy (n + 1) vx vy mask i j = stokes dx dy (n + 1) vx' vy' mask i j := by
  have key : ∀ (h : K) (g g' : Nat → K) (m : Nat), (∀ k, k ≤ m → g k = g' k) → trapz h g m = trapz h g' m := by
    intro h g g' m
    induction m with
    | zero => intro _; rfl
    | succ m ih => intro hk; rw [trapz, trapz, ih (fun k hk' => hk k (by omega)), hk m (by omega), hk (m + 1) (by omega)]
  unfold stokes
  rw [circ_sides, circ_sides, key dy _ _ n (fun k hk => (hy k hk).1), key dy _ _ n (fun k hk => (hy k hk).2),
    key dx _ _ n (fun k hk => (hx k hk).1), key dx _ _ n (fun k hk => (hx k hk).2)]

theorem sum_range_const (n : Nat) (c : K) : ((List.range n).map fun _ => c).sum = n * c := by
  rw [sum_const (List.range n) (fun _ => c) (c := c) (fun _ _ => rfl), List.length_range]

/-- C139: what holds for a velocity with constant gradient: every window gives the same value, which has the sign of the curl, and is zero
for an irrotational flow.
Partial: the value is not the curl (`C139_area_violated`). -/
theorem C139_affine_partial {dx dy : K} (hdx : 0 < dx) (hdy : 0 < dy) (n : Nat) (p q a b c d : K) (mask : Nat → Nat → Bool) (i j : Nat)
    (hm : ∀ a b, a < n + 1 → b < n + 1 → mask (i + a) (j + b) = false) :
    stokes dx dy (n + 1) (fun i j => p + a * (i * dx) + b * (j * dy)) (fun i j => q + c * (i * dx) + d * (j * dy)) mask i j =
      some ((c - b) * (n / (n + 1)) ^ 2) := by
  have hs : stokes dx dy (n + 1) (fun i j => p + a * (i * dx) + b * (j * dy)) (fun i j => q + c * (i * dx) + d * (j * dy)) mask i j ≠ none := by
    intro h
    obtain ⟨a, b, ha, hb, h⟩ := (C139_masked _ _ _ _ _ _ _ _).mp h
    rw [hm a b ha hb] at h; cases h
  have hv : ∀ v, stokes dx dy (n + 1) (fun i j => p + a * (i * dx) + b * (j * dy)) (fun i j => q + c * (i * dx) + d * (j * dy)) mask i j = some v →
      v = (c - b) * (n / (n + 1)) ^ 2 := by
    intro v h
    unfold stokes at h
    split at h
    · cases h
    · rw [C139_sum] at h
      have e : ((List.range n).map fun a' => ((List.range n).map fun b' => circulation dx dy 2
          (fun i j : Nat => p + a * (i * dx) + b * (j * dy)) (fun i j : Nat => q + c * (i * dx) + d * (j * dy)) (i + a') (j + b')).sum) =
          (List.range n).map fun _ => n * (dx * dy * (c - b)) := by
        apply List.map_congr_left
        intro a' _
        rw [← sum_range_const]
        congr 1
        apply List.map_congr_left
        intro b' _
        rw [cell_circ]
        push_cast
        ring
      rw [e, sum_range_const] at h
      rw [← Option.some.inj h]
      have hn : ((n : K) + 1) ≠ 0 := by positivity
      push_cast
      field_simp
  cases h : stokes dx dy (n + 1) (fun i j => p + a * (i * dx) + b * (j * dy)) (fun i j => q + c * (i * dx) + d * (j * dy)) mask i j with
  | none => exact absurd h hs
  | some v => rw [hv v h]

/-- C139 fails for the value: the circulation is divided by the number of points of the window instead of its area.  For every flow with
constant gradient and non-zero curl, whatever the window, the value returned is neither the curl nor, for windows of two points, half of
it: a quarter of the curl with the default window. -/
theorem C139_area_violated {dx dy : K} (hdx : 0 < dx) (hdy : 0 < dy) (n : Nat) (p q a b c d : K) (mask : Nat → Nat → Bool) (i j : Nat)
    (hm : ∀ a b, a < n + 1 → b < n + 1 → mask (i + a) (j + b) = false) (hc : c - b ≠ 0) :
    ∃ v, stokes dx dy (n + 1) (fun i j => p + a * (i * dx) + b * (j * dy)) (fun i j => q + c * (i * dx) + d * (j * dy)) mask i j = some v ∧
      v ≠ c - b ∧ (n = 1 → v = (c - b) / 4) := by
  refine ⟨_, C139_affine_partial hdx hdy n p q a b c d mask i j hm, ?_, ?_⟩
  · intro h
    have hn : (0 : K) < (n : K) + 1 := by positivity
    have h1 : ((n : K) / (n + 1)) ^ 2 = 1 := by
      apply mul_left_cancel₀ hc
      rw [h, mul_one]
    have h2 : (n : K) / (n + 1) < 1 := by rw [div_lt_one hn]; linarith
    have h0 : 0 ≤ (n : K) / (n + 1) := by positivity
    have h3 : ((n : K) / (n + 1)) ^ 2 < 1 := pow_lt_one₀ h0 h2 two_ne_zero
    linarith
  · rintro rfl
    norm_num
    ring

/-- C139: a flow that derives from a potential (mean velocities along the sides of the cells equal to the differences of a function at
their ends) gives zero around every window without masked points. -/
theorem C139_potential {dx dy : K} (n : Nat) {vx vy : Nat → Nat → K} (phi : Nat → Nat → K)
    (hx : ∀ i j, dx * (vx i j + vx (i + 1) j) / 2 = phi (i + 1) j - phi i j)
    (hy : ∀ i j, dy * (vy i j + vy i (j + 1)) / 2 = phi i (j + 1) - phi i j) (mask : Nat → Nat → Bool) (i j : Nat)
    (hm : ∀ a b, a < n + 1 → b < n + 1 → mask (i + a) (j + b) = false) :
    stokes dx dy (n + 1) vx vy mask i j = some 0 := by
  cases h : stokes dx dy (n + 1) vx vy mask i j with
  | none =>
    obtain ⟨a, b, ha, hb, h⟩ := (C139_masked _ _ _ _ _ _ _ _).mp h
    rw [hm a b ha hb] at h; cases h
  | some v =>
    unfold stokes at h
    split at h
    · cases h
    · rw [C139_sum] at h
      have e : ∀ i j, circulation dx dy 2 vx vy i j = 0 := by
        intro i j
        rw [cell_circ, hx, hx, hy, hy]; ring
      simp only [e, sum_range_const, mul_zero, zero_mul] at h
      exact h.symm

/-- `w` points of an evenly spaced axis have their middle for mean. -/
theorem mean_even (x0 h : K) (k w : Nat) (hw : 0 < w) :
    mean ((List.range w).map fun m : Nat => x0 + ((k + m : Nat) : K) * h) = x0 + (k + (w - 1) / 2) * h := by
  have key : ∀ w : Nat, ((List.range w).map fun m : Nat => x0 + ((k + m : Nat) : K) * h).sum = w * (x0 + k * h) + w * (w - 1) / 2 * h := by
    intro w
    induction w with
    | zero => simp
    | succ w ih => rw [List.range_succ, List.map_append, List.sum_append, ih]; simp; ring
  unfold mean
  rw [key, List.length_map, List.length_range]
  have : (w : K) ≠ 0 := by exact_mod_cast hw.ne'
  field_simp
  ring

/-- C139: on an evenly spaced axis of `n` points the new axis has `n - w + 1` of them, the centres of the windows. -/
theorem C139_axis [FloorRing K] (x0 : K) {h : K} (hh : 0 < h) (n w : Nat) (hw : 0 < w) (hn : w ≤ n) (h2 : 2 ≤ n) :
    stokesAxis ((List.range n).map fun k : Nat => x0 + k * h) w =
      (List.range (n - w + 1)).map fun k => mean ((List.range w).map fun m : Nat => x0 + ((k + m : Nat) : K) * h) := by
  have hd : ((List.range n).map fun k : Nat => x0 + (k : K) * h).getD 1 0 - ((List.range n).map fun k : Nat => x0 + (k : K) * h).getD 0 0 = h := by
    rw [List.getD_eq_getElem?_getD, List.getD_eq_getElem?_getD, List.getElem?_map, List.getElem?_map, List.getElem?_range (by omega),
      List.getElem?_range (by omega)]
    simp
  unfold stokesAxis
  rw [hd]
  have e1 : ((List.range n).map fun k : Nat => x0 + (k : K) * h).take w = (List.range w).map fun m : Nat => x0 + ((0 + m : Nat) : K) * h := by
    rw [← List.map_take, List.take_range, min_eq_left hn]
    simp
  have e2 : ((((List.range n).map fun k : Nat => x0 + (k : K) * h).drop
      (((List.range n).map fun k : Nat => x0 + (k : K) * h).length - w)).map fun x => x + h * (9 / 10)) =
      (List.range w).map fun m : Nat => (x0 + h * (9 / 10)) + ((n - w + m : Nat) : K) * h := by
    rw [List.length_map, List.length_range]
    apply List.ext_getElem
    · simp; omega
    · intro k h1 h2
      simp only [List.getElem_map, List.getElem_drop, List.getElem_range]
      ring
  rw [e1, e2, mean_even _ _ _ _ hw, mean_even _ _ _ _ hw]
  unfold arange
  have e3 : (x0 + h * (9 / 10) + (((n - w : Nat) : K) + ((w : K) - 1) / 2) * h - (x0 + (((0 : Nat) : K) + ((w : K) - 1) / 2) * h)) / h =
      ((n - w : Nat) : K) + 9 / 10 := by
    field_simp
    push_cast
    ring
  have e4 : ⌈((n - w : Nat) : K) + 9 / 10⌉ = ((n - w + 1 : Nat) : Int) := by
    rw [Int.ceil_eq_iff]
    push_cast
    constructor <;> linarith
  rw [e3, e4, Int.toNat_natCast]
  apply List.map_congr_left
  intro k _
  rw [mean_even _ _ _ _ hw]
  push_cast
  ring

/-! ### C140 -/

/-- The motif is symmetric about both axes. -/
theorem sum_oddx {r : Rat} (hr : 0 < r) (g : Int × Int → K) (h : ∀ a b, g (-a, b) = -g (a, b)) :
    (((disc r).eraseIdx ((disc r).length / 2)).map g).sum = 0 := by
  have hp : (((disc r).eraseIdx ((disc r).length / 2)).map fun p : Int × Int => (-p.1, p.2)).Perm
      ((disc r).eraseIdx ((disc r).length / 2)) := by
    apply (List.perm_ext_iff_of_nodup ((motif_nodup hr).map ?_) (motif_nodup hr)).mpr
    · rintro ⟨a, b⟩
      rw [List.mem_map]
      constructor
      · rintro ⟨⟨c, d⟩, hm, e⟩
        simp only [Prod.mk.injEq] at e
        rw [← e.1, ← e.2]
        rw [mem_motif hr] at hm ⊢
        simpa using hm
      · intro hm
        refine ⟨(-a, b), ?_, by simp⟩
        rw [mem_motif hr] at hm ⊢
        simpa using hm
    · rintro ⟨a, b⟩ ⟨c, d⟩ e
      simp only [Prod.mk.injEq, neg_inj] at e ⊢
      exact e
  have h1 := (hp.map g).sum_eq
  rw [List.map_map] at h1
  have h2 : (((disc r).eraseIdx ((disc r).length / 2)).map (g ∘ fun p : Int × Int => (-p.1, p.2))).sum =
      -(((disc r).eraseIdx ((disc r).length / 2)).map g).sum := by
    rw [← neg_one_mul, ← sum_mul]
    congr 1
    apply List.map_congr_left
    rintro ⟨a, b⟩ _
    simp only [Function.comp_apply, h, neg_one_mul]
  rw [h2] at h1
  linarith

/-- Least squares of `p + q x + t` where the rest `t` is not correlated with `x`. -/
theorem polyfit_slope {α : Type} (l : List α) (x u t : α → K) (c p q : K) (hx : ∀ a ∈ l, x a = c + u a) (hu : (l.map u).sum = 0)
    (ht : (l.map t).sum = 0) (hut : (l.map fun a => u a * t a).sum = 0) (hv : (l.map fun a => u a ^ 2).sum ≠ 0) (hl : (l.length : K) ≠ 0)
    (y : α → K) (hy : ∀ a ∈ l, y a = p + q * u a + t a) : polyfit1 l x y = q := by
  have s1 : (l.map x).sum = l.length * c := by
    rw [List.map_congr_left (g := fun a => u a + c) (fun a ha => by rw [hx a ha]; ring), sum_addc, hu, zero_add]
  have s2 : (l.map y).sum = l.length * p := by
    rw [List.map_congr_left (g := fun a => (q * u a + t a) + p) (fun a ha => by rw [hy a ha]; ring), sum_addc, sum_add', sum_mul, hu, ht]
    ring
  have s3 : (l.map fun a => x a ^ 2).sum = l.length * c ^ 2 + (l.map fun a => u a ^ 2).sum := by
    rw [List.map_congr_left (g := fun a => (2 * c * u a + u a ^ 2) + c ^ 2) (fun a ha => by rw [hx a ha]; ring), sum_addc, sum_add',
      sum_mul, hu]
    ring
  have s4 : (l.map fun a => x a * y a).sum = l.length * (c * p) + q * (l.map fun a => u a ^ 2).sum := by
    rw [List.map_congr_left (g := fun a => (((c * q + p) * u a + c * t a) + (q * u a ^ 2 + u a * t a)) + c * p)
      (fun a ha => by rw [hx a ha, hy a ha]; ring), sum_addc, sum_add', sum_add', sum_add', sum_mul, sum_mul, sum_mul, hu, ht, hut]
    ring
  unfold polyfit1
  rw [s1, s2, s3, s4, div_eq_iff]
  · ring
  · have : (l.length : K) * (l.length * c ^ 2 + (l.map fun a => u a ^ 2).sum) - (l.length * c) ^ 2 =
        l.length * (l.map fun a => u a ^ 2).sum := by ring
    rw [this]
    exact mul_ne_zero hl hv

theorem sum_pos_of {α : Type} (l : List α) (g : α → K) (h : ∀ a ∈ l, 0 ≤ g a) {a : α} (ha : a ∈ l) (hp : 0 < g a) : 0 < (l.map g).sum := by
  induction l with
  | nil => cases ha
  | cons b l ih =>
    rw [List.map_cons, List.sum_cons]
    have hn : 0 ≤ (l.map g).sum := by
      apply List.sum_nonneg
      intro y hy
      rw [List.mem_map] at hy
      obtain ⟨z, hz, rfl⟩ := hy
      exact h z (List.mem_cons_of_mem _ hz)
    cases ha with
    | head => linarith
    | tail _ ha => linarith [ih (fun z hz => h z (List.mem_cons_of_mem _ hz)) ha, h b (List.mem_cons_self ..)]

/-- The gradient fitted on a flow with constant gradient is that gradient. -/
theorem nlJac_affine {f : Vel K} (hdx : f.dx ≠ 0) (hdy : f.dy ≠ 0) {x0 y0 : K} {r : Rat} (hr : 1 ≤ r) (J : Jac K) (p q : K)
    (hx : ∀ a b : Int, f.vx a b = p + J.xx * (x0 + a * f.dx) + J.xy * (y0 + b * f.dy))
    (hy : ∀ a b : Int, f.vy a b = q + J.yx * (x0 + a * f.dx) + J.yy * (y0 + b * f.dy)) (i j : Int) :
    nlJac f x0 y0 ((disc r).eraseIdx ((disc r).length / 2)) i j = J := by
  have hr0 : 0 < r := by linarith
  have hl : (((disc r).eraseIdx ((disc r).length / 2)).length : K) ≠ 0 := by
    have := List.length_pos_iff.mpr (motif_ne hr)
    exact_mod_cast this.ne'
  have z1 : ∀ c : K, (((disc r).eraseIdx ((disc r).length / 2)).map fun m : Int × Int => c * m.1).sum = 0 :=
    fun c => sum_odd hr0 _ (fun a b => by push_cast; ring)
  have z2 : ∀ c : K, (((disc r).eraseIdx ((disc r).length / 2)).map fun m : Int × Int => c * m.2).sum = 0 :=
    fun c => sum_odd hr0 _ (fun a b => by push_cast; ring)
  have z12 : ∀ c d : K, (((disc r).eraseIdx ((disc r).length / 2)).map fun m : Int × Int => (c * m.1) * (d * m.2)).sum = 0 :=
    fun c d => sum_oddx hr0 _ (fun a b => by push_cast; ring)
  have z21 : ∀ c d : K, (((disc r).eraseIdx ((disc r).length / 2)).map fun m : Int × Int => (c * m.2) * (d * m.1)).sum = 0 :=
    fun c d => sum_oddx hr0 _ (fun a b => by push_cast; ring)
  have hr2 : (1 : Rat) ≤ r ^ 2 := by nlinarith
  have v1 : (((disc r).eraseIdx ((disc r).length / 2)).map fun m : Int × Int => (f.dx * m.1) ^ 2).sum ≠ 0 := by
    apply ne_of_gt
    apply sum_pos_of _ _ (fun m _ => sq_nonneg _) (a := ((1, 0) : Int × Int))
    · rw [mem_motif hr0]; exact ⟨.inl (by decide), by simpa using hr2⟩
    · have : 0 < f.dx ^ 2 := by positivity
      simpa using this
  have v2 : (((disc r).eraseIdx ((disc r).length / 2)).map fun m : Int × Int => (f.dy * m.2) ^ 2).sum ≠ 0 := by
    apply ne_of_gt
    apply sum_pos_of _ _ (fun m _ => sq_nonneg _) (a := ((0, 1) : Int × Int))
    · rw [mem_motif hr0]; exact ⟨.inr (by decide), by simpa using hr2⟩
    · have : 0 < f.dy ^ 2 := by positivity
      simpa using this
  unfold nlJac
  have e1 : polyfit1 ((disc r).eraseIdx ((disc r).length / 2)) (fun m : Int × Int => x0 + ((m.1 + i : Int) : K) * f.dx)
      (fun m => f.vx (m.1 + i) (m.2 + j)) = J.xx := by
    apply polyfit_slope _ _ (fun m => f.dx * m.1) (fun m => J.xy * f.dy * m.2) (x0 + i * f.dx) (f.vx i j) _ _ (z1 _) (z2 _) (z12 _ _) v1 hl
    · intro m _; rw [hx, hx]; push_cast; ring
    · intro m _; push_cast; ring
  have e2 : polyfit1 ((disc r).eraseIdx ((disc r).length / 2)) (fun m : Int × Int => y0 + ((m.2 + j : Int) : K) * f.dy)
      (fun m => f.vx (m.1 + i) (m.2 + j)) = J.xy := by
    apply polyfit_slope _ _ (fun m => f.dy * m.2) (fun m => J.xx * f.dx * m.1) (y0 + j * f.dy) (f.vx i j) _ _ (z2 _) (z1 _) (z21 _ _) v2 hl
    · intro m _; rw [hx, hx]; push_cast; ring
    · intro m _; push_cast; ring
  have e3 : polyfit1 ((disc r).eraseIdx ((disc r).length / 2)) (fun m : Int × Int => x0 + ((m.1 + i : Int) : K) * f.dx)
      (fun m => f.vy (m.1 + i) (m.2 + j)) = J.yx := by
    apply polyfit_slope _ _ (fun m => f.dx * m.1) (fun m => J.yy * f.dy * m.2) (x0 + i * f.dx) (f.vy i j) _ _ (z1 _) (z2 _) (z12 _ _) v1 hl
    · intro m _; rw [hy, hy]; push_cast; ring
    · intro m _; push_cast; ring
  have e4 : polyfit1 ((disc r).eraseIdx ((disc r).length / 2)) (fun m : Int × Int => y0 + ((m.2 + j : Int) : K) * f.dy)
      (fun m => f.vy (m.1 + i) (m.2 + j)) = J.yy := by
    apply polyfit_slope _ _ (fun m => f.dy * m.2) (fun m => J.yx * f.dx * m.1) (y0 + j * f.dy) (f.vy i j) _ _ (z2 _) (z1 _) (z21 _ _) v2 hl
    · intro m _; rw [hy, hy]; push_cast; ring
    · intro m _; push_cast; ring
  rw [e1, e2, e3, e4]

/-- C140: on a flow with constant gradient, the non-local residual vorticity is the residual vorticity of that gradient, whatever the
radius (at least one), at every point whose whole neighbourhood is in the field and not masked; elsewhere it is masked. -/
theorem C140_affine (sq : K → K) {nx ny : Nat} {f : Vel K} (hdx : f.dx ≠ 0) (hdy : f.dy ≠ 0) {x0 y0 : K} {mask : Int → Int → Bool} {r : Rat}
    (hr : 1 ≤ r) (J : Jac K) (p q : K) (hx : ∀ a b : Int, f.vx a b = p + J.xx * (x0 + a * f.dx) + J.xy * (y0 + b * f.dy))
    (hy : ∀ a b : Int, f.vy a b = q + J.yx * (x0 + a * f.dx) + J.yy * (y0 + b * f.dy)) :
    ∃ g, nlResidual sq nx ny f x0 y0 mask r = .ok g ∧ ∀ i j, i < nx → j < ny →
      (Clear nx ny mask r i j → g i j = some (residual sq J)) ∧ (¬Clear nx ny mask r i j → g i j = none) := by
  have hr0 : 0 < r := by linarith
  have e : nlResidual sq nx ny f x0 y0 mask r = .ok fun i j =>
      if hidden nx ny r mask ((disc r).eraseIdx ((disc r).length / 2)) i j then none
      else some (residual sq (nlJac f x0 y0 ((disc r).eraseIdx ((disc r).length / 2)) i j)) := by
    unfold nlResidual
    rw [motif_ok nx ny hr0]
    simp only [motif_ne hr, if_false]
  refine ⟨_, e, ?_⟩
  intro i j hi hj
  rw [← hidden_iff hr0 hi hj]
  constructor
  · intro h
    rw [h, nlJac_affine hdx hdy hr J p q hx hy]
    rfl
  · intro h
    rw [if_pos (by cases hh : hidden nx ny r mask ((disc r).eraseIdx ((disc r).length / 2)) i j with
      | true => rfl
      | false => exact absurd hh h)]

/-! ### C141 -/

/-- C141: the enstrophy is not negative, and zero at a point only if the vorticity is zero at all its neighbours; it is masked exactly
where the neighbourhood is not complete. -/
theorem C141_sign {nx ny : Nat} {vort : Int → Int → K} {dx dy : K} (hdx : 0 < dx) (hdy : 0 < dy) {mask : Int → Int → Bool} {r : Rat}
    (hr : 0 < r) :
    ∃ g, enstrophyField nx ny vort dx dy mask r = .ok g ∧ ∀ i j, i < nx → j < ny →
      ((∃ v, g i j = some v) ↔ Clear nx ny mask r i j) ∧ ∀ v, g i j = some v → 0 ≤ v ∧
        (v = 0 → ∀ a b : Int, ((a : Rat) - i) ^ 2 + ((b : Rat) - j) ^ 2 ≤ r ^ 2 → (a ≠ i ∨ b ≠ j) → vort a b = 0) := by
  have e : enstrophyField nx ny vort dx dy mask r = .ok fun i j =>
      if hidden nx ny r mask ((disc r).eraseIdx ((disc r).length / 2)) i j then none
      else some (enstrophy vort dx dy ((disc r).eraseIdx ((disc r).length / 2)) i j) := by
    unfold enstrophyField
    rw [motif_ok nx ny hr]
  refine ⟨_, e, ?_⟩
  intro i j hi hj
  rw [← hidden_iff hr hi hj]
  constructor
  · cases hidden nx ny r mask ((disc r).eraseIdx ((disc r).length / 2)) i j <;> simp
  · intro v hv
    split at hv
    · cases hv
    · have hv := Option.some.inj hv
      unfold enstrophy at hv
      have hnn : 0 ≤ (((disc r).eraseIdx ((disc r).length / 2)).map fun m : Int × Int => vort (m.1 + i) (m.2 + j) ^ 2).sum := by
        apply List.sum_nonneg
        intro y hy
        rw [List.mem_map] at hy
        obtain ⟨z, _, rfl⟩ := hy
        exact sq_nonneg _
      refine ⟨by rw [← hv]; positivity, ?_⟩
      intro h0 a b hd hne
      by_contra hw
      have hpos := sum_pos_of ((disc r).eraseIdx ((disc r).length / 2)) (fun m : Int × Int => vort (m.1 + i) (m.2 + j) ^ 2)
        (fun m _ => sq_nonneg _) (a := (a - i, b - j))
        ((mem_motif hr _ _).mpr ⟨by omega, by push_cast; exact hd⟩)
        (by simp only [sub_add_cancel]; positivity)
      rw [h0] at hv
      have := mul_pos hpos (mul_pos hdx hdy)
      linarith

/-- C141 fails with a radius in number of vectors (and with the default one): the point itself is left out of its neighbourhood, so
that the enstrophy of an isolated vortex point is zero at it. -/
theorem C141_centre_violated {nx ny : Nat} {vort : Int → Int → K} {dx dy : K} {mask : Int → Int → Bool} {r : Rat} (hr : 0 < r) {i j : Nat}
    (hi : i < nx) (hj : j < ny) (hc : Clear nx ny mask r i j) (hz : ∀ a b : Int, (a ≠ i ∨ b ≠ j) → vort a b = 0) :
    ∃ g, enstrophyField nx ny vort dx dy mask r = .ok g ∧ g i j = some 0 := by
  have e : enstrophyField nx ny vort dx dy mask r = .ok fun i j =>
      if hidden nx ny r mask ((disc r).eraseIdx ((disc r).length / 2)) i j then none
      else some (enstrophy vort dx dy ((disc r).eraseIdx ((disc r).length / 2)) i j) := by
    unfold enstrophyField
    rw [motif_ok nx ny hr]
  refine ⟨_, e, ?_⟩
  rw [(hidden_iff hr hi hj).mpr hc]
  simp only [Bool.false_eq_true, if_false]
  unfold enstrophy
  rw [sum_const _ _ (c := 0)]
  · simp
  · intro m hm
    rw [hz _ _ (by have := ((mem_motif hr m.1 m.2).mp hm).1; omega)]
    simp

end

/-! ### cases -/

/-- The hypotheses of `C139_area_violated` and `C139_axis`. -/
example : stokes (1 : ℚ) 1 2 (fun _ j => 0 + 0 * 0 + (-5) * (j * 1)) (fun i _ => 0 + 5 * (i * 1) + 0) (fun _ _ => false) 3 4 = some (10 / 4) := by
  decide +kernel
example : stokesAxis ([0, 1, 2, 3, 4] : List ℚ) 2 = [1 / 2, 3 / 2, 5 / 2, 7 / 2] := by decide +kernel
example : Clear 5 5 (fun _ _ => false) (19 / 10) 2 2 := clear_sample

end IMT.Crit
