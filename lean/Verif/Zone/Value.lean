import Verif.Zone.Radius
import Verif.Axis.Props

/-!
C162-C164: the property of a vortex, its circulation, the evolutions in time.
-/

namespace IMT.Zone

open Relation Finset

variable {nx ny : Nat}

/-! ### Simpson's rule -/

theorem basic_le : ∀ {l : List Rat}, (∀ a ∈ l, 0 ≤ a) → basic l + 3 * l.headD 0 ≤ 4 * l.sum
  | [], _ => by simp [basic]
  | [a], h => by
    have := h a (by simp)
    simp [basic]; linarith
  | [a, b], h => by
    have h1 := h a (by simp)
    have h2 := h b (by simp)
    simp [basic]; linarith
  | a :: b :: c :: l, h => by
    have h1 := h a (by simp)
    have h2 := h b (by simp)
    have h3 := h c (by simp)
    have ih := basic_le (l := c :: l) fun x hx => h x (List.mem_cons_of_mem _ (List.mem_cons_of_mem _ hx))
    simp only [List.headD_cons, List.sum_cons] at ih ⊢
    rw [basic]
    linarith

theorem le_basic : ∀ {l : List Rat}, (∀ a ∈ l, 0 ≤ a) → l.length % 2 = 1 → l.sum ≤ basic l + l.headD 0
  | [], _, ho => by simp at ho
  | [a], h, _ => by simp [basic]
  | [a, b], _, ho => by simp at ho
  | a :: b :: c :: l, h, ho => by
    have h1 := h a (by simp)
    have h2 := h b (by simp)
    have ih := le_basic (l := c :: l) (fun x hx => h x (List.mem_cons_of_mem _ (List.mem_cons_of_mem _ hx)))
      (by simp only [List.length_cons] at ho ⊢; omega)
    simp only [List.headD_cons, List.sum_cons] at ih ⊢
    rw [basic]
    linarith

theorem last_le : ∀ {l : List Rat}, (∀ a ∈ l, 0 ≤ a) → 2 ≤ l.length → l.length % 2 = 0 →
    2 * basic l + 3 * (l.getLastD 0 + l.dropLast.getLastD 0) + 5 * l.headD 0 ≤ 8 * l.sum ∧
      2 * l.sum ≤ 2 * basic l + 3 * (l.getLastD 0 + l.dropLast.getLastD 0)
  | [], _, h, _ => by simp at h
  | [a], _, h, _ => by simp at h
  | [a, b], h, _, _ => by
    have h1 := h a (by simp)
    have h2 := h b (by simp)
    simp [basic]
    constructor <;> linarith
  | [a, b, c], _, _, h => by simp at h
  | a :: b :: c :: d :: l, h, _, ho => by
    have h1 := h a (by simp)
    have h2 := h b (by simp)
    have h3 := h c (by simp)
    have ih := last_le (l := c :: d :: l) (fun x hx => h x (List.mem_cons_of_mem _ (List.mem_cons_of_mem _ hx)))
      (by simp) (by simp only [List.length_cons] at ho ⊢; omega)
    have e1 : (a :: b :: c :: d :: l).getLastD 0 = (c :: d :: l).getLastD 0 := by
      simp [List.getLastD_cons]
    have e2 : (a :: b :: c :: d :: l).dropLast.getLastD 0 = (c :: d :: l).dropLast.getLastD 0 := by
      simp [List.dropLast, List.getLastD_cons]
    rw [e1, e2]
    simp only [List.headD_cons, List.sum_cons] at ih ⊢
    rw [basic]
    constructor <;> linarith [ih.1, ih.2]

/-- Simpson's rule of non-negative values is between a third and four thirds of their sum. -/
theorem simps_bounds {dx : Rat} (hd : 0 ≤ dx) {l : List Rat} (h : ∀ a ∈ l, 0 ≤ a) (hl : 2 ≤ l.length) :
    dx / 3 * l.sum ≤ simps dx l ∧ simps dx l ≤ 4 * dx / 3 * l.sum := by
  unfold simps
  match l, h, hl with
  | a :: b :: t, h, hl =>
    have h1 := h a (by simp)
    have h2 := h b (by simp)
    by_cases ho : (a :: b :: t).length % 2 = 1
    · rw [if_pos ho]
      have u := basic_le h
      simp only [List.headD_cons] at u
      have hlow : (a :: b :: t).sum ≤ basic (a :: b :: t) := by
        match t, h, ho with
        | [], _, ho => simp at ho
        | c :: t, h, ho =>
          have ih := le_basic (l := c :: t) (fun x hx => h x (List.mem_cons_of_mem _ (List.mem_cons_of_mem _ hx)))
            (by simp only [List.length_cons] at ho ⊢; omega)
          simp only [List.headD_cons, List.sum_cons] at ih ⊢
          rw [basic]
          linarith
      have hd3 : 0 ≤ dx / 3 := by linarith
      constructor
      · exact mul_le_mul_of_nonneg_left hlow hd3
      · have : basic (a :: b :: t) ≤ 4 * (a :: b :: t).sum := by linarith
        have := mul_le_mul_of_nonneg_left this hd3
        linarith
    · rw [if_neg ho]
      have hA := last_le h hl (by omega)
      have ht : ∀ x ∈ b :: t, 0 ≤ x := fun x hx => h x (List.mem_cons_of_mem _ hx)
      have hB := basic_le ht
      have hC := le_basic ht (by simp only [List.length_cons] at ho ⊢; omega)
      simp only [List.headD_cons, List.sum_cons, List.tail_cons, List.getD_cons_zero, List.getD_cons_succ] at hA hB hC ⊢
      set E := (a :: b :: t).getLastD 0 + (a :: b :: t).dropLast.getLastD 0
      set B := basic (a :: b :: t)
      set T := basic (b :: t)
      have e : (dx / 2 * E + dx / 2 * (a + b)) / 2 + (dx / 3 * B + dx / 3 * T) / 2 =
          dx / 12 * ((2 * B + 3 * E) + (2 * T + 3 * (a + b))) := by ring
      rw [e]
      have hd12 : 0 ≤ dx / 12 := by linarith
      constructor
      · have : 4 * (a + (b + t.sum)) ≤ (2 * B + 3 * E) + (2 * T + 3 * (a + b)) := by linarith [hA.2]
        have := mul_le_mul_of_nonneg_left this hd12
        linarith
      · have : (2 * B + 3 * E) + (2 * T + 3 * (a + b)) ≤ 16 * (a + (b + t.sum)) := by linarith [hA.1]
        have := mul_le_mul_of_nonneg_left this hd12
        linarith

theorem basic_smul (k : Rat) : ∀ l : List Rat, basic (l.map (k * ·)) = k * basic l
  | [] => by simp [basic]
  | [a] => by simp [basic]
  | [a, b] => by simp [basic]
  | a :: b :: c :: l => by
    have ih := basic_smul k (c :: l)
    simp only [List.map_cons] at ih ⊢
    rw [basic, ih, basic]
    ring

theorem getLastD_smul (k : Rat) (l : List Rat) : (l.map (k * ·)).getLastD 0 = k * l.getLastD 0 := by
  rcases List.eq_nil_or_concat l with rfl | ⟨l, a, rfl⟩
  · simp
  · simp

theorem simps_smul (k dx : Rat) (l : List Rat) : simps dx (l.map (k * ·)) = k * simps dx l := by
  unfold simps
  rw [List.length_map]
  have e2 : (l.map (k * ·)).dropLast = l.dropLast.map (k * ·) := by rw [List.map_dropLast]
  have e3 : (l.map (k * ·)).tail = l.tail.map (k * ·) := by rw [List.map_tail]
  have e4 : ∀ i, (l.map (k * ·)).getD i 0 = k * l.getD i 0 := by
    intro i
    simp only [List.getD_eq_getElem?_getD, List.getElem?_map]
    cases l[i]? <;> simp
  rw [e2, e3, basic_smul, basic_smul, getLastD_smul, getLastD_smul, e4, e4]
  by_cases h : l.length % 2 = 1
  · rw [if_pos h, if_pos h]; ring
  · rw [if_neg h, if_neg h]; ring

theorem simps2_smul (k dx dy : Rat) (f : Cell nx ny → Rat) : simps2 dx dy (fun q => k * f q) = k * simps2 dx dy f := by
  unfold simps2
  rw [← simps_smul, List.map_map]
  congr 2
  funext i
  show simps dy _ = k * simps dy _
  rw [← simps_smul, List.map_map]
  rfl

theorem simps2_bounds {dx dy : Rat} (hdx : 0 ≤ dx) (hdy : 0 ≤ dy) (hx : 2 ≤ nx) (hy : 2 ≤ ny) {f : Cell nx ny → Rat}
    (h : ∀ q, 0 ≤ f q) :
    1 / 9 * ((∑ q, f q) * dx * dy) ≤ simps2 dx dy f ∧ simps2 dx dy f ≤ 16 / 9 * ((∑ q, f q) * dx * dy) := by
  unfold simps2
  have hrow : ∀ i : Fin nx, dy / 3 * ∑ j, f (i, j) ≤ simps dy ((List.finRange ny).map fun j => f (i, j)) ∧
      simps dy ((List.finRange ny).map fun j => f (i, j)) ≤ 4 * dy / 3 * ∑ j, f (i, j) := by
    intro i
    have := simps_bounds hdy (l := (List.finRange ny).map fun j => f (i, j))
      (by intro a ha; obtain ⟨j, _, rfl⟩ := List.mem_map.1 ha; exact h _) (by simpa using hy)
    rwa [show ((List.finRange ny).map fun j => f (i, j)).sum = ∑ j, f (i, j) from by
      rw [← List.ofFn_eq_map, List.sum_ofFn]] at this
  have hnn : ∀ i : Fin nx, 0 ≤ simps dy ((List.finRange ny).map fun j => f (i, j)) := fun i =>
    le_trans (mul_nonneg (by linarith) (Finset.sum_nonneg fun j _ => h _)) (hrow i).1
  have hcol := simps_bounds hdx (l := (List.finRange nx).map fun i => simps dy ((List.finRange ny).map fun j => f (i, j)))
    (by intro a ha; obtain ⟨j, _, rfl⟩ := List.mem_map.1 ha; exact hnn _) (by simpa using hx)
  rw [show ((List.finRange nx).map fun i => simps dy ((List.finRange ny).map fun j => f (i, j))).sum =
    ∑ i, simps dy ((List.finRange ny).map fun j => f (i, j)) from by rw [← List.ofFn_eq_map, List.sum_ofFn]] at hcol
  have hlo : dy / 3 * ∑ q, f q ≤ ∑ i, simps dy ((List.finRange ny).map fun j => f (i, j)) := by
    rw [Fintype.sum_prod_type, Finset.mul_sum]
    exact Finset.sum_le_sum fun i _ => (hrow i).1
  have hhi : ∑ i, simps dy ((List.finRange ny).map fun j => f (i, j)) ≤ 4 * dy / 3 * ∑ q, f q := by
    rw [Fintype.sum_prod_type, Finset.mul_sum]
    exact Finset.sum_le_sum fun i _ => (hrow i).2
  constructor
  · refine le_trans (le_of_eq ?_) (le_trans (mul_le_mul_of_nonneg_left hlo (by linarith : 0 ≤ dx / 3)) hcol.1)
    ring
  · refine le_trans hcol.2 (le_trans (mul_le_mul_of_nonneg_left hhi (by linarith : 0 ≤ 4 * dx / 3)) (le_of_eq ?_))
    ring

/-! ### C162 -/

/-- The zone of a centre well inside its vortex. -/
theorem property_zone {L : Labeller} (hL : IsLabel L) {lim dx dy v m : Rat} {mag s p : Cell nx ny → Option Rat} {c : Cell nx ny}
    (hmag : ∃ u, mag c = some u ∧ 0 < u) (hv : s c = some v) (he : lim * v < v) (hm : PeakAround s (lim * v) c m)
    (hin : lim * m < v) [DecidablePred (Around s (lim * m) c)] :
    property L lim dx dy mag s p c = .ok (simps2 dx dy fun q => if Around s (lim * m) c q then (p q).getD 0 else 0) := by
  obtain ⟨m', h1, h2⟩ := peak_in hL hv he
  have := peak_unique hm h2
  subst this
  have hmem : ∀ q, q ∈ vortexZone L lim s c ↔ Around s (lim * m) c q := fun q => by
    unfold vortexZone
    rw [h1]
    exact mem_zone_in hL ⟨v, hv, hin⟩ q
  obtain ⟨u, hu, hpos⟩ := hmag
  unfold property
  rw [hu, hv]
  have hlab : ¬ L nx ny (above s (some (lim * v))) c = 0 := by
    intro h0
    have := (hL nx ny (above s (some (lim * v))) c c).1.1 h0
    have h3 := (above_iff s (lim * v) c).2 ⟨v, hv, he⟩
    rw [this] at h3; exact absurd h3 (by decide)
  rw [if_neg (by simpa [still] using hpos), Option.map_some, if_neg hlab]
  congr 1
  congr 1
  funext q
  by_cases hq : Around s (lim * m) c q
  · rw [if_pos hq, if_pos ((hmem q).2 hq)]
  · rw [if_neg hq, if_neg fun h => hq ((hmem q).1 h)]

open Classical in
/-- C162: the property of a vortex, positive on its zone, is between a ninth and sixteen ninths of the sum on the zone times the
area of a cell.  Missing: the integral itself, see `C162_parity_violated`. -/
theorem C162_bounds_partial {L : Labeller} (hL : IsLabel L) {lim dx dy v m : Rat} {mag s p : Cell nx ny → Option Rat} {c : Cell nx ny}
    (hdx : 0 ≤ dx) (hdy : 0 ≤ dy) (hx : 2 ≤ nx) (hy : 2 ≤ ny)
    (hmag : ∃ u, mag c = some u ∧ 0 < u) (hv : s c = some v) (he : lim * v < v) (hm : PeakAround s (lim * v) c m)
    (hin : lim * m < v) (hp : ∀ q, Around s (lim * m) c q → ∃ u, p q = some u ∧ 0 ≤ u) :
    ∃ P, property L lim dx dy mag s p c = .ok P ∧
      1 / 9 * ((∑ q with Around s (lim * m) c q, (p q).getD 0) * dx * dy) ≤ P ∧
      P ≤ 16 / 9 * ((∑ q with Around s (lim * m) c q, (p q).getD 0) * dx * dy) := by
  refine ⟨_, property_zone hL hmag hv he hm hin, ?_⟩
  have := simps2_bounds hdx hdy hx hy (f := fun q => if Around s (lim * m) c q then (p q).getD 0 else 0) (by
    intro q
    by_cases hq : Around s (lim * m) c q
    · obtain ⟨u, hu, h0⟩ := hp q hq
      simp only [if_pos hq, hu]; exact h0
    · simp only [if_neg hq]; exact le_rfl)
  rw [← Finset.sum_filter] at this
  exact this

/-- C162: what is outside of the zone does not count. -/
theorem C162_only_zone {L : Labeller} (hL : IsLabel L) {lim dx dy v m : Rat} {mag s p p' : Cell nx ny → Option Rat} {c : Cell nx ny}
    (hmag : ∃ u, mag c = some u ∧ 0 < u) (hv : s c = some v) (he : lim * v < v) (hm : PeakAround s (lim * v) c m)
    (hin : lim * m < v) (hp : ∀ q, Around s (lim * m) c q → p q = p' q) :
    property L lim dx dy mag s p c = property L lim dx dy mag s p' c := by
  classical
  rw [property_zone hL hmag hv he hm hin, property_zone hL hmag hv he hm hin]
  congr 2
  funext q
  by_cases hq : Around s (lim * m) c q
  · rw [if_pos hq, if_pos hq, hp q hq]
  · rw [if_neg hq, if_neg hq]

/-- C162: when the velocities are multiplied by a positive number, so is a property made from the vorticity; nothing else is asked
from the criteria, and nothing from the centre. -/
theorem C162_scale {k : Rat} (hk : 0 < k) (L : Labeller) (lim dx dy : Rat) (mag s p : Cell nx ny → Option Rat) (c : Cell nx ny) :
    property L lim dx dy (fun q => (mag q).map (k * ·)) (fun q => (s q).map (k * ·)) (fun q => (p q).map (k * ·)) c =
      (property L lim dx dy mag s p c).map (k * ·) := by
  unfold property
  simp only []
  have e1 : still ((mag c).map (k * ·)) =
      still (mag c) := by
    cases mag c with
    | none => rfl
    | some m =>
      have : k * m ≤ 0 ↔ m ≤ 0 := ⟨fun h => by by_contra hn; exact absurd (mul_pos hk (not_le.1 hn)) (not_lt.2 h),
        fun h => mul_nonpos_of_nonneg_of_nonpos hk.le h⟩
      simp [still, this]
  have e2 : ((s c).map (k * ·)).map (lim * ·) = ((s c).map (lim * ·)).map (k * ·) := by
    cases s c <;> simp [mul_left_comm]
  rw [e1, e2, above_scale hk, vortexZone_scale hk]
  by_cases h1 : still (mag c) = true
  · rw [if_pos h1, if_pos h1]; rfl
  · rw [if_neg h1, if_neg h1]
    by_cases h2 : L nx ny (above s ((s c).map (lim * ·))) c = 0
    · rw [if_pos h2, if_pos h2]
      show _ = Except.ok (k * 0)
      rw [mul_zero]
    · rw [if_neg h2, if_neg h2]
      show _ = Except.ok (k * _)
      rw [← simps2_smul]
      congr 2
      funext q
      by_cases hq : q ∈ vortexZone L lim s c
      · rw [if_pos hq, if_pos hq]
        cases p q <;> simp
      · rw [if_neg hq, if_neg hq, mul_zero]

/-- C162 is violated at a point where the fluid is at rest, as the centre of a vortex that does not move: it is refused. -/
theorem C162_rest_violated (L : Labeller) (lim dx dy : Rat) (mag s p : Cell nx ny → Option Rat) (c : Cell nx ny) (h : mag c = some 0) :
    property L lim dx dy mag s p c = .error .valueError := by
  unfold property
  rw [h]
  exact if_pos (by decide)

theorem basic_zeros : ∀ r, basic (List.replicate r 0) = 0
  | 0 => rfl
  | 1 => rfl
  | 2 => rfl
  | r + 3 => by
    have ih := basic_zeros (r + 1)
    rw [List.replicate_succ, List.replicate_succ, List.replicate_succ, basic, ← List.replicate_succ, ih]
    norm_num

theorem basic_lead (l : List Rat) : ∀ k, basic (List.replicate (2 * k) 0 ++ 0 :: l) = basic (0 :: l)
  | 0 => rfl
  | k + 1 => by
    have ih := basic_lead l k
    rw [show 2 * (k + 1) = 2 * k + 1 + 1 by ring, List.replicate_succ, List.replicate_succ]
    have : ∃ t, List.replicate (2 * k) 0 ++ (0 : Rat) :: l = 0 :: t := by
      cases k with
      | zero => exact ⟨l, rfl⟩
      | succ k =>
        rw [show 2 * (k + 1) = 2 * k + 1 + 1 by ring, List.replicate_succ]
        exact ⟨_, rfl⟩
    obtain ⟨t, ht⟩ := this
    rw [List.cons_append, List.cons_append, ht, basic, ← ht, ih]
    norm_num

/-- The weight of one point: four at odd places, two at even ones (but the ends). -/
theorem basic_one (a : Rat) (k r : Nat) :
    basic (List.replicate (2 * k + 1) 0 ++ a :: List.replicate (r + 1) 0) = 4 * a ∧
      basic (List.replicate (2 * k + 2) 0 ++ a :: List.replicate (r + 2) 0) = 2 * a := by
  constructor
  · have e : List.replicate (2 * k + 1) (0 : Rat) ++ a :: List.replicate (r + 1) 0 =
        List.replicate (2 * k) 0 ++ 0 :: (a :: List.replicate (r + 1) 0) := by
      rw [List.replicate_succ', List.append_assoc]; rfl
    rw [e, basic_lead, List.replicate_succ, basic, ← List.replicate_succ, basic_zeros]
    ring
  · have e : List.replicate (2 * k + 2) (0 : Rat) ++ a :: List.replicate (r + 2) 0 =
        List.replicate (2 * k) 0 ++ 0 :: (0 :: a :: List.replicate (r + 2) 0) := by
      rw [List.replicate_succ', List.replicate_succ', List.append_assoc, List.append_assoc]; rfl
    rw [e, basic_lead, basic, List.replicate_succ, List.replicate_succ, basic, ← List.replicate_succ, basic_zeros]
    ring

theorem map_single {n : Nat} (i : Fin n) (a : Rat) :
    ((List.finRange n).map fun j => if j = i then a else 0) = List.replicate i.1 0 ++ a :: List.replicate (n - i.1 - 1) 0 := by
  apply List.ext_getElem
  · simp; omega
  · intro k h1 h2
    rw [List.getElem_map, List.getElem_finRange]
    rcases Nat.lt_trichotomy k i.1 with h | h | h
    · rw [if_neg (by intro e; have := congrArg Fin.val e; simp at this; omega), List.getElem_append_left (by simpa using h)]
      simp
    · subst h
      rw [if_pos (by ext; simp), List.getElem_append_right (by simp)]
      simp
    · rw [if_neg (by intro e; have := congrArg Fin.val e; simp at this; omega), List.getElem_append_right (by simp; omega)]
      have : k - (List.replicate i.1 (0 : Rat)).length = (k - i.1 - 1) + 1 := by simp; omega
      simp only [this, List.getElem_cons_succ, List.getElem_replicate]

theorem simps_single {n : Nat} (hn : n % 2 = 1) (i : Fin n) (hi : 0 < i.1) (hi' : i.1 + 1 < n) (dx a : Rat) :
    simps dx ((List.finRange n).map fun j => if j = i then a else 0) = (if i.1 % 2 = 1 then 4 / 3 else 2 / 3) * (a * dx) := by
  unfold simps
  rw [if_pos (by simpa using hn), map_single]
  by_cases ho : i.1 % 2 = 1
  · rw [if_pos ho]
    obtain ⟨k, hk⟩ : ∃ k, i.1 = 2 * k + 1 := ⟨i.1 / 2, by omega⟩
    obtain ⟨r, hr⟩ : ∃ r, n - i.1 - 1 = r + 1 := ⟨n - i.1 - 2, by omega⟩
    rw [hr, hk, (basic_one a k r).1]
    ring
  · rw [if_neg ho]
    obtain ⟨k, hk⟩ : ∃ k, i.1 = 2 * k + 2 := ⟨i.1 / 2 - 1, by omega⟩
    obtain ⟨r, hr⟩ : ∃ r, n - i.1 - 1 = r + 2 := ⟨n - i.1 - 3, by omega⟩
    rw [hr, hk, (basic_one a k r).2]
    ring

/-- C162 is violated: on a field with odd numbers of points, a vortex of one cell has a property of 16/9, 8/9 or 4/9 of the value
times the area of a cell, depending on the parity of its position only. -/
theorem C162_parity_violated {L : Labeller} (hL : IsLabel L) {lim dx dy v a : Rat} {mag s p : Cell nx ny → Option Rat} {c : Cell nx ny}
    (hnx : nx % 2 = 1) (hny : ny % 2 = 1) (hi : 0 < c.1.1) (hi' : c.1.1 + 1 < nx) (hj : 0 < c.2.1) (hj' : c.2.1 + 1 < ny)
    (hmag : ∃ u, mag c = some u ∧ 0 < u) (hv : s c = some v) (he : lim * v < v)
    (hone : ∀ q, Around s (lim * v) c q → q = c) (hp : p c = some a) :
    property L lim dx dy mag s p c = .ok ((if c.1.1 % 2 = 1 then 4 / 3 else 2 / 3) * (if c.2.1 % 2 = 1 then 4 / 3 else 2 / 3) * a * dx * dy) := by
  classical
  have hself : Around s (lim * v) c c := ⟨⟨v, hv, he⟩, ⟨v, hv, he⟩, ReflTransGen.refl⟩
  have hm : PeakAround s (lim * v) c v := ⟨⟨c, hself, hv⟩, fun q u hq hu => by
    rw [hone q hq, hv] at hu; exact (Option.some.inj hu).ge⟩
  rw [property_zone hL hmag hv he hm he]
  congr 1
  have hf : (fun q : Cell nx ny => if Around s (lim * v) c q then (p q).getD 0 else 0) = fun q => if q = c then a else 0 := by
    funext q
    by_cases hq : q = c
    · subst hq; rw [if_pos hself, if_pos rfl, hp]; rfl
    · rw [if_neg hq, if_neg fun h => hq (hone q h)]
  rw [hf]
  unfold simps2
  have hrow : ∀ i : Fin nx, simps dy ((List.finRange ny).map fun j => if ((i, j) : Cell nx ny) = c then a else 0) =
      if i = c.1 then (if c.2.1 % 2 = 1 then 4 / 3 else 2 / 3) * (a * dy) else 0 := by
    intro i
    by_cases hic : i = c.1
    · rw [if_pos hic, ← simps_single hny c.2 hj hj' dy a]
      congr 1
      apply List.map_congr_left
      intro j _
      by_cases hjc : j = c.2
      · rw [if_pos hjc, if_pos (Prod.ext hic hjc)]
      · rw [if_neg hjc, if_neg fun h => hjc (congrArg Prod.snd h)]
    · rw [if_neg hic]
      have : ((List.finRange ny).map fun j => if ((i, j) : Cell nx ny) = c then a else 0) =
          ((List.finRange ny).map fun _ => (0 : Rat)).map ((0 : Rat) * ·) := by
        rw [List.map_map]
        apply List.map_congr_left
        intro j _
        rw [if_neg fun h => hic (congrArg Prod.fst h)]
        simp
      rw [this, simps_smul, zero_mul]
  simp only [hrow]
  rw [simps_single hnx c.1 hi hi' dx]
  ring

/-- Concrete case: on 5 by 5 points, one cell of vorticity 1 has the property 16/9 at (1, 1), and 4/9 at (2, 2). -/
example (c : Cell 5 5) (hc : c = (1, 1) ∨ c = (2, 2)) :
    property someLabel (1 / 10) 1 1 (fun _ => some 1) (fun q => some (if q = c then 1 else 0)) (fun q => some (if q = c then 1 else 0)) c =
      .ok (if c = (1, 1) then 16 / 9 else 4 / 9) := by
  have hone : ∀ q, Around (fun q : Cell 5 5 => some (if q = c then (1 : Rat) else 0)) (1 / 10 * 1) c q → q = c := by
    intro q hq
    obtain ⟨v, hv, hlt⟩ := hq.2.1
    by_contra hne
    have hv' : some (0 : Rat) = some v := by rw [← hv]; simp only [if_neg hne]
    rw [← Option.some.inj hv'] at hlt
    norm_num at hlt
  have h1 : 0 < c.1.1 ∧ c.1.1 + 1 < 5 ∧ 0 < c.2.1 ∧ c.2.1 + 1 < 5 := by
    rcases hc with e | e <;> subst e <;> decide
  rw [C162_parity_violated isLabel_someLabel (by decide) (by decide) h1.1 h1.2.1 h1.2.2.1 h1.2.2.2 ⟨1, rfl, by norm_num⟩
    (v := 1) (a := 1) (by simp) (by norm_num) hone (by simp)]
  rcases hc with e | e <;> subst e
  · norm_num
  · rw [if_neg (by decide), if_neg (by decide)]
    norm_num

/-! ### C163 -/

/-- `M` is the greatest absolute value of the field. -/
def Greatest (w : Cell nx ny → Option Rat) (M : Rat) : Prop :=
  (∃ q v, w q = some v ∧ |v| = M) ∧ ∀ q v, w q = some v → |v| ≤ M

/-- The vorticity is strong: more than the given part of the greatest one. -/
def Strong (w : Cell nx ny → Option Rat) (t : Rat) (q : Cell nx ny) : Prop := ∃ v, w q = some v ∧ t < |v|

theorem npMax_greatest {w : Cell nx ny → Option Rat} {M : Rat} (hM : Greatest w M) :
    npMax (((cells nx ny).filter fun q => (w q).isSome).map fun q => (w q).map abs) = some M := by
  obtain ⟨⟨q, v, hq, hv⟩, hle⟩ := hM
  have hin : q ∈ (cells nx ny).filter fun q => (w q).isSome := List.mem_filter.2 ⟨mem_cells q, by simp [hq]⟩
  obtain ⟨m, h1, h2, h3⟩ := npMax_spec (l := ((cells nx ny).filter fun q => (w q).isSome).map fun q => (w q).map abs)
    (by intro h; rw [List.map_eq_nil_iff] at h; rw [h] at hin; exact absurd hin (by simp))
    (by intro a ha
        obtain ⟨r, hr, rfl⟩ := List.mem_map.1 ha
        obtain ⟨u, hu⟩ := Option.isSome_iff_exists.1 (List.mem_filter.1 hr).2
        exact ⟨|u|, by rw [hu]; rfl⟩)
  rw [h1]
  congr 1
  apply le_antisymm
  · obtain ⟨r, hr, e⟩ := List.mem_map.1 h2
    obtain ⟨u, hu⟩ := Option.isSome_iff_exists.1 (List.mem_filter.1 hr).2
    rw [hu] at e
    rw [← Option.some.inj e]
    exact hle r u hu
  · exact h3 M (List.mem_map.2 ⟨q, hin, by rw [hq, ← hv]; rfl⟩)

theorem strong_iff {eps M : Rat} {w : Cell nx ny → Option Rat} (hM : Greatest w M) (h0 : 0 < M) (q : Cell nx ny) :
    strong eps w q = true ↔ Strong w (eps * M) q := by
  unfold strong Strong
  rw [npMax_greatest hM]
  cases h : w q with
  | none => simp
  | some v => simp [h0.ne', lt_div_iff₀ h0]

theorem not_all_none {w : Cell nx ny → Option Rat} {M : Rat} (hM : Greatest w M) : ¬ ((cells nx ny).all fun q => (w q).isNone) = true := by
  obtain ⟨⟨q, v, hq, _⟩, _⟩ := hM
  intro h
  have := List.all_eq_true.1 h q (mem_cells q)
  rw [hq] at this; exact absurd this (by simp)

open Classical in
/-- C163: the circulation is the sum of the vorticity on the connected zone of strong vorticity around the centre, times the area of
a cell. -/
theorem C163_zone {L : Labeller} (hL : IsLabel L) {eps dx dy M : Rat} {w : Cell nx ny → Option Rat} {c : Cell nx ny}
    (hM : Greatest w M) (h0 : 0 < M) (hc : Strong w (eps * M) c) :
    circulation L eps dx dy w c = .ok ((∑ q with Linked (Strong w (eps * M)) c q, (w q).getD 0) * dx * dy) := by
  have hc' := (strong_iff hM h0 c).2 hc
  have hfun : (fun q => strong eps w q = true) = Strong w (eps * M) := by
    funext q; exact propext (strong_iff hM h0 q)
  have hlab : ¬ L nx ny (strong eps w) c = 0 := by
    intro h
    have := (hL nx ny (strong eps w) c c).1.1 h
    rw [this] at hc'; exact absurd hc' (by decide)
  unfold circulation
  rw [if_neg (not_all_none hM), if_neg hlab, sum_map_eq _ (nodup_cells.filter _)]
  congr 3
  apply Finset.sum_congr _ fun _ _ => rfl
  ext q
  simp only [List.mem_toFinset, List.mem_filter, beq_iff_eq, mem_filter, mem_univ, true_and]
  rw [← hfun]
  constructor
  · rintro ⟨_, h⟩
    by_cases hq : strong eps w q = true
    · exact (((hL nx ny (strong eps w) q c).2 hq hc').1 h).symm
    · have h3 := (hL nx ny (strong eps w) q c).1.2 (Bool.eq_false_iff.2 hq)
      rw [h3] at h
      exact absurd h.symm hlab
  · intro h
    exact ⟨mem_cells q, ((hL nx ny (strong eps w) q c).2 h.2.1 hc').2 h.symm⟩

/-- C163: out of the strong vorticity, or without any, the circulation is zero. -/
theorem C163_out {L : Labeller} (hL : IsLabel L) {eps dx dy M : Rat} {w : Cell nx ny → Option Rat} {c : Cell nx ny}
    (hM : Greatest w M) (hc : M = 0 ∨ ¬ Strong w (eps * M) c) : circulation L eps dx dy w c = .ok 0 := by
  have hout : strong eps w c = false := by
    rw [Bool.eq_false_iff]
    intro h
    by_cases h0 : M = 0
    · unfold strong at h
      rw [npMax_greatest hM] at h
      cases e : w c <;> simp [e, h0] at h
    · have hpos : 0 < M := by
        obtain ⟨⟨q, v, _, hv⟩, _⟩ := hM
        exact lt_of_le_of_ne (hv ▸ abs_nonneg v) (Ne.symm h0)
      exact (hc.resolve_left h0) ((strong_iff hM hpos c).1 h)
  unfold circulation
  rw [if_neg (not_all_none hM), if_pos ((hL nx ny (strong eps w) c c).1.2 hout)]

/-- C163: the circulation follows the velocities, in both directions of rotation. -/
theorem C163_scale {L : Labeller} (hL : IsLabel L) {eps dx dy M k : Rat} {w : Cell nx ny → Option Rat} {c : Cell nx ny}
    (hM : Greatest w M) (hk : k ≠ 0) :
    circulation L eps dx dy (fun q => (w q).map (k * ·)) c = (circulation L eps dx dy w c).map (k * ·) := by
  classical
  have hM' : Greatest (fun q => (w q).map (k * ·)) (|k| * M) := by
    obtain ⟨⟨q, v, hq, hv⟩, hle⟩ := hM
    refine ⟨⟨q, k * v, by simp only [hq, Option.map_some], by rw [abs_mul, hv]⟩, fun r u hr => ?_⟩
    obtain ⟨x, hx, rfl⟩ := Option.map_eq_some_iff.1 hr
    rw [abs_mul]
    exact mul_le_mul_of_nonneg_left (hle r x hx) (abs_nonneg k)
  have hkp : 0 < |k| := abs_pos.2 hk
  have hst : Strong (fun q => (w q).map (k * ·)) (eps * (|k| * M)) = Strong w (eps * M) := by
    funext q
    apply propext
    unfold Strong
    constructor
    · rintro ⟨u, hu, hlt⟩
      obtain ⟨x, hx, rfl⟩ := Option.map_eq_some_iff.1 hu
      rw [abs_mul, mul_left_comm] at hlt
      exact ⟨x, hx, lt_of_mul_lt_mul_left hlt hkp.le⟩
    · rintro ⟨u, hu, hlt⟩
      refine ⟨k * u, by simp only [hu, Option.map_some], ?_⟩
      rw [abs_mul, mul_left_comm]
      exact mul_lt_mul_of_pos_left hlt hkp
  by_cases h0 : M = 0
  · rw [C163_out hL hM (Or.inl h0), C163_out hL hM' (Or.inl (by rw [h0, mul_zero]))]
    show _ = Except.ok (k * 0)
    rw [mul_zero]
  · have hpos : 0 < M := by
      obtain ⟨⟨q, v, _, hv⟩, _⟩ := hM
      exact lt_of_le_of_ne (hv ▸ abs_nonneg v) (Ne.symm h0)
    by_cases hc : Strong w (eps * M) c
    · rw [C163_zone hL hM hpos hc, C163_zone hL hM' (mul_pos hkp hpos) (by rw [hst]; exact hc), hst]
      show _ = Except.ok (k * _)
      congr 1
      rw [← mul_assoc, ← mul_assoc, Finset.mul_sum]
      congr 2
      apply Finset.sum_congr rfl
      intro q _
      cases w q <;> simp
    · rw [C163_out hL hM (Or.inr hc), C163_out hL hM' (Or.inr (by rw [hst]; exact hc))]
      show _ = Except.ok (k * 0)
      rw [mul_zero]

open Classical in
/-- C163: for vorticities of one sign, a lower threshold never lowers the circulation. -/
theorem C163_grows {L : Labeller} (hL : IsLabel L) {eps eps' dx dy M : Rat} {w : Cell nx ny → Option Rat} {c : Cell nx ny}
    (hdx : 0 ≤ dx) (hdy : 0 ≤ dy) (hM : Greatest w M) (h0 : 0 < M) (hw : ∀ q v, w q = some v → 0 ≤ v) (hle : eps ≤ eps')
    (hc : Strong w (eps' * M) c) :
    ∃ a b, circulation L eps dx dy w c = .ok a ∧ circulation L eps' dx dy w c = .ok b ∧ b ≤ a := by
  have hmono : ∀ q, Strong w (eps' * M) q → Strong w (eps * M) q := by
    rintro q ⟨v, hv, hlt⟩
    exact ⟨v, hv, lt_of_le_of_lt (mul_le_mul_of_nonneg_right hle h0.le) hlt⟩
  have hlink : ∀ q, Linked (Strong w (eps' * M)) c q → Linked (Strong w (eps * M)) c q := fun q h =>
    ⟨hmono _ h.1, hmono _ h.2.1, by
      refine ReflTransGen.mono ?_ _ _ h.2.2
      intro a b hab
      exact ⟨hab.1, hmono _ hab.2.1, hmono _ hab.2.2⟩⟩
  refine ⟨_, _, C163_zone hL hM h0 (hmono c hc), C163_zone hL hM h0 hc, ?_⟩
  refine mul_le_mul_of_nonneg_right (mul_le_mul_of_nonneg_right ?_ hdx) hdy
  refine Finset.sum_le_sum_of_subset_of_nonneg ?_ ?_
  · intro q hq
    rw [mem_filter] at hq ⊢
    exact ⟨mem_univ _, hlink q hq.2⟩
  · intro q hq _
    obtain ⟨v, hv, _⟩ := (mem_filter.1 hq).2.2.1
    rw [hv]; exact hw q v hv

open Classical in
/-- C163 is violated when vortices of opposite signs touch each other: they are one zone, and a dipole has no circulation. -/
theorem C163_dipole_violated {L : Labeller} (hL : IsLabel L) {eps dx dy M : Rat} {w : Cell nx ny → Option Rat} {c : Cell nx ny}
    (hM : Greatest w M) (h0 : 0 < M) (hc : Strong w (eps * M) c) (σ : Cell nx ny → Cell nx ny)
    (hσ : ∀ q, Linked (Strong w (eps * M)) c q → Linked (Strong w (eps * M)) c (σ q) ∧ σ (σ q) = q ∧ (w (σ q)).getD 0 = - (w q).getD 0) :
    circulation L eps dx dy w c = .ok 0 := by
  rw [C163_zone hL hM h0 hc]
  have : (∑ q with Linked (Strong w (eps * M)) c q, (w q).getD 0) = 0 := by
    have h1 : (∑ q with Linked (Strong w (eps * M)) c q, (w q).getD 0) =
        ∑ q with Linked (Strong w (eps * M)) c q, (w (σ q)).getD 0 := by
      refine Finset.sum_nbij' σ σ ?_ ?_ ?_ ?_ ?_
      · intro q hq; rw [mem_filter] at hq ⊢; exact ⟨mem_univ _, (hσ q hq.2).1⟩
      · intro q hq; rw [mem_filter] at hq ⊢; exact ⟨mem_univ _, (hσ q hq.2).1⟩
      · intro q hq; exact (hσ q (mem_filter.1 hq).2).2.1
      · intro q hq; exact (hσ q (mem_filter.1 hq).2).2.1
      · intro q hq; rw [(hσ q (mem_filter.1 hq).2).2.1]
    have h2 : (∑ q with Linked (Strong w (eps * M)) c q, (w (σ q)).getD 0) =
        - ∑ q with Linked (Strong w (eps * M)) c q, (w q).getD 0 := by
      rw [← Finset.sum_neg_distrib]
      exact Finset.sum_congr rfl fun q hq => (hσ q (mem_filter.1 hq).2).2.2
    linarith
  rw [this, zero_mul, zero_mul]

/-- Concrete case: two cells side by side of opposite vorticities. -/
example : circulation someLabel (1 / 10) 1 1 (fun q : Cell 2 1 => some (if q.1 = 0 then 3 else -3)) (0, 0) = .ok 0 := by
  have hG : Greatest (fun q : Cell 2 1 => some (if q.1 = 0 then (3 : Rat) else -3)) 3 := by
    refine ⟨⟨(0, 0), 3, by simp, by norm_num⟩, fun q v h => ?_⟩
    rw [← Option.some.inj h]
    split_ifs <;> norm_num
  have hS : ∀ q : Cell 2 1, Strong (fun q : Cell 2 1 => some (if q.1 = 0 then (3 : Rat) else -3)) (1 / 10 * 3) q := by
    intro q
    refine ⟨_, rfl, ?_⟩
    split_ifs <;> norm_num
  have hlink : ∀ q : Cell 2 1, Linked (Strong (fun q : Cell 2 1 => some (if q.1 = 0 then (3 : Rat) else -3)) (1 / 10 * 3)) (0, 0) q := by
    rintro ⟨i, j⟩
    refine ⟨hS _, hS _, ?_⟩
    have hj : j = 0 := Fin.ext (by omega)
    subst hj
    match i with
    | 0 => exact ReflTransGen.refl
    | 1 => exact ReflTransGen.single ⟨Or.inr ⟨rfl, Or.inl rfl⟩, hS _, hS _⟩
  refine C163_dipole_violated isLabel_someLabel hG (by norm_num) (hS _) (fun q => (1 - q.1, q.2)) fun q _ => ⟨hlink _, ?_, ?_⟩
  · obtain ⟨i, j⟩ := q
    match i with
    | 0 => rfl
    | 1 => rfl
  · obtain ⟨i, j⟩ := q
    match i with
    | 0 => simp
    | 1 => simp

/-! ### C164 -/

/-- C164: a radius is given for every point of the trajectory, in order, from the first field of its time. -/
theorem C164_radius {F : Type} (rad : F → Rat × Rat → Res ℝ) (fields : List (Rat × F)) :
    ∀ {traj : List ((Rat × Rat) × Rat)} {rs : List (Rat × ℝ)}, radiusEvo rad fields traj = .ok rs →
      List.Forall₂ (fun p r => r.1 = p.2 ∧ ∃ f, fields.find? (fun f => f.1 == p.2) = some (p.2, f) ∧ rad f p.1 = .ok r.2) traj rs
  | [], rs, h => by
    cases h
    exact List.Forall₂.nil
  | p :: l, rs, h => by
    unfold radiusEvo at h
    unfold firstWith at h
    cases hf : fields.find? (fun f => f.1 == p.2) with
    | none => rw [hf] at h; cases h
    | some f =>
      rw [hf] at h
      simp only at h
      cases hr : rad f.2 p.1 with
      | error e => rw [hr] at h; cases h
      | ok r =>
        rw [hr] at h
        simp only at h
        cases ht : radiusEvo rad fields l with
        | error e => rw [ht] at h; cases h
        | ok t =>
          rw [ht] at h
          simp only at h
          cases h
          have he : f.1 = p.2 := by
            have := List.find?_some hf
            simpa using this
          refine List.Forall₂.cons ⟨rfl, f.2, ?_, hr⟩ (C164_radius rad fields ht)
          rw [hf, ← he]

/-- C164: a point of the trajectory at a time without field is refused, if the ones before it are right. -/
theorem C164_missing {F : Type} (rad : F → Rat × Rat → Res ℝ) (fields : List (Rat × F)) (p : (Rat × Rat) × Rat)
    (hp : ∀ f ∈ fields, f.1 ≠ p.2) (l : List ((Rat × Rat) × Rat)) :
    radiusEvo rad fields (p :: l) = .error .indexError := by
  unfold radiusEvo firstWith
  rw [List.find?_eq_none.2 (by intro f hf; simpa using hp f hf)]

/-- C164 is violated: the radii are masked when they are zero, which never happens. -/
theorem C164_mask_violated {F : Type} (L : Labeller) (eps : Rat) (rad : F → Rat × Rat → Res ℝ) (fields : List (Rat × F))
    (hrad : ∀ f p r, rad f p = .ok r → ∃ (nx ny : Nat) (dx dy : Rat) (w : Cell nx ny → Option Rat) (c : Cell nx ny),
      0 < dx ∧ 0 < dy ∧ r = radius L eps dx dy w c)
    {traj : List ((Rat × Rat) × Rat)} {rs : List (Rat × ℝ)} (h : radiusEvo rad fields traj = .ok rs) :
    ∀ b ∈ radiusMask rs, b = false := by
  have := C164_radius rad fields h
  intro b hb
  unfold radiusMask at hb
  obtain ⟨r, hr, rfl⟩ := List.mem_map.1 hb
  have hall : ∀ {traj : List ((Rat × Rat) × Rat)} {rs : List (Rat × ℝ)},
      List.Forall₂ (fun p r => r.1 = p.2 ∧ ∃ f, fields.find? (fun f => f.1 == p.2) = some (p.2, f) ∧ rad f p.1 = .ok r.2) traj rs →
      ∀ r ∈ rs, r.2 ≠ 0 := by
    intro traj rs hf
    induction hf with
    | nil => intro r hr; exact absurd hr (by simp)
    | cons h0 _ ih =>
      intro r hr
      rcases List.mem_cons.1 hr with e | e
      · subst e
        obtain ⟨_, f, _, hf⟩ := h0
        obtain ⟨nx, ny, dx, dy, w, c, hx, hy, e⟩ := hrad _ _ _ hf
        rw [e]
        exact (C159_none_violated L w c hx hy).ne'
      · exact ih r e
  exact decide_eq_false (hall this r hr)

/-- C164: a value of the property for every field the time of which is in the trajectory, in order, at the first point of this
time. -/
theorem C164_property {F : Type} (prop : F → Rat × Rat → Res Rat) (traj : List ((Rat × Rat) × Rat)) {fields : List (Rat × F)}
    {vs : List (Rat × Rat)} (h : propEvo prop traj fields = .ok vs) :
    vs ≠ [] ∧
    List.Forall₂ (fun f v => v.1 = f.1 ∧ ∃ p, traj.find? (fun p => p.2 == f.1) = some p ∧ p.2 = f.1 ∧ prop f.2 p.1 = .ok v.2)
      (fields.filter fun f => traj.any fun p => p.2 == f.1) vs := by
  have hloop : ∀ {fields : List (Rat × F)} {vs : List (Rat × Rat)}, propLoop prop traj fields = .ok vs →
      List.Forall₂ (fun f v => v.1 = f.1 ∧ ∃ p, traj.find? (fun p => p.2 == f.1) = some p ∧ p.2 = f.1 ∧ prop f.2 p.1 = .ok v.2)
        (fields.filter fun f => traj.any fun p => p.2 == f.1) vs := by
    intro fields
    induction fields with
    | nil => intro vs h; cases h; exact List.Forall₂.nil
    | cons f l ih =>
      intro vs h
      unfold propLoop at h
      cases hf : traj.find? (fun p => p.2 == f.1) with
      | none =>
        rw [hf] at h
        have : (traj.any fun p => p.2 == f.1) = false := by
          rw [List.any_eq_false]
          exact List.find?_eq_none.1 hf
        rw [List.filter_cons_of_neg (by rw [this]; decide)]
        exact ih h
      | some p =>
        rw [hf] at h
        simp only at h
        have hany : (traj.any fun p => p.2 == f.1) = true := by
          rw [List.any_eq_true]
          have := List.find?_some hf
          exact ⟨p, List.mem_of_find?_eq_some hf, this⟩
        rw [List.filter_cons_of_pos (by rw [hany])]
        cases hr : prop f.2 p.1 with
        | error e => rw [hr] at h; cases h
        | ok r =>
          rw [hr] at h
          simp only at h
          cases ht : propLoop prop traj l with
          | error e => rw [ht] at h; cases h
          | ok t =>
            rw [ht] at h
            simp only at h
            cases h
            exact List.Forall₂.cons ⟨rfl, p, hf, by have := List.find?_some hf; simpa using this, hr⟩ (ih ht)
  unfold propEvo at h
  cases hl : propLoop prop traj fields with
  | error e => rw [hl] at h; cases h
  | ok l =>
    rw [hl] at h
    cases l with
    | nil => cases h
    | cons a l =>
      cases h
      exact ⟨by simp, hloop hl⟩

/-- C164: a trajectory without any common time is refused. -/
theorem C164_nothing {F : Type} (prop : F → Rat × Rat → Res Rat) (traj : List ((Rat × Rat) × Rat)) (fields : List (Rat × F))
    (h : ∀ f ∈ fields, ∀ p ∈ traj, p.2 ≠ f.1) : propEvo prop traj fields = .error .nameError := by
  have hloop : propLoop prop traj fields = .ok [] := by
    induction fields with
    | nil => rfl
    | cons f l ih =>
      unfold propLoop
      rw [List.find?_eq_none.2 (by intro p hp; simpa using h f (by simp) p hp)]
      exact ih fun g hg => h g (List.mem_cons_of_mem _ hg)
  unfold propEvo
  rw [hloop]

example : propEvo (fun (f : Rat) p => .ok (f + p.1)) [((1, 0), 2), ((5, 0), 3)] [(1, 10), (2, 20), (3, 30), (4, 40)] =
    .ok [(2, 21), (3, 35)] := by decide +kernel

/-! ### the point given by the user -/

theorem step_eq (l : List Rat) (h : 2 ≤ l.length) : step l = l[1] - l[0] := by
  rcases l with _ | ⟨a, _ | ⟨b, r⟩⟩
  · simp at h
  · simp at h
  · rfl

/-- C159: the vortex is looked for at the point of the grid nearest to the given one; a point outside is refused. -/
theorem C159_position {L : Labeller} {eps x y x0 x1 y0 y1 : Rat} {ax ay : List Rat} (w : Cell ax.length ay.length → Option Rat)
    (hax : Inc ax) (hay : Inc ay) (hnx : 2 ≤ ax.length) (hny : 2 ≤ ay.length)
    (hx0 : ax.head? = some x0) (hx1 : ax.getLast? = some x1) (hy0 : ay.head? = some y0) (hy1 : ay.getLast? = some y1) :
    (x0 ≤ x → x ≤ x1 → y0 ≤ y → y ≤ y1 → ∃ c : Cell ax.length ay.length,
      getRadius L eps ax ay w x y = .ok (radius L eps (ax[1] - ax[0]) (ay[1] - ay[0]) w c) ∧
      (∀ a ∈ ax, |ax[c.1] - x| ≤ |a - x|) ∧ ∀ b ∈ ay, |ay[c.2] - y| ≤ |b - y|) ∧
    (x < x0 ∨ x1 < x → getRadius L eps ax ay w x y = .error .valueError) := by
  have hlen : ¬ (ax.length < 2 ∨ ay.length < 2) := by omega
  constructor
  · intro h1 h2 h3 h4
    obtain ⟨i, a, hi, hai, hmin⟩ := Axis.C02_nearest_minimal hax hx0 hx1 h1 h2
    obtain ⟨j, b, hj, hbj, hmin'⟩ := Axis.C02_nearest_minimal hay hy0 hy1 h3 h4
    obtain ⟨hil, hia⟩ := List.getElem?_eq_some_iff.1 hai
    obtain ⟨hjl, hjb⟩ := List.getElem?_eq_some_iff.1 hbj
    refine ⟨(⟨i, hil⟩, ⟨j, hjl⟩), ?_, ?_, ?_⟩
    · unfold getRadius cellOf
      rw [if_neg hlen, hi, hj]
      simp only
      rw [dif_pos ⟨hil, hjl⟩, step_eq ax hnx, step_eq ay hny]
    · intro u hu
      obtain ⟨k, hk⟩ := List.mem_iff_getElem?.1 hu
      have := (hmin k u hk).1
      rw [← hia] at this
      exact this
    · intro u hu
      obtain ⟨k, hk⟩ := List.mem_iff_getElem?.1 hu
      have := (hmin' k u hk).1
      rw [← hjb] at this
      exact this
  · intro h
    have hb := (Axis.C01_bounds_refused_iff hax hx0 hx1).2 h
    unfold getRadius cellOf Axis.nearest
    rw [if_neg hlen, hb]

end IMT.Zone
