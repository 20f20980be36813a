import Verif.Crit.Gamma
import Mathlib.Analysis.Real.Sqrt

/-!
Property C128, and part of C131, with a radius in axis units (`ind=False`, the default).
-/

namespace IMT.Crit

set_option linter.unusedSectionVars false

section
variable {K : Type} [Field K] [LinearOrder K] [IsStrictOrderedRing K]

/-- An axis of `n` points from `x0`, with the step `d`. -/
def axis (n : Nat) (x0 d : Rat) : List Rat := (List.range n).map fun k : Nat => x0 + k * d

theorem axis_length (n : Nat) (x0 d : Rat) : (axis n x0 d).length = n := by simp [axis]

theorem axis_getD {n : Nat} {x0 d : Rat} {k : Nat} (h : k < n) : (axis n x0 d).getD k 0 = x0 + k * d := by
  unfold axis
  rw [List.getD_eq_getElem?_getD, List.getElem?_map, List.getElem?_range h]; rfl

theorem axis_step {n : Nat} {x0 d : Rat} (h : 2 ≤ n) : (axis n x0 d).getD 1 0 - (axis n x0 d).getD 0 0 = d := by
  rw [axis_getD (by omega), axis_getD (by omega)]; push_cast; ring

theorem axis_head {n : Nat} {x0 d : Rat} (h : 1 ≤ n) : (axis n x0 d).headD 0 = x0 := by
  obtain ⟨m, rfl⟩ : ∃ m, n = m + 1 := ⟨n - 1, by omega⟩
  unfold axis
  rw [List.range_succ_eq_map]
  simp

theorem axis_last {n : Nat} {x0 d : Rat} (h : 1 ≤ n) : (axis n x0 d).getLastD 0 = x0 + (n - 1) * d := by
  obtain ⟨m, rfl⟩ : ∃ m, n = m + 1 := ⟨n - 1, by omega⟩
  unfold axis
  rw [List.range_succ, List.map_append, List.map_singleton, List.getLastD_concat]
  push_cast; ring

/-- The border with a radius in axis units, on an axis of step `d`. -/
theorem nearEdgeUnits_iff {n : Nat} {x0 d delta r : Rat} {i : Nat} (hi : i < n) :
    nearEdgeUnits (axis n x0 d) delta r i = false ↔ r - delta < i * d ∧ r - delta < ((n : Rat) - 1 - i) * d := by
  unfold nearEdgeUnits
  rw [axis_getD hi, axis_head (by omega), axis_last (by omega)]
  simp only [Bool.or_eq_false_iff, decide_eq_false_iff_not, not_le, ge_iff_le]
  constructor <;> rintro ⟨h1, h2⟩ <;> constructor <;> linarith

theorem motifUnits_ok (nx ny : Nat) {dx dy r : Rat} (hd : 0 < r / ((dx + dy) / 2)) :
    motifUnits nx ny dx dy r = .ok (disc (r / ((dx + dy) / 2))) := by
  unfold motifUnits
  rw [around_shift _ _ hd]
  dsimp only
  rw [List.map_map]
  congr 2
  rw [List.map_congr_left (g := id), List.map_id]
  intro p _
  simp

/-- `nearMasked` does not see the difference between the disc and the motif without its centre, out of the masked points. -/
theorem nearMasked_disc {nx ny : Nat} {mask : Int → Int → Bool} {r : Rat} (hr : 0 < r) {i j : Int} (h : mask i j = false) :
    nearMasked nx ny mask (disc r) i j = nearMasked nx ny mask ((disc r).eraseIdx ((disc r).length / 2)) i j := by
  unfold nearMasked
  congr 1
  funext q
  by_cases hm : mask q.1 q.2 = true
  · rw [hm, Bool.true_and, Bool.true_and, Bool.eq_iff_iff, List.any_eq_true, List.any_eq_true]
    constructor
    · rintro ⟨m, hmem, he⟩
      have he' := of_decide_eq_true he
      refine ⟨m, ?_, he⟩
      obtain ⟨a, b⟩ := m
      rw [mem_motif hr]
      refine ⟨?_, ((disc_spec hr).2 a b).mp hmem⟩
      by_contra hz
      have hz : a = 0 ∧ b = 0 := by omega
      dsimp only at he'
      have e1 : q.1 = i := by omega
      have e2 : q.2 = j := by omega
      rw [e1, e2, h] at hm; cases hm
    · rintro ⟨m, hmem, he⟩
      exact ⟨m, List.mem_of_mem_eraseIdx hmem, he⟩
  · simp only [hm, Bool.false_and]

theorem lt_floor_iff {q : Rat} {i : Int} : q - 1 < i ↔ ¬ i ≤ ⌊q⌋ - 1 := by
  rw [not_le]
  constructor
  · intro h
    have h2 : ⌊q⌋ < i + 1 := by
      rw [Int.floor_lt]; push_cast; linarith
    omega
  · intro h
    have h1 : ⌊q⌋ < i + 1 := by omega
    rw [Int.floor_lt] at h1
    push_cast at h1
    linarith

/-- With equal steps, the mask is the one of the same radius counted in points. -/
theorem hiddenUnits_eq {nx ny : Nat} {x0 y0 d r : Rat} (hd : 0 < d) (hr : 0 < r) {mask : Int → Int → Bool} {i j : Nat} (hi : i < nx)
    (hj : j < ny) :
    hiddenUnits (axis nx x0 d) (axis ny y0 d) d d r mask (disc (r / d)) i j =
      hidden nx ny (r / d) mask ((disc (r / d)).eraseIdx ((disc (r / d)).length / 2)) i j := by
  have hq : 0 < r / d := div_pos hr hd
  have edge : ∀ {n : Nat} {z0 : Rat} {k : Nat}, k < n → nearEdgeUnits (axis n z0 d) ((d + d) / 2) r k = nearEdge n (r / d) k := by
    intro n z0 k hk
    rw [Bool.eq_iff_iff, ← not_iff_not, Bool.not_eq_true, Bool.not_eq_true, nearEdgeUnits_iff hk]
    unfold nearEdge
    simp only [Bool.or_eq_false_iff, decide_eq_false_iff_not]
    have e1 : r - (d + d) / 2 < k * d ↔ r / d - 1 < ((k : Int) : Rat) := by
      have : r - (d + d) / 2 = (r / d - 1) * d := by field_simp; ring
      rw [this, mul_lt_mul_iff_left₀ hd]; push_cast; rfl
    have e2 : r - (d + d) / 2 < ((n : Rat) - 1 - k) * d ↔ r / d - 1 < (((n : Int) - 1 - k : Int) : Rat) := by
      have : r - (d + d) / 2 = (r / d - 1) * d := by field_simp; ring
      rw [this, mul_lt_mul_iff_left₀ hd]; push_cast; rfl
    rw [e1, e2, lt_floor_iff, lt_floor_iff]
    constructor <;> rintro ⟨h1, h2⟩ <;> constructor <;> omega
  unfold hiddenUnits hidden
  rw [edge hi, edge hj, axis_length, axis_length]
  by_cases hm : mask i j = true
  · simp [hm]
  · have hm : mask i j = false := by simpa using hm
    rw [nearMasked_disc hq hm]

/-- C128 with a radius in axis units, on a grid with the same step along x and y: a criterion is shown exactly where every grid
position within the radius is a point of the field that is not masked.
Missing: grids with different steps, see `C128_units_violated`. -/
theorem C128_units_partial (sq : K → K) (k : Kind) (nx ny : Nat) (x0 y0 : Rat) {d r : Rat} (hd : 0 < d) (hr : 0 < r)
    (hx : 2 ≤ nx) (hy : 2 ≤ ny) (vx vy : Int → Int → K) (mask : Int → Int → Bool) :
    ∃ g, criterionUnits sq k (axis nx x0 d) (axis ny y0 d) vx vy mask r = .ok g ∧
      ∀ i j, i < nx → j < ny → ((∃ v, g i j = some v) ↔ Clear nx ny mask (r / d) i j) := by
  have hq : 0 < r / d := div_pos hr hd
  have hdd : (d + d) / 2 = d := by ring
  have hout : outside (axis nx x0 d) (axis ny y0 d) d d r mask (disc (r / d)) = false := by
    unfold outside
    rw [List.any_eq_false]
    rintro ⟨a, b⟩ hp hh
    rw [axis_length, axis_length] at *
    simp only [List.mem_flatMap, List.mem_range, List.mem_map, Prod.mk.injEq] at hp
    obtain ⟨a', ha', b', hb', rfl, rfl⟩ := hp
    simp only [Bool.and_eq_true, Bool.not_eq_true', List.any_eq_true, decide_eq_true_eq] at hh
    obtain ⟨hs, m, hm, ho⟩ := hh
    rw [hiddenUnits_eq hd hr ha' hb', hidden_iff hq ha' hb'] at hs
    have hm2 := ((disc_spec hq).2 m.1 m.2).mp hm
    have := (hs (m.1 + a') (m.2 + b') (by push_cast; simpa using hm2)).1
    omega
  refine ⟨fun i j => if hiddenUnits (axis nx x0 d) (axis ny y0 d) d d r mask (disc (r / d)) i j then none
      else some (value sq k ⟨fun a b => vx (wrap nx a) (wrap ny b), fun a b => vy (wrap nx a) (wrap ny b), d, d⟩ (disc (r / d)) i j),
    ?_, ?_⟩
  · unfold criterionUnits
    rw [axis_step hx, axis_step hy, axis_length, axis_length]
    dsimp only
    rw [motifUnits_ok nx ny (by rw [hdd]; exact hq), hdd]
    simp only [hout, Bool.false_eq_true, if_false]
  · intro i j hi hj
    rw [← hidden_iff hq hi hj, ← hiddenUnits_eq (x0 := x0) (y0 := y0) hd hr hi hj]
    dsimp only
    generalize hiddenUnits (axis nx x0 d) (axis ny y0 d) d d r mask (disc (r / d)) i j = b
    cases b <;> simp

/-- C128 fails with a radius in axis units on a grid with different steps: the number of neighbours is counted with the mean of the
two steps, and so is the border left aside.  With steps `d` and `3 d` and a radius of `4 d`, the criterion of any field without
masked points raises an IndexError. -/
theorem C128_units_violated (sq : K → K) (k : Kind) {nx ny : Nat} (x0 y0 : Rat) {d : Rat} (hd : 0 < d) (hx : 7 ≤ nx) (hy : 3 ≤ ny)
    (vx vy : Int → Int → K) :
    criterionUnits sq k (axis nx x0 d) (axis ny y0 (3 * d)) vx vy (fun _ _ => false) (4 * d) = .error .indexError := by
  have hq : (4 * d) / ((d + 3 * d) / 2) = 2 := by field_simp; ring
  have hout : outside (axis nx x0 d) (axis ny y0 (3 * d)) d (3 * d) (4 * d) (fun _ _ => false) (disc 2) = true := by
    unfold outside
    rw [List.any_eq_true]
    refine ⟨(3, ny - 2), ?_, ?_⟩
    · rw [axis_length, axis_length]
      simp only [List.mem_flatMap, List.mem_range, List.mem_map, Prod.mk.injEq]
      exact ⟨3, by omega, ny - 2, by omega, rfl, rfl⟩
    · rw [Bool.and_eq_true]
      constructor
      · unfold hiddenUnits
        have h3 : nearMasked (axis nx x0 d).length (axis ny y0 (3 * d)).length (fun _ _ => false) (disc 2) ((3 : Nat) : Int)
            ((ny - 2 : Nat) : Int) = false := by
          unfold nearMasked; simp
        have h1 : nearEdgeUnits (axis nx x0 d) ((d + 3 * d) / 2) (4 * d) 3 = false := by
          rw [nearEdgeUnits_iff (by omega)]
          have : (7 : Rat) ≤ nx := by exact_mod_cast hx
          constructor
          · push_cast; nlinarith
          · push_cast; nlinarith
        have h2 : nearEdgeUnits (axis ny y0 (3 * d)) ((d + 3 * d) / 2) (4 * d) (ny - 2) = false := by
          rw [nearEdgeUnits_iff (by omega)]
          have h3 : (3 : Rat) ≤ ny := by exact_mod_cast hy
          rw [Nat.cast_sub (by omega)]
          constructor
          · push_cast; nlinarith
          · push_cast; nlinarith
        rw [h1, h2, h3]; rfl
      · rw [List.any_eq_true]
        refine ⟨(0, 2), ((disc_spec (by norm_num)).2 0 2).mpr (by norm_num), ?_⟩
        rw [decide_eq_true_eq, axis_length, axis_length]
        right; right; right
        push_cast
        omega
  unfold criterionUnits
  rw [axis_step (by omega), axis_step (by omega), axis_length, axis_length]
  dsimp only
  rw [motifUnits_ok nx ny (by rw [hq]; norm_num), hq]
  simp only [hout, if_true]

theorem disc_length {r : Rat} (hr : 0 < r) : (disc r).length = ((disc r).eraseIdx ((disc r).length / 2)).length + 1 := by
  have := (List.getElem?_eq_some_iff.mp (disc_middle hr)).1
  rw [List.length_eraseIdx_of_lt this]; omega

/-- The point itself adds nothing. -/
theorem total_disc {sq : K → K} (h : IsSqrt sq) (f : Vel K) {r : Rat} (hr : 0 < r) (cross : Bool) (u v : K) (i j : Int) :
    total sq f (disc r) cross u v i j = total sq f ((disc r).eraseIdx ((disc r).length / 2)) cross u v i j := by
  have hm := disc_middle hr
  have hl := (List.getElem?_eq_some_iff.mp hm).1
  have hg := (List.getElem?_eq_some_iff.mp hm).2
  have hp : (disc r).Perm ((0, 0) :: (disc r).eraseIdx ((disc r).length / 2)) := by
    have := (List.getElem_cons_eraseIdx_perm hl).symm
    rwa [hg] at this
  unfold total
  rw [(hp.map _).sum_eq, List.map_cons, List.sum_cons]
  have h0 : sq ((0 : K) ^ 2 + 0 ^ 2) = 0 := sq_unique h le_rfl (by simp)
  have : term sq (0 : K) 0 0 (f.vx (0 + i) (0 + j) - u) (f.vy (0 + i) (0 + j) - v) = 0 := term_perp
  simp only [Int.cast_zero, zero_mul, sub_zero, add_zero, ite_self] at *
  rw [this, zero_add]

/-- C131 fails with a radius in axis units: the point itself is counted among its neighbours, so that at the centre of a perfect
vortex gamma1 is `n / (n + 1)`, with `n` the number of neighbours, instead of 1: 4/5 for the nearest four. -/
theorem C131_units_violated {sq : K → K} (h : IsSqrt sq) {nx ny : Nat} (x0 y0 : Rat) {d r : Rat} (hd : 0 < d) (hr : d ≤ r)
    {i j : Nat} (hi : i < nx) (hj : j < ny) (hc : Clear nx ny (fun _ _ => false) (r / d) i j) {om : K} (hom : 0 < om) :
    ∃ g n, criterionUnits sq .gamma1 (axis nx x0 d) (axis ny y0 d) (fun _ b => -om * ((b - j) * (d : K)))
        (fun a _ => om * ((a - i) * (d : K))) (fun _ _ => false) r = .ok g ∧ 0 < n ∧
      (∃ l, motifInd nx ny (r / d) = .ok l ∧ l.length = n) ∧ g i j = some ((n : K) / (n + 1)) := by
  have hr0 : 0 < r := lt_of_lt_of_le hd hr
  have hq : 0 < r / d := div_pos hr0 hd
  have hq1 : 1 ≤ r / d := by rwa [le_div_iff₀ hd, one_mul]
  have hdd : (d + d) / 2 = d := by ring
  have hbig : 2 ≤ nx ∧ 2 ≤ ny := by
    have h1 : (1 : Rat) ≤ (r / d) ^ 2 := by nlinarith
    have a1 := (hc (i + 1) j (by push_cast; ring_nf; ring_nf at h1; linarith)).1
    have a2 := (hc (i - 1) j (by push_cast; ring_nf; ring_nf at h1; linarith)).1
    have b1 := (hc i (j + 1) (by push_cast; ring_nf; ring_nf at h1; linarith)).1
    have b2 := (hc i (j - 1) (by push_cast; ring_nf; ring_nf at h1; linarith)).1
    omega
  obtain ⟨g, hg, hs⟩ := C128_units_partial sq .gamma1 nx ny x0 y0 hd hr0 hbig.1 hbig.2 (fun _ b => -om * ((b - j) * (d : K)))
    (fun a _ => om * ((a - i) * (d : K))) (fun _ _ => false)
  refine ⟨g, ((disc (r / d)).eraseIdx ((disc (r / d)).length / 2)).length, hg, List.length_pos_iff.mpr (motif_ne hq1),
    ⟨_, motif_ok nx ny hq, rfl⟩, ?_⟩
  obtain ⟨v, hv⟩ := (hs i j hi hj).mpr hc
  rw [hv]
  unfold criterionUnits at hg
  rw [axis_step hbig.1, axis_step hbig.2, axis_length, axis_length] at hg
  dsimp only at hg
  rw [motifUnits_ok nx ny (by rw [hdd]; exact hq), hdd] at hg
  dsimp only at hg
  split at hg
  · cases hg
  · cases hg
    dsimp only at hv
    split at hv
    · cases hv
    · cases hv
      congr 1
      simp only [value, gamma1]
      have hlen : ((disc (r / d)).length : K) = ((disc (r / d)).eraseIdx ((disc (r / d)).length / 2)).length + 1 := by
        exact_mod_cast congrArg (Nat.cast (R := K)) (disc_length hq)
      rw [total_disc h _ hq, hlen]
      have hdK : (d : K) ≠ 0 := by exact_mod_cast hd.ne'
      have hnw : ∀ m ∈ (disc (r / d)).eraseIdx ((disc (r / d)).length / 2), 0 ≤ m.1 + (i : Int) ∧ 0 ≤ m.2 + (j : Int) := by
        intro m hm
        have := (hc (m.1 + i) (m.2 + j) (by
          have := ((mem_motif hq m.1 m.2).mp hm).2
          push_cast; simpa using this)).1
        omega
      rw [total_one h (f := ⟨_, _, _, _⟩) hdK hdK hq true 0 0 i j (fun _ _ => om) true]
      · simp
      · intro m hm
        obtain ⟨n1, n2⟩ := hnw m hm
        refine ⟨by simpa using hom, ?_⟩
        simp only [if_true, sub_zero, wrap]
        rw [if_neg (not_lt.mpr n1), if_neg (not_lt.mpr n2)]
        push_cast
        exact ⟨by ring, by ring⟩

end

/-! ### a case -/

theorem sqrt_isSqrt : IsSqrt Real.sqrt := fun x hx => ⟨Real.sqrt_nonneg x, Real.sq_sqrt hx⟩

/-- Every point of a 5 x 5 field at two points from the borders is clear for a radius of 1.9. -/
theorem clear_sample : Clear 5 5 (fun _ _ => false) (19 / 10) 2 2 := by
  intro a b h
  refine ⟨?_, rfl⟩
  have ha : ((a - 2 : Int) : Rat) ^ 2 ≤ (19 / 10) ^ 2 := by
    push_cast; have := sq_nonneg ((b : Rat) - 2); push_cast at h; linarith
  have hb : ((b - 2 : Int) : Rat) ^ 2 ≤ (19 / 10) ^ 2 := by
    push_cast; have := sq_nonneg ((a : Rat) - 2); push_cast at h; linarith
  have e : ⌊(19 / 10 : Rat)⌋ = 1 := by rw [Int.floor_eq_iff]; norm_num
  rw [sq_le_floor (by norm_num), e] at ha hb
  omega

/-- A clockwise solid body rotation around the middle of a 5 x 5 field, with steps 2 and 3. -/
noncomputable def spin : Vel ℝ := ⟨fun _ b => 4 * ((b - 2) * 3), fun a _ => -4 * ((a - 2) * 2), 2, 3⟩

example : ∃ g g', criterion Real.sqrt .gamma1 5 5 spin (fun _ _ => false) (19 / 10) = .ok g ∧
    criterion Real.sqrt .kappa1 5 5 spin (fun _ _ => false) (19 / 10) = .ok g' ∧ g 2 2 = some (-1) ∧ g' 2 2 = some 0 := by
  have := C131_vortex (f := spin) (nx := 5) (ny := 5) (i := 2) (j := 2) sqrt_isSqrt (by norm_num [spin]) (by norm_num [spin])
    (by norm_num) (by norm_num) (by norm_num) clear_sample (fun _ _ => -4) false (by intro _ _; norm_num)
    (by intro a b; simp only [spin]; constructor <;> push_cast <;> ring)
  simpa using this

/-- The motif of the default radius, 1.9: the eight points around. -/
example : motifInd 5 5 (19 / 10) = .ok [(-1, -1), (0, -1), (1, -1), (-1, 0), (1, 0), (-1, 1), (0, 1), (1, 1)] := by decide +kernel

example : ∃ g, criterion Real.sqrt .gamma2 5 5 ⟨fun _ b => 10 + 4 * (b * 3), fun a _ => -4 * (a * 2), 2, 3⟩ (fun _ _ => false) (19 / 10) = .ok g ∧
    g 2 2 = some (-1) := by
  obtain ⟨g, e, h⟩ := C131_rotation (f := ⟨fun _ b => 10 + 4 * (b * 3), fun a _ => -4 * (a * 2), 2, 3⟩) (nx := 5) (ny := 5)
    (mask := fun _ _ => false) (r := 19 / 10) (om := -4) (a := 10) (b := 0) (x0 := 0) (y0 := 0) sqrt_isSqrt (by norm_num) (by norm_num)
    (by norm_num) (by norm_num) (by intro p q; constructor <;> ring)
  refine ⟨g, e, ?_⟩
  rcases h 2 2 (by norm_num) (by norm_num) with h | h
  · rw [h]; norm_num
  · exact absurd clear_sample h.2

end IMT.Crit
