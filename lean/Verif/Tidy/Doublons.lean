import Verif.Tidy.Model
import Verif.Reshape.Doublons
import Mathlib.Data.Rat.Floor
import Mathlib.Analysis.SpecialFunctions.Log.Base

/-! C267: removing doublons of a set of points. -/

namespace IMT.Tidy

open Reshape

/-! ### rounding -/

theorem rint_near (q : Rat) : |(rint q : Rat) - q| ≤ 1 / 2 := by
  have h1 : (q.floor : Rat) ≤ q := Rat.floor_le q
  have h2 : q < q.floor + 1 := by
    have := Int.lt_floor_add_one q
    exact_mod_cast this
  unfold rint
  rw [abs_le]
  split
  · constructor <;> linarith
  · split
    · push_cast; constructor <;> linarith
    · split
      · constructor <;> linarith
      · push_cast; constructor <;> linarith

theorem rndTo_near (d : Int) (v : Rat) : |rndTo d v - v| ≤ (10 : Rat) ^ (-d) / 2 := by
  have hp : (0 : Rat) < 10 ^ d := by positivity
  have h := rint_near (v * 10 ^ d)
  have e : rndTo d v - v = ((rint (v * 10 ^ d) : Rat) - v * 10 ^ d) / 10 ^ d := by
    unfold rndTo
    field_simp
  rw [e, abs_div, abs_of_pos hp, zpow_neg, div_le_div_iff₀ hp (by norm_num)]
  rw [inv_mul_cancel₀ hp.ne']
  linarith

/-! ### specification -/

/-- The set holds the points `(X i, Y i)` with the values `V i`, for `i < n`. -/
def Holds (p : Points.P) (n : Nat) (X Y V : Nat → Rat) : Prop :=
  p.xy = (List.range n).map (fun i => (some (X i), some (Y i))) ∧ p.v = (List.range n).map fun i => some (V i)

/-- `w` is the mean, the minimum or the maximum of the `X i` with `c i = k`, `i < n`. -/
def Merges (m : Method) (n : Nat) (c : Nat → Nat) (k : Nat) (X : Nat → Rat) (w : Rat) : Prop :=
  match m with
  | .average => w = (((List.range n).filter fun i => decide (c i = k)).map X).sum / ((List.range n).filter fun i => decide (c i = k)).length
  | .min => IsLeast {x | ∃ i, i < n ∧ c i = k ∧ x = X i} w
  | .max => IsGreatest {x | ∃ i, i < n ∧ c i = k ∧ x = X i} w

/-! ### lemmas -/

theorem allSome_map (l : List Nat) (V : Nat → Rat) : allSome (l.map fun i => some (V i)) = some (l.map V) := by
  induction l with
  | nil => rfl
  | cons a l ih => simp [allSome, ih]

theorem meanSq_pos {vs : List Rat} (h : ∃ v ∈ vs, v ≠ 0) : 0 < meanSq vs := by
  obtain ⟨v, hv, h0⟩ := h
  have hl : 0 < vs.length := List.length_pos_of_mem hv
  unfold meanSq
  refine div_pos ?_ (by exact_mod_cast hl)
  clear hl
  induction vs with
  | nil => cases hv
  | cons a l ih =>
    rw [List.map_cons, List.sum_cons]
    have hn : 0 ≤ (l.map fun v => v ^ 2).sum := by
      apply List.sum_nonneg
      intro x hx
      obtain ⟨y, -, rfl⟩ := List.mem_map.1 hx
      positivity
    rcases List.mem_cons.1 hv with rfl | hv
    · have : 0 < v ^ 2 := by positivity
      linarith
    · have := ih hv
      have : 0 ≤ a ^ 2 := by positivity
      linarith

theorem meanSq_zero {vs : List Rat} (h : ∀ v ∈ vs, v = 0) : meanSq vs = 0 := by
  unfold meanSq
  have : (vs.map fun v => v ^ 2).sum = 0 := by
    apply List.sum_eq_zero
    intro x hx
    obtain ⟨y, hy, rfl⟩ := List.mem_map.1 hx
    rw [h y hy]; norm_num
  rw [this, zero_div]

theorem group_eq (n : Nat) (V X : Nat → Rat) (Z : Nat → Points.F × Points.F) (g : Points.F × Points.F → Points.F) (hg : ∀ i, g (Z i) = some (X i))
    (rnd : Rat → Rat) (a : Rat) :
    ((((List.range n).map Z).zip ((List.range n).map V)).filter fun r => decide (rnd r.2 = a)).map (fun r => g r.1) =
      ((List.range n).filter fun i => decide (rnd (V i) = a)).map fun i => some (X i) := by
  rw [List.zip_map', List.filter_map, List.map_map]
  apply List.map_congr_left
  intro i _
  exact hg i

theorem merges_of {m : Method} {n k : Nat} {c : Nat → Nat} {X : Nat → Rat} (hk : ∃ i, i < n ∧ c i = k) :
    ∃ w, merge m (((List.range n).filter fun i => decide (c i = k)).map fun i => some (X i)) = some w ∧ Merges m n c k X w := by
  have hne : ((List.range n).filter fun i => decide (c i = k)).map X ≠ [] := by
    obtain ⟨i, hi, e⟩ := hk
    intro h
    rw [List.map_eq_nil_iff] at h
    have : i ∈ (List.range n).filter fun i => decide (c i = k) := List.mem_filter.2 ⟨List.mem_range.2 hi, by simpa using e⟩
    rw [h] at this
    cases this
  have hmem : ∀ x, x ∈ ((List.range n).filter fun i => decide (c i = k)).map X ↔ ∃ i, i < n ∧ c i = k ∧ x = X i := by
    intro x
    simp only [List.mem_map, List.mem_filter, List.mem_range, decide_eq_true_eq]
    constructor
    · rintro ⟨i, ⟨h1, h2⟩, rfl⟩; exact ⟨i, h1, h2, rfl⟩
    · rintro ⟨i, h1, h2, rfl⟩; exact ⟨i, ⟨h1, h2⟩, rfl⟩
  unfold merge
  rw [allSome_map]
  cases m with
  | average => exact ⟨_, rfl, by simp [Merges]⟩
  | min =>
    obtain ⟨w, hw⟩ := Option.ne_none_iff_exists'.1 (fun h => hne (List.min?_eq_none_iff.1 h))
    refine ⟨w, hw, ?_⟩
    have hw' := List.min?_eq_some_iff.1 hw
    exact ⟨(hmem w).1 hw'.1, fun x hx => hw'.2 x ((hmem x).2 hx)⟩
  | max =>
    obtain ⟨w, hw⟩ := Option.ne_none_iff_exists'.1 (fun h => hne (List.max?_eq_none_iff.1 h))
    refine ⟨w, hw, ?_⟩
    have hw' := List.max?_eq_some_iff.1 hw
    exact ⟨(hmem w).1 hw'.1, fun x hx => hw'.2 x ((hmem x).2 hx)⟩

/-! ### C267 -/

/-- **C267** `remove_doublons` merges the points: there is a step, at most `√10 · eps` times the root mean square of the values, and each point goes to
one (`c i`) of the new points; points of the same value go to the same one; the new values are in increasing order and no further than half a step from the
values merged; each new position is the mean (smallest, greatest) of the positions merged, coordinate by coordinate, and at least one point is merged. -/
theorem C267_merge_partial {dec : Rat → Rat → Int} (hd : IsDec dec) {eps : Rat} (he : 0 < eps) (m : Method) {p : Points.P} {n : Nat} {X Y V : Nat → Rat}
    (hp : Holds p n X Y V) (hv : ∃ i, i < n ∧ V i ≠ 0) :
    ∃ (q : Points.P) (k : Nat) (X' Y' V' : Nat → Rat) (c : Nat → Nat) (step : Rat), removeDoublons dec eps m p = .ok q ∧ Holds q k X' Y' V' ∧
      q.ux = p.ux ∧ q.uy = p.uy ∧ q.uv = p.uv ∧ 0 < step ∧ step ^ 2 ≤ 10 * (eps ^ 2 * (((List.range n).map fun i => V i ^ 2).sum / n)) ∧
      (∀ i, i < n → c i < k) ∧ (∀ j, j < k → ∃ i, i < n ∧ c i = j) ∧ (∀ i j, i < n → j < n → V i = V j → c i = c j) ∧
      (∀ i, i < n → |V' (c i) - V i| ≤ step / 2) ∧ (∀ a b, a < b → b < k → V' a < V' b) ∧
      ∀ j, j < k → Merges m n c j X (X' j) ∧ Merges m n c j Y (Y' j) := by
  obtain ⟨h1, h2⟩ := hp
  have hvne : p.v ≠ [] := by
    obtain ⟨i, hi, -⟩ := hv
    rw [h2]
    intro h
    rw [List.map_eq_nil_iff] at h
    rw [List.range_eq_nil] at h
    omega
  have hall : allSome p.v = some ((List.range n).map V) := by rw [h2]; exact allSome_map _ _
  have hms : 0 < meanSq ((List.range n).map V) := by
    obtain ⟨i, hi, h0⟩ := hv
    exact meanSq_pos ⟨V i, List.mem_map.2 ⟨i, List.mem_range.2 hi, rfl⟩, h0⟩
  have hmse : meanSq ((List.range n).map V) = ((List.range n).map fun i => V i ^ 2).sum / n := by
    unfold meanSq
    rw [List.map_map, List.length_map, List.length_range]
    rfl
  set ms := meanSq ((List.range n).map V) with hmsdef
  set rnd := rndTo (dec ms eps) with hrnd
  set N := newX rnd ((List.range n).map V) with hN
  have hinc : Inc N := newX_inc _
  have hmemN : ∀ a, a ∈ N ↔ ∃ i, i < n ∧ rnd (V i) = a := by
    intro a
    rw [hN, newX_mem]
    constructor
    · rintro ⟨x, hx, rfl⟩
      obtain ⟨i, hi, rfl⟩ := List.mem_map.1 hx
      exact ⟨i, List.mem_range.1 hi, rfl⟩
    · rintro ⟨i, hi, rfl⟩
      exact ⟨V i, List.mem_map.2 ⟨i, List.mem_range.2 hi, rfl⟩, rfl⟩
  let c : Nat → Nat := fun i => N.idxOf (rnd (V i))
  have hclt : ∀ i, i < n → c i < N.length := fun i hi => List.idxOf_lt_length_iff.2 ((hmemN _).2 ⟨i, hi, rfl⟩)
  have hcget : ∀ i, i < n → N.getD (c i) 0 = rnd (V i) := by
    intro i hi
    rw [List.getD_eq_getElem?_getD, List.getElem?_eq_getElem (hclt i hi)]
    exact List.getElem_idxOf _
  have hnd : N.Nodup := hinc.imp fun h => ne_of_lt h
  have hcj : ∀ i j, i < n → j < N.length → (c i = j ↔ rnd (V i) = N.getD j 0) := by
    intro i j hi hj
    constructor
    · rintro rfl; exact (hcget i hi).symm
    · intro e
      rw [← hcget i hi] at e
      have h1 := hclt i hi
      rw [List.getD_eq_getElem?_getD, List.getD_eq_getElem?_getD, List.getElem?_eq_getElem h1, List.getElem?_eq_getElem hj] at e
      exact (List.Nodup.getElem_inj_iff hnd).1 e
  have hsurj : ∀ j, j < N.length → ∃ i, i < n ∧ c i = j := by
    intro j hj
    obtain ⟨i, hi, e⟩ := (hmemN (N.getD j 0)).1 (by rw [List.getD_eq_getElem?_getD, List.getElem?_eq_getElem hj]; exact List.getElem_mem hj)
    exact ⟨i, hi, (hcj i j hi hj).2 e⟩
  have hmx := fun j (hj : j < N.length) => merges_of (m := m) (X := X) (hsurj j hj)
  have hmy := fun j (hj : j < N.length) => merges_of (m := m) (X := Y) (hsurj j hj)
  choose! X' hX' using hmx
  choose! Y' hY' using hmy
  have hmer : ∀ a, mergedAt m rnd p.xy ((List.range n).map V) a =
      (merge m (((List.range n).filter fun i => decide (rnd (V i) = a)).map fun i => some (X i)),
        merge m (((List.range n).filter fun i => decide (rnd (V i) = a)).map fun i => some (Y i))) := by
    intro a
    unfold mergedAt
    rw [h1, group_eq n V X _ (fun z => z.1) (fun _ => rfl), group_eq n V Y _ (fun z => z.2) (fun _ => rfl)]
  have hpos : N.map (mergedAt m rnd p.xy ((List.range n).map V)) = (List.range N.length).map fun j => (some (X' j), some (Y' j)) := by
    apply List.ext_getElem
    · simp
    · intro j hj hj'
      have hj : j < N.length := by simpa using hj
      rw [List.getElem_map, List.getElem_map, List.getElem_range]
      have hNj : N.getD j 0 = N[j] := by rw [List.getD_eq_getElem?_getD, List.getElem?_eq_getElem hj]; rfl
      have hf : ((List.range n).filter fun i => decide (rnd (V i) = N[j])) = (List.range n).filter fun i => decide (c i = j) := by
        apply List.filter_congr
        intro i hi
        rw [decide_eq_decide, hcj i j (List.mem_range.1 hi) hj, hNj]
      rw [hmer, hf, (hX' j hj).1, (hY' j hj).1]
  have hres : removeDoublons dec eps m p = .ok { p with xy := (List.range N.length).map (fun j => (some (X' j), some (Y' j))), v := N.map some } := by
    unfold removeDoublons
    rw [if_neg hvne, hall]
    simp only
    rw [← hmsdef, ← hrnd, ← hN, if_neg hms.ne', if_neg (by rw [h1, h2]; simp), hpos]
    unfold Points.setV Points.setXY
    rw [if_pos (by simp)]
  refine ⟨_, N.length, X', Y', fun j => N.getD j 0, c, (10 : Rat) ^ (-dec ms eps), hres, ⟨rfl, ?_⟩, rfl, rfl, rfl, by positivity, ?_, hclt, hsurj, ?_, ?_, ?_,
    fun j hj => ⟨(hX' j hj).2, (hY' j hj).2⟩⟩
  · apply List.ext_getElem
    · simp
    · intro j hj hj'
      have hj : j < N.length := by simpa using hj
      simp only [List.getElem_map, List.getElem_range]
      rw [List.getD_eq_getElem?_getD, List.getElem?_eq_getElem hj]
      rfl
  · rw [← hmse]
    exact (hd ms eps hms he).1
  · intro i j _ _ e
    show N.idxOf _ = N.idxOf _
    rw [e]
  · intro i hi
    show |N.getD (c i) 0 - V i| ≤ _
    rw [hcget i hi]
    exact rndTo_near _ _
  · intro a b hab hb
    have ha : a < N.length := by omega
    show N.getD a 0 < N.getD b 0
    rw [List.getD_eq_getElem?_getD, List.getD_eq_getElem?_getD, List.getElem?_eq_getElem ha, List.getElem?_eq_getElem hb]
    exact List.pairwise_iff_getElem.1 hinc a b ha hb hab

/-- **C267** With values that are all null the call raises OverflowError. -/
theorem C267_null_violated (dec : Rat → Rat → Int) (eps : Rat) (m : Method) {p : Points.P} {n : Nat} {X Y V : Nat → Rat} (hp : Holds p n X Y V)
    (hv : ∀ i, i < n → V i = 0) : ∃ e, removeDoublons dec eps m p = .error e := by
  unfold removeDoublons
  split
  · exact ⟨_, rfl⟩
  · have hall : allSome p.v = some ((List.range n).map V) := by rw [hp.2]; exact allSome_map _ _
    rw [hall]
    simp only
    rw [if_pos]
    · exact ⟨_, rfl⟩
    · apply meanSq_zero
      intro v h
      obtain ⟨i, hi, rfl⟩ := List.mem_map.1 h
      exact hv i (List.mem_range.1 hi)

/-- **C267** Values are rounded even where there is nothing to merge: a value that is not its own rounding is not in the result. -/
theorem C267_rounded_violated {dec : Rat → Rat → Int} {eps : Rat} {m : Method} {p q : Points.P} {n : Nat} {X Y V : Nat → Rat} (hp : Holds p n X Y V)
    (hq : removeDoublons dec eps m p = .ok q) {v : Rat} (h : ∀ k : Int, v ≠ k * (10 : Rat) ^ (-dec (meanSq ((List.range n).map V)) eps)) : some v ∉ q.v := by
  have hall : allSome p.v = some ((List.range n).map V) := by rw [hp.2]; exact allSome_map _ _
  unfold removeDoublons at hq
  split at hq
  · cases hq
  · rw [hall] at hq
    simp only at hq
    split at hq
    · cases hq
    · split at hq
      · cases hq
      · unfold Points.setV at hq
        split at hq
        · cases hq
          simp only
          rw [List.mem_map]
          rintro ⟨a, ha, e⟩
          obtain rfl := Option.some.inj e
          rw [newX_mem] at ha
          obtain ⟨x, -, rfl⟩ := ha
          refine h (rint (x * (10 : Rat) ^ dec (meanSq ((List.range n).map V)) eps)) ?_
          unfold rndTo
          rw [zpow_neg, div_eq_mul_inv]
        · cases hq

/-! ### examples -/

/-- A number of decimals as the code computes it. -/
noncomputable def decOf (ms eps : Rat) : Int := -round (Real.logb 10 (Real.sqrt ms * eps))

theorem decOf_isDec : IsDec decOf := by
  intro ms eps hm he
  have hm' : (0 : ℝ) < ms := by exact_mod_cast hm
  have he' : (0 : ℝ) < eps := by exact_mod_cast he
  have hx : 0 < Real.sqrt ms * (eps : ℝ) := mul_pos (Real.sqrt_pos.2 hm') he'
  set L := Real.logb 10 (Real.sqrt ms * eps) with hL
  have hLx : (10 : ℝ) ^ L = Real.sqrt ms * eps := Real.rpow_logb (by norm_num) (by norm_num) hx
  have hsq : (10 : ℝ) ^ (2 * L) = (eps : ℝ) ^ 2 * ms := by
    rw [mul_comm, Real.rpow_mul (by norm_num), hLx, Real.rpow_two, mul_pow, Real.sq_sqrt hm'.le, mul_comm]
  have hk : ((10 : ℝ) ^ (round L)) ^ 2 = (10 : ℝ) ^ (2 * (round L : ℝ)) := by
    rw [mul_comm (2 : ℝ), Real.rpow_mul (by norm_num), Real.rpow_two, Real.rpow_intCast]
  have hr := abs_le.1 (abs_sub_round L)
  have e : ((10 : Rat) ^ (-decOf ms eps)) = (10 : Rat) ^ (round L) := by
    unfold decOf
    rw [neg_neg]
  rw [e]
  constructor
  · have : ((10 : ℝ) ^ (round L)) ^ 2 ≤ 10 * ((eps : ℝ) ^ 2 * ms) := by
      rw [hk, ← hsq, show (10 : ℝ) * 10 ^ (2 * L) = 10 ^ (1 + 2 * L) by rw [Real.rpow_add (by norm_num), Real.rpow_one]]
      exact Real.rpow_le_rpow_of_exponent_le (by norm_num) (by linarith)
    rw [← Rat.cast_le (K := ℝ)]
    push_cast
    exact this
  · have : (eps : ℝ) ^ 2 * ms ≤ 10 * ((10 : ℝ) ^ (round L)) ^ 2 := by
      rw [hk, ← hsq, show (10 : ℝ) * 10 ^ (2 * (round L : ℝ)) = 10 ^ (1 + 2 * (round L : ℝ)) by rw [Real.rpow_add (by norm_num), Real.rpow_one]]
      exact Real.rpow_le_rpow_of_exponent_le (by norm_num) (by linarith)
    rw [← Rat.cast_le (K := ℝ)]
    push_cast
    exact this

/-- Four points, two of them with the same value. -/
def four : Points.P := ⟨[(some 0, some 0), (some 2, some 1), (some 4, some 3), (some 5, some 5)], [some 1, some 3, some 1, some 2], .m, .m, .s⟩

example : Holds four 4 (fun i => [0, 2, 4, 5].getD i 0) (fun i => [0, 1, 3, 5].getD i 0) (fun i => [1, 3, 1, 2].getD i 0) ∧
    ∃ i, i < 4 ∧ (fun i => ([1, 3, 1, 2] : List Rat).getD i 0) i ≠ 0 :=
  ⟨⟨by decide +kernel, by decide +kernel⟩, 0, by decide +kernel⟩

example : removeDoublons (fun _ _ => 3) (1 / 1000) .average four =
    .ok ⟨[(some 2, some (3 / 2)), (some 5, some 5), (some 2, some 1)], [some 1, some 2, some 3], .m, .m, .s⟩ := by decide +kernel

example : ∀ v : Rat, v = 1 / 3 → ∀ k : Int, v ≠ k * (10 : Rat) ^ (-(3 : Int)) := by
  rintro v rfl k h
  have h' : (1000 : Rat) = 3 * k := by
    rw [zpow_neg] at h
    norm_num at h
    linarith
  have h2 : (1000 : Int) = 3 * k := by exact_mod_cast h'
  omega

end IMT.Tidy
