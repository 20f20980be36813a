import Verif.Display.ColorModel
import Mathlib.Data.List.GetD

/-! C314 to C320. -/

namespace IMT.Color

/-! ## Bounds of the colours -/

theorem foldl_min (l : List Rat) (a : Rat) : (l.foldl min a = a ∨ l.foldl min a ∈ l) ∧ l.foldl min a ≤ a ∧
    ∀ b ∈ l, l.foldl min a ≤ b := by
  induction l generalizing a with
  | nil => simp
  | cons c l ih =>
    obtain ⟨h1, h2, h3⟩ := ih (min a c)
    simp only [List.foldl_cons]
    refine ⟨?_, h2.trans (min_le_left _ _), ?_⟩
    · rcases h1 with h | h
      · rcases min_choice a c with h' | h' <;> rw [h, h'] <;> simp
      · exact .inr (List.mem_cons_of_mem _ h)
    · intro b hb
      rcases List.mem_cons.mp hb with rfl | hb
      · exact h2.trans (min_le_right _ _)
      · exact h3 b hb

theorem foldl_max (l : List Rat) (a : Rat) : (l.foldl max a = a ∨ l.foldl max a ∈ l) ∧ a ≤ l.foldl max a ∧
    ∀ b ∈ l, b ≤ l.foldl max a := by
  induction l generalizing a with
  | nil => simp
  | cons c l ih =>
    obtain ⟨h1, h2, h3⟩ := ih (max a c)
    simp only [List.foldl_cons]
    refine ⟨?_, (le_max_left _ _).trans h2, ?_⟩
    · rcases h1 with h | h
      · rcases max_choice a c with h' | h' <;> rw [h, h'] <;> simp
      · exact .inr (List.mem_cons_of_mem _ h)
    · intro b hb
      rcases List.mem_cons.mp hb with rfl | hb
      · exact (le_max_right _ _).trans h2
      · exact h3 b hb

theorem minOf_some {l : List Rat} {m : Rat} (h : minOf l = some m) : m ∈ l ∧ ∀ b ∈ l, m ≤ b := by
  rcases l with _ | ⟨a, l⟩
  · cases h
  · cases h
    obtain ⟨h1, h2, h3⟩ := foldl_min l a
    refine ⟨?_, ?_⟩
    · rcases h1 with h | h
      · rw [h]; simp
      · exact List.mem_cons_of_mem _ h
    · intro b hb
      rcases List.mem_cons.mp hb with rfl | hb
      · exact h2
      · exact h3 b hb

theorem maxOf_some {l : List Rat} {m : Rat} (h : maxOf l = some m) : m ∈ l ∧ ∀ b ∈ l, b ≤ m := by
  rcases l with _ | ⟨a, l⟩
  · cases h
  · cases h
    obtain ⟨h1, h2, h3⟩ := foldl_max l a
    refine ⟨?_, ?_⟩
    · rcases h1 with h | h
      · rw [h]; simp
      · exact List.mem_cons_of_mem _ h
    · intro b hb
      rcases List.mem_cons.mp hb with rfl | hb
      · exact h2
      · exact h3 b hb

theorem minOf_none {l : List Rat} : minOf l = none ↔ l = [] := by cases l <;> simp [minOf]

theorem maxOf_none {l : List Rat} : maxOf l = none ↔ l = [] := by cases l <;> simp [maxOf]

theorem mem_known {col : List (Option Rat)} {v : Rat} : v ∈ known col ↔ some v ∈ col := by
  simp [known]

/-- `v` is the colour of a cell of a frame. -/
def Shown (colors : List (List (Option Rat))) (v : Rat) : Prop := ∃ col ∈ colors, some v ∈ col

theorem lowest_some {colors : List (List (Option Rat))} {m : Rat} (h : lowest colors = some m) :
    Shown colors m ∧ ∀ v, Shown colors v → m ≤ v := by
  obtain ⟨h1, h2⟩ := minOf_some h
  rw [List.mem_filterMap] at h1
  obtain ⟨col, hc, hm⟩ := h1
  refine ⟨⟨col, hc, mem_known.mp (minOf_some hm).1⟩, ?_⟩
  rintro v ⟨col', hc', hv⟩
  rcases hm' : minOf (known col') with _ | m'
  · rw [minOf_none] at hm'
    have := mem_known.mpr hv
    rw [hm'] at this
    simp at this
  · exact (h2 m' (List.mem_filterMap.mpr ⟨col', hc', hm'⟩)).trans ((minOf_some hm').2 v (mem_known.mpr hv))

theorem highest_some {colors : List (List (Option Rat))} {m : Rat} (h : highest colors = some m) :
    Shown colors m ∧ ∀ v, Shown colors v → v ≤ m := by
  obtain ⟨h1, h2⟩ := maxOf_some h
  rw [List.mem_filterMap] at h1
  obtain ⟨col, hc, hm⟩ := h1
  refine ⟨⟨col, hc, mem_known.mp (maxOf_some hm).1⟩, ?_⟩
  rintro v ⟨col', hc', hv⟩
  rcases hm' : maxOf (known col') with _ | m'
  · rw [maxOf_none] at hm'
    have := mem_known.mpr hv
    rw [hm'] at this
    simp at this
  · exact ((maxOf_some hm').2 v (mem_known.mpr hv)).trans (h2 m' (List.mem_filterMap.mpr ⟨col', hc', hm'⟩))

theorem lowest_none {colors : List (List (Option Rat))} : lowest colors = none ↔ ¬ ∃ v, Shown colors v := by
  unfold lowest
  rw [minOf_none, List.filterMap_eq_nil_iff]
  constructor
  · rintro h ⟨v, col, hc, hv⟩
    have := h col hc
    rw [minOf_none] at this
    have := mem_known.mpr hv
    simp_all
  · intro h col hc
    rw [minOf_none, List.eq_nil_iff_forall_not_mem]
    intro v hv
    exact h ⟨v, col, hc, mem_known.mp hv⟩

theorem highest_none {colors : List (List (Option Rat))} : highest colors = none ↔ ¬ ∃ v, Shown colors v := by
  unfold highest
  rw [maxOf_none, List.filterMap_eq_nil_iff]
  constructor
  · rintro h ⟨v, col, hc, hv⟩
    have := h col hc
    rw [maxOf_none] at this
    have := mem_known.mpr hv
    simp_all
  · intro h col hc
    rw [maxOf_none, List.eq_nil_iff_forall_not_mem]
    intro v hv
    exact h ⟨v, col, hc, mem_known.mp hv⟩

/-- C314: the bounds of the shared colour scale of a series are colours of cells of the frames, and all the colours of the
frames lie between them; asking again gives the same bounds.  It fails exactly when no frame has a colour. -/
theorem C314_global (colors : List (List (Option Rat))) :
    (∀ lo hi, (globalNorm ⟨none, none⟩ colors).2 = .ok (lo, hi) →
      Shown colors lo ∧ Shown colors hi ∧ (∀ v, Shown colors v → lo ≤ v ∧ v ≤ hi) ∧
      ∀ colors', (globalNorm (globalNorm ⟨none, none⟩ colors).1 colors').2 = .ok (lo, hi)) ∧
    ((∃ e, (globalNorm ⟨none, none⟩ colors).2 = .error e) ↔ ¬ ∃ v, Shown colors v) := by
  unfold globalNorm
  rcases hl : lowest colors with _ | lo
  · refine ⟨?_, ?_⟩
    · intro lo hi h; simp at h
    · simp only [Option.orElse_none]
      exact ⟨fun _ => lowest_none.mp hl, fun _ => ⟨_, rfl⟩⟩
  · rcases hh : highest colors with _ | hi
    · exact absurd ⟨lo, (lowest_some hl).1⟩ (highest_none.mp hh)
    · refine ⟨?_, ?_⟩
      · intro a b h
        simp only [Option.orElse_none, Except.ok.injEq, Prod.mk.injEq] at h
        obtain ⟨rfl, rfl⟩ := h
        refine ⟨(lowest_some hl).1, (highest_some hh).1, fun v hv => ⟨(lowest_some hl).2 v hv, (highest_some hh).2 v hv⟩, ?_⟩
        intro colors'
        simp
      · simp only [Option.orElse_none]
        constructor
        · rintro ⟨e, h⟩; cases h
        · intro h; exact absurd ⟨lo, (lowest_some hl).1⟩ h

/-- C315 (what holds): the lower bound of the scale of one frame is its lowest colour.  Missing: the upper bound,
`C315_upper_violated`; frames with masked cells, `C315_masked_violated`. -/
theorem C315_lower_partial {col : List (Option Rat)} (h : none ∉ col) (hne : col ≠ []) :
    ∃ lo, (frameNorm col).1 = some lo ∧ some lo ∈ col ∧ ∀ v, some v ∈ col → lo ≤ v := by
  unfold frameNorm minNan
  rw [if_neg h]
  rcases hm : minOf (known col) with _ | m
  · rw [minOf_none, List.eq_nil_iff_forall_not_mem] at hm
    obtain ⟨a, ha⟩ := List.exists_mem_of_ne_nil _ hne
    rcases a with _ | a
    · exact absurd ha h
    · exact absurd (mem_known.mpr ha) (hm a)
  · exact ⟨m, rfl, mem_known.mp (minOf_some hm).1, fun v hv => (minOf_some hm).2 v (mem_known.mpr hv)⟩

/-- C315 is violated: the upper bound of the scale of a frame is its lowest colour, so that every value takes the first colour
of the map, whatever the colours of the frame. -/
theorem C315_upper_violated {col : List (Option Rat)} {lo hi : Rat} (h : frameNorm col = (some lo, some hi)) :
    (∀ v, some v ∈ col → hi ≤ v) ∧ ∀ v, place lo hi v = 0 := by
  unfold frameNorm minNan at h
  by_cases hn : none ∈ col
  · rw [if_pos hn] at h; cases h
  · rw [if_neg hn] at h
    simp only [Prod.mk.injEq] at h
    obtain ⟨h1, h2⟩ := h
    rw [h1] at h2
    cases h2
    refine ⟨fun v hv => (minOf_some h1).2 v (mem_known.mpr hv), fun v => ?_⟩
    unfold place
    rw [if_pos rfl]

/-- C315 is violated: a frame with one masked cell has no bounds. -/
theorem C315_masked_violated {col : List (Option Rat)} (h : none ∈ col) : frameNorm col = (none, none) := by
  unfold frameNorm minNan
  rw [if_pos h]

example : (globalNorm ⟨none, none⟩ [[some 1, none, some 3], [none], [some (-2), some 0]]).2 = .ok (-2, 3) ∧
    frameNorm [some 1, some 3] = (some 1, some 1) := by decide +kernel

/-! ## Discrete colour maps -/

/-- Being nearer to the smaller of two numbers is being below their middle. -/
theorem closer {a b v : Rat} (h : a < b) : |v - a| < |v - b| ↔ v < (a + b) / 2 := by
  constructor
  · intro h'
    rcases abs_cases (v - a) with ⟨e1, h1⟩ | ⟨e1, h1⟩ <;> rcases abs_cases (v - b) with ⟨e2, h2⟩ | ⟨e2, h2⟩ <;> linarith
  · intro h'
    rcases abs_cases (v - a) with ⟨e1, h1⟩ | ⟨e1, h1⟩ <;> rcases abs_cases (v - b) with ⟨e2, h2⟩ | ⟨e2, h2⟩ <;> linarith

theorem closer' {a b v : Rat} (h : a < b) : |v - b| < |v - a| ↔ (a + b) / 2 < v := by
  constructor
  · intro h'
    rcases abs_cases (v - a) with ⟨e1, h1⟩ | ⟨e1, h1⟩ <;> rcases abs_cases (v - b) with ⟨e2, h2⟩ | ⟨e2, h2⟩ <;> linarith
  · intro h'
    rcases abs_cases (v - a) with ⟨e1, h1⟩ | ⟨e1, h1⟩ <;> rcases abs_cases (v - b) with ⟨e2, h2⟩ | ⟨e2, h2⟩ <;> linarith

/-- The centre number `k` is nearer to `v` than any other one. -/
def Nearest (c : List Rat) (v : Rat) (k : Nat) : Prop :=
  ∃ hk : k < c.length, ∀ j, ∀ hj : j < c.length, j ≠ k → |v - c[k]| < |v - c[j]|

/-- The middle of the centres `i` and `i + 1`. -/
def mid (c : List Rat) (i : Nat) : Rat := (c.getD i 0 + c.getD (i + 1) 0) / 2

theorem mids_length (c : List Rat) : (mids c).length = c.length - 1 := by simp [mids]

theorem mids_get {c : List Rat} {i : Nat} (h : i < (mids c).length) : (mids c)[i] = mid c i := by
  have hl := mids_length c
  have : (mids c)[i] = ((c.tail)[i]'(by simp; omega) + c[i]'(by omega)) / 2 := by simp [mids]
  unfold mid
  rw [this, List.getElem_tail, List.getD_eq_getElem _ _ (by omega), List.getD_eq_getElem _ _ (by omega)]
  ring

theorem inc_get {c : List Rat} (hc : Inc c) {i j : Nat} (h : i < j) (hj : j < c.length) : c.getD i 0 < c.getD j 0 := by
  rw [List.getD_eq_getElem _ _ (by omega), List.getD_eq_getElem _ _ hj]
  exact List.pairwise_iff_getElem.mp hc i j (by omega) hj h

theorem inc_get_le {c : List Rat} (hc : Inc c) {i j : Nat} (h : i ≤ j) (hj : j < c.length) : c.getD i 0 ≤ c.getD j 0 := by
  rcases Nat.eq_or_lt_of_le h with rfl | h
  · exact le_rfl
  · exact (inc_get hc h hj).le

theorem mid_lt {c : List Rat} (hc : Inc c) {i j : Nat} (h : i < j) (hj : j + 1 < c.length) : mid c i < mid c j := by
  unfold mid
  have h1 := inc_get hc h (by omega)
  have h2 := inc_get hc (show i + 1 < j + 1 by omega) hj
  linarith

/-- The nearest centre is `k` between the middles around it. -/
theorem nearest_iff {c : List Rat} (hc : Inc c) {v : Rat} {k : Nat} :
    Nearest c v k ↔ k < c.length ∧ (∀ i, i + 1 = k → mid c i < v) ∧ (k + 1 < c.length → v < mid c k) := by
  constructor
  · rintro ⟨hk, h⟩
    refine ⟨hk, ?_, ?_⟩
    · rintro i rfl
      have := h i (by omega) (by omega)
      rw [← List.getD_eq_getElem _ 0, ← List.getD_eq_getElem _ 0, closer' (inc_get hc (by omega) hk)] at this
      exact this
    · intro hk1
      have := h (k + 1) hk1 (by omega)
      rw [← List.getD_eq_getElem _ 0, ← List.getD_eq_getElem _ 0, closer (inc_get hc (by omega) hk1)] at this
      exact this
  · rintro ⟨hk, h1, h2⟩
    refine ⟨hk, ?_⟩
    intro j hj hne
    rw [← List.getD_eq_getElem _ 0, ← List.getD_eq_getElem _ 0]
    rcases Nat.lt_or_gt_of_ne hne with hlt | hgt
    · rw [closer' (inc_get hc hlt hk)]
      have := h1 (k - 1) (by omega)
      unfold mid at this
      have e : k - 1 + 1 = k := by omega
      rw [e] at this
      have := inc_get_le hc (show j ≤ k - 1 by omega) (by omega)
      linarith
    · rw [closer (inc_get hc hgt hj)]
      have := h2 (by omega)
      unfold mid at this
      have := inc_get_le hc (show k + 1 ≤ j by omega) hj
      linarith

/-- The bounds of the map of at least three increasing centres. -/
theorem discrete_ok {c : List Rat} (hc : Inc c) (hn : 3 ≤ c.length) :
    discrete c = .ok (shades c.length,
      mid c 0 - (mid c 1 - mid c 0), mid c (c.length - 2) + (mid c (c.length - 2) - mid c (c.length - 3))) := by
  have hl := mids_length c
  unfold discrete
  have key : ends (mids c) = .ok (mid c 0 - (mid c 1 - mid c 0),
      mid c (c.length - 2) + (mid c (c.length - 2) - mid c (c.length - 3))) := by
    have g0 : (mids c)[0]'(by omega) = mid c 0 := mids_get _
    have g1 : (mids c)[1]'(by omega) = mid c 1 := mids_get _
    have r0 : (mids c).reverse[0]'(by rw [List.length_reverse]; omega) = mid c (c.length - 2) := by
      rw [List.getElem_reverse, mids_get]; congr 1; omega
    have r1 : (mids c).reverse[1]'(by rw [List.length_reverse]; omega) = mid c (c.length - 3) := by
      rw [List.getElem_reverse, mids_get]; congr 1; omega
    have hr : (mids c).reverse.length = c.length - 1 := by rw [List.length_reverse, hl]
    unfold ends
    have hr' : 1 < (mids c).reverse.length := by omega
    have hb' : 1 < (mids c).length := by omega
    rw [← List.getD_eq_getElem _ 0] at r0 r1 g0 g1
    generalize (mids c).reverse = r at r0 r1 hr
    generalize mids c = b at g0 g1 hl
    rcases b with _ | ⟨b₀, _ | ⟨b₁, b⟩⟩
    · simp at hl; omega
    · simp at hl; omega
    · rcases r with _ | ⟨z₀, _ | ⟨z₁, z⟩⟩
      · simp at hr; omega
      · simp at hr; omega
      · simp only [List.getD_cons_zero, List.getD_cons_succ] at g0 g1 r0 r1
        simp only [g0, g1, r0, r1]
        rw [abs_of_pos (by have := mid_lt hc (show 0 < 1 by omega) (by omega); linarith),
          abs_of_pos (by have := mid_lt hc (show c.length - 3 < c.length - 2 by omega) (by omega); linarith)]
  rw [key]

theorem listed_eq {n k : Nat} {x : Rat} (hn : 0 < n) (hk : k < n) (h1 : k = 0 ∨ (k : Rat) ≤ x * n)
    (h2 : k + 1 = n ∨ x * n < (k : Rat) + 1) : listed n x = k := by
  unfold listed
  have a1 : k ≤ ⌊x * n⌋.toNat := by
    rcases h1 with rfl | h1
    · omega
    · have : (k : Int) ≤ ⌊x * n⌋ := Int.le_floor.mpr (by exact_mod_cast h1)
      omega
  rcases h2 with h2 | h2
  · omega
  · have : ⌊x * n⌋ < (k : Int) + 1 := Int.floor_lt.mpr (by push_cast; exact h2)
    omega

/-- C316: for increasing centres whose steps repeat every other time (evenly spaced ones, or three of them), the map has one
colour for each centre, and a value gets the colour of the centre nearest to it, also beyond the extreme centres.  Missing:
other centres, `C316_uneven_violated`; fewer than three, `C316_few_violated`. -/
theorem C316_discrete_partial {c : List Rat} (hc : Inc c) (hn : 3 ≤ c.length)
    (he : ∀ i, i + 3 < c.length → c.getD (i + 3) 0 - c.getD (i + 1) 0 = c.getD (i + 2) 0 - c.getD i 0) :
    ∃ sh lo hi, discrete c = .ok (sh, lo, hi) ∧ sh.length = c.length ∧
      ∀ v k, Nearest c v k → listed c.length (place lo hi v) = k := by
  refine ⟨_, _, _, discrete_ok hc hn, by simp [shades], ?_⟩
  intro v k hk
  rw [nearest_iff hc] at hk
  obtain ⟨hk, h1, h2⟩ := hk
  set d := mid c 1 - mid c 0 with hd
  have hd0 : 0 < d := by have := mid_lt hc (show 0 < 1 by omega) (by omega); linarith
  have hm : ∀ i, i + 1 < c.length → mid c i = mid c 0 + i * d := by
    intro i
    induction i with
    | zero => intro _; simp
    | succ i ih =>
      intro hi
      rcases i with _ | i
      · rw [hd]; push_cast; ring
      · have step : mid c (i + 2) - mid c (i + 1) = mid c (i + 1) - mid c i := by
          have := he i (by omega)
          have := ih (by omega)
          unfold mid
          have e1 : i + 1 + 1 = i + 2 := rfl
          have e2 : i + 2 + 1 = i + 3 := rfl
          rw [e1, e2]
          linarith
        have step2 : ∀ j, j ≤ i → mid c (j + 1) - mid c j = d := by
          intro j
          induction j with
          | zero => intro _; rfl
          | succ j ihj =>
            intro hj
            have := ihj (by omega)
            have hej := he j (by omega)
            unfold mid at this ⊢
            have e1 : j + 1 + 1 = j + 2 := rfl
            have e2 : j + 2 + 1 = j + 3 := rfl
            rw [e1, e2]
            rw [e1] at this
            linarith
        have := ih (by omega)
        have := step2 i le_rfl
        push_cast
        push_cast at *
        linarith
  have hhi : mid c (c.length - 2) + (mid c (c.length - 2) - mid c (c.length - 3)) - (mid c 0 - d) = c.length * d := by
    rw [hm (c.length - 2) (by omega), hm (c.length - 3) (by omega)]
    have e1 : ((c.length - 2 : Nat) : Rat) = c.length - 2 := by rw [Nat.cast_sub (by omega)]; norm_num
    have e2 : ((c.length - 3 : Nat) : Rat) = c.length - 3 := by rw [Nat.cast_sub (by omega)]; norm_num
    rw [e1, e2]
    ring
  have hnpos : (0 : Rat) < c.length := by exact_mod_cast (by omega : 0 < c.length)
  have hx : place (mid c 0 - d) (mid c (c.length - 2) + (mid c (c.length - 2) - mid c (c.length - 3))) v * c.length =
      (v - (mid c 0 - d)) / d := by
    unfold place
    rw [if_neg, hhi]
    · field_simp
    · intro h
      rw [← h] at hhi
      have : (0 : Rat) < c.length * d := mul_pos hnpos hd0
      linarith
  apply listed_eq (by omega) hk
  · rcases Nat.eq_zero_or_pos k with h | h
    · exact .inl h
    · right
      rw [hx, le_div_iff₀ hd0]
      have := h1 (k - 1) (by omega)
      rw [hm (k - 1) (by omega)] at this
      have e : ((k - 1 : Nat) : Rat) = k - 1 := by rw [Nat.cast_sub (by omega)]; norm_num
      rw [e] at this
      linarith
  · by_cases h : k + 1 = c.length
    · exact .inl h
    · right
      rw [hx, div_lt_iff₀ hd0]
      have := h2 (by omega)
      rw [hm k (by omega)] at this
      linarith

/-- C316 is violated for all other centres: some value does not get the colour of the centre nearest to it. -/
theorem C316_uneven_violated {c : List Rat} (hc : Inc c) {i : Nat} (hi : i + 3 < c.length)
    (he : c.getD (i + 3) 0 - c.getD (i + 1) 0 ≠ c.getD (i + 2) 0 - c.getD i 0) {sh : List Rat} {lo hi : Rat}
    (hd : discrete c = .ok (sh, lo, hi)) : ∃ v k, Nearest c v k ∧ listed c.length (place lo hi v) ≠ k := by
  have hn : 3 ≤ c.length := by omega
  rw [discrete_ok hc hn] at hd
  simp only [Except.ok.injEq, Prod.mk.injEq] at hd
  obtain ⟨-, hlo, hhi⟩ := hd
  by_contra hno
  push Not at hno
  apply he
  have hnpos : (0 : Rat) < c.length := by exact_mod_cast (by omega : 0 < c.length)
  have hW : lo < hi := by
    have a1 := mid_lt hc (show 0 < 1 by omega) (by omega)
    have a2 := mid_lt hc (show c.length - 3 < c.length - 2 by omega) (by omega)
    have a3 : mid c 0 < mid c (c.length - 2) := mid_lt hc (by omega) (by omega)
    linarith
  have hx : ∀ v, place lo hi v * c.length = (v - lo) * c.length / (hi - lo) := by
    intro v
    unfold place
    rw [if_neg hW.ne]
    ring
  have hW' : 0 < hi - lo := by linarith
  -- the changes of colour are at the middles
  have key : ∀ k, k + 1 < c.length → mid c k = lo + (k + 1) * ((hi - lo) / c.length) := by
    intro k hk
    set B := lo + (k + 1) * ((hi - lo) / c.length) with hB
    have hBx : ((k : Rat) + 1) = (B - lo) * c.length / (hi - lo) := by
      rw [hB]; field_simp; ring
    rcases lt_trichotomy (mid c k) B with h | h | h
    · exfalso
      -- a value just above the middle
      obtain ⟨v, hv1, hv2, hv3⟩ : ∃ v, mid c k < v ∧ v < B ∧ (k + 2 < c.length → v < mid c (k + 1)) := by
        by_cases hk2 : k + 2 < c.length
        · have hlt := mid_lt hc (show k < k + 1 by omega) hk2
          refine ⟨(mid c k + min B (mid c (k + 1))) / 2, ?_, ?_, fun _ => ?_⟩
          · have := lt_min h hlt; linarith
          · have := min_le_left B (mid c (k + 1)); linarith
          · have := min_le_right B (mid c (k + 1)); linarith
        · exact ⟨(mid c k + B) / 2, by linarith, by linarith, fun h => absurd h hk2⟩
      have hnear : Nearest c v (k + 1) := by
        rw [nearest_iff hc]
        refine ⟨hk, ?_, hv3⟩
        intro j hj
        have : j = k := by omega
        rw [this]; exact hv1
      have := hno v (k + 1) hnear
      have hlt : place lo hi v * c.length < (k : Rat) + 1 := by
        rw [hx, hBx]
        exact div_lt_div_of_pos_right (mul_lt_mul_of_pos_right (by linarith) hnpos) hW'
      unfold listed at this
      have hf : ⌊place lo hi v * c.length⌋ < (k : Int) + 1 := Int.floor_lt.mpr (by push_cast; exact hlt)
      omega
    · exact h
    · exfalso
      obtain ⟨v, hv1, hv2, hv3⟩ : ∃ v, B < v ∧ v < mid c k ∧ ∀ j, j + 1 = k → mid c j < v := by
        rcases k with _ | k
        · exact ⟨(B + mid c 0) / 2, by linarith, by linarith, fun j hj => by omega⟩
        · have hlt := mid_lt hc (show k < k + 1 by omega) hk
          refine ⟨(max B (mid c k) + mid c (k + 1)) / 2, ?_, ?_, ?_⟩
          · have := le_max_left B (mid c k); linarith
          · have := max_lt h hlt; linarith
          · intro j hj
            have : j = k := by omega
            rw [this]
            have := le_max_right B (mid c k); linarith
      have hnear : Nearest c v k := by
        rw [nearest_iff hc]
        exact ⟨by omega, hv3, fun _ => hv2⟩
      have := hno v k hnear
      have hlt : (k : Rat) + 1 ≤ place lo hi v * c.length := by
        rw [hx, hBx]
        exact (div_lt_div_of_pos_right (mul_lt_mul_of_pos_right (by linarith) hnpos) hW').le
      unfold listed at this
      have hf : (k : Int) + 1 ≤ ⌊place lo hi v * c.length⌋ := Int.le_floor.mpr (by push_cast; exact hlt)
      omega
  have k0 := key i (by omega)
  have k1 := key (i + 1) (by omega)
  have k2 := key (i + 2) (by omega)
  unfold mid at k0 k1 k2
  have e1 : i + 1 + 1 = i + 2 := rfl
  have e2 : i + 2 + 1 = i + 3 := rfl
  rw [e1] at k1
  rw [e2] at k2
  push_cast at k1 k2
  linarith

/-- C316 is violated: one or two centres are refused. -/
theorem C316_few_violated {c : List Rat} (h : c.length < 3) : discrete c = .error .indexError := by
  unfold discrete ends
  rcases c with _ | ⟨a, _ | ⟨b, _ | ⟨e, c⟩⟩⟩
  · rfl
  · rfl
  · rfl
  · simp at h; omega

example : Inc [0, 1, 2, 3] ∧ (∀ i, i + 3 < 4 → ([0, 1, 2, 3] : List Rat).getD (i + 3) 0 - ([0, 1, 2, 3] : List Rat).getD (i + 1) 0 =
    ([0, 1, 2, 3] : List Rat).getD (i + 2) 0 - ([0, 1, 2, 3] : List Rat).getD i 0) ∧
    discrete [0, 1, 2, 3] = .ok ([0, 1/3, 2/3, 1], -1/2, 7/2) := by
  refine ⟨by decide +kernel, ?_, by decide +kernel⟩
  intro i hi
  have : i = 0 := by omega
  subst this
  decide +kernel

/-- The value 1 of these centres has the colour of the centre 0. -/
example : Inc [0, 1, 2, 10] ∧ (discrete [0, 1, 2, 10]).toOption.map Prod.snd = some (-1/2, 21/2) ∧
    listed 4 (place (-1/2) (21/2) 1) = 0 := by decide +kernel

/-! ## Gradients -/

/-- C317: a gradient of two colours or more has that many colours, the first at the beginning and the last at the end of the
map, with equal steps.  Missing: one colour, `C317_one_violated`. -/
theorem C317_gradient_partial {n : Nat} (h : 2 ≤ n) :
    ∃ g, gradient n = .ok g ∧ g.length = n ∧ g.head? = some 0 ∧ g.getLast? = some 1 ∧
      ∀ i, ∀ hi : i + 1 < g.length, g[i + 1] - g[i] = 1 / ((n : Rat) - 1) := by
  have hn : (2 : Rat) ≤ n := by exact_mod_cast h
  unfold gradient
  rw [if_neg (by omega)]
  refine ⟨_, rfl, by simp [shades], ?_, ?_, ?_⟩
  · obtain ⟨m, rfl⟩ : ∃ m, n = m + 1 := ⟨n - 1, by omega⟩
    simp [shades, List.range_succ_eq_map]
  · obtain ⟨m, rfl⟩ : ∃ m, n = m + 1 := ⟨n - 1, by omega⟩
    have : (m : Rat) ≠ 0 := by push_cast at hn; intro h; rw [h] at hn; norm_num at hn
    simp [shades, List.range_succ, this]
  · intro i hi
    simp only [shades, List.getElem_map, List.getElem_range]
    push_cast
    ring

/-- C317 is violated: a gradient of one colour is refused. -/
theorem C317_one_violated : gradient 1 = .error .zeroDivision := rfl

example : gradient 3 = .ok [0, 1/2, 1] := by decide +kernel

/-! ## Segments of coloured lines -/

/-- C318: a line of `n` points is drawn with one segment for each pair of consecutive points, in order. -/
theorem C318_segments {x y : List Rat} (h : x.length = y.length) :
    (segments x y).length = x.length - 1 ∧
    ∀ i, ∀ hi : i + 1 < x.length, (segments x y)[i]? = some ((x[i], y[i]), (x[i + 1], y[i + 1])) := by
  unfold segments
  refine ⟨by simp [h], ?_⟩
  intro i hi
  rw [List.getElem?_eq_getElem (by simp; omega), List.getElem_zip, List.getElem_dropLast, List.getElem_tail,
    List.getElem_zip, List.getElem_zip]

example : segments [1, 2, 4] [0, 5, 6] = [((1, 0), (2, 5)), ((2, 5), (4, 6))] := by decide +kernel

/-! ## Aspect -/

/-- C319: the drawing has equal scales as soon as one displayer asks for it, automatic ones if none does and one asks for
them or nothing is asked; the way to adjust is the first one asked for.  A numeric ratio, which matplotlib accepts, is refused
when it stands alone: see the last clause. -/
theorem C319_aspect (l : List (Option Aspect)) :
    (aspectOf l = .ok .equal ↔ some .equal ∈ l) ∧
    (aspectOf l = .ok .auto ↔ some .equal ∉ l ∧ (some .auto ∈ l ∨ ∀ a ∈ l, a = none)) ∧
    ((∃ e, aspectOf l = .error e) ↔ some .equal ∉ l ∧ some .auto ∉ l ∧ some .other ∈ l) := by
  have m : ∀ a, a ∈ l.filterMap id ↔ some a ∈ l := by intro a; simp
  have hnil : l.filterMap id = [] ↔ ∀ a ∈ l, a = none := by
    rw [List.filterMap_eq_nil_iff]; simp
  unfold aspectOf
  simp only [m]
  by_cases h0 : l.filterMap id = []
  · have hall := hnil.mp h0
    have hs : ∀ a, some a ∉ l := fun a ha => by cases hall _ ha
    rw [if_pos h0]
    simp [hs, hall]
    exact hall
  · rw [if_neg h0]
    have h0' : ¬ ∀ a ∈ l, a = none := fun h => h0 (hnil.mpr h)
    by_cases h1 : some Aspect.equal ∈ l
    · simp [h1]
    · rw [if_neg h1]
      by_cases h2 : some Aspect.auto ∈ l
      · simp [h1, h2]
      · rw [if_neg h2]
        refine ⟨by simp [h1], ?_, ?_⟩
        · simp only [h1, h2, not_false_eq_true, false_or, true_and]
          constructor
          · intro h; cases h
          · intro h; exact absurd h h0'
        · simp only [h1, h2, not_false_eq_true, true_and]
          constructor
          · intro _
            push Not at h0'
            obtain ⟨a, ha, hne⟩ := h0'
            rcases a with _ | a
            · exact absurd rfl hne
            · cases a
              · exact absurd ha h1
              · exact absurd ha h2
              · exact ha
          · intro _; exact ⟨_, rfl⟩

/-- C319: the way to adjust the axes is the one asked for first. -/
theorem C319_adjustable (l : List (Option String)) (pre : List (Option String)) (s : String) (post : List (Option String))
    (hl : l = pre ++ some s :: post) (hp : ∀ a ∈ pre, a = none) : adjustableOf l = s := by
  subst hl
  unfold adjustableOf
  have : pre.filterMap id = [] := by
    rw [List.filterMap_eq_nil_iff]; exact fun a ha => by rw [hp a ha]; rfl
  rw [List.filterMap_append, this]
  rfl

example : aspectOf [none, some .auto, some .equal] = .ok .equal ∧ aspectOf [some .other] = .error .valueError := by
  decide

/-! ## Grid of axes -/

theorem ceilDiv_spec {n k : Nat} (hk : 0 < k) : n ≤ k * ceilDiv n k ∧ ∀ r, n ≤ k * r → ceilDiv n k ≤ r := by
  unfold ceilDiv
  have h1 := Nat.div_add_mod (n + k - 1) k
  have h2 := Nat.mod_lt (n + k - 1) hk
  refine ⟨by omega, ?_⟩
  intro r hr
  have : n + k - 1 < k * (r + 1) := by rw [Nat.mul_add]; omega
  have := Nat.div_lt_of_lt_mul this
  omega

/-- C320: two frames or more drawn on a new figure, without rows or columns asked for or with the number of columns, have a
grid with a place for each frame and no row to spare; frames are in different places, in order of rows.  Missing: one frame,
`C320_one_violated`; the number of rows alone, `C320_rows_violated`. -/
theorem C320_grid_partial {axes n : Nat} {ncol : Option Nat} (ha : axes = 0 ∨ axes ≠ n) (hn : 2 ≤ n)
    (hc : ncol = none ∨ ∃ k, ncol = some k ∧ 0 < k) :
    ∃ r k, layout axes n ncol none = .ok (.grid r k) ∧ (∀ k', ncol = some k' → k = k') ∧
      (ncol = none → k * k ≤ n ∧ n < (k + 1) * (k + 1)) ∧ n ≤ k * r ∧ k * (r - 1) < n ∧
      (∀ i, i < n → (cell k i).1 < r ∧ (cell k i).2 < k) ∧
      ∀ i j, cell k i = cell k j → i = j := by
  have hk : 0 < ncol.getD n.sqrt := by
    rcases hc with rfl | ⟨k, rfl, hk⟩
    · exact Nat.sqrt_pos.mpr (by omega)
    · exact hk
  obtain ⟨c1, c2⟩ := ceilDiv_spec (n := n) hk
  unfold layout
  rw [if_pos ha]
  simp only
  rw [if_neg (by omega)]
  unfold newAxes
  rw [if_neg (by omega), if_neg]
  · refine ⟨_, _, rfl, ?_, ?_, c1, ?_, ?_, ?_⟩
    · rintro k' rfl; rfl
    · rintro rfl
      exact ⟨Nat.sqrt_le n, Nat.lt_succ_sqrt n⟩
    · by_contra hge
      push Not at hge
      have := c2 _ hge
      have h0 : 0 < ceilDiv n (ncol.getD n.sqrt) := by
        rcases Nat.eq_zero_or_pos (ceilDiv n (ncol.getD n.sqrt)) with h | h
        · rw [h] at c1; omega
        · exact h
      omega
    · intro i hi
      unfold cell
      refine ⟨?_, Nat.mod_lt _ hk⟩
      apply Nat.div_lt_of_lt_mul
      omega
    · intro i j h
      unfold cell at h
      simp only [Prod.mk.injEq] at h
      rw [← Nat.div_add_mod i (ncol.getD n.sqrt), ← Nat.div_add_mod j (ncol.getD n.sqrt), h.1, h.2]
  · rintro ⟨h1, h2⟩
    rw [h1, h2] at c1
    omega

/-- C320: a figure with as many axes as frames is used again. -/
theorem C320_reuse {n : Nat} (hn : n ≠ 0) (ncol nrow : Option Nat) : layout n n ncol nrow = .ok .reuse := by
  unfold layout
  rw [if_neg (by simp [hn])]

/-- C320 is violated: one frame on a new figure is never drawn, except with more places than needed. -/
theorem C320_one_violated {axes : Nat} (ha : axes ≠ 1) : layout axes 1 none none = .error .attributeError := by
  unfold layout
  rw [if_pos (.inr ha)]
  rfl

/-- C320 is violated: asking for a number of rows alone is refused as soon as that many rows of `⌊√n⌋` places are too few,
though enough columns would do. -/
theorem C320_rows_violated {axes n r : Nat} (ha : axes = 0 ∨ axes ≠ n) (h : n.sqrt * r < n) :
    layout axes n none (some r) = .error .valueError := by
  unfold layout newAxes
  rw [if_pos ha]
  simp only [Option.getD_none]
  rw [if_pos h]

example : layout 0 7 none none = .ok (.grid 4 2) ∧ layout 3 7 (some 3) none = .ok (.grid 3 3) ∧
    (4 : Nat).sqrt * 1 < 4 ∧ cell 2 5 = (2, 1) := by decide +kernel

end IMT.Color
