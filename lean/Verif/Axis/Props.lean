import Verif.Axis.Lemmas

/-!
Properties C01-C05: axis look-up and cropping of one axis.
-/

namespace IMT.Axis

/-- C01: inside the axis the look-up brackets the value, exactly when possible. -/
theorem C01_bounds_bracket {axe : List Rat} {v first last : Rat} (hinc : Inc axe)
    (hf : axe.head? = some first) (hl : axe.getLast? = some last) (h1 : first ≤ v) (h2 : v ≤ last) :
    ∃ i j, bounds axe v = .ok (i, j) ∧
      ((j = i ∧ axe[i]? = some v) ∨
       (v ∉ axe ∧ j = i + 1 ∧ ∃ lo hi, axe[i]? = some lo ∧ axe[j]? = some hi ∧ lo < v ∧ v < hi)) := by
  rcases bounds_ok hinc hf hl h1 h2 with ⟨i, e, hi, _⟩ | ⟨i, lo, hi, e, hlo, hhi, l1, l2, _⟩
  · exact ⟨i, i, e, Or.inl ⟨rfl, hi⟩⟩
  · refine ⟨i, i + 1, e, Or.inr ⟨?_, rfl, lo, hi, hlo, hhi, l1, l2⟩⟩
    intro hm
    obtain ⟨k, hk⟩ := List.mem_iff_getElem?.mp hm
    have a1 := hinc.idx_lt hlo hk l1
    have a2 := hinc.idx_lt hk hhi l2
    omega

/-- C01: a value outside a non-empty axis is refused with ValueError, and only then. -/
theorem C01_bounds_refused_iff {axe : List Rat} {v first last : Rat} (hinc : Inc axe)
    (hf : axe.head? = some first) (hl : axe.getLast? = some last) :
    bounds axe v = .error .valueError ↔ (v < first ∨ last < v) := by
  constructor
  · intro h
    by_contra hn
    rw [not_or, not_lt, not_lt] at hn
    rcases bounds_ok hinc hf hl hn.1 hn.2 with ⟨i, e, _⟩ | ⟨i, _, _, e, _⟩ <;> rw [e] at h <;> cases h
  · intro h
    unfold bounds
    simp only [hf, hl]
    rw [if_pos h]

example : Inc [0, 1, 5/2] ∧ bounds [0, 1, 5/2] 1 = .ok (1, 1) ∧ bounds [0, 1, 5/2] 2 = .ok (1, 2)
    ∧ bounds [0, 1, 5/2] 3 = .error .valueError := by decide +kernel

/-- C02: the nearest look-up gives an index at minimal distance, the upper one at a tie. -/
theorem C02_nearest_minimal {axe : List Rat} {v first last : Rat} (hinc : Inc axe)
    (hf : axe.head? = some first) (hl : axe.getLast? = some last) (h1 : first ≤ v) (h2 : v ≤ last) :
    ∃ i c, nearest axe v = .ok i ∧ axe[i]? = some c ∧
      ∀ k d, axe[k]? = some d → |c - v| ≤ |d - v| ∧ (|d - v| = |c - v| → k ≤ i) := by
  rcases bounds_ok hinc hf hl h1 h2 with ⟨i, e, hi, _⟩ | ⟨i, lo, hi, e, hlo, hhi, l1, l2, _⟩
  · refine ⟨i, v, by simp [nearest, e], hi, ?_⟩
    intro k d hd
    refine ⟨by simp, ?_⟩
    intro h
    have : d = v := by
      rw [sub_self, abs_zero, abs_eq_zero] at h; linarith
    subst this
    exact le_of_eq (hinc.idx_inj hd hi)
  · have hkey : ∀ k d, axe[k]? = some d → (k ≤ i ∧ d ≤ lo) ∨ (i + 1 ≤ k ∧ hi ≤ d) := by
      intro k d hd
      rcases Nat.lt_or_ge i k with h | h
      · exact Or.inr ⟨h, hinc.get_le hhi hd h⟩
      · exact Or.inl ⟨h, hinc.get_le hd hlo h⟩
    have alo : |lo - v| = v - lo := by rw [abs_of_neg (by linarith)]; ring
    have ahi : |hi - v| = hi - v := abs_of_pos (by linarith)
    by_cases hc : |lo - v| < |hi - v|
    · refine ⟨i, lo, by simp [nearest, e, hlo, hhi, hc], hlo, ?_⟩
      intro k d hd
      rcases hkey k d hd with ⟨hk, hdl⟩ | ⟨hk, hdl⟩
      · have : |d - v| = v - d := by rw [abs_of_neg (by linarith)]; ring
        exact ⟨by rw [alo, this]; linarith, fun _ => hk⟩
      · have : |d - v| = d - v := abs_of_pos (by linarith)
        rw [alo, ahi] at hc
        refine ⟨by rw [alo, this]; linarith, fun h => ?_⟩
        rw [alo, this] at h; linarith
    · refine ⟨i + 1, hi, by simp [nearest, e, hlo, hhi, hc], hhi, ?_⟩
      rw [alo, ahi] at hc
      intro k d hd
      rcases hkey k d hd with ⟨hk, hdl⟩ | ⟨hk, hdl⟩
      · have : |d - v| = v - d := by rw [abs_of_neg (by linarith)]; ring
        exact ⟨by rw [ahi, this]; linarith, fun _ => by omega⟩
      · have : |d - v| = d - v := abs_of_pos (by linarith)
        refine ⟨by rw [ahi, this]; linarith, fun h => ?_⟩
        rw [ahi, this] at h
        have : d = hi := by linarith
        subst this
        exact le_of_eq (hinc.idx_inj hd hhi)

example : nearest [0, 1, 5/2, 4] (7/4) = .ok 2 ∧ nearest [0, 1, 5/2, 4] (3/2) = .ok 1 := by decide +kernel

/-- C03: the decimal look-up inverts the linear interpolation of the axis: it lies in a grid interval
`[i, i+1]` and interpolating the axis there gives the value back. -/
theorem C03_decimal_inverts {axe : List Rat} {v first last : Rat} (hinc : Inc axe)
    (hf : axe.head? = some first) (hl : axe.getLast? = some last) (h1 : first ≤ v) (h2 : v ≤ last) :
    ∃ d, decimal axe v = .ok d ∧
      ((∃ i : Nat, d = i ∧ axe[i]? = some v) ∨
       (∃ (i : Nat) (lo hi : Rat), axe[i]? = some lo ∧ axe[i + 1]? = some hi ∧ (i : Rat) < d ∧ d < i + 1 ∧
          lo + (d - i) * (hi - lo) = v)) := by
  rcases bounds_ok hinc hf hl h1 h2 with ⟨i, e, hi, _⟩ | ⟨i, lo, hi, e, hlo, hhi, l1, l2, _⟩
  · exact ⟨i, by simp [decimal, e], Or.inl ⟨i, rfl, hi⟩⟩
  · refine ⟨_, by simp only [decimal, e, Nat.left_eq_add, one_ne_zero, if_false, hlo, hhi]; rfl,
      Or.inr ⟨i, lo, hi, hlo, hhi, ?_⟩⟩
    have a1 : |v - hi| = hi - v := by rw [abs_of_neg (by linarith)]; ring
    have a2 : |hi - lo| = hi - lo := abs_of_pos (by linarith)
    have a3 : |v - lo| = v - lo := abs_of_pos (by linarith)
    have hpos : 0 < hi - lo := by linarith
    have key : (i : Rat) * |v - hi| / |hi - lo| + ((i + 1 : Nat) : Rat) * |v - lo| / |hi - lo|
        = i + (v - lo) / (hi - lo) := by
      rw [a1, a2, a3]; push_cast; field_simp; ring
    rw [key]
    have p1 : 0 < (v - lo) / (hi - lo) := div_pos (by linarith) hpos
    have p2 : (v - lo) / (hi - lo) < 1 := by rw [div_lt_one hpos]; linarith
    refine ⟨by linarith, by linarith, ?_⟩
    field_simp; ring

example : decimal [0, 1, 5/2, 4] (7/4) = .ok (3/2) := by decide +kernel

/-- C04: a value crop keeps exactly the coordinates of the closed window. -/
theorem C04_crop_keeps_window {axe : List Rat} {a b first last : Rat} (hinc : Inc axe)
    (hf : axe.head? = some first) (hl : axe.getLast? = some last) (hab : a ≤ b) (h1 : first ≤ b)
    (h2 : a ≤ last) :
    crop axe a b = .ok (axe.filter (fun c => decide (a ≤ c ∧ c ≤ b))) := by
  obtain ⟨lo, hi, e, e1, e2⟩ := cropInds_ok hinc hf hl hab h1 h2
  unfold crop
  rw [e]
  simp only [Except.map]
  rw [e2, e1, slice_filter hinc]

/-- C04: all other windows are refused with ValueError. -/
theorem C04_crop_refused {axe : List Rat} {a b first last : Rat}
    (hf : axe.head? = some first) (hl : axe.getLast? = some last)
    (hbad : b < a ∨ (a < first ∧ b < first) ∨ (last < a ∧ last < b)) :
    crop axe a b = .error .valueError := by
  unfold crop cropInds
  by_cases h : a > b
  · simp [h, Except.map]
  · have : (a < first ∧ b < first) ∨ (a > last ∧ b > last) := by
      rcases hbad with h' | h' | h'
      · exact absurd h' h
      · exact Or.inl h'
      · exact Or.inr h'
    simp only [h, if_false, hf, hl]
    rw [if_pos this]
    rfl

example : crop [0, 1, 2, 3] 1 (5/2) = .ok [1, 2] ∧ crop [0, 1, 2, 3] (1/4) (1/2) = .ok []
    ∧ crop [0, 1, 2, 3] 2 1 = .error .valueError := by decide +kernel

/-- C05: an index crop keeps exactly the points number `a` to `b` included: its `k`-th point is the
original point number `a + k`, and there is one for each such number up to `b` and inside the axis. -/
theorem C05_cropInd_keeps_range (axe : List Rat) {a b : Int} (h0 : 0 ≤ a) (hab : a ≤ b) (hb : b ≠ 0) :
    ∃ out, cropInd axe a b = .ok out ∧
      ∀ k : Nat, out[k]? = if a + k ≤ b then axe[a.toNat + k]? else none := by
  refine ⟨slice axe a.toNat (b.toNat + 1), ?_, ?_⟩
  · unfold cropInd cropIndsInd
    rw [if_neg (by omega), if_neg (by omega)]
    rfl
  · intro k
    unfold slice
    rw [List.getElem?_drop, List.getElem?_take]
    by_cases h : a + k ≤ b
    · rw [if_pos h, if_pos (by omega)]
    · rw [if_neg h, if_neg (by omega)]

/-- C05: negative first index, reversed range or upper index 0 are refused. -/
theorem C05_cropInd_refused (axe : List Rat) {a b : Int} (h : a < 0 ∨ b < a ∨ b = 0) :
    cropInd axe a b = .error .valueError := by
  unfold cropInd cropIndsInd
  by_cases h1 : a > b
  · rw [if_pos h1]; rfl
  · rw [if_neg h1, if_pos (by omega)]; rfl

example : cropInd [5, 6, 7, 8] 1 2 = .ok [6, 7] ∧ cropInd [5, 6, 7, 8] 2 9 = .ok [7, 8] := by decide +kernel

end IMT.Axis
