import Verif.Centre.Calls

/-! C254: bounds that are negative and relative. -/

namespace IMT.Centre

open Zone

variable {f : SF}

/-- The bounds used when `rel` is true and the given ones are negative, a little wider than the given parts of the way down from the greatest value. -/
def downBounds (lo hi mn mx : Rat) : Rat × Rat := (mx + (mx - mn) * (lo + lo / 100000), mx + (mx - mn) * (hi - hi / 100000))

theorem uses_down {L : Lab} {pick : Pick} {k : Kind} {lo hi mn mx : Rat} (h : lo < hi) (h0 : hi ≤ 0) (hn : IsMin f mn) (hx : IsMax f mx) :
    zonesCenters L pick (lo, hi) true k f = found L pick k f (downBounds lo hi mn mx) := by
  have hle : mn ≤ mx := by
    obtain ⟨x, y, hr⟩ := hn.1
    exact hx.2 x y mn hr
  have e1 : |lo| = -lo := abs_of_nonpos (by linarith)
  have e2 : |hi| = -hi := abs_of_nonpos h0
  have e : absolute (widen (lo, hi)) mn mx = downBounds lo hi mn mx := by
    unfold absolute downBounds widen
    simp only
    have e3 : |mx - mn| = mx - mn := abs_of_nonneg (by linarith)
    rw [e1, e2, e3, abs_of_nonpos (by linarith : lo - 1 / 100000 * -lo ≤ 0), abs_of_nonpos (by linarith : hi + 1 / 100000 * -hi ≤ 0),
      if_pos (by linarith)]
    simp only [Prod.mk.injEq]
    constructor <;> ring
  have hw : (widen (lo, hi)).1 < (widen (lo, hi)).2 := by
    unfold widen
    simp only [e1, e2]
    linarith
  have hp : ¬ (widen (lo, hi)).1 * (widen (lo, hi)).2 < 0 := by
    rw [not_lt]
    apply mul_nonneg_of_nonpos_of_nonpos <;> simp only [widen, e1, e2] <;> linarith
  unfold zonesCenters
  rw [if_neg (ne_of_lt hw), if_neg (by simpa using hw), if_neg (by simpa using hp), min_eq hn, max_eq hx]
  simp only
  rw [if_pos trivial, e]

/-- **C254** Negative relative bounds are parts of the way down from the greatest value.  Missing: the axes must be regular, and no zone may have only null
values. -/
theorem C254_negative_partial {L : Lab} (hL : IsLab L) (pick : Pick) {k : Kind} (hk : k = .center ∨ k = .ponderated) (hx : Regular f.ax) (hy : Regular f.ay)
    {lo hi mn mx : Rat} (h : lo < hi) (h0 : hi ≤ 0) (hn : IsMin f mn) (hmx : IsMax f mx)
    (hm : k = .ponderated → ∀ c, Band f (downBounds lo hi mn mx).1 (downBounds lo hi mn mx).2 c →
      ∃ q, Linked (Band f (downBounds lo hi mn mx).1 (downBounds lo hi mn mx).2) c q ∧ value f q ≠ 0) :
    ∃ r, zonesCenters L pick (lo, hi) true k f = .ok r ∧ (r = none ↔ ∀ q, ¬ Band f (downBounds lo hi mn mx).1 (downBounds lo hi mn mx).2 q) ∧
      ∀ l, r = some l → OnePerZone (Band f (downBounds lo hi mn mx).1 (downBounds lo hi mn mx).2)
        (IsBary f (Band f (downBounds lo hi mn mx).1 (downBounds lo hi mn mx).2) (weight k f)) l := by
  rw [uses_down h h0 hn hmx]
  exact found_mass hL pick hk hx hy hm

/-- Concrete case: the values at most 3/4 of the way down from the greatest one. -/
example : ∃ r, zonesCenters aLab aPick (-3 / 4, 0) true .center (ex3 [0, 0 + 1, 0 + 2 * 1] 1 8 4) = .ok r ∧
    ∀ l, r = some l → OnePerZone (Band (ex3 [0, 0 + 1, 0 + 2 * 1] 1 8 4) (downBounds (-3 / 4) 0 1 8).1 (downBounds (-3 / 4) 0 1 8).2)
      (IsBary (ex3 [0, 0 + 1, 0 + 2 * 1] 1 8 4) (Band (ex3 [0, 0 + 1, 0 + 2 * 1] 1 8 4) (downBounds (-3 / 4) 0 1 8).1 (downBounds (-3 / 4) 0 1 8).2)
        (weight .center (ex3 [0, 0 + 1, 0 + 2 * 1] 1 8 4))) l := by
  obtain ⟨r, h1, -, h2⟩ := C254_negative_partial isLab_aLab aPick (k := .center) (f := ex3 [0, 0 + 1, 0 + 2 * 1] 1 8 4) (.inl rfl) (ex3_x 0 1) ex3_y
    (lo := -3 / 4) (hi := 0) (by norm_num) (by norm_num) (ex3_min (v := 1) (by simp) (by norm_num) (by norm_num) (by norm_num))
    (ex3_max (v := 8) (by simp) (by norm_num) (by norm_num) (by norm_num)) (fun h => by cases h)
  exact ⟨r, h1, h2⟩

end IMT.Centre
