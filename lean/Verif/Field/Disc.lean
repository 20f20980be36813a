import Verif.Prelude
import Mathlib.Data.Rat.Floor
import Mathlib.Data.Int.Range
import Mathlib.Data.List.Nodup
import Mathlib.Data.List.ProdSigma

/-!
Model of `Field.get_points_around` (core/field.py:221-290), and property C80.
-/

namespace IMT.Disc

/-- The candidate indices along one axis, core/field.py:266-269: from `ceil(c - r)` to `floor(c + r)`. -/
def candidates (c r : Rat) : List Int :=
  (List.range (⌊c + r⌋ + 1 - ⌈c - r⌉).toNat).map fun k : Nat => ⌈c - r⌉ + k

/-- The acceptance tests, core/field.py:278-289.  `radius_int` is `radius/sqrt(2)`; the four comparisons of the
inscribed square are squared here, `|x - cx| ≤ r/√2 ↔ 2 (x - cx)² ≤ r²`.  The test of the centre (284) comes
after the inscribed square, which holds the centre. -/
def accepted (cx cy r : Rat) (x y : Int) : Bool :=
  if 2 * (x - cx) ^ 2 ≤ r ^ 2 ∧ 2 * (y - cy) ^ 2 ≤ r ^ 2 then true
  else if (x : Rat) = cx ∧ (y : Rat) = cy then false
  else decide ((x - cx) ^ 2 + (y - cy) ^ 2 ≤ r ^ 2)

/-- `Field.get_points_around(center, radius, ind=True)`, core/field.py:244-290: `meshgrid` puts y in the outer
loop. -/
def around (cx cy r : Rat) : Res (List (Int × Int)) :=
  if r ≤ 0 then .error .valueError
  else .ok (((candidates cy r).flatMap fun y => (candidates cx r).map fun x => (x, y)).filter
    fun p => accepted cx cy r p.1 p.2)

theorem mem_candidates {c r : Rat} {x : Int} : x ∈ candidates c r ↔ c - r ≤ x ∧ (x : Rat) ≤ c + r := by
  unfold candidates
  rw [List.mem_map, ← Int.ceil_le, ← Int.le_floor]
  constructor
  · rintro ⟨k, hk, rfl⟩
    rw [List.mem_range] at hk
    omega
  · rintro ⟨h1, h2⟩
    exact ⟨(x - ⌈c - r⌉).toNat, by rw [List.mem_range]; omega, by omega⟩

theorem nodup_candidates (c r : Rat) : (candidates c r).Nodup := by
  unfold candidates
  apply List.Nodup.map
  · intro a b h; simpa using h
  · exact List.nodup_range

/-- C80: the returned index pairs are exactly the lattice points at distance at most `r` from the centre. -/
theorem C80_disc_exact_partial {cx cy r : Rat} (hr : 0 < r) :
    ∃ l, around cx cy r = .ok l ∧ l.Nodup ∧
      ∀ i j : Int, (i, j) ∈ l ↔ ((i : Rat) - cx) ^ 2 + ((j : Rat) - cy) ^ 2 ≤ r ^ 2 := by
  unfold around
  rw [if_neg (not_le.mpr hr)]
  refine ⟨_, rfl, ?_, ?_⟩
  · apply List.Nodup.filter
    rw [List.nodup_flatMap]
    refine ⟨fun y _ => (nodup_candidates cx r).map fun a b h => by simpa using h, ?_⟩
    apply (nodup_candidates cy r).imp
    intro a b hab
    rw [Function.onFun, List.disjoint_left]
    intro p hp hq
    rw [List.mem_map] at hp hq
    obtain ⟨x, _, rfl⟩ := hp
    obtain ⟨x', _, h⟩ := hq
    simp only [Prod.mk.injEq] at h
    exact hab h.2.symm
  · intro i j
    rw [List.mem_filter, List.mem_flatMap]
    have box : ∀ c x s : Rat, (x - c) ^ 2 + s ≤ r ^ 2 → 0 ≤ s → c - r ≤ x ∧ x ≤ c + r := by
      intro c x s h hs
      have : (x - c) ^ 2 ≤ r ^ 2 := by linarith
      have := abs_le_of_sq_le_sq' this (le_of_lt hr)
      constructor <;> linarith [this.1, this.2]
    constructor
    · rintro ⟨_, ha⟩
      unfold accepted at ha
      split at ha
      · rename_i h; linarith [h.1, h.2]
      · split at ha
        · cases ha
        · exact of_decide_eq_true ha
    · intro h
      refine ⟨⟨j, mem_candidates.mpr (box cy j ((i - cx) ^ 2) (by linarith) (sq_nonneg _)), ?_⟩, ?_⟩
      · rw [List.mem_map]
        exact ⟨i, mem_candidates.mpr (box cx i ((j - cy) ^ 2) h (sq_nonneg _)), rfl⟩
      · unfold accepted
        split
        · rfl
        · rename_i hn
          rw [if_neg]
          · exact decide_eq_true h
          · rintro ⟨h1, h2⟩
            apply hn
            rw [h1, h2, sub_self, sub_self]
            have := sq_nonneg r
            constructor <;> simpa using this

/-- C80: a radius that is not positive is refused. -/
theorem C80_disc_refused {cx cy r : Rat} (hr : r ≤ 0) : around cx cy r = .error .valueError := by
  unfold around; rw [if_pos hr]

/-- C80 fails near the border of the field: indices that designate no point of the field (here a negative one)
are returned. -/
theorem C80_disc_outside_violated : ∃ l, around 0 0 1 = .ok l ∧ (-1, 0) ∈ l := by
  obtain ⟨l, e, _, h⟩ := C80_disc_exact_partial (cx := 0) (cy := 0) (r := 1) (by norm_num)
  exact ⟨l, e, (h (-1) 0).mpr (by norm_num)⟩

example : around (3/2) 2 1 = .ok [(1, 2), (2, 2)] := by decide +kernel

end IMT.Disc
