import Verif.Vector.DtypeModel
import Verif.Scalar.Spec
import Mathlib.Data.Rat.Floor
import Mathlib.Tactic.Ring
import Mathlib.Tactic.NormNum

/-! C374: types of the values. -/

namespace IMT.Dtype

/-- Specification: the visible value once the type is `d`. -/
def become (d : Dt) (v : Rat) : Rat := match d with
  | .float => v
  | .int => if 0 ≤ v then (⌊v⌋ : Rat) else (⌈v⌉ : Rat)

theorem trunc_eq (v : Rat) : trunc v = become .int v := by
  unfold trunc become
  by_cases h : 0 ≤ v
  · rw [if_pos h, if_pos h]; rfl
  · rw [if_neg h, if_neg h]
    have : (-v).floor = -⌈v⌉ := by
      have := Int.floor_neg (a := v)
      exact this
    rw [this]
    push_cast
    ring

theorem set_cell (f : SF) (g : Grid (Option Rat)) (i j : Nat) : (f.setValues g).cell i j = g.get i j := by
  unfold SF.cell SF.setValues Grid.map
  simp only
  cases h : g.get i j <;> simp

/-- C374: on a scalar field without masked points, `change_dtype` keeps the axes, the units and the values, made whole (towards zero) if whole numbers are
asked for. -/
theorem C374_scalar_partial (junk : Rat) {f : SF} (hm : ∀ x y, ¬ f.Reads x y none) {old new : Dt} (h : new ≠ old) (x y : Rat) (v : Option Rat) :
    (changeSF junk f old new).ax = f.ax ∧ (changeSF junk f old new).ay = f.ay ∧
    ((changeSF junk f old new).Reads x y v ↔ ∃ w, f.Reads x y (some w) ∧ v = some (become new w)) := by
  unfold changeSF
  rw [if_neg h]
  refine ⟨rfl, rfl, ?_⟩
  have hc : ∀ i j, f.ax[i]? = some x → f.ay[j]? = some y → ∃ w, f.cell i j = some w ∧ cast junk new (shownAs f old i j) = some (become new w) := by
    intro i j hi hj
    cases hw : f.cell i j with
    | none => exact absurd ⟨i, j, hi, hj, hw⟩ (hm x y)
    | some w =>
      refine ⟨w, rfl, ?_⟩
      unfold SF.cell at hw
      unfold shownAs
      by_cases hk : f.mask.get i j = true
      · rw [if_pos hk] at hw; cases hw
      · rw [if_neg hk] at hw ⊢
        rw [hw]
        cases new
        · rfl
        · simp only [cast, trunc_eq]
  constructor
  · rintro ⟨i, j, hi, hj, hv⟩
    obtain ⟨w, h1, h2⟩ := hc i j hi hj
    rw [set_cell] at hv
    exact ⟨w, ⟨i, j, hi, hj, h1⟩, by rw [← hv]; exact h2⟩
  · rintro ⟨w, ⟨i, j, hi, hj, hw⟩, rfl⟩
    obtain ⟨w', h1, h2⟩ := hc i j hi hj
    refine ⟨i, j, hi, hj, ?_⟩
    rw [set_cell]
    rw [h1, Option.some.injEq] at hw
    rw [← hw]
    exact h2

/-- C374: asking for the type that the values have changes nothing. -/
theorem C374_same (junk : Rat) (f : SF) (g : VF) (d : Dt) : changeSF junk f d d = f ∧ changeVF junk g d d = g := by
  unfold changeSF changeVF
  rw [if_pos rfl, if_pos rfl]
  exact ⟨rfl, rfl⟩

/-- C374: on a vector field `change_dtype` keeps the masked points, the axes and the vectors, with components made whole if whole numbers are asked for. -/
theorem C374_vector (junk : Rat) {f : VF} (hf : f.WF) {old new : Dt} (h : new ≠ old) {i j : Nat} (hi : i < f.ax.length) (hj : j < f.ay.length) :
    (changeVF junk f old new).ax = f.ax ∧ (changeVF junk f old new).ay = f.ay ∧ (changeVF junk f old new).mask = f.mask ∧
    (changeVF junk f old new).cell i j = (f.cell i j).map fun p => (become new p.1, become new p.2) := by
  unfold changeVF
  rw [if_neg h]
  refine ⟨rfl, rfl, rfl, ?_⟩
  unfold VF.cell Grid.map
  simp only
  by_cases hk : f.mask.get i j = true
  · rw [if_pos hk, if_pos hk]; rfl
  · rw [if_neg hk, if_neg hk]
    cases hx : f.cx.get i j with
    | none => exact absurd (hf.nanx i j hi hj hx) hk
    | some u =>
      cases hy : f.cy.get i j with
      | none => exact absurd (hf.nany i j hi hj hy) hk
      | some v =>
        cases new
        · rfl
        · simp only [cast, trunc_eq, Option.map_some]

/-- C374 is violated: on a scalar field the masked points appear: as zeros when whole numbers become floating, as the number made of NaN when floating ones
become whole. -/
theorem C374_unmasked_violated (junk : Rat) {f : SF} (hf : f.WF) {x y : Rat} (hm : f.Reads x y none) :
    (changeSF junk f .int .float).Reads x y (some 0) ∧ (changeSF junk f .float .int).Reads x y (some junk) := by
  obtain ⟨i, j, hi, hj, hc⟩ := hm
  have hk : f.mask.get i j = true := by
    unfold SF.cell at hc
    by_cases hk : f.mask.get i j = true
    · exact hk
    · rw [if_neg hk] at hc
      exact hf.nan i j (List.getElem?_eq_some_iff.mp hi).1 (List.getElem?_eq_some_iff.mp hj).1 hc
  refine ⟨⟨i, j, hi, hj, ?_⟩, ⟨i, j, hi, hj, ?_⟩⟩
  · unfold changeSF
    rw [if_neg (by decide), set_cell]
    simp only [shownAs, hk, if_true, cast]
  · unfold changeSF
    rw [if_neg (by decide), set_cell]
    simp only [shownAs, hk, if_true, cast]

/-- A field of two points, the second being masked or not. -/
def pair (b : Bool) : SF := ⟨[0, 1], [0], ⟨2, 1, fun i _ => some ((i : Rat) - 1 / 2)⟩, ⟨2, 1, fun i _ => b && decide (i = 1)⟩, .one, .one, .one⟩

theorem pair_WF (b : Bool) : (pair b).WF :=
  ⟨by unfold Inc pair; decide +kernel +revert, by unfold Inc pair; decide +kernel +revert, by simp [pair], by simp [pair], rfl, rfl, rfl, rfl, fun _ _ _ _ h => (by cases h)⟩

example (junk : Rat) : (changeSF junk (pair true) .float .int).Reads 1 0 (some junk) :=
  (C374_unmasked_violated junk (pair_WF true) ⟨1, 0, rfl, rfl, rfl⟩).2

example (junk : Rat) : (changeSF junk (pair false) .float .int).Reads 0 0 (some 0) := by
  have := (C374_scalar_partial junk (f := pair false) (old := .float) (new := .int) (fun x y ⟨i, j, _, _, h⟩ => by cases h) (by decide) 0 0 (some 0)).2.2
  rw [this]
  refine ⟨-1 / 2, ⟨0, 0, rfl, rfl, by decide +kernel⟩, by decide +kernel⟩

end IMT.Dtype
