import Verif.Treat.Grad
import Verif.Scalar.ImportLemmas
import Mathlib.Data.Rat.Floor

/-!
Properties C123 (track fields and field lines), C127 (extension up to a wall).
-/

namespace IMT.Treat

/-! ### C123 -/

/-- C123: the track field of a vector field has, at every point where the field is not masked, its vector turned by a quarter
turn (counterclockwise), and is masked where the field is. -/
theorem C123_track_field {f : VF} (hf : f.WF) (h2x : 2 ≤ f.ax.length) (h2y : 2 ≤ f.ay.length) :
    ∃ g, trackField f = .ok g ∧ g.WF ∧ g.ux = f.ux ∧ g.uy = f.uy ∧ g.uv = f.uv ∧
      (∀ x y u v, g.Reads x y (some (-v, u)) ↔ f.Reads x y (some (u, v))) ∧
      (∀ x y, g.Reads x y none ↔ f.Reads x y none) := by
  obtain ⟨g, e, w, r, u1, u2, u3⟩ := VF.C111_import_reads_partial (ax := f.ax) (ay := f.ay) (cx := VF.opp f.cy) (cy := f.cx)
    (m := .array f.mask) (ux := f.ux) (uy := f.uy) (uv := f.uv) hf.yx hf.yy hf.xx hf.xy h2x h2y hf.mx hf.my (.inl hf.incx)
    (.inl hf.incy) (.inl ⟨hf.incx, hf.incy⟩)
  refine ⟨g, e, w, u1, u2, u3, ?_, ?_⟩
  · intro x y u v
    rw [r]
    constructor
    · rintro ⟨i, j, hi, hj, h⟩
      refine ⟨i, j, hi, hj, ?_⟩
      revert h
      simp only [VF.shown, VF.MaskArg.grid, VF.opp, Grid.map, VF.cell]
      by_cases hm : f.mask.get i j = true
      · simp [hm]
      · simp only [hm]
        rcases f.cx.get i j with _ | p <;> rcases f.cy.get i j with _ | q <;> simp
        rintro rfl rfl; simp
    · rintro ⟨i, j, hi, hj, h⟩
      refine ⟨i, j, hi, hj, ?_⟩
      revert h
      simp only [VF.shown, VF.MaskArg.grid, VF.opp, Grid.map, VF.cell]
      by_cases hm : f.mask.get i j = true
      · simp [hm]
      · simp only [hm]
        rcases f.cx.get i j with _ | p <;> rcases f.cy.get i j with _ | q <;> simp
        rintro rfl rfl; simp
  · intro x y
    rw [r]
    constructor
    · rintro ⟨i, j, hi, hj, h⟩
      refine ⟨i, j, hi, hj, ?_⟩
      revert h
      simp only [VF.shown, VF.MaskArg.grid, VF.opp, Grid.map, VF.cell]
      by_cases hm : f.mask.get i j = true
      · simp [hm]
      · simp only [hm]
        rcases f.cx.get i j with _ | p <;> rcases f.cy.get i j with _ | q <;> simp
    · rintro ⟨i, j, hi, hj, h⟩
      refine ⟨i, j, hi, hj, ?_⟩
      revert h
      simp only [VF.shown, VF.MaskArg.grid, VF.opp, Grid.map, VF.cell]
      by_cases hm : f.mask.get i j = true
      · simp [hm]
      · simp only [hm]
        rcases f.cx.get i j with _ | p <;> rcases f.cy.get i j with _ | q <;> simp

/-- C123: the field lines are the streamlines of the field turned by a quarter turn clockwise, with the same mask, the given
seeds and the given direction of travel. -/
theorem C123_fieldlines {α : Type} (solve : VF → List (Rat × Rat) → Bool → α) (f : VF) (xys : List (Rat × Rat)) (reverse : Bool) :
    ∃ g : VF, fieldlines solve f xys reverse = solve g xys reverse ∧
      (∀ x y u v, g.Reads x y (some (v, -u)) ↔ f.Reads x y (some (u, v))) ∧ (∀ x y, g.Reads x y none ↔ f.Reads x y none) := by
  refine ⟨fieldlineField f, rfl, ?_, ?_⟩
  · intro x y u v
    unfold VF.Reads
    constructor <;> rintro ⟨i, j, hi, hj, h⟩ <;> refine ⟨i, j, hi, hj, ?_⟩ <;> revert h <;>
      simp only [fieldlineField, VF.opp, Grid.map, VF.cell] <;> by_cases hm : f.mask.get i j = true <;> simp [hm] <;>
      rcases f.cx.get i j with _ | p <;> rcases f.cy.get i j with _ | q <;> simp
    · rintro rfl rfl; simp
    · rintro rfl rfl; simp
  · intro x y
    unfold VF.Reads
    constructor <;> rintro ⟨i, j, hi, hj, h⟩ <;> refine ⟨i, j, hi, hj, ?_⟩ <;> revert h <;>
      simp only [fieldlineField, VF.opp, Grid.map, VF.cell] <;> by_cases hm : f.mask.get i j = true <;> simp [hm] <;>
      rcases f.cx.get i j with _ | p <;> rcases f.cy.get i j with _ | q <;> simp

/-- C123: the track lines are the streamlines of the track field from the given seeds.
Partial: forwards only, see `C123_reverse_violated`. -/
theorem C123_tracklines_partial {α : Type} (solve : VF → List (Rat × Rat) → Bool → α) {f : VF} (hf : f.WF)
    (h2x : 2 ≤ f.ax.length) (h2y : 2 ≤ f.ay.length) (xys : List (Rat × Rat)) :
    ∃ g, trackField f = .ok g ∧ tracklines solve f xys false = .ok (solve g xys false) := by
  obtain ⟨g, e, _⟩ := C123_track_field hf h2x h2y
  exact ⟨g, e, by unfold tracklines; rw [e]; rfl⟩

/-- C123 fails backwards: asking for reversed track lines gives the forward ones, whatever the field, the seeds and the
integrator. -/
theorem C123_reverse_violated {α : Type} (solve : VF → List (Rat × Rat) → Bool → α) {f : VF} (hf : f.WF)
    (h2x : 2 ≤ f.ax.length) (h2y : 2 ≤ f.ay.length) (xys : List (Rat × Rat)) :
    ∃ g, trackField f = .ok g ∧ tracklines solve f xys true = .ok (solve g xys false) := by
  obtain ⟨g, e, _⟩ := C123_track_field hf h2x h2y
  exact ⟨g, e, by unfold tracklines; rw [e]; rfl⟩

example : sampleV.WF ∧ 2 ≤ sampleV.ax.length ∧ 2 ≤ sampleV.ay.length ∧ sampleV.Reads 2 0 (some (6, 2)) :=
  ⟨sampleV_WF, by decide, by decide, 1, 1, by decide +kernel, by decide +kernel, by decide +kernel⟩

/-! ### C127 -/

theorem get_headD {l : List Rat} (h : 0 < l.length) : l[0]? = some (l.headD 0) := by
  cases l with
  | nil => simp at h
  | cons a t => rfl

theorem get_lastD {l : List Rat} (h : 0 < l.length) : l[l.length - 1]? = some (l.getLastD 0) := by
  rw [← List.getLast?_eq_getElem?]
  cases l with
  | nil => simp at h
  | cons a t => simp [List.getLastD_eq_getLast?, List.getLast?_eq_some_getLast (l := a :: t) (by simp)]

/-- Position of the last point of an even axis. -/
theorem even_last {l : List Rat} (he : Even l) (h2 : 2 ≤ l.length) :
    ∀ (i : Nat) (x : Rat), l[i]? = some x → x = l.headD 0 + i * step l := by
  intro i
  induction i with
  | zero => intro x hx; rw [get_headD (by omega)] at hx; cases hx; simp
  | succ i ih =>
    intro x hx
    have hi := getElem?_some_lt hx
    have e := List.getElem?_eq_getElem (show i < l.length by omega)
    have := ih _ e
    have s := even_step he h2 i _ _ e hx
    push_cast
    linarith

theorem step_eq {l : List Rat} (h2 : 2 ≤ l.length) : step l = l.getD 1 0 - l.headD 0 := by
  match l, h2 with
  | a :: b :: t, _ => rfl

theorem floor_rat (q : Rat) : (q.floor : Rat) ≤ q ∧ q < (q.floor : Rat) + 1 := ⟨Int.floor_le q, Int.lt_floor_add_one q⟩

/-- C127, a wall on the left of (or below) a field: the line set to zero lies at most one step inside the wall, the field is
extended exactly up to it with the first step, and keeps its own points.
Partial: when the wall is nearer than one step, no point is added and the first line of data is itself set to zero
(`C127_near_violated`); on the right (or above) see `C127_right_violated`. -/
theorem C127_left_partial {l : List Rat} (hl : Inc l) (h2 : 2 ≤ l.length) {pos : Rat} (hp : pos < l.headD 0) :
    ∃ (m : List Rat) (w : Rat) (n : Nat), wall l pos = .ok (m, some w) ∧ Inc m ∧ m.head? = some w ∧ pos ≤ w ∧ w < pos + step l ∧
      m.length = n + l.length ∧ (∀ i, i < l.length → m[n + i]? = l[i]?) ∧
      (∀ k : Nat, k < n → m[k]? = some (l.headD 0 - ((n : Rat) - k) * step l)) := by
  have hs := step_pos hl h2
  obtain ⟨f1, f2⟩ := floor_rat ((l.headD 0 - pos) / step l)
  have hq : 0 ≤ (l.headD 0 - pos) / step l := div_nonneg (by linarith) hs.le
  have f0 : 0 ≤ ((l.headD 0 - pos) / step l).floor := by
    have : ((-1 : Int) : Rat) < ((l.headD 0 - pos) / step l).floor := by push_cast; linarith
    rw [Int.cast_lt] at this; omega
  rw [le_div_iff₀ hs] at f1
  rw [div_lt_iff₀ hs] at f2
  obtain ⟨m, e, inc, len, keep, pre, _⟩ := Axis.extend_spec hl h2 ((l.headD 0 - pos) / step l).floor.toNat 0
  have ec : ((((l.headD 0 - pos) / step l).floor.toNat : Nat) : Rat) = ((l.headD 0 - pos) / step l).floor := by
    have : ((((l.headD 0 - pos) / step l).floor.toNat : Nat) : Int) = ((l.headD 0 - pos) / step l).floor := Int.toNat_of_nonneg f0
    rw [← Int.cast_natCast, this]
  have w1 : wall l pos = .ok (m, m.head?) := by
    unfold wall wallCount
    rw [if_neg (by omega), if_neg (by intro h; linarith [h.2]), if_pos hp]
    dsimp only
    rw [if_neg (by omega)]
    simp only [if_true, e]
  have h1 : l[1]? = some (l.getD 1 0) := by simp [List.getD_eq_getElem?_getD, List.getElem?_eq_getElem (show 1 < l.length by omega)]
  have pre' := pre _ _ (get_headD (by omega)) h1
  rw [← step_eq h2] at pre'
  have hd : m.head? = some (l.headD 0 - ((l.headD 0 - pos) / step l).floor * step l) := by
    rw [List.head?_eq_getElem?]
    by_cases h0 : ((l.headD 0 - pos) / step l).floor.toNat = 0
    · have k0 := keep 0 (by omega)
      rw [h0] at k0
      simp only [Nat.add_zero] at k0
      rw [k0, get_headD (by omega), ← ec, h0]
      simp
    · rw [pre' 0 (by omega), ec]; simp
  refine ⟨m, _, _, by rw [w1, hd], inc, hd, by linarith, by linarith, by rw [len]; rfl, keep, pre'⟩

/-- C127 fails for a wall nearer than one step on the left: nothing is added and the first line of data becomes the wall. -/
theorem C127_near_violated {l : List Rat} (hl : Inc l) (h2 : 2 ≤ l.length) {pos : Rat} (hp : pos < l.headD 0)
    (hn : l.headD 0 - step l < pos) : wall l pos = .ok (l, some (l.headD 0)) := by
  have hs := step_pos hl h2
  obtain ⟨f1, f2⟩ := floor_rat ((l.headD 0 - pos) / step l)
  have hq : 0 ≤ (l.headD 0 - pos) / step l := div_nonneg (by linarith) hs.le
  have hq1 : (l.headD 0 - pos) / step l < 1 := (div_lt_one hs).mpr (by linarith)
  have f0 : ((l.headD 0 - pos) / step l).floor = 0 := by
    have a : ((-1 : Int) : Rat) < ((l.headD 0 - pos) / step l).floor := by push_cast; linarith
    have b : (((l.headD 0 - pos) / step l).floor : Rat) < (1 : Int) := by push_cast; linarith
    rw [Int.cast_lt] at a b; omega
  unfold wall wallCount
  rw [if_neg (by omega), if_neg (by intro h; linarith [h.2]), if_pos hp, f0]
  have : Axis.extend l 0 0 = .ok l := by simp [Axis.extend, Axis.extendPre, Axis.extendPost]
  simp [this]
  match l, h2 with
  | a :: b :: t, _ => rfl

/-- C127 fails for a wall on the right of (or above) an evenly spaced field of at least three points: the line set to zero lies
beyond the wall, by the number of points minus two steps, up to one step. -/
theorem C127_right_violated {l : List Rat} (hl : Inc l) (he : Even l) (h2 : 2 ≤ l.length) {pos : Rat} (hp : l.getLastD 0 ≤ pos) :
    ∃ (m : List Rat) (w : Rat), wall l pos = .ok (m, some w) ∧ m.getLast? = some w ∧
      pos + ((l.length : Rat) - 3) * step l < w ∧ w ≤ pos + ((l.length : Rat) - 2) * step l := by
  have hs := step_pos hl h2
  have hlast : l.getLastD 0 = l.headD 0 + ((l.length : Rat) - 1) * step l := by
    have := even_last he h2 _ _ (get_lastD (by omega))
    rw [Nat.cast_sub (by omega)] at this
    simpa using this
  have hL : (2 : Rat) ≤ l.length := by exact_mod_cast h2
  have hone : l.getD 1 0 = l.headD 0 + step l := by rw [step_eq h2]; ring
  have hle : (l.headD 0 + step l) ≤ l.getLastD 0 := by
    have : 0 ≤ ((l.length : Rat) - 2) * step l := mul_nonneg (by linarith) hs.le
    linarith
  obtain ⟨f1, f2⟩ := floor_rat ((pos - l.getD 1 0) / step l)
  have hq : 0 ≤ (pos - l.getD 1 0) / step l := div_nonneg (by linarith) hs.le
  have f0 : 0 ≤ ((pos - l.getD 1 0) / step l).floor := by
    have : ((-1 : Int) : Rat) < ((pos - l.getD 1 0) / step l).floor := by push_cast; linarith
    rw [Int.cast_lt] at this; omega
  rw [le_div_iff₀ hs] at f1
  rw [div_lt_iff₀ hs] at f2
  obtain ⟨m, e, inc, len, keep, _, post⟩ := Axis.extend_spec hl h2 0 ((pos - l.getD 1 0) / step l).floor.toNat
  have ec : ((((pos - l.getD 1 0) / step l).floor.toNat : Nat) : Rat) = ((pos - l.getD 1 0) / step l).floor := by
    have : ((((pos - l.getD 1 0) / step l).floor.toNat : Nat) : Int) = ((pos - l.getD 1 0) / step l).floor := Int.toNat_of_nonneg f0
    rw [← Int.cast_natCast, this]
  have w1 : wall l pos = .ok (m, m.getLast?) := by
    unfold wall wallCount
    rw [if_neg (by omega), if_neg (by intro h; linarith [h.1]), if_neg (by linarith)]
    dsimp only
    rw [if_pos hq, if_neg (by omega)]
    simp only [Bool.false_eq_true, if_false, e]
  have hd : m.getLast? = some (l.getLastD 0 + ((pos - l.getD 1 0) / step l).floor * step l) := by
    rw [List.getLast?_eq_getElem?, len]
    by_cases h0 : ((pos - l.getD 1 0) / step l).floor.toNat = 0
    · have k0 := keep (l.length - 1) (by omega)
      rw [h0, show 0 + l.length + 0 - 1 = 0 + (l.length - 1) by omega, k0, get_lastD (by omega), ← ec, h0]
      simp
    · have hy : l[l.length - 2]? = some (l.getLastD 0 - step l) := by
        have e1 := List.getElem?_eq_getElem (show l.length - 2 < l.length by omega)
        have := even_last he h2 _ _ e1
        rw [e1, this, hlast, Nat.cast_sub (by omega)]
        congr 1; push_cast; ring
      have := post _ _ hy (get_lastD (by omega)) (((pos - l.getD 1 0) / step l).floor.toNat - 1) (by omega)
      rw [show 0 + l.length + ((pos - l.getD 1 0) / step l).floor.toNat - 1 =
        0 + l.length + (((pos - l.getD 1 0) / step l).floor.toNat - 1) by omega, this, Nat.cast_sub (by omega), ec]
      congr 1; push_cast; ring
  refine ⟨m, _, by rw [w1, hd], hd, ?_, ?_⟩ <;> rw [hone] at f1 f2 ⊢ <;> rw [hlast] <;> linarith

/-- C127 fails for a wall on the first line of the field, although no check forbids it: ValueError. -/
theorem C127_first_violated {l : List Rat} (hl : Inc l) (h2 : 2 ≤ l.length) : wall l (l.headD 0) = .error Err.valueError := by
  have hs := step_pos hl h2
  have e : (l.headD 0 - l.getD 1 0) / step l = -1 := by
    rw [step_eq h2] at hs ⊢
    rw [div_eq_iff (ne_of_gt hs)]; ring
  have hlt : l.headD 0 < l.getLastD 0 := hl.get_lt (get_headD (by omega)) (get_lastD (by omega)) (by omega)
  unfold wall wallCount
  rw [if_neg (by omega), if_neg (by intro h; exact lt_irrefl _ h.2), if_neg (lt_irrefl _), e]
  rfl

example : wall [0, 1, 2, 3] (-5/2) = .ok ([-2, -1, 0, 1, 2, 3], some (-2)) := by decide +kernel
/-- A wall at 5 on the right: the zero line is put at 7. -/
example : wall [0, 1, 2, 3] 5 = .ok ([0, 1, 2, 3, 4, 5, 6, 7], some 7) := by decide +kernel
example : wall [0, 1, 2, 3] (-1/2) = .ok ([0, 1, 2, 3], some 0) := by decide +kernel

end IMT.Treat
