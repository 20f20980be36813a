import Verif.Detect.WallModel
import Verif.Cp.Props
import Verif.Axis.Props

/-! C275: walls, smoothing and records in the detection of critical points. -/

namespace IMT.Detect

open Cp (CP Pts Kind At Valid)

variable {Tr I : Type}

/-! ### specification -/

/-- `a` is the line of the axis before the last one that is not beyond `p`. -/
def LineBefore (l : List Rat) (p a : Rat) : Prop := ∃ i b, l[i]? = some a ∧ l[i + 1]? = some b ∧ b ≤ p ∧ ∀ c, l[i + 2]? = some c → p < c

/-- `a` is the line of the axis after the first one that is not before `p`. -/
def LineAfter (l : List Rat) (p a : Rat) : Prop := ∃ i b, l[i + 1]? = some b ∧ l[i + 2]? = some a ∧ p ≤ b ∧ ∀ c, l[i]? = some c → c < p

/-- Walls of the lower half of the axis of their direction. -/
def IsLow (f : VF) (w : Wall) : Prop := w.2 < median (axis f w.1)

/-- The coordinate of a place along a direction. -/
def coord (d : Bool) (q : Rat × Rat) : Rat := if d then q.1 else q.2

/-- The place is at most one line of the grid behind the wall. -/
def RealSide (f : VF) (w : Wall) (q : Rat × Rat) : Prop :=
  (IsLow f w → ∃ a, LineBefore (axis f w.1) w.2 a ∧ a ≤ coord w.1 q) ∧ (¬ IsLow f w → ∃ a, LineAfter (axis f w.1) w.2 a ∧ coord w.1 q ≤ a)

/-- At least two lines on each side of the wall, as mirroring makes. -/
def Inner (f : VF) (w : Wall) : Prop := (IsLow f w → ∃ a, LineBefore (axis f w.1) w.2 a) ∧ (¬ IsLow f w → ∃ a, LineAfter (axis f w.1) w.2 a)

/-- No two walls on the same side. -/
def OnePerSide (f : VF) (ws : List Wall) : Prop := ws.Pairwise fun v w => ¬ (v.1 = w.1 ∧ (IsLow f v ↔ IsLow f w))

/-! ### lemmas -/

theorem inc_lt {l : List Rat} (h : Inc l) {i j : Nat} {a b : Rat} (hi : l[i]? = some a) (hj : l[j]? = some b) (hij : i < j) : a < b := by
  have hj' := (List.getElem?_eq_some_iff.1 hj).1
  rw [List.getElem?_eq_getElem (by omega)] at hi
  rw [List.getElem?_eq_getElem hj'] at hj
  cases hi; cases hj
  exact List.pairwise_iff_getElem.1 h i j (by omega) hj' hij

theorem inc_idx {l : List Rat} (h : Inc l) {i j : Nat} {a b : Rat} (hi : l[i]? = some a) (hj : l[j]? = some b) (hab : a ≤ b) : i ≤ j := by
  by_contra hc
  have := inc_lt h hj hi (by omega)
  linarith

theorem head_le {l : List Rat} (h : Inc l) {i : Nat} {a : Rat} (hi : l[i]? = some a) : ∃ x y, l.head? = some x ∧ l.getLast? = some y ∧ x ≤ a ∧ a ≤ y := by
  have hl := (List.getElem?_eq_some_iff.1 hi).1
  have h0 : l[0]? = some l[0] := List.getElem?_eq_getElem (by omega)
  have h1 : l[l.length - 1]? = some l[l.length - 1] := List.getElem?_eq_getElem (by omega)
  refine ⟨l[0], l[l.length - 1], by rw [List.head?_eq_getElem?]; exact h0, by rw [List.getLast?_eq_getElem?]; exact h1, ?_, ?_⟩
  · rcases Nat.eq_zero_or_pos i with rfl | hp
    · rw [h0] at hi; cases hi; exact le_rfl
    · exact (inc_lt h h0 hi hp).le
  · rcases Nat.lt_or_ge i (l.length - 1) with hp | hp
    · exact (inc_lt h hi h1 hp).le
    · have : i = l.length - 1 := by omega
      subst this
      rw [h1] at hi; cases hi; exact le_rfl

theorem median_eq {l : List Rat} {x y : Rat} (hx : l.head? = some x) (hy : l.getLast? = some y) : median l = (y + x) / 2 := by
  unfold median
  rw [List.headD_eq_head?_getD, hx, List.getLastD_eq_getLast?, hy]
  rfl

theorem low_ok {l : List Rat} (h : Inc l) {p a : Rat} (hp : p < median l) (ha : LineBefore l p a) :
    ∃ ij, Axis.bounds l p = .ok ij ∧ before l ij.1 = .ok a := by
  obtain ⟨k, b, h1, h2, h3, h4⟩ := ha
  obtain ⟨x, y, hx, hy, hxb, hby⟩ := head_le h h2
  rw [median_eq hx hy] at hp
  obtain ⟨i, j, e, hij⟩ := Axis.C01_bounds_bracket h hx hy (le_trans hxb h3) (by linarith : p ≤ y)
  refine ⟨(i, j), e, ?_⟩
  have hk : i = k + 1 := by
    rcases hij with ⟨-, hi⟩ | ⟨-, rfl, lo, hi, g1, g2, g3, g4⟩
    · have := inc_idx h h2 hi h3
      by_contra hc
      obtain ⟨c, hc2⟩ : ∃ c, l[k + 2]? = some c := ⟨_, List.getElem?_eq_getElem (by have := (List.getElem?_eq_some_iff.1 hi).1; omega)⟩
      have h5 := h4 c hc2
      have := inc_idx h hi hc2 h5.le
      have h6 : i = k + 2 := by omega
      subst h6
      rw [hi] at hc2
      cases hc2
      linarith
    · have h5 : k + 1 ≤ i := by
        by_contra hc
        have := inc_idx h g2 h2 (by
          rcases Nat.lt_or_ge (i + 1) (k + 1) with h' | h'
          · exact (inc_lt h g2 h2 h').le
          · have : i + 1 = k + 1 := by omega
            rw [this] at g2
            rw [g2] at h2
            cases h2
            exact le_rfl)
        have h7 : hi ≤ b := by
          rcases Nat.lt_or_ge (i + 1) (k + 1) with h' | h'
          · exact (inc_lt h g2 h2 h').le
          · have : i + 1 = k + 1 := by omega
            rw [this] at g2
            rw [g2] at h2
            cases h2
            exact le_rfl
        linarith
      by_contra hc
      obtain ⟨c, hc2⟩ : ∃ c, l[k + 2]? = some c := ⟨_, List.getElem?_eq_getElem (by have := (List.getElem?_eq_some_iff.1 g2).1; omega)⟩
      have h6 := h4 c hc2
      have := inc_idx h hc2 g1 |> fun f => Classical.byContradiction fun hn : ¬ c ≤ lo => by
        have := inc_idx h g1 hc2 (by linarith)
        have h7 : i = k + 2 := by omega
        subst h7
        rw [g1] at hc2
        cases hc2
        exact hn le_rfl
      linarith
  subst hk
  unfold before
  rw [if_neg (by omega)]
  simp [h1]

theorem high_ok {l : List Rat} (h : Inc l) {p a : Rat} (hp : ¬ p < median l) (ha : LineAfter l p a) :
    ∃ ij, Axis.bounds l p = .ok ij ∧ after l ij.2 = .ok a := by
  obtain ⟨k, b, h1, h2, h3, h4⟩ := ha
  obtain ⟨x, y, hx, hy, hxb, hby⟩ := head_le h h1
  rw [median_eq hx hy, not_lt] at hp
  obtain ⟨i, j, e, hij⟩ := Axis.C01_bounds_bracket h hx hy (by linarith : x ≤ p) (le_trans h3 hby)
  refine ⟨(i, j), e, ?_⟩
  have hk1 := (List.getElem?_eq_some_iff.1 h1).1
  obtain ⟨c, hc⟩ : ∃ c, l[k]? = some c := ⟨_, List.getElem?_eq_getElem (by omega)⟩
  have hcp := h4 c hc
  have hk : j = k + 1 := by
    rcases hij with ⟨rfl, hj⟩ | ⟨-, rfl, lo, hi, g1, g2, g3, g4⟩
    · have := inc_idx h hj h1 h3
      by_contra hn
      have h5 : j ≤ k := by omega
      have : p ≤ c := by
        rcases Nat.lt_or_ge j k with h' | h'
        · exact (inc_lt h hj hc h').le
        · have : j = k := by omega
          subst this
          rw [hj] at hc
          cases hc
          exact le_rfl
      linarith
    · have h5 : i ≤ k := by
        by_contra hn
        have : b ≤ lo := by
          rcases Nat.lt_or_ge (k + 1) i with h' | h'
          · exact (inc_lt h h1 g1 h').le
          · have : i = k + 1 := by omega
            subst this
            rw [g1] at h1
            cases h1
            exact le_rfl
        linarith
      by_contra hn
      have : hi ≤ c := by
        rcases Nat.lt_or_ge (i + 1) k with h' | h'
        · exact (inc_lt h g2 hc h').le
        · have : i + 1 = k := by omega
          subst this
          rw [g2] at hc
          cases hc
          exact le_rfl
      linarith
  subst hk
  unfold after
  simp only
  rw [h2]

theorem before_unique {l : List Rat} (h : Inc l) {p a b : Rat} (hp : p < median l) (ha : LineBefore l p a) (hb : LineBefore l p b) : a = b := by
  obtain ⟨ij, e1, e2⟩ := low_ok h hp ha
  obtain ⟨ij', e1', e2'⟩ := low_ok h hp hb
  rw [e1] at e1'; cases e1'
  rw [e2] at e2'; cases e2'
  rfl

theorem after_unique {l : List Rat} (h : Inc l) {p a b : Rat} (hp : ¬ p < median l) (ha : LineAfter l p a) (hb : LineAfter l p b) : a = b := by
  obtain ⟨ij, e1, e2⟩ := high_ok h hp ha
  obtain ⟨ij', e1', e2'⟩ := high_ok h hp hb
  rw [e1] at e1'; cases e1'
  rw [e2] at e2'; cases e2'
  rfl

/-- Whether a place is within the bounds. -/
def Fits (w : Win) (q : Rat × Rat) : Prop := ∀ d, (∀ a, w d true = some a → a ≤ coord d q) ∧ ∀ b, w d false = some b → coord d q ≤ b

theorem fits_iff (w : Win) (q : Rat × Rat) : (within w true q.1 && within w false q.2) = true ↔ Fits w q := by
  have key : ∀ d v, within w d v = true ↔ (∀ a, w d true = some a → a ≤ v) ∧ ∀ b, w d false = some b → v ≤ b := by
    intro d v
    unfold within
    cases w d true <;> cases w d false <;> simp
  rw [Bool.and_eq_true, key, key]
  unfold Fits
  rw [Bool.forall_bool]
  constructor
  · rintro ⟨a, b⟩; exact ⟨b, a⟩
  · rintro ⟨a, b⟩; exact ⟨b, a⟩

/-- One wall of a side that has none. -/
theorem narrow_ok {f : VF} (hf : f.WF) {w : Win} {v : Wall} (hi : Inner f v) (hn : (IsLow f v → w v.1 true = none) ∧ (¬ IsLow f v → w v.1 false = none)) :
    ∃ w', narrow f w v = .ok w' ∧ (∀ q, Fits w' q ↔ Fits w q ∧ RealSide f v q) ∧
      ∀ d low, w d low = none → ¬ (d = v.1 ∧ (low = true ↔ IsLow f v)) → w' d low = none := by
  have hax : Inc (axis f v.1) := by unfold axis; split; exacts [hf.incx, hf.incy]
  by_cases hl : IsLow f v
  · obtain ⟨a, ha⟩ := hi.1 hl
    obtain ⟨ij, e1, e2⟩ := low_ok hax hl ha
    refine ⟨w.set v.1 true a, ?_, ?_, ?_⟩
    · unfold narrow
      rw [hn.1 hl, if_pos (by simp [aboveLow]; exact hl), e1]
      simp only
      rw [e2]
    · intro q
      have hr : RealSide f v q ↔ a ≤ coord v.1 q := by
        unfold RealSide
        constructor
        · rintro ⟨h1, -⟩
          obtain ⟨b, hb, hle⟩ := h1 hl
          rw [before_unique hax hl ha hb]; exact hle
        · exact fun h => ⟨fun _ => ⟨a, ha, h⟩, fun h' => absurd hl h'⟩
      rw [hr]
      unfold Fits Win.set
      constructor
      · intro h
        refine ⟨fun d => ⟨fun b hb => ?_, fun b hb => (h d).2 b (by simpa using hb)⟩, (h v.1).1 a (by simp)⟩
        by_cases hd : d = v.1
        · rw [hd, hn.1 hl] at hb; cases hb
        · exact (h d).1 b (by simpa [hd] using hb)
      · rintro ⟨h, h'⟩ d
        refine ⟨fun b hb => ?_, fun b hb => (h d).2 b (by simpa using hb)⟩
        by_cases hd : d = v.1
        · simp [hd] at hb; rw [hd, ← hb]; exact h'
        · exact (h d).1 b (by simpa [hd] using hb)
    · intro d low h1 h2
      unfold Win.set
      rw [if_neg, h1]
      rintro ⟨rfl, rfl⟩
      exact h2 ⟨rfl, by simpa using hl⟩
  · obtain ⟨a, ha⟩ := hi.2 hl
    obtain ⟨ij, e1, e2⟩ := high_ok hax hl ha
    refine ⟨w.set v.1 false a, ?_, ?_, ?_⟩
    · unfold narrow
      have hl' : decide (v.2 < median (axis f v.1)) = false := by simpa [IsLow] using hl
      rw [hl', hn.2 hl, if_neg (by simp), if_pos (by simp [belowHigh]), e1]
      simp only
      rw [e2]
    · intro q
      have hr : RealSide f v q ↔ coord v.1 q ≤ a := by
        unfold RealSide
        constructor
        · rintro ⟨-, h1⟩
          obtain ⟨b, hb, hle⟩ := h1 hl
          rw [after_unique hax hl ha hb]; exact hle
        · exact fun h => ⟨fun h' => absurd h' hl, fun _ => ⟨a, ha, h⟩⟩
      rw [hr]
      unfold Fits Win.set
      constructor
      · intro h
        refine ⟨fun d => ⟨fun b hb => (h d).1 b (by simpa using hb), fun b hb => ?_⟩, (h v.1).2 a (by simp)⟩
        by_cases hd : d = v.1
        · rw [hd, hn.2 hl] at hb; cases hb
        · exact (h d).2 b (by simpa [hd] using hb)
      · rintro ⟨h, h'⟩ d
        refine ⟨fun b hb => (h d).1 b (by simpa using hb), fun b hb => ?_⟩
        by_cases hd : d = v.1
        · simp [hd] at hb; rw [hd, ← hb]; exact h'
        · exact (h d).2 b (by simpa [hd] using hb)
    · intro d low h1 h2
      unfold Win.set
      rw [if_neg, h1]
      rintro ⟨rfl, rfl⟩
      exact h2 ⟨rfl, by simpa using hl⟩

theorem window_ok {f : VF} (hf : f.WF) (ws : List Wall) (h1 : OnePerSide f ws) (h2 : ∀ v ∈ ws, Inner f v) :
    ∀ w : Win, (∀ v ∈ ws, (IsLow f v → w v.1 true = none) ∧ (¬ IsLow f v → w v.1 false = none)) →
    ∃ w', window f w ws = .ok w' ∧ ∀ q, Fits w' q ↔ Fits w q ∧ ∀ v ∈ ws, RealSide f v q := by
  induction ws with
  | nil => exact fun w _ => ⟨w, rfl, fun q => by simp⟩
  | cons v ws ih =>
    intro w hw
    unfold OnePerSide at h1
    rw [List.pairwise_cons] at h1
    obtain ⟨w1, e1, f1, g1⟩ := narrow_ok hf (h2 v List.mem_cons_self) (hw v List.mem_cons_self)
    obtain ⟨w2, e2, f2⟩ := ih h1.2 (fun u hu => h2 u (List.mem_cons_of_mem _ hu)) w1 (by
      intro u hu
      have hd := h1.1 u hu
      have hu' := hw u (List.mem_cons_of_mem _ hu)
      refine ⟨fun hl => g1 _ _ (hu'.1 hl) ?_, fun hl => g1 _ _ (hu'.2 hl) ?_⟩
      · rintro ⟨a, b⟩
        exact hd ⟨a.symm, by simpa [hl] using b⟩
      · rintro ⟨a, b⟩
        exact hd ⟨a.symm, by simpa [hl] using b⟩)
    refine ⟨w2, ?_, fun q => ?_⟩
    · unfold window
      rw [e1]
      exact e2
    · rw [f2, f1, List.forall_mem_cons, and_assoc]

theorem at_map {c d : CP Tr} {g : Pts → Pts} (ht : d.times = c.times) (hp : ∀ k, d.pts k = (c.pts k).map g) (t : Rat) (k : Kind) (p : Pts) :
    At d t k p ↔ ∃ p0, At c t k p0 ∧ p = g p0 := by
  unfold At
  rw [ht, hp]
  constructor
  · rintro ⟨i, h1, h2⟩
    rw [List.getElem?_map, Option.map_eq_some_iff] at h2
    obtain ⟨p0, h3, rfl⟩ := h2
    exact ⟨p0, ⟨i, h1, h3⟩, rfl⟩
  · rintro ⟨p0, ⟨i, h1, h3⟩, rfl⟩
    exact ⟨i, h1, by rw [List.getElem?_map, h3]; rfl⟩

/-! ### theorems -/

/-- A field mirrored at one wall after the other. -/
inductive Mirrored (T : Tools Tr I) (i : I) : VF → List Wall → VF → Prop
  | none (f : VF) : Mirrored T i f [] f
  | wall {f g h : VF} {w : Wall} {ws : List Wall} (h1 : T.mirror i w f = .ok g) (h2 : Mirrored T i g ws h) : Mirrored T i f (w :: ws) h

theorem mirrored_ok {T : Tools Tr I} {i : I} {f m : VF} {ws : List Wall} (h : Mirrored T i f ws m) : mirrorAll T i ws f = .ok m := by
  induction h with
  | none => rfl
  | wall h1 _ ih => unfold mirrorAll; rw [h1]; exact ih

open Classical in
/-- **C275** With walls, the critical points returned are those detected on the mirrored field that are at most one line of the grid behind each wall;
the field of the caller is not changed. -/
theorem C275_walls_partial (T : Tools Tr I) (i : I) {ws : List Wall} (hws : ws ≠ []) {s t : Rat} (hs : 0 ≤ s) {f g : VF} (hm : f.mask.any id = false)
    {m : VF} (hg : Mirrored T i f ws m) (hsm : g = if s = 0 then m else T.smooth m) (hwf : g.WF) (h1 : OnePerSide g ws) (h2 : ∀ w ∈ ws, Inner g w) {c : CP Tr}
    (hc : T.detect g t = .ok c) :
    ∃ c', points T i ws s t f = (f, .ok c') ∧
      ∀ t' k p, At c' t' k p ↔ ∃ p0, At c t' k p0 ∧ p = ⟨p0.ux, p0.uy, p0.xy.filter fun q => decide (∀ w ∈ ws, RealSide g w q)⟩ := by
  obtain ⟨w, e, hw⟩ := window_ok hwf ws h1 h2 (fun _ _ => none) (fun _ _ => ⟨fun _ => rfl, fun _ => rfl⟩)
  refine ⟨cropWin w c, ?_, ?_⟩
  · unfold points
    rw [if_neg (not_lt.2 hs), hm, if_neg (by simp), if_neg hws, mirrored_ok hg]
    have : (if s ≠ 0 then T.smooth m else m) = g := by rw [hsm]; by_cases h : s = 0 <;> simp [h]
    simp only
    rw [this]
    unfold detectCropped
    rw [hc]
    simp only
    rw [if_neg hws, e]
  · intro t' k p
    rw [at_map (c := c) (d := cropWin w c) (g := fun p0 => ⟨p0.ux, p0.uy, p0.xy.filter fun q => decide (∀ w ∈ ws, RealSide g w q)⟩) rfl ?_]
    intro k
    unfold cropWin
    simp only [Cp.removeTrajectories]
    apply List.map_congr_left
    intro p0 _
    congr 1
    apply List.filter_congr
    intro q _
    rw [Bool.eq_iff_iff, fits_iff, hw, decide_eq_true_iff]
    constructor
    · exact fun h => h.2
    · exact fun h => ⟨fun d => ⟨fun a ha => (by cases ha), fun a ha => (by cases ha)⟩, h⟩

/-- **C275** No critical point in front of the walls is lost. -/
theorem C275_front {f : VF} (hf : f.WF) {w : Wall} (hi : Inner f w) {q : Rat × Rat}
    (hq : (IsLow f w → w.2 ≤ coord w.1 q) ∧ (¬ IsLow f w → coord w.1 q ≤ w.2)) : RealSide f w q := by
  have hax : Inc (axis f w.1) := by unfold axis; split; exacts [hf.incx, hf.incy]
  refine ⟨fun h => ?_, fun h => ?_⟩
  · obtain ⟨a, ha⟩ := hi.1 h
    refine ⟨a, ha, le_trans ?_ (hq.1 h)⟩
    obtain ⟨k, b, g1, g2, g3, -⟩ := ha
    exact le_trans (inc_lt hax g1 g2 (by omega)).le g3
  · obtain ⟨a, ha⟩ := hi.2 h
    refine ⟨a, ha, le_trans (hq.2 h) ?_⟩
    obtain ⟨k, b, g1, g2, g3, -⟩ := ha
    exact le_trans g3 (inc_lt hax g1 g2 (by omega)).le

/-- **C275** Without walls, the critical points are those detected on the field, smoothed or not. -/
theorem C275_plain (T : Tools Tr I) (i : I) {s t : Rat} (hs : 0 ≤ s) {f : VF} (hm : f.mask.any id = false) :
    (points T i [] s t f).2 = T.detect (if s = 0 then f else T.smooth f) t := by
  have key : ∀ g : VF, detectCropped T [] t g = T.detect g t := by
    intro g
    unfold detectCropped
    cases T.detect g t <;> simp
  unfold points
  rw [if_neg (not_lt.2 hs), hm, if_neg (by simp), if_pos rfl]
  by_cases h : s = 0
  · simp [h, key]
  · simp [h, key]

/-- **C275** The field of the caller is not changed when there are walls or no smoothing; fields with masked values and negative sizes of smoothing are refused. -/
theorem C275_argument_partial (T : Tools Tr I) (i : I) (ws : List Wall) (s t : Rat) (f : VF) :
    (ws ≠ [] ∨ s = 0 → (points T i ws s t f).1 = f) ∧ (f.mask.any id = true ∨ s < 0 → points T i ws s t f = (f, .error .valueError)) := by
  constructor
  · intro h
    unfold points
    split
    · rfl
    · split
      · rfl
      · split
        · rename_i h0
          rcases h with h | h
          · exact absurd h0 h
          · rw [if_neg (by simpa using h)]
        · split <;> rfl
  · rintro (h | h)
    · unfold points
      rw [h]
      simp
    · unfold points
      rw [if_pos h]

/-- **C275** With a smoothing and no wall, the field of the caller is smoothed. -/
theorem C275_argument_violated (T : Tools Tr I) (i : I) {s t : Rat} (hs : 0 < s) {f : VF} (hm : f.mask.any id = false) : (points T i [] s t f).1 = T.smooth f := by
  unfold points
  rw [if_neg (by linarith), hm, if_neg (by simp), if_pos rfl, if_pos hs.ne']

/-- The loop adds the results of the fields. -/
theorem loop_sum (T : Tools Tr I) (linear : I) (ws : List Wall) (s : Rat) (r : Rat × VF → CP Tr) (fs : List (Rat × VF)) :
    (∀ q ∈ fs, (points T linear ws s q.1 q.2).2 = .ok (r q)) → ∀ c, (pointsLoop T linear ws s c fs).2 = Cp.sumAll c (fs.map r) := by
  induction fs with
  | nil => intro _ c; rfl
  | cons q fs ih =>
    intro h c
    have hq := h q List.mem_cons_self
    unfold pointsLoop
    rw [show points T linear ws s q.1 q.2 = ((points T linear ws s q.1 q.2).1, .ok (r q)) from Prod.ext rfl hq]
    simp only
    rw [List.map_cons]
    unfold Cp.sumAll
    cases Cp.add c (r q) with
    | error e => rfl
    | ok c' =>
      simp only
      rw [ih (fun q hq => h q (List.mem_cons_of_mem _ hq)) c']

theorem loop_fields (T : Tools Tr I) (linear : I) (ws : List Wall) (s : Rat) (fs : List (Rat × VF)) (h : ws ≠ [] ∨ s = 0) : ∀ c, (pointsLoop T linear ws s c fs).1 = fs := by
  induction fs with
  | nil => intro c; rfl
  | cons q fs ih =>
    intro c
    have hq := (C275_argument_partial T linear ws s q.1 q.2).1 h
    unfold pointsLoop
    cases e : points T linear ws s q.1 q.2 with
    | mk g o =>
      rw [e] at hq
      simp only at hq
      rw [hq]
      cases o with
      | error e => rfl
      | ok r =>
        simp only
        cases Cp.add c r with
        | error e => rfl
        | ok c' => simp only; rw [ih c']

/-- **C275** The critical points of a record are those of its fields one by one, at their times.  Missing: the method given to fill the gap at the walls is
not used (see `C275_interp_violated`). -/
theorem C275_record_partial (T : Tools Tr I) (linear i : I) (ws : List Wall) {s : Rat} (hs : 0 ≤ s) (ut : Sym) {q0 : Rat × VF} {fs : List (Rat × VF)}
    (hm : ∀ q ∈ q0 :: fs, q.2.mask.any id = false) {r : Rat × VF → CP Tr} (hr : ∀ q ∈ q0 :: fs, (points T linear ws s q.1 q.2).2 = .ok (r q))
    (hv : ∀ q ∈ q0 :: fs, Valid (r q) ∧ (r q).times ≠ []) (hmg : Cp.Mergeable ((q0 :: fs).map r)) :
    ∃ c, (recordPoints T linear i ws s ut (q0 :: fs)).2 = .ok c ∧ Valid c ∧ ∀ t k p, At c t k p ↔ ∃ q ∈ q0 :: fs, At (r q) t k p := by
  obtain ⟨c, e, h1, -, -, h2⟩ := (Cp.sumAll_spec (fs.map r) (r q0) (by
    intro c hc
    rw [← List.map_cons, List.mem_map] at hc
    obtain ⟨q, hq, rfl⟩ := hc
    exact (hv q hq).1) (by
    intro c hc
    rw [← List.map_cons, List.mem_map] at hc
    obtain ⟨q, hq, rfl⟩ := hc
    exact (hv q hq).2)).1 (by rw [← List.map_cons]; exact hmg)
  refine ⟨c, ?_, h1, ?_⟩
  · unfold recordPoints
    have hany : ((q0 :: fs).any fun q => q.2.mask.any id) = false := by
      rw [List.any_eq_false]
      intro q hq
      rw [hm q hq]
      simp
    rw [if_neg (not_lt.2 hs), hany, if_neg (by simp), loop_sum T linear ws s r _ hr, List.map_cons]
    unfold Cp.sumAll
    have : Cp.add (Cp.new ut) (r q0) = .ok (r q0) := by
      unfold Cp.add
      rw [if_neg (hv q0 List.mem_cons_self).2, if_pos (show (Cp.new ut : CP Tr).times = [] from rfl)]
    rw [this]
    exact e
  · intro t k p
    rw [h2, ← List.map_cons]
    constructor
    · rintro ⟨x, hx, h⟩
      obtain ⟨q, hq, rfl⟩ := List.mem_map.1 hx
      exact ⟨q, hq, h⟩
    · rintro ⟨q, hq, h⟩
      exact ⟨r q, List.mem_map_of_mem hq, h⟩

/-- **C275** The fields of a record are not changed when there are walls or no smoothing. -/
theorem C275_record_argument_partial (T : Tools Tr I) (linear i : I) {ws : List Wall} {s : Rat} (ut : Sym) (fs : List (Rat × VF)) (h : ws ≠ [] ∨ s = 0) :
    (recordPoints T linear i ws s ut fs).1 = fs := by
  unfold recordPoints
  split
  · rfl
  · split
    · rfl
    · exact loop_fields T linear ws s fs h _

/-- **C275** For a record of one field the method given to fill the gap at the walls is not used: the result is that of the field with the default one. -/
theorem C275_interp_violated (T : Tools Tr I) (linear i : I) (ws : List Wall) {s : Rat} (hs : 0 ≤ s) (ut : Sym) {t : Rat} {f : VF} (hm : f.mask.any id = false)
    {c : CP Tr} (hc : (points T linear ws s t f).2 = .ok c) (hne : c.times ≠ []) : (recordPoints T linear i ws s ut [(t, f)]).2 = .ok c := by
  unfold recordPoints
  rw [if_neg (not_lt.2 hs), if_neg (by simp [hm]), loop_sum T linear ws s (fun _ => c) _ (by intro q hq; rw [List.mem_singleton] at hq; rw [hq]; exact hc)]
  unfold Cp.sumAll
  have : Cp.add (Cp.new ut) c = .ok c := by
    unfold Cp.add
    rw [if_neg hne, if_pos (show (Cp.new ut : CP Tr).times = [] from rfl)]
  simp only [List.map_cons, List.map_nil, this]
  rfl

/-! ### examples -/

/-- Six by two points. -/
def ex62 : VF := ⟨[0, 1, 2, 3, 4, 5], [0, 1], ⟨6, 2, fun i j => some (i + j)⟩, ⟨6, 2, fun i j => some (i * j)⟩, ⟨6, 2, fun _ _ => false⟩, Sym.mm, Sym.mm, Sym.one⟩

/-- One critical point in each column. -/
def exTools : Tools Unit Bool := ⟨fun _ _ f => .ok f, fun f => f, fun _ t => .ok ⟨fun k => [⟨Sym.mm, Sym.mm, if k = .foc then [(1 / 2, 0), (3 / 2, 0), (9 / 2, 0)] else []⟩], [t],
  Sym.one, Sym.mm, Sym.mm, fun _ => none, none⟩⟩

/-- Concrete case: a wall at 2, in the lower half: the first point is too far behind it. -/
example : Inner ex62 (true, 2) ∧ OnePerSide ex62 [(true, 2)] ∧ IsLow ex62 (true, 2) ∧
    ((points exTools true [(true, 2)] 0 7 ex62).2.toOption.map fun c => c.pts .foc) = some [⟨Sym.mm, Sym.mm, [(3 / 2, 0), (9 / 2, 0)]⟩] := by
  refine ⟨⟨fun _ => ⟨1, 1, 2, rfl, rfl, by norm_num, ?_⟩, fun h => absurd (by decide +kernel : (2 : Rat) < median ex62.ax) h⟩, List.pairwise_singleton _ _, ?_, by decide +kernel⟩
  · intro c hc
    have : c = 3 := by simpa [ex62, axis] using hc.symm
    rw [this]; norm_num
  · exact (by decide +kernel : (2 : Rat) < median ex62.ax)

/-- Concrete case: a wall on each side of x. -/
example : ((points exTools true [(true, 2), (true, 3)] 0 7 ex62).2.toOption.map fun c => c.pts .foc) = some [⟨Sym.mm, Sym.mm, [(3 / 2, 0)]⟩] := by decide +kernel

end IMT.Detect
