import Verif.Points.Lemmas
import Mathlib.Tactic.LinearCombination

/-! C24 to C29, C86, C87. -/

namespace IMT.Points

/-! ### C25 -/

/-- No number of the row lies outside of its window. -/
def Inside (ix iy iv : Option (Rat × Rat)) (r : (F × F) × Option F) : Prop :=
  (∀ a, r.1.1 = some a → Within ix a) ∧ (∀ b, r.1.2 = some b → Within iy b) ∧
    ∀ w, r.2 = some (some w) → Within iv w

theorem out_iff (i : Option (Rat × Rat)) (c : F) : out i c = false ↔ ∀ a, c = some a → Within i a := by
  rcases i with _ | i
  · simp [out, Within]
  · rcases c with _ | a
    · simp [out, ltF, gtF]
    · simp [out, ltF, gtF, Within]

/-- The test made by the code on a row. -/
def keepRow (ix iy iv : Option (Rat × Rat)) (r : (F × F) × Option F) : Bool :=
  !(out ix r.1.1 || out iy r.1.2 || (match r.2 with | none => false | some w => out iv w))

theorem keepRow_iff (ix iy iv : Option (Rat × Rat)) (r : (F × F) × Option F) :
    keepRow ix iy iv r = true ↔ Inside ix iy iv r := by
  obtain ⟨⟨a, b⟩, w⟩ := r
  unfold keepRow Inside
  simp only [Bool.not_eq_true', Bool.or_eq_false_iff, and_assoc]
  rw [out_iff, out_iff]
  apply and_congr_right; intro _
  apply and_congr_right; intro _
  rcases w with _ | w
  · simp
  · simp only [out_iff, Option.some.injEq]

theorem applyMask_rows {p : P} (h : Aligned p) {mask : List Bool} (hm : mask.length = p.xy.length) :
    (applyMask p mask).2 = .ok ⟨⟩ ∧ Aligned (applyMask p mask).1 ∧ rows (applyMask p mask).1 = sel (rows p) mask ∧
    (applyMask p mask).1.xy = sel p.xy mask := by
  unfold applyMask
  by_cases hv : p.v = []
  · rw [if_pos hv]
    refine ⟨rfl, .inl hv, ?_, rfl⟩
    unfold rows
    simp only
    rw [if_pos hv, if_pos hv, map_sel]
  · have hl : p.v.length = p.xy.length := by
      rcases h with h | h
      · exact absurd h hv
      · exact h
    rw [if_neg hv, if_neg (by simp [hl, hm])]
    have hlen := sel_length p.xy p.v mask hm.symm (by omega)
    refine ⟨rfl, .inr hlen.symm, ?_, rfl⟩
    unfold rows
    simp only
    rw [if_neg hv]
    by_cases hs : sel p.v mask = []
    · rw [if_pos hs]
      rw [hs, List.length_nil] at hlen
      rw [List.length_eq_zero_iff.mp hlen, ← sel_zipWith _ _ _ _ hm.symm (by omega), hs]
      simp
    · rw [if_neg hs, sel_zipWith _ _ _ _ hm.symm (by omega)]

theorem cropMask_rows (p : P) (ix iy iv : Option (Rat × Rat)) :
    cropMask p ix iy iv = (rows p).map fun r => !keepRow ix iy iv r := by
  unfold cropMask rows
  by_cases hv : p.v = []
  · rw [if_pos hv, if_pos hv, List.map_map]
    apply List.map_congr_left
    intro c _
    simp [keepRow]
  · rw [if_neg hv, if_neg hv, List.map_zipWith]
    congr 1
    funext c w
    simp [keepRow]

theorem crop_aligned_eq {p : P} (h : Aligned p) (ix iy iv : Option (Rat × Rat)) :
    crop p ix iy iv = applyMask p (cropMask p ix iy iv) := by
  unfold crop
  rw [if_neg]
  rintro ⟨h1, h2⟩
  rcases h with h | h
  · exact h1 h
  · exact h2 h

theorem cropMask_length {p : P} (h : Aligned p) (ix iy iv : Option (Rat × Rat)) :
    (cropMask p ix iy iv).length = p.xy.length := by
  rw [cropMask_rows, List.length_map, rows_length h]

/-- C25: cropping keeps, in order and with their values, exactly the rows of which no number lies outside the closed
windows.  Missing: a NaN lies in no window but is kept (`C25_nan_violated`). -/
theorem C25_crop_partial {p : P} (h : Aligned p) (ix iy iv : Option (Rat × Rat)) :
    (crop p ix iy iv).2 = .ok ⟨⟩ ∧
    ∃ keep : (F × F) × Option F → Bool, (∀ r, keep r = true ↔ Inside ix iy iv r) ∧
      rows (crop p ix iy iv).1 = (rows p).filter keep := by
  rw [crop_aligned_eq h]
  obtain ⟨h1, -, h2, -⟩ := applyMask_rows h (cropMask_length h ix iy iv)
  refine ⟨h1, keepRow ix iy iv, keepRow_iff ix iy iv, ?_⟩
  rw [h2, cropMask_rows, sel_map]
  simp

/-- C25 is violated for NaN: whatever the window, a point without coordinates stays. -/
theorem C25_nan_violated (ix : Rat × Rat) (ux uy uv : Sym) :
    crop ⟨[(none, some 0)], [], ux, uy, uv⟩ (some ix) none none = (⟨[(none, some 0)], [], ux, uy, uv⟩, .ok ⟨⟩) := by
  simp [crop, applyMask, cropMask, sel, out, ltF, gtF]

theorem sel_range {α : Type} (l : List α) (f : Nat → Bool) (s : Nat) :
    sel l ((List.range' s l.length).map f) = ((l.zipIdx s).filter fun q => !f q.2).map Prod.fst := by
  induction l generalizing s with
  | nil => rfl
  | cons a l ih =>
    rw [List.length_cons, List.range'_succ, List.map_cons, sel_cons, List.zipIdx_cons, List.filter_cons, ih]
    cases f s <;> simp

theorem slice_spec {α : Type} (l : List α) (a b s : Nat) :
    ((l.zipIdx s).filter fun q => decide (a ≤ q.2 ∧ q.2 < b)).map Prod.fst = slice l (a - s) (b - s) := by
  unfold slice
  induction l generalizing s with
  | nil => simp
  | cons x l ih =>
    rw [List.zipIdx_cons, List.filter_cons]
    simp only [decide_eq_true_eq]
    have := ih (s + 1)
    by_cases h1 : a ≤ s
    · by_cases h2 : s < b
      · rw [if_pos ⟨h1, h2⟩, List.map_cons, this, show a - s = 0 by omega, show b - s = (b - (s + 1)) + 1 by omega,
          show a - (s + 1) = 0 by omega, List.take_succ_cons]
        simp
      · rw [if_neg (fun h => h2 h.2), this, show b - s = 0 by omega, show b - (s + 1) = 0 by omega]
        simp
    · rw [if_neg (fun h => h1 h.1), this, show a - s = (a - (s + 1)) + 1 by omega]
      by_cases h2 : s < b
      · rw [show b - s = (b - (s + 1)) + 1 by omega, List.take_succ_cons, List.drop_succ_cons]
      · rw [show b - s = 0 by omega, show b - (s + 1) = 0 by omega]
        simp

/-- C25 (by indices): cropping with an index window keeps the rows `a`, ..., `b - 1`. -/
theorem C25_crop_ind {p : P} (h : Aligned p) (a b : Nat) :
    (cropInd p a b).2 = .ok ⟨⟩ ∧ rows (cropInd p a b).1 = slice (rows p) a b := by
  unfold cropInd
  obtain ⟨h1, -, h2, -⟩ := applyMask_rows (mask := (List.range p.xy.length).map fun k => decide (¬ (a ≤ k ∧ k < b))) h
    (by simp)
  refine ⟨h1, ?_⟩
  rw [h2, ← rows_length h, List.range_eq_range', sel_range]
  have := slice_spec (rows p) a b 0
  simp only [Nat.sub_zero] at this
  rw [← this]
  congr 2
  funext q
  simp only [decide_not, Bool.not_not]

/-! ### C24 -/

theorem setXY_v {p : P} (h : Aligned p) {l : List (F × F)} : (setXY p l).v = if l.length = p.xy.length then p.v else [] := by
  unfold setXY
  simp only
  by_cases hl : l.length = p.xy.length
  · rw [if_pos hl]
    rcases h with h | h
    · rw [h]; split <;> rfl
    · rw [if_neg (by omega)]
  · rw [if_neg hl]
    rcases h with h | h
    · rw [h]; split <;> rfl
    · rw [if_pos (by omega)]

theorem setXY_same {p : P} (h : Aligned p) {l : List (F × F)} (hl : l.length = p.xy.length) :
    setXY p l = { p with xy := l } := by
  have hv := setXY_v h (l := l)
  rw [if_pos hl] at hv
  unfold setXY at hv ⊢
  simp only at hv ⊢
  rw [hv]

theorem add_aligned {p : P} {pt : F × F} {v : Option F}
    (hv : (v = none ∧ p.v = []) ∨ (v ≠ none ∧ p.v.length = p.xy.length)) :
    (add p pt v).2 = .ok ⟨⟩ ∧ Aligned (add p pt v).1 := by
  unfold add
  rcases hv with ⟨h1, h2⟩ | ⟨h1, h2⟩
  · rw [if_neg (fun h => h.2 h2), h1]
    exact ⟨rfl, .inl (by simp [h2])⟩
  · rw [if_neg (fun h => h1 h.1)]
    obtain ⟨w, rfl⟩ := Option.ne_none_iff_exists'.mp h1
    exact ⟨rfl, .inr (by simp [h2])⟩

theorem remove_aligned {p : P} (h : Aligned p) (inds : List Int) : Aligned (remove p inds).1 := by
  unfold remove
  split
  · split
    · split
      · rename_i q hq; exact setV_aligned hq
      · exact setXY_aligned _ _
    · exact setXY_aligned _ _
  · exact h

theorem key_length {p : P} (h : Aligned p) {r : Ref} (hr : r = .v → p.v ≠ []) : (key p r).length = p.xy.length := by
  cases r
  · simp [key]
  · simp [key]
  · rcases h with h | h
    · exact absurd h (hr rfl)
    · exact h

theorem take_nil {α : Type} (o : List Nat) : take ([] : List α) o = [] := by
  unfold take
  simp

theorem sort_eq {p : P} (h : Aligned p) {r : Ref} (hr : r = .v → p.v ≠ []) :
    sort p r = ({ p with xy := take p.xy (argsort (key p r)), v := take p.v (argsort (key p r)) }, .ok ⟨⟩) := by
  have hkl := key_length h hr
  have hlt : ∀ i ∈ argsort (key p r), i < p.xy.length := fun i hi => hkl ▸ argsort_lt hi
  have hlen : (take p.xy (argsort (key p r))).length = p.xy.length := by
    rw [take_length hlt, (argsort_perm _).length_eq, List.length_range, hkl]
  have he : setXY p (take p.xy (argsort (key p r))) = { p with xy := take p.xy (argsort (key p r)) } :=
    setXY_same h hlen
  unfold sort
  rw [if_neg (fun hh => hr hh.1 hh.2), if_neg]
  swap
  · rintro ⟨rfl, h2⟩
    rcases h with h | h
    · exact hr rfl h
    · exact h2 h
  simp only [he]
  by_cases hz : p.v.length = (take p.xy (argsort (key p r))).length
  · rw [if_pos hz]
  · rw [if_neg hz]
    have hv : p.v = [] := by
      rcases h with h | h
      · exact h
      · exact absurd (h.trans hlen.symm) hz
    rw [hv, take_nil]

theorem sort_rows {p : P} (h : Aligned p) {r : Ref} (hr : r = .v → p.v ≠ []) :
    (sort p r).2 = .ok ⟨⟩ ∧ Aligned (sort p r).1 ∧ rows (sort p r).1 = take (rows p) (argsort (key p r)) ∧
    key (sort p r).1 r = take (key p r) (argsort (key p r)) := by
  have hkl := key_length h hr
  have hlt : ∀ i ∈ argsort (key p r), i < p.xy.length := fun i hi => hkl ▸ argsort_lt hi
  have hlen : (take p.xy (argsort (key p r))).length = p.xy.length := by
    rw [take_length hlt, (argsort_perm _).length_eq, List.length_range, hkl]
  rw [sort_eq h hr]
  refine ⟨rfl, ?_, ?_, ?_⟩
  · rcases h with h | h
    · left; simp only; rw [h, take_nil]
    · right
      simp only
      rw [hlen, take_length (fun i hi => h ▸ hlt i hi), (argsort_perm _).length_eq, List.length_range, hkl]
  · unfold rows
    simp only
    by_cases hv : p.v = []
    · rw [if_pos (by rw [hv, take_nil]), if_pos hv]
      exact take_map _ _ _
    · have hl : p.v.length = p.xy.length := by
        rcases h with h | h
        · exact absurd h hv
        · exact h
      rw [if_neg hv, if_neg]
      · exact take_zipWith _ _ _ _ hlt hl.symm
      · intro h0
        have := congrArg List.length h0
        rw [take_length (fun i hi => hl ▸ hlt i hi), (argsort_perm _).length_eq, List.length_range, hkl, ← hl] at this
        exact hv (List.length_eq_zero_iff.mp this)
  · cases r
    · exact take_map _ _ _
    · exact take_map _ _ _
    · rfl

theorem sort_error {p : P} {r : Ref} (hr : r = .v) (hv : p.v = []) : sort p r = (p, .error .valueError) := by
  unfold sort
  rw [if_pos ⟨hr, hv⟩]

theorem removeEach_aligned (l : List Nat) {p : P} (h : Aligned p) : Aligned (removeEach p l).1 := by
  induction l generalizing p with
  | nil => exact h
  | cons i l ih =>
    unfold removeEach
    have := remove_aligned h [(i : Int)]
    split
    · rename_i q x hq; rw [hq] at this; exact ih this
    · rename_i q x hq; rw [hq] at this; exact this

theorem cut_aligned {p q : P} {ix iy : Option (Rat × Rat)} (hq : cut p ix iy = .ok q) : Aligned q := by
  unfold cut at hq
  split at hq
  · cases hq
  · simp only at hq
    split at hq
    · cases hq; exact setXY_aligned _ _
    · split at hq
      · cases hq
      · exact setV_aligned hq

/-- An addition respects the set: a value is given exactly when the points have values (either is fine on an empty
set). -/
def Proper (p : P) : Op → Prop
  | .add _ v => (v = none ∧ p.v = []) ∨ (v ≠ none ∧ p.v.length = p.xy.length)
  | _ => True

theorem run_aligned {p : P} (h : Aligned p) {o : Op} (ho : Proper p o) : Aligned (o.run p).1 := by
  cases o with
  | add pt v => exact (add_aligned ho).2
  | remove inds => exact remove_aligned h inds
  | crop ix iy iv =>
    show Aligned (crop p ix iy iv).1
    rw [crop_aligned_eq h]
    exact (applyMask_rows h (cropMask_length h ix iy iv)).2.1
  | cropInd a b => exact (applyMask_rows h (by simp)).2.1
  | cut ix iy =>
    show Aligned (match cut p ix iy with | .ok q => (q, Except.ok PUnit.unit) | .error e => (p, .error e)).1
    split
    · rename_i q hq; exact cut_aligned hq
    · exact h
  | scale sx sy sv =>
    rcases h with h | h
    · left; show List.map _ _ = []; rw [h]; rfl
    · right; show (List.map _ _).length = (List.map _ _).length; simp [h]
  | sort r =>
    by_cases hr : r = .v → p.v ≠ []
    · exact (sort_rows h hr).2.1
    · have : r = .v ∧ p.v = [] := by
        by_contra hc
        exact hr fun e e' => hc ⟨e, e'⟩
      show Aligned (sort p r).1
      rw [sort_error this.1 this.2]
      exact h
  | removeNans =>
    show Aligned (removeNans p).1
    unfold removeNans
    split
    · split <;> exact h
    · exact removeEach_aligned _ h
  | setOrigin x y =>
    rcases h with h | h
    · exact .inl h
    · right; show p.v.length = (List.map _ _).length; simp [h]
  | reverse => exact setXY_aligned _ _

/-- Every addition of the history respects the set it is applied to. -/
def ProperHist (p : P) : List Op → Prop
  | [] => True
  | o :: h => Proper p o ∧ ProperHist (o.run p).1 h

/-- The state after a history. -/
def after (p : P) (h : List Op) : P := h.foldl (fun s o => (o.run s).1) p

/-- C24: histories of operations, refused ones included, keep no value or one value per point, provided every addition
gives a value exactly when the set has values.  Missing: the other additions, `C24_add_missing_violated` and
`C24_add_extra_violated`. -/
theorem C24_history_partial (h : List Op) {p : P} (hp : Aligned p) (hh : ProperHist p h) : Aligned (after p h) := by
  induction h generalizing p with
  | nil => exact hp
  | cons o h ih => exact ih (run_aligned hp hh.1) hh.2

/-- C24 is violated: adding a point without value to any set with values raises ValueError, but the point has been
stored. -/
theorem C24_add_missing_violated {p : P} (h : Aligned p) (hv : p.v ≠ []) (pt : F × F) :
    (add p pt none).2 = .error .valueError ∧ ¬ Aligned (add p pt none).1 ∧ (add p pt none).1.xy = p.xy ++ [pt] := by
  unfold add
  rw [if_pos ⟨rfl, hv⟩]
  refine ⟨rfl, ?_, rfl⟩
  rintro (h' | h')
  · exact hv h'
  · rcases h with h | h
    · exact hv h
    · simp only [List.length_append, List.length_singleton] at h'
      omega

/-- C24 is violated: adding a point with a value to any non-empty set without values is accepted and leaves one value
for several points. -/
theorem C24_add_extra_violated {p : P} (hv : p.v = []) (hx : p.xy ≠ []) (pt : F × F) (w : F) :
    (add p pt (some w)).2 = .ok ⟨⟩ ∧ ¬ Aligned (add p pt (some w)).1 := by
  unfold add
  rw [if_neg (by simp)]
  refine ⟨rfl, ?_⟩
  have := List.length_pos_iff.mpr hx
  rintro (h' | h')
  · simp at h'
  · simp only [Option.toList_some, hv, List.nil_append, List.length_singleton, List.length_append] at h'
    omega

/-! ### C26 -/

/-- Strictly inside all the given intervals; NaN is inside of no interval. -/
def StrictlyIn (i : Option (Rat × Rat)) (c : F) : Prop :=
  match i with
  | none => True
  | some i => ∃ a, c = some a ∧ i.1 < a ∧ a < i.2

theorem inside_iff (i : Option (Rat × Rat)) (c : F) : inside i c = true ↔ StrictlyIn i c := by
  rcases i with _ | i
  · simp [inside, StrictlyIn]
  · rcases c with _ | a
    · simp [inside, StrictlyIn, ltF, gtF]
    · simp [inside, StrictlyIn, ltF, gtF]

theorem filter_full {α : Type} {l : List α} {f : α → Bool} (h : (l.filter f).length = l.length) : l.filter f = l :=
  (List.filter_sublist (p := f)).eq_of_length h

/-- C26: with at least one interval the positions that are kept are exactly those which are not strictly inside, in
order; when nothing is removed, or there are no values, nothing else changes.  Missing: the values, see
`C26_values_violated`; a call without interval, see `C26_no_interval_violated`. -/
theorem C26_cut_partial {p : P} (h : Aligned p) {ix iy : Option (Rat × Rat)} (hi : ix ≠ none ∨ iy ≠ none) :
    ∃ q, cut p ix iy = .ok q ∧ q.ux = p.ux ∧ q.uy = p.uy ∧ q.uv = p.uv ∧
    (∃ keep : F × F → Bool, (∀ c, keep c = true ↔ ¬ (StrictlyIn ix c.1 ∧ StrictlyIn iy c.2)) ∧
      q.xy = p.xy.filter keep) ∧
    (q.xy = p.xy → q = p) ∧ (p.v = [] → q.v = []) := by
  unfold cut
  rw [if_neg (by rintro ⟨h1, h2⟩; rcases hi with hi | hi <;> contradiction)]
  simp only
  have hk : ∃ keep : F × F → Bool, (∀ c, keep c = true ↔ ¬ (StrictlyIn ix c.1 ∧ StrictlyIn iy c.2)) ∧
      sel p.xy (p.xy.map fun c => inside ix c.1 && inside iy c.2) = p.xy.filter keep := by
    refine ⟨fun c => !(inside ix c.1 && inside iy c.2), ?_, sel_map _ _⟩
    intro c
    rw [← inside_iff, ← inside_iff]
    simp only [Bool.not_eq_true', Bool.and_eq_false_iff]
    cases inside ix c.1 <;> cases inside iy c.2 <;> simp
  set l := sel p.xy (p.xy.map fun c => inside ix c.1 && inside iy c.2) with hl
  have hv := setXY_v h (l := l)
  by_cases hlen : l.length = p.xy.length
  · have hlp : l = p.xy := by
      obtain ⟨keep, -, hk2⟩ := hk
      rw [hk2] at hlen ⊢
      exact filter_full hlen
    rw [if_pos hlen] at hv
    have hq : setXY p l = p := by rw [setXY_same h hlen, hlp]
    rw [hq]
    by_cases hpv : p.v = []
    · rw [if_pos hpv]
      exact ⟨p, rfl, rfl, rfl, rfl, by rw [hlp] at hk; exact hk, fun _ => rfl, fun _ => hpv⟩
    · have hpl : p.v.length = p.xy.length := by
        rcases h with h | h
        · exact absurd h hpv
        · exact h
      rw [if_neg hpv, if_neg (by simp [hpl])]
      have hsel : sel p.v (p.xy.map fun c => inside ix c.1 && inside iy c.2) = p.v := by
        have hs := sel_length p.xy p.v (p.xy.map fun c => inside ix c.1 && inside iy c.2) (by simp) (by simp [hpl])
        rw [← hl, hlen] at hs
        have hsub : (sel p.v (p.xy.map fun c => inside ix c.1 && inside iy c.2)).Sublist p.v := by
          unfold sel
          refine ((List.filter_sublist).map _).trans ?_
          rw [List.map_fst_zip (by simp [hpl])]
        exact hsub.eq_of_length (by omega)
      rw [hsel]
      unfold setV
      rw [if_pos (.inr hpl)]
      exact ⟨p, rfl, rfl, rfl, rfl, by rw [hlp] at hk; exact hk, fun _ => rfl, fun h => h⟩
  · rw [if_neg hlen] at hv
    rw [if_pos hv]
    refine ⟨_, rfl, rfl, rfl, rfl, hk, ?_, fun _ => hv⟩
    intro he
    exact absurd (congrArg List.length he) hlen

/-- C26 is violated: for every set with values, as soon as one point is removed the values of all the others are
lost. -/
theorem C26_values_violated {p q : P} (h : Aligned p) {ix iy : Option (Rat × Rat)} (hq : cut p ix iy = .ok q)
    (hr : q.xy ≠ p.xy) : q.v = [] := by
  unfold cut at hq
  split at hq
  · cases hq
  · simp only at hq
    have hv := setXY_v h (l := sel p.xy (p.xy.map fun c => inside ix c.1 && inside iy c.2))
    by_cases hlen : (sel p.xy (p.xy.map fun c => inside ix c.1 && inside iy c.2)).length = p.xy.length
    · exfalso
      apply hr
      have hlp : sel p.xy (p.xy.map fun c => inside ix c.1 && inside iy c.2) = p.xy := by
        rw [sel_map] at hlen ⊢
        exact filter_full hlen
      split at hq
      · cases hq; exact hlp
      · split at hq
        · cases hq
        · unfold setV at hq
          split at hq
          · cases hq; exact hlp
          · cases hq
    · rw [if_neg hlen] at hv
      rw [if_pos hv] at hq
      cases hq
      exact hv

/-- C26 is violated: without interval nothing should be removed, but the call raises TypeError. -/
theorem C26_no_interval_violated (p : P) : cut p none none = .error .typeError := by
  unfold cut
  rw [if_pos ⟨rfl, rfl⟩]

/-! ### C27 -/

/-- A quantity given as a number in a unit, in SI base units. -/
def si (u : Sym) (c : F) : F := c.map (· * u.size)

/-- C27: for sets in the same units which both have values or both have none, the sum is the concatenation and neither
operand changes.  Missing: other units, `C27_units_violated`, `C27_operand_violated`. -/
theorem C27_sum_partial {p q : P} (hp : Aligned p) (hq : Aligned q) (hv : p.v = [] ↔ q.v = [])
    (hx : p.ux = q.ux) (hy : p.uy = q.uy) (hw : p.uv = q.uv) (h0 : p.ux.size ≠ 0) (h1 : p.uy.size ≠ 0)
    (h2 : p.uv.size ≠ 0) :
    (plus p q).1 = q ∧ ∃ r, (plus p q).2 = .ok r ∧ rows r = rows p ++ rows q ∧ r.ux = p.ux ∧ r.uy = p.uy ∧
      r.uv = p.uv := by
  have hconv : converted p q = q := by
    unfold converted fact
    rw [hx] at h0; rw [hy] at h1
    rw [hx, hy, div_self h0, div_self h1]
    have : (fun c : F × F => (c.1.map (· * (1 : Rat)), c.2.map (· * (1 : Rat)))) = id := by
      funext ⟨a, b⟩; simp
    rw [this]; simp
  have hvals : q.v.map (Option.map (· * fact p.uv q.uv)) = q.v := by
    unfold fact
    rw [hw] at h2
    rw [hw, div_self h2]
    simp
  unfold plus
  by_cases hpe : p.xy = []
  · rw [if_pos hpe]
    refine ⟨rfl, q, rfl, ?_, hx.symm, hy.symm, hw.symm⟩
    have : rows p = [] := by
      rw [← List.length_eq_zero_iff, rows_length hp, hpe]; rfl
    rw [this]; rfl
  rw [if_neg hpe]
  by_cases hqe : q.xy = []
  · rw [if_pos hqe]
    refine ⟨rfl, p, rfl, ?_, rfl, rfl, rfl⟩
    have : rows q = [] := by
      rw [← List.length_eq_zero_iff, rows_length hq, hqe]; rfl
    rw [this]; simp
  rw [if_neg hqe, if_neg (by rw [hx, hy, hw]; simp [Sym.Compat]), hconv, hvals]
  unfold new setV
  by_cases hpv : p.v = []
  · have hqv := hv.mp hpv
    rw [hpv, hqv, if_pos (.inl rfl)]
    refine ⟨rfl, _, rfl, ?_, rfl, rfl, rfl⟩
    simp [rows, hpv, hqv]
  · have hqv : q.v ≠ [] := fun h => hpv (hv.mpr h)
    have l1 : p.v.length = p.xy.length := by
      rcases hp with h | h
      · exact absurd h hpv
      · exact h
    have l2 : q.v.length = q.xy.length := by
      rcases hq with h | h
      · exact absurd h hqv
      · exact h
    rw [if_pos (.inr (by simp [l1, l2]))]
    refine ⟨rfl, _, rfl, ?_, rfl, rfl, rfl⟩
    unfold rows
    simp only
    rw [if_neg (by simp [hpv]), if_neg hpv, if_neg hqv, List.zipWith_append l1.symm]

/-- C27 (refusal): a set with values cannot be added to a non-empty set without. -/
theorem C27_mixed_refused {p q : P} (hp : p.xy ≠ []) (hq : q.xy ≠ []) (hv : p.v = []) (hqv : q.v.length = q.xy.length)
    (hc : p.ux.Compat q.ux ∧ p.uy.Compat q.uy ∧ p.uv.Compat q.uv) : (plus p q).2 = .error .valueError := by
  unfold plus
  rw [if_neg hp, if_neg hq, if_neg (by simpa using hc)]
  unfold new setV
  have h1 := List.length_pos_iff.mpr hp
  have h2 := List.length_pos_iff.mpr hq
  rw [if_neg]
  simp only [converted, hv, List.nil_append, List.length_map, List.length_append]
  omega

/-- C27 is violated: a point at 1 mm added to a set in metres is found at 1000 m. -/
theorem C27_units_violated :
    (plus ⟨[(some 0, some 0)], [], .m, .m, .one⟩ ⟨[(some 1, some 0)], [], .mm, .m, .one⟩).2 =
      .ok ⟨[(some 0, some 0), (some 1000, some 0)], [], .m, .m, .one⟩ ∧ si .mm (some 1) ≠ si .m (some 1000) := by
  decide +kernel

/-- C27 is violated: whenever the x units differ in size, a right operand with a point off the y axis is changed. -/
theorem C27_operand_violated {p q : P} (hp : p.xy ≠ []) (hc : p.ux.Compat q.ux ∧ p.uy.Compat q.uy ∧ p.uv.Compat q.uv)
    (hs : p.ux.size ≠ q.ux.size) (hs0 : q.ux.size ≠ 0) {a : Rat} {b : F} (ha : a ≠ 0) (hm : (some a, b) ∈ q.xy) :
    (plus p q).1 ≠ q := by
  have hq : q.xy ≠ [] := List.ne_nil_of_mem hm
  unfold plus
  rw [if_neg hp, if_neg hq, if_neg (by simpa using hc)]
  simp only
  intro h
  have hxy := congrArg P.xy h
  unfold converted at hxy
  simp only at hxy
  have := List.map_eq_map_iff (f := fun c : F × F => (c.1.map (· * fact p.ux q.ux), c.2.map (· * fact p.uy q.uy)))
    (g := id) (l := q.xy) |>.mp (by rw [hxy, List.map_id]) _ hm
  simp only [Option.map_some, id, Prod.mk.injEq, Option.some.injEq] at this
  have h1 : fact p.ux q.ux = 1 := by
    have := this.1
    have h2 : a * (fact p.ux q.ux - 1) = 0 := by linear_combination this
    rcases mul_eq_zero.mp h2 with h | h
    · exact absurd h ha
    · linarith
  unfold fact at h1
  rw [div_eq_one_iff_eq hs0] at h1
  exact hs h1

/-! ### C28 -/

/-- C28: the coordinates of every point are exchanged, values stay, and doing it twice gives the set back.  Missing: the
units, `C28_units_violated`. -/
theorem C28_reverse_partial {p : P} (h : Aligned p) :
    rows (reverse p) = (rows p).map (fun r => ((r.1.2, r.1.1), r.2)) ∧ reverse (reverse p) = p := by
  have he : reverse p = { p with xy := p.xy.map fun c => (c.2, c.1) } := setXY_same h (by simp)
  constructor
  · rw [he]
    unfold rows
    simp only
    split
    · simp [Function.comp_def]
    · rw [List.zipWith_map_left, List.map_zipWith]
  · have ha : Aligned (reverse p) := setXY_aligned _ _
    have e2 : reverse (reverse p) = { reverse p with xy := (reverse p).xy.map fun c => (c.2, c.1) } :=
      setXY_same ha (by simp)
    rw [e2, he]
    cases p
    simp [Function.comp_def]

/-- C28 is violated: for every set whose two units differ, the units are not exchanged. -/
theorem C28_units_violated {p : P} (h : p.ux ≠ p.uy) : (reverse p).ux ≠ p.uy := h

/-! ### C86, C87 -/

/-- C86: sorting rearranges the points with their values and puts them in increasing order of the reference (NaN
last). -/
theorem C86_sort {p : P} (h : Aligned p) {r : Ref} (hr : r = .v → p.v ≠ []) :
    (sort p r).2 = .ok ⟨⟩ ∧ (rows (sort p r).1).Perm (rows p) ∧
    (key (sort p r).1 r).Pairwise (fun a b => leF a b = true) := by
  obtain ⟨h1, -, h2, h3⟩ := sort_rows h hr
  refine ⟨h1, ?_, ?_⟩
  · rw [h2]
    apply take_perm
    have hkl : (key p r).length = (rows p).length := by
      rw [rows_length h]
      cases r
      · simp [key]
      · simp [key]
      · rcases h with h | h
        · exact absurd h (hr rfl)
        · exact h
    rw [← hkl]
    exact argsort_perm _
  · rw [h3]; exact argsort_sorted _

theorem setXY_v_nil (p : P) (l : List (F × F)) (h : p.v = []) : (setXY p l).v = [] := by
  unfold setXY
  simp only
  split
  · rfl
  · exact h

/-- C87: the points at the given indices are removed, the others stay in order.  Missing: their values,
`C87_values_violated`. -/
theorem C87_remove_partial {p : P} (h : Aligned p) {inds : List Int} (hi : inRange p.xy.length inds = true) :
    (remove p inds).2 = .ok ⟨⟩ ∧ (remove p inds).1.xy = deleteAll p.xy inds ∧
    (p.v = [] → rows (remove p inds).1 = deleteAll (rows p) inds) := by
  unfold remove
  have hle : (deleteAll p.xy inds).length ≤ p.xy.length := by
    unfold deleteAll
    rw [List.length_map]
    exact (List.length_filter_le _ _).trans (by simp)
  have hv := setXY_v h (l := deleteAll p.xy inds)
  have hne : (setXY p (deleteAll p.xy inds)).v.length ≠ (deleteAll p.xy inds).length + 1 := by
    rw [hv]
    by_cases hl : (deleteAll p.xy inds).length = p.xy.length
    · rw [if_pos hl]
      rcases h with h | h
      · rw [h]; simp
      · omega
    · rw [if_neg hl]; simp
  rw [if_pos hi, if_neg hne]
  refine ⟨rfl, rfl, ?_⟩
  intro hpv
  unfold rows
  rw [if_pos (setXY_v_nil p _ hpv), if_pos hpv]
  show (deleteAll p.xy inds).map _ = _
  unfold deleteAll
  rw [List.length_map]
  simp only [List.zipIdx_map, List.filter_map, List.map_map]
  rfl

/-- C87 is violated: for every set with values and every removal of at least one point, all the values are lost. -/
theorem C87_values_violated {p : P} (h : Aligned p) {inds : List Int} (hi : inRange p.xy.length inds = true)
    (hr : deleteAll p.xy inds ≠ p.xy) : (remove p inds).1.v = [] := by
  unfold remove
  have hlt : (deleteAll p.xy inds).length ≠ p.xy.length := by
    intro hl
    apply hr
    have hsub : (deleteAll p.xy inds).Sublist p.xy := by
      unfold deleteAll
      refine ((List.filter_sublist).map _).trans ?_
      rw [List.zipIdx_map_fst]
    exact hsub.eq_of_length hl
  have hv := setXY_v h (l := deleteAll p.xy inds)
  rw [if_neg hlt] at hv
  rw [if_pos hi, if_neg (by rw [hv]; simp)]
  exact hv

/-! ### C89 -/

theorem rows_map {p : P} (f : F × F → F × F) (g : F → F) :
    rows { p with xy := p.xy.map f, v := p.v.map g } = (rows p).map fun r => (f r.1, r.2.map g) := by
  unfold rows
  by_cases hv : p.v = []
  · rw [if_pos hv, if_pos (by simp [hv]), List.map_map, List.map_map]
    rfl
  · rw [if_neg hv, if_neg (by simpa using hv), List.map_zipWith, List.zipWith_map]
    rfl

/-- C89: `scale` multiplies each abscissa, ordinate and value by its own factor, point by point. -/
theorem C89_scale {p : P} (h : Aligned p) (sx sy sv : Rat) :
    Aligned (scale p sx sy sv) ∧
    (rows (scale p sx sy sv)).length = (rows p).length ∧
    ∀ (k : Nat) x y w, (rows p)[k]? = some ((x, y), w) →
      (rows (scale p sx sy sv))[k]? = some ((x.map (· * sx), y.map (· * sy)), w.map (Option.map (· * sv))) := by
  have hr := rows_map (p := p) (fun c => (c.1.map (· * sx), c.2.map (· * sy))) (Option.map (· * sv))
  refine ⟨?_, ?_, ?_⟩
  · rcases h with h | h
    · exact .inl (by simp [scale, h])
    · exact .inr (by simp [scale, h])
  · unfold scale
    rw [hr, List.length_map]
  · intro k x y w hk
    unfold scale
    rw [hr, List.getElem?_map, hk]
    rfl

/-- C89: after `set_origin(x0, y0)` each point is given relative to the new origin; an absent coordinate leaves that
direction unchanged; values are unchanged. -/
theorem C89_set_origin {p : P} (h : Aligned p) (ox oy : Option Rat) :
    Aligned (setOrigin p ox oy) ∧
    (rows (setOrigin p ox oy)).length = (rows p).length ∧
    ∀ (k : Nat) x y w, (rows p)[k]? = some ((some x, some y), w) →
      ∃ x' y', (rows (setOrigin p ox oy))[k]? = some ((some x', some y'), w) ∧
        (∀ a, ox = some a → x' + a = x) ∧ (ox = none → x' = x) ∧ (∀ b, oy = some b → y' + b = y) ∧ (oy = none → y' = y) := by
  have hr := rows_map (p := p) (fun c => (c.1.map (· - ox.getD 0), c.2.map (· - oy.getD 0))) id
  have hid : ({ p with xy := p.xy.map fun c => (c.1.map (· - ox.getD 0), c.2.map (· - oy.getD 0)), v := p.v.map id } : P) =
      setOrigin p ox oy := by
    rw [List.map_id]; rfl
  rw [hid] at hr
  refine ⟨?_, ?_, ?_⟩
  · rcases h with h | h
    · exact .inl h
    · exact .inr (by simp [setOrigin, h])
  · rw [hr, List.length_map]
  · intro k x y w hk
    refine ⟨x - ox.getD 0, y - oy.getD 0, ?_, ?_, ?_, ?_, ?_⟩
    · rw [hr, List.getElem?_map, hk]
      simp
    · rintro a rfl; simp
    · rintro rfl; simp
    · rintro a rfl; simp
    · rintro rfl; simp

/-! ### C29 -/

variable {O : Type}

/-- The points are consistent and there is one orientation entry per point. -/
def OAligned (p : OP O) : Prop := Aligned p.pts ∧ p.ori.length = p.pts.xy.length

/-- An addition respects the values of the set. -/
def OProper (p : OP O) : OOp O → Prop
  | .add _ _ v => (v = none ∧ p.pts.v = []) ∨ (v ≠ none ∧ p.pts.v.length = p.pts.xy.length)
  | _ => True

theorem orun_aligned {p : OP O} (h : OAligned p) {o : OOp O} (ho : OProper p o) : OAligned (o.run p).1 := by
  cases o with
  | add pt o v =>
    obtain ⟨h1, h2⟩ := add_aligned (pt := pt) ho
    have hxy : (add p.pts pt v).1.xy = p.pts.xy ++ [pt] := by
      unfold add; split <;> rfl
    show OAligned (OP.add p pt o v).1
    unfold OP.add
    split
    · rename_i q x hq
      rw [hq] at h2 hxy
      exact ⟨h2, by simp only at hxy ⊢; rw [hxy]; simp [h.2]⟩
    · rename_i q e hq
      rw [hq] at h1
      cases h1
  | remove inds =>
    show OAligned (OP.remove p inds).1
    unfold OP.remove
    by_cases hi : inRange p.pts.xy.length inds = true
    · obtain ⟨h1, h2, -⟩ := C87_remove_partial h.1 hi
      have h3 := remove_aligned h.1 inds
      split
      · rename_i q x hq
        rw [hq] at h2 h3
        rw [h.2, if_pos hi]
        refine ⟨h3, ?_⟩
        simp only at h2 ⊢
        rw [h2]
        exact deleteAll_length _ _ _ h.2
      · rename_i q e hq
        rw [hq] at h1
        cases h1
    · have he : remove p.pts inds = (p.pts, .error .indexError) := by
        unfold remove
        rw [if_neg hi]
      rw [he]
      exact h
  | crop ix iy iv =>
    show OAligned (OP.crop p ix iy iv).1
    unfold OP.crop
    split
    · exact h
    · rw [crop_aligned_eq h.1]
      obtain ⟨h1, h2, -, h4⟩ := applyMask_rows h.1 (cropMask_length h.1 ix iy iv)
      split
      · rename_i q x hq
        rw [hq] at h2 h4
        rw [if_neg (by rw [cropMask_length h.1, h.2]; simp)]
        refine ⟨h2, ?_⟩
        simp only at h4 ⊢
        rw [h4]
        exact sel_length _ _ _ (by rw [cropMask_length h.1, h.2]) (by rw [cropMask_length h.1])
      · rename_i q e hq
        rw [hq] at h1
        cases h1

/-- Every addition of the history respects the set it is applied to. -/
def OProperHist (p : OP O) : List (OOp O) → Prop
  | [] => True
  | o :: h => OProper p o ∧ OProperHist (o.run p).1 h

/-- C29 (alignment): histories of add, remove and crop, refused ones included, keep one orientation entry per point,
provided additions give a value exactly when the set has values.  Missing: the other additions,
`C29_add_missing_violated`; the iteration, `C29_iter_violated`. -/
theorem C29_history_partial (h : List (OOp O)) {p : OP O} (hp : OAligned p) (hh : OProperHist p h) :
    OAligned (h.foldl (fun s o => (o.run s).1) p) := by
  induction h generalizing p with
  | nil => exact hp
  | cons o h ih => exact ih (orun_aligned hp hh.1) hh.2

/-- C29 (contents): cropping keeps every remaining point with its own value and orientations. -/
theorem C29_crop {p : OP O} (h : OAligned p) (ix iy iv : Option (Rat × Rat)) :
    (p.crop ix iy iv).2 = .ok ⟨⟩ ∧
    ∃ keep : (F × F) × Option F → Bool, (∀ r, keep r = true ↔ Inside ix iy iv r) ∧
      (p.crop ix iy iv).1.rows = p.rows.filter fun r => keep r.1 := by
  refine ⟨?_, keepRow ix iy iv, keepRow_iff ix iy iv, ?_⟩
  · unfold OP.crop
    split
    · rfl
    · rw [crop_aligned_eq h.1]
      obtain ⟨h1, -, -, -⟩ := applyMask_rows h.1 (cropMask_length h.1 ix iy iv)
      split
      · rw [if_neg (by rw [cropMask_length h.1, h.2]; simp)]
      · rename_i q e hq; rw [hq] at h1; cases h1
  · unfold OP.crop
    split
    · rename_i h0
      have : rows p.pts = [] := by rw [← List.length_eq_zero_iff, rows_length h.1, h0]; rfl
      simp [OP.rows, this]
    · rw [crop_aligned_eq h.1]
      obtain ⟨h1, -, h3, -⟩ := applyMask_rows h.1 (cropMask_length h.1 ix iy iv)
      split
      · rename_i q x hq
        rw [hq] at h3
        rw [if_neg (by rw [cropMask_length h.1, h.2]; simp)]
        unfold OP.rows
        simp only at h3 ⊢
        rw [h3, sel_zip _ _ _ (by rw [cropMask_length h.1, rows_length h.1]) (by rw [cropMask_length h.1, h.2]),
          cropMask_rows]
        have : (rows p.pts).map (fun r => !keepRow ix iy iv r) =
            ((rows p.pts).zip p.ori).map fun r => !keepRow ix iy iv r.1 := by
          rw [show (fun r : ((F × F) × Option F) × O => !keepRow ix iy iv r.1) =
            (fun r => !keepRow ix iy iv r) ∘ Prod.fst from rfl, ← List.map_map,
            List.map_fst_zip (by rw [rows_length h.1, h.2])]
        rw [this, sel_map]
        simp
      · rename_i q e hq; rw [hq] at h1; cases h1

/-- C29 (contents): removing deletes the same entries of the positions and of the orientations. -/
theorem C29_remove {p : OP O} (h : OAligned p) {inds : List Int} (hi : inRange p.pts.xy.length inds = true) :
    (p.remove inds).2 = .ok ⟨⟩ ∧
    (p.remove inds).1.pts.xy.zip (p.remove inds).1.ori = deleteAll (p.pts.xy.zip p.ori) inds := by
  obtain ⟨h1, h2, -⟩ := C87_remove_partial h.1 hi
  unfold OP.remove
  split
  · rename_i q x hq
    rw [hq] at h2
    rw [h.2, if_pos hi]
    refine ⟨rfl, ?_⟩
    simp only at h2 ⊢
    rw [h2, deleteAll_zip _ _ _ h.2.symm]
  · rename_i q e hq
    rw [hq] at h1
    cases h1

/-- C29 is violated: a point refused because its value is missing stays, without orientation. -/
theorem C29_add_missing_violated {p : OP O} (h : OAligned p) (hv : p.pts.v ≠ []) (pt : F × F) (o : O) :
    (p.add pt o none).2 = .error .valueError ∧ (p.add pt o none).1.ori.length + 1 = (p.add pt o none).1.pts.xy.length := by
  obtain ⟨h1, -, h3⟩ := C24_add_missing_violated h.1 hv pt
  unfold OP.add
  split
  · rename_i q x hq; rw [hq] at h1; cases h1
  · rename_i q e hq
    rw [hq] at h1 h3
    refine ⟨h1, ?_⟩
    simp only at h3 ⊢
    rw [h3]
    simp [h.2]

/-- C29 is violated: whatever the set, iterating yields the first point again and again. -/
theorem C29_iter_violated (p : OP O) : ∀ q ∈ p.iter, (rows p.pts).head? = some q.1 := by
  intro q hq
  unfold OP.iter at hq
  rw [List.mem_filterMap] at hq
  obtain ⟨i, -, hi⟩ := hq
  rcases hr : (rows p.pts).head? with _ | r
  · rw [hr] at hi; simp at hi
  · rw [hr] at hi
    rcases ho : p.ori[i]? with _ | o
    · rw [ho] at hi; simp at hi
    · rw [ho] at hi
      simp only [Option.some.injEq] at hi
      rw [← hi]

/-! ### Examples -/

/-- Three points with values. -/
def exP : P := ⟨[(some 1, some 5), (some 3, some 2), (some 2, some 0)], [some 10, some 20, some 30], .mm, .mm, .s⟩

theorem exP_aligned : Aligned exP := .inr rfl

example : (rows (scale exP 2 3 5))[1]? = some ((some 6, some 6), some (some 100)) ∧
    (rows (setOrigin exP (some 1) none))[1]? = some ((some 2, some 2), some (some 20)) := by decide +kernel

example : rows (crop exP (some (1, 2)) none none).1 = [((some 1, some 5), some (some 10)), ((some 2, some 0), some (some 30))] := by
  decide +kernel

example : (sort exP .x).1 = ⟨[(some 1, some 5), (some 2, some 0), (some 3, some 2)], [some 10, some 30, some 20], .mm, .mm, .s⟩ := by
  decide +kernel

example : (cut exP (some (2, 4)) none).toOption = some ⟨[(some 1, some 5), (some 2, some 0)], [], .mm, .mm, .s⟩ := by
  decide +kernel

example : rows (cropInd exP 1 3).1 = [((some 3, some 2), some (some 20)), ((some 2, some 0), some (some 30))] := by
  decide +kernel

example : ProperHist exP [.add (some 0, some 0) (some (some 1)), .sort .v, .remove [0], .add (some 1, some 1) none] := by
  refine ⟨.inr ⟨by simp, rfl⟩, trivial, trivial, .inl ⟨rfl, ?_⟩, trivial⟩
  decide +kernel

/-- The hypotheses of `C27_sum_partial` and of `C27_operand_violated` are met. -/
example : Aligned exP ∧ (exP.v = [] ↔ exP.v = []) ∧ exP.ux.size ≠ 0 ∧ exP.uv.size ≠ 0 := by
  refine ⟨exP_aligned, Iff.rfl, ?_, ?_⟩ <;> decide +kernel

example : (plus ⟨[(some 0, some 0)], [], .m, .m, .one⟩ ⟨[(some 1, some 0)], [], .mm, .m, .one⟩).1 ≠
    ⟨[(some 1, some 0)], [], .mm, .m, .one⟩ := by decide +kernel

/-- Oriented points meeting the hypotheses. -/
example : OAligned (⟨exP, [1, 2, 3]⟩ : OP Nat) ∧ (OP.iter (⟨exP, [1, 2, 3]⟩ : OP Nat)).map Prod.snd = [1, 2, 3] ∧
    (OP.iter (⟨exP, [1, 2, 3]⟩ : OP Nat)) ≠ (⟨exP, [1, 2, 3]⟩ : OP Nat).rows :=
  ⟨⟨exP_aligned, rfl⟩, by decide +kernel, by decide +kernel⟩

end IMT.Points
