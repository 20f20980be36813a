import Verif.Profile.Props

/-! Histories of profiles (C35), slices in place (C32), scaling and units (C91), removal of NaN (C94), extrema. -/

namespace IMT.Profile

variable {srt : List Rat → List Nat}

/-! ### scaling and units -/

theorem setY_valid {p : Prof} (h : Valid p) {w : List F} (hw : w.length = p.y.length) : Valid (setY p w) :=
  ⟨by show w.length = p.x.length; rw [hw, h.1], rfl, h.2.2⟩

theorem scale_aux (hs : IsArgsort srt) {p : Prof} (h : Valid p) (sx : Rat) :
    ∃ q, setX srt p (p.x.map (· * sx)) = (q, .ok ⟨⟩) ∧ Valid q ∧
      (pts q).Perm ((pts p).map fun r => (r.1 * sx, r.2)) ∧ q.ux = p.ux ∧ q.uy = p.uy := by
  obtain ⟨q, h1, h2, h3, h4, h5, _⟩ := setX_spec hs (p := p) (v := p.x.map (· * sx)) (by simp [h.1]) h.2.1
  refine ⟨q, h1, h2, h3.trans (List.Perm.of_eq ?_), h4, h5⟩
  rw [pts_valid h, List.zip_map_left]
  rfl

theorem pts_setY {p : Prof} (h : Valid p) (f : Rat → Rat) :
    pts (setY p (p.y.map (Option.map f))) = (pts p).map fun r => (r.1, r.2.map f) := by
  rw [pts_valid (setY_valid h (by simp)), pts_valid h]
  show p.x.zip (p.y.map (Option.map f)) = _
  rw [List.zip_map_right]
  rfl

/-- C91: `scale` multiplies the coordinates of every point, negative and null factors included; masked points stay
masked. -/
theorem C91_scale (hs : IsArgsort srt) {p : Prof} (h : Valid p) (sx sy : Rat) :
    ∃ q, scale srt p sx sy = (q, .ok ⟨⟩) ∧ Valid q ∧
      (pts q).Perm ((pts p).map fun r => (r.1 * sx, r.2.map (· * sy))) ∧ q.ux = p.ux ∧ q.uy = p.uy := by
  have hid : ∀ l : List (Rat × F), (l.map fun r => (r.1, r.2.map (· * (1 : Rat)))) = l := by
    intro l
    conv_rhs => rw [← List.map_id l]
    apply List.map_congr_left
    intro r _
    rcases r with ⟨a, _ | b⟩ <;> simp
  unfold scale
  by_cases hx : sx = 1
  · rw [if_neg (by simpa using hx)]
    subst hx
    by_cases hy : sy = 1
    · rw [if_neg (by simpa using hy)]
      subst hy
      refine ⟨p, rfl, h, List.Perm.of_eq ?_, rfl, rfl⟩
      simp only [mul_one]
      have := hid (pts p)
      simp only [mul_one] at this
      exact this.symm
    · rw [if_pos hy, getY_valid h]
      refine ⟨_, rfl, setY_valid h (by simp), List.Perm.of_eq ?_, rfl, rfl⟩
      rw [pts_setY h]
      simp only [mul_one]
  · rw [if_pos hx]
    obtain ⟨q, h1, h2, h3, h4, h5⟩ := scale_aux hs h sx
    simp only [h1]
    by_cases hy : sy = 1
    · rw [if_neg (by simpa using hy)]
      subst hy
      refine ⟨q, rfl, h2, h3.trans (List.Perm.of_eq ?_), h4, h5⟩
      have := hid ((pts p).map fun r => (r.1 * sx, r.2))
      rw [List.map_map] at this
      exact this.symm
    · rw [if_pos hy, getY_valid h2]
      refine ⟨_, rfl, setY_valid h2 (by simp), ?_, h4, h5⟩
      rw [pts_setY h2]
      refine (h3.map _).trans (List.Perm.of_eq ?_)
      rw [List.map_map]
      rfl

example : pts (scale argsort ex1 (-2) 10).1 = [(-10, some 70), (-4, some 40), (-2, none), (0, some 30)] := by
  decide +kernel

/-- The points in SI base units. -/
def phys (p : Prof) : List (Rat × F) := (pts p).map fun r => (r.1 * p.ux.size, r.2.map (· * p.uy.size))

/-- C91: `change_unit('x', u)` keeps the physical points; a unit of another dimension is refused. -/
theorem C91_change_unit_x (hs : IsArgsort srt) {p : Prof} (h : Valid p) (u : Sym) (hu : u.size ≠ 0) :
    (p.ux.Compat u → ∃ q, changeUnitX srt p u = (q, .ok ⟨⟩) ∧ Valid q ∧ (phys q).Perm (phys p) ∧ q.ux = u ∧ q.uy = p.uy) ∧
    (¬ p.ux.Compat u → changeUnitX srt p u = (p, .error .valueError)) := by
  constructor
  · intro hc
    obtain ⟨q, h1, h2, h3, h4, h5⟩ := scale_aux hs h (fact p.ux u)
    unfold changeUnitX
    rw [if_pos hc]
    simp only [h1]
    refine ⟨_, rfl, h2, ?_, rfl, h5⟩
    unfold phys
    show ((pts q).map fun r => (r.1 * u.size, r.2.map (· * q.uy.size))).Perm _
    refine (h3.map _).trans (List.Perm.of_eq ?_)
    rw [List.map_map, h5]
    apply List.map_congr_left
    intro r _
    simp only [Function.comp, fact]
    congr 1
    field_simp
  · intro hc
    unfold changeUnitX
    rw [if_neg hc]

/-- C91: `change_unit('y', u)` keeps the physical points; a unit of another dimension is refused. -/
theorem C91_change_unit_y {p : Prof} (h : Valid p) (u : Sym) (hu : u.size ≠ 0) :
    (p.uy.Compat u → ∃ q, changeUnitY p u = (q, .ok ⟨⟩) ∧ Valid q ∧ phys q = phys p ∧ q.uy = u ∧ q.ux = p.ux) ∧
    (¬ p.uy.Compat u → changeUnitY p u = (p, .error .valueError)) := by
  constructor
  · intro hc
    unfold changeUnitY
    rw [if_pos hc, getY_valid h]
    have hv : Valid { setY p (p.y.map (Option.map (· * fact p.uy u))) with uy := u } := setY_valid (w := p.y.map (Option.map (· * fact p.uy u))) h (List.length_map _)
    refine ⟨_, rfl, hv, ?_, rfl, rfl⟩
    unfold phys
    have : pts { setY p (p.y.map (Option.map (· * fact p.uy u))) with uy := u } =
        pts (setY p (p.y.map (Option.map (· * fact p.uy u)))) := rfl
    rw [this, pts_setY h, List.map_map]
    apply List.map_congr_left
    intro r _
    simp only [Function.comp, fact, Option.map_map]
    show (r.1 * p.ux.size, _) = _
    congr 1
    congr 1
    funext v
    simp only [Function.comp]
    field_simp
  · intro hc
    unfold changeUnitY
    rw [if_neg hc]

example : phys (changeUnitX argsort ⟨[1, 2], [some 3, none], [false, true], .m, .s⟩ .mm).1 =
    phys ⟨[1, 2], [some 3, none], [false, true], .m, .s⟩ ∧
    (changeUnitX argsort ⟨[1, 2], [some 3, none], [false, true], .m, .s⟩ .mm).1.x = [1000, 2000] := by decide +kernel

/-! ### removal of NaN -/

/-- C94: `remove_nans` removes exactly the points without value. -/
theorem C94_remove_nans (hs : IsArgsort srt) {p : Prof} (h : Valid p) :
    ∃ q, removeNans srt p = (q, .ok ⟨⟩) ∧ Valid q ∧ (pts q).Perm ((pts p).filter fun r => r.2.isSome) ∧
      (Inc p.x → pts q = (pts p).filter fun r => r.2.isSome) ∧ q.ux = p.ux ∧ q.uy = p.uy := by
  unfold removeNans
  rw [getY_valid h]
  by_cases ha : p.y.any Option.isNone = true
  · rw [if_pos ha]
    obtain ⟨q, h1, h2, h3, h4, h5, h6⟩ := setXY_spec hs p (v := sel p.x (p.y.map Option.isSome))
      (w := sel p.y (p.y.map Option.isSome)) (sel_length _ _ _ h.1.symm)
    have hz : (sel p.x (p.y.map Option.isSome)).zip (sel p.y (p.y.map Option.isSome)) =
        (pts p).filter fun r => r.2.isSome := by
      rw [sel_zip _ _ _ h.1.symm, pts_valid h, sel_filter _ _ _ h.1.symm]
    rw [hz] at h3
    refine ⟨q, h1, h2, h3, ?_, h4, h5⟩
    intro hi
    have hsub : (sel p.x (p.y.map Option.isSome)).Sublist p.x := by
      unfold sel
      refine (List.filter_sublist.map Prod.fst).trans ?_
      rw [List.map_fst_zip (by simp [h.1])]
    obtain ⟨e1, e2⟩ := h6 (hi.sublist hsub)
    rw [pts_valid h2, e1, e2, hz]
  · rw [if_neg ha]
    have he : (pts p).filter (fun r => r.2.isSome) = pts p := by
      rw [List.filter_eq_self]
      intro r hr
      rw [pts_valid h] at hr
      have := (List.of_mem_zip hr).2
      cases hr2 : r.2 with
      | none =>
        exfalso
        apply ha
        rw [List.any_eq_true]
        exact ⟨r.2, this, by rw [hr2]; rfl⟩
      | some v => rfl
    refine ⟨p, rfl, h, ?_, fun _ => ?_, rfl, rfl⟩
    · rw [he]
    · rw [he]

example : pts (removeNans argsort ex1).1 = [(0, some 3), (2, some 4), (5, some 7)] := by decide +kernel

/-! ### histories -/

/-- `np.argsort` leaves a sorted array as it is, ties included. -/
def Stable (srt : List Rat → List Nat) : Prop := ∀ l : List Rat, l.Pairwise (· ≤ ·) → srt l = List.range l.length

theorem argsort_stable : Stable argsort := by
  intro l hl
  unfold argsort
  apply List.Pairwise.insertionSort_eq
  refine List.pairwise_iff_getElem.mpr ?_
  intro i j hi hj hij
  rw [List.length_range] at hi hj
  simp only [List.getElem_range]
  rw [List.getElem?_eq_getElem hi, List.getElem?_eq_getElem hj]
  exact List.pairwise_iff_getElem.mp hl i j hi hj hij

theorem finishInplace_stable (hst : Stable srt) {p : Prof} {d : Data}
    (h1 : d.1.length = d.2.1.length) (h2 : d.2.2 = d.2.1.map Option.isNone) (h3 : d.1.Pairwise (· ≤ ·)) :
    finishInplace srt p (.ok d) = (⟨d.1, d.2.1, d.2.2, p.ux, p.uy⟩, .ok ⟨⟩) := by
  have ht : ∀ {α : Type} (k : List α), k.length = d.1.length → take k (srt d.1) = k := by
    intro α k hk
    rw [hst _ h3, ← hk, take_range]
  have hx : setX srt (setY p d.2.1) d.1 = ({ setY p d.2.1 with x := d.1 }, .ok ⟨⟩) := by
    unfold setX
    rw [if_neg (by show ¬ d.1.length ≠ d.2.1.length; omega)]
    by_cases h : d.1.length > 1
    · rw [if_pos h]
      show ((⟨take d.1 (srt d.1), take d.2.1 (srt d.1), take (d.2.1.map Option.isNone) (srt d.1), p.ux, p.uy⟩ : Prof), _) = _
      rw [ht _ rfl, ht _ h1.symm, ht _ (by simp [h1])]
      rfl
    · rw [if_neg h]
  unfold finishInplace
  simp only [hx]
  unfold setMask
  rw [if_pos (by show d.2.2.length = d.2.1.length; rw [h2]; simp)]
  show ((⟨d.1, blank d.2.1 d.2.2, d.2.2, p.ux, p.uy⟩ : Prof), _) = _
  rw [h2, blank_isNone]

/-- What `crop` hands over is aligned. -/
theorem cropData_aligned {p : Prof} (h : Valid p) {ix iy : Option (Rat × Rat)} {d : Data} (hd : cropData p ix iy = .ok d) :
    d.1.length = d.2.1.length ∧ d.2.2 = d.2.1.map Option.isNone ∧ d.1.Sublist p.x := by
  have hX : ∀ {d : Data}, cropX p ix = .ok d → d.1.length = d.2.1.length ∧ d.2.2 = d.2.1.map Option.isNone ∧ d.1.Sublist p.x := by
    intro d hd
    unfold cropX at hd
    rw [getY_valid h] at hd
    split at hd
    · cases hd
      exact ⟨h.1.symm, h.2.1, List.Sublist.refl _⟩
    · split at hd
      · cases hd
      · cases hd
        refine ⟨pySlice_length h.1.symm _, ?_, ?_⟩
        · show pySlice p.m _ = (pySlice p.y _).map _
          unfold pySlice
          rw [h.2.1, slice_map, List.length_map]
        · exact slice_sublist _ _ _
  unfold cropData at hd
  split at hd
  · rename_i d' hd'
    obtain ⟨a1, a2, a3⟩ := hX hd'
    unfold cropY at hd
    rw [getY_valid h] at hd
    split at hd
    · cases hd; exact ⟨a1, a2, a3⟩
    · rename_i lo hi
      split at hd
      · cases hd
      · split at hd
        · cases hd
        · rename_i hlen
          push Not at hlen
          cases hd
          refine ⟨sel_length _ _ _ a1, ?_, ?_⟩
          · show sel d'.2.2 _ = (sel d'.2.1 _).map _
            rw [a2, sel_map]
          · show (sel d'.1 _).Sublist p.x
            refine List.Sublist.trans ?_ a3
            unfold sel
            refine (List.filter_sublist.map Prod.fst).trans ?_
            rw [List.map_fst_zip (by simp [hlen])]
  · cases hd

theorem cropIndData_aligned {p : Prof} (h : Valid p) {i j : Int} {d : Data} (hd : cropIndData p i j = .ok d) :
    d.1.length = d.2.1.length ∧ d.2.2 = d.2.1.map Option.isNone ∧ d.1.Sublist p.x := by
  unfold cropIndData at hd
  rw [getY_valid h] at hd
  split at hd
  · cases hd
  · split at hd
    · cases hd
    · cases hd
      refine ⟨slice_length h.1.symm _ _, ?_, slice_sublist _ _ _⟩
      show slice p.m _ _ = _
      rw [h.2.1, slice_map]

theorem finish_valid (hst : Stable srt) {p : Prof} (h : Valid p) {d : Res Data}
    (hd : ∀ e, d = .ok e → e.1.length = e.2.1.length ∧ e.2.2 = e.2.1.map Option.isNone ∧ e.1.Sublist p.x) :
    Valid (finishInplace srt p d).1 := by
  cases d with
  | error e => exact h
  | ok e =>
    obtain ⟨h1, h2, h3⟩ := hd e rfl
    rw [finishInplace_stable hst h1 h2 (h.2.2.sublist h3)]
    exact ⟨h1.symm, h2, h.2.2.sublist h3⟩

theorem finish_valid_inc (hs : IsArgsort srt) {p : Prof} (h : Valid p) (hi : Inc p.x) {d : Res Data}
    (hd : ∀ e, d = .ok e → e.1.length = e.2.1.length ∧ e.2.2 = e.2.1.map Option.isNone ∧ e.1.Sublist p.x) :
    Valid (finishInplace srt p d).1 := by
  cases d with
  | error e => exact h
  | ok e =>
    obtain ⟨h1, h2, h3⟩ := hd e rfl
    obtain ⟨_, _, _, _, _, _, he⟩ := finishInplace_spec hs p h1 h2 (h.2.2.sublist h3)
    rw [he (hi.sublist h3)]
    exact ⟨h1.symm, h2, h.2.2.sublist h3⟩

/-- The operands of a history are themselves consistent profiles. -/
def Op.Fine : Op → Prop
  | .addPoints q => Valid q
  | .changeUnitX _ => True
  | _ => True

theorem run_valid (hs : IsArgsort srt) (hst : Stable srt) {p : Prof} (h : Valid p) (o : Op) (ho : o.Fine) :
    Valid (o.run srt p).1 := by
  cases o with
  | addPoint x y =>
    obtain ⟨q, h1, h2, _⟩ := C35_add_point hs h x y
    show Valid (addPoint srt p x y).1
    rw [h1]; exact h2
  | addPoints q =>
    show Valid (addPoints srt p q).1
    by_cases hu : p.x = [] ∨ (q.ux = p.ux ∧ q.uy = p.uy)
    · obtain ⟨r, h1, h2, _⟩ := (C35_add_points hs h ho).1 hu
      rw [h1]; exact h2
    · rw [(C35_add_points hs h ho).2 hu]; exact h
  | removePoint i =>
    show Valid (removePoint srt p i).1
    by_cases hi : i < 0
    · rw [(C35_remove_point hs h i).1 hi]; exact h
    · obtain ⟨q, h1, h2, _⟩ := (C35_remove_point hs h i).2 (by omega)
      rw [h1]; exact h2
  | crop ix iy => exact finish_valid hst h fun e he => cropData_aligned h he
  | cropInd i j => exact finish_valid hst h fun e he => cropIndData_aligned h he
  | cropMaskedBorder =>
    show Valid (cropMaskedBorder srt p).1
    unfold cropMaskedBorder
    split
    · exact h
    · exact finish_valid hst h fun e he => cropIndData_aligned h he
  | scale sx sy =>
    obtain ⟨q, h1, h2, _⟩ := C91_scale hs h sx sy
    show Valid (scale srt p sx sy).1
    rw [h1]; exact h2
  | changeUnitX u =>
    show Valid (changeUnitX srt p u).1
    unfold changeUnitX
    split
    · obtain ⟨q, h1, h2, _⟩ := scale_aux hs h (fact p.ux u)
      simp only [h1]
      exact h2
    · exact h
  | changeUnitY u =>
    show Valid (changeUnitY p u).1
    unfold changeUnitY
    split
    · rw [getY_valid h]
      exact setY_valid (w := p.y.map (Option.map (· * fact p.uy u))) h (List.length_map _)
    · exact h
  | removeNans =>
    obtain ⟨q, h1, h2, _⟩ := C94_remove_nans hs h
    show Valid (removeNans srt p).1
    rw [h1]; exact h2

/-- C35, histories: whatever insertions, removals, crops, scalings, changes of units a profile goes through, refused ones
included, it stays sorted with one value and one mask flag per abscissa, the flag telling whether the value is NaN. -/
theorem C35_history (hs : IsArgsort srt) (hst : Stable srt) (l : List Op) (hl : ∀ o ∈ l, o.Fine) {p : Prof} (h : Valid p) :
    Valid (after srt p l) := by
  induction l generalizing p with
  | nil => exact h
  | cons o l ih => exact ih (fun q hq => hl q (by simp [hq])) (run_valid hs hst h o (hl o (by simp)))

example : pts (after argsort ⟨[], [], [], .one, .one⟩
    [.addPoints ex1, .addPoint (3 / 2) (some 9), .removePoint 0, .crop none (some (3, 8)), .scale (-1) 2, .removePoint 12]) =
    [(-5, some 14), (-2, some 8)] := by decide +kernel

/-- A sort that exchanges ties. -/
def unstable (l : List Rat) : List Nat :=
  (List.range l.length).reverse.insertionSort fun i j => (l[i]?).getD 0 ≤ (l[j]?).getD 0

theorem unstable_ok : IsArgsort unstable := by
  intro l
  refine ⟨(List.perm_insertionSort _ _).trans (List.reverse_perm _), ?_⟩
  have : Std.Total fun i j : Nat => (l[i]?).getD 0 ≤ (l[j]?).getD 0 := ⟨fun i j => le_total _ _⟩
  have : IsTrans Nat fun i j : Nat => (l[i]?).getD 0 ≤ (l[j]?).getD 0 := ⟨fun i j k => le_trans⟩
  have hw := List.pairwise_insertionSort (fun i j : Nat => (l[i]?).getD 0 ≤ (l[j]?).getD 0) (List.range l.length).reverse
  unfold take
  rw [List.pairwise_filterMap]
  refine hw.imp_of_mem ?_
  intro i j _ _ hij a ha b hb
  simpa [ha, hb] using hij

/-- C32 in place: the mask is stored after the abscissae have been sorted again, so with a sort that is not stable (numpy's
default) a repeated abscissa can lose its valid value: the slice `[0:3]` of this profile has a valid point and the result
has none. -/
theorem C32_inplace_ties_violated :
    ∃ srt, IsArgsort srt ∧ ∃ p : Prof, Valid p ∧ (0, some 1) ∈ pts p ∧
      (0, some 1) ∉ pts (finishInplace srt p (cropIndData p 0 3)).1 := by
  refine ⟨unstable, unstable_ok, ⟨[0, 0, 1], [some 1, none, some 2], [false, true, false], .m, .s⟩, ?_, ?_, ?_⟩
  · unfold Valid; decide +kernel
  · decide +kernel
  · decide +kernel

/-- C32 in place: on distinct abscissae, or with a stable sort, the slice. -/
theorem C32_inplace_partial (hs : IsArgsort srt) {p : Prof} (h : Valid p) {i j : Nat} (hij : i < j) (hj : j ≤ p.x.length)
    (hd : Inc p.x ∨ Stable srt) :
    ∃ q, finishInplace srt p (cropIndData p i j) = (q, .ok ⟨⟩) ∧ Valid q ∧ pts q = ((pts p).take j).drop i := by
  have hc : cropIndData p i j = .ok (slice p.x i j, slice p.y i j, slice p.m i j) := by
    unfold cropIndData
    rw [if_neg (by omega), if_neg (by omega), getY_valid h]
    simp
  obtain ⟨h1, h2, h3⟩ := cropIndData_aligned h hc
  have he : finishInplace srt p (cropIndData p i j) =
      (⟨slice p.x i j, slice p.y i j, slice p.m i j, p.ux, p.uy⟩, .ok ⟨⟩) := by
    rw [hc]
    rcases hd with hd | hd
    · obtain ⟨_, _, _, _, _, _, he⟩ := finishInplace_spec hs p h1 h2 (h.2.2.sublist h3)
      exact he (hd.sublist h3)
    · exact finishInplace_stable hd h1 h2 (h.2.2.sublist h3)
  have hv : Valid ⟨slice p.x i j, slice p.y i j, slice p.m i j, p.ux, p.uy⟩ := ⟨h1.symm, h2, h.2.2.sublist h3⟩
  refine ⟨_, he, hv, ?_⟩
  rw [pts_valid hv, pts_valid h]
  exact slice_zip _ _ _ _

/-! ### extrema -/

theorem valid_eq {p : Prof} (h : Valid p) : valid p = (pts p).filterMap fun r => r.2.map fun v => (r.1, v) := by
  unfold valid pts
  rw [getY_valid h, h.2.1]
  generalize p.x = x
  generalize p.y = y
  induction x generalizing y with
  | nil => simp
  | cons a x ih =>
    rcases y with _ | ⟨v, y⟩
    · simp
    · simp only [List.zip_cons_cons, List.map_cons, List.filterMap_cons]
      rw [ih y]
      cases v <;> simp

theorem mem_valid {p : Prof} (h : Valid p) {a v : Rat} : (a, v) ∈ valid p ↔ (a, some v) ∈ pts p := by
  rw [valid_eq h, List.mem_filterMap]
  constructor
  · rintro ⟨⟨x, y⟩, hm, he⟩
    cases y with
    | none => simp at he
    | some w => simp at he; rw [← he.1, ← he.2]; exact hm
  · intro hm
    exact ⟨_, hm, rfl⟩

/-- C95: `max` and `min` are attained by a valid point and bound all of them; they are `None` exactly when every point is
masked. -/
theorem C95_extrema {p : Prof} (h : Valid p) :
    (∀ v, max? p = some v ↔ (∃ x, (x, some v) ∈ pts p) ∧ ∀ x w, (x, some w) ∈ pts p → w ≤ v) ∧
    (∀ v, min? p = some v ↔ (∃ x, (x, some v) ∈ pts p) ∧ ∀ x w, (x, some w) ∈ pts p → v ≤ w) ∧
    (max? p = none ↔ ∀ r ∈ pts p, r.2 = none) ∧ (min? p = none ↔ ∀ r ∈ pts p, r.2 = none) := by
  have hmem : ∀ w, w ∈ (valid p).map Prod.snd ↔ ∃ x, (x, some w) ∈ pts p := by
    intro w
    rw [List.mem_map]
    constructor
    · rintro ⟨⟨x, w'⟩, hm, rfl⟩
      exact ⟨x, (mem_valid h).mp hm⟩
    · rintro ⟨x, hx⟩
      exact ⟨_, (mem_valid h).mpr hx, rfl⟩
  have hnil : (valid p).map Prod.snd = [] ↔ ∀ r ∈ pts p, r.2 = none := by
    rw [List.map_eq_nil_iff, List.eq_nil_iff_forall_not_mem]
    constructor
    · intro hn r hr
      by_contra hc
      obtain ⟨v, hv⟩ := Option.ne_none_iff_exists'.mp hc
      exact hn (r.1, v) ((mem_valid h).mpr (by rw [← hv]; exact hr))
    · rintro hn ⟨x, v⟩ hm
      simpa using hn _ ((mem_valid h).mp hm)
  refine ⟨fun v => ?_, fun v => ?_, ?_, ?_⟩
  · unfold max?
    rw [List.max?_eq_some_iff, hmem]
    constructor
    · rintro ⟨h1, h2⟩
      exact ⟨h1, fun x w hw => h2 w ((hmem w).mpr ⟨x, hw⟩)⟩
    · rintro ⟨h1, h2⟩
      refine ⟨h1, fun w hw => ?_⟩
      obtain ⟨x, hx⟩ := (hmem w).mp hw
      exact h2 x w hx
  · unfold min?
    rw [List.min?_eq_some_iff, hmem]
    constructor
    · rintro ⟨h1, h2⟩
      exact ⟨h1, fun x w hw => h2 w ((hmem w).mpr ⟨x, hw⟩)⟩
    · rintro ⟨h1, h2⟩
      refine ⟨h1, fun w hw => ?_⟩
      obtain ⟨x, hx⟩ := (hmem w).mp hw
      exact h2 x w hx
  · unfold max?
    rw [List.max?_eq_none_iff, hnil]
  · unfold min?
    rw [List.min?_eq_none_iff, hnil]

example : max? ex1 = some 7 ∧ min? ex1 = some 3 := by decide +kernel

end IMT.Profile
