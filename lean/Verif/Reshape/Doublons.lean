import Verif.Reshape.Augment

/-! Merging the points of a profile at the same abscissa: C233. -/

namespace IMT.Reshape

open IMT.Profile

variable {srt : List Rat → List Nat} {p : Prof} {rnd : Rat → Rat}

theorem allSome_some {l : List F} {L : List Rat} : allSome l = some L ↔ l = L.map some := by
  induction l generalizing L with
  | nil => cases L <;> simp [allSome]
  | cons v l ih =>
    cases v with
    | none => cases L <;> simp [allSome]
    | some v =>
      simp only [allSome, Option.map_eq_some_iff]
      constructor
      · rintro ⟨L', h, rfl⟩
        rw [ih.1 h]; rfl
      · intro h
        cases L with
        | nil => simp at h
        | cons w L =>
          simp at h
          exact ⟨L, ih.2 h.2, by rw [h.1]⟩

theorem allSome_none {l : List F} : allSome l = none ↔ none ∈ l := by
  induction l with
  | nil => simp [allSome]
  | cons v l ih => cases v <;> simp [allSome, ih]

theorem newX_mem (x : List Rat) (a : Rat) : a ∈ newX rnd x ↔ ∃ b ∈ x, rnd b = a := by
  unfold newX
  rw [List.mem_insertionSort, List.mem_dedup, List.mem_map]

theorem newX_inc (x : List Rat) : Inc (newX rnd x) := by
  unfold newX Inc
  have h1 : ((x.map rnd).dedup.insertionSort (· ≤ ·)).Pairwise (· ≤ ·) := List.pairwise_insertionSort _ _
  have h2 : ((x.map rnd).dedup.insertionSort (· ≤ ·)).Nodup :=
    (List.perm_insertionSort _ _).nodup_iff.2 (List.nodup_dedup _)
  exact (h1.and h2).imp fun h => lt_of_le_of_ne h.1 h.2

theorem doublons_spec (hs : IsArgsort srt) (p : Prof) (m : Method) :
    ∃ q, removeDoublons srt rnd p m = (q, .ok ⟨⟩) ∧ Valid q ∧ q.ux = p.ux ∧ q.uy = p.uy ∧ q.x = newX rnd p.x ∧
      ∀ a v, (a, v) ∈ pts q ↔ a ∈ newX rnd p.x ∧ v = merge m (group rnd p a) := by
  obtain ⟨q, e, hv, -, u1, u2, hi⟩ := setXY_spec hs p (v := newX rnd p.x) (w := (newX rnd p.x).map fun a => merge m (group rnd p a)) (by simp)
  obtain ⟨qx, qy⟩ := hi (newX_inc _)
  refine ⟨q, e, hv, u1, u2, qx, ?_⟩
  intro a v
  rw [pts_valid hv, qx, qy]
  generalize newX rnd p.x = l
  induction l with
  | nil => simp
  | cons b l ih =>
    rw [List.map_cons, List.zip_cons_cons, List.mem_cons, ih, List.mem_cons]
    constructor
    · rintro (h | ⟨h1, h2⟩)
      · obtain ⟨rfl, rfl⟩ := Prod.mk.inj h
        exact ⟨Or.inl rfl, rfl⟩
      · exact ⟨Or.inr h1, h2⟩
    · rintro ⟨rfl | h1, h2⟩
      · exact Or.inl (by rw [h2])
      · exact Or.inr ⟨h1, h2⟩

theorem mem_group (a : Rat) (v : F) : v ∈ group rnd p a ↔ ∃ x, (x, v) ∈ pts p ∧ rnd x = a := by
  unfold group
  rw [List.mem_map]
  constructor
  · rintro ⟨⟨x, w⟩, hm, rfl⟩
    rw [List.mem_filter] at hm
    exact ⟨x, hm.1, of_decide_eq_true hm.2⟩
  · rintro ⟨x, hm, hr⟩
    exact ⟨(x, v), List.mem_filter.2 ⟨hm, decide_eq_true hr⟩, rfl⟩

theorem group_ne_nil (h : Valid p) {a : Rat} (ha : ∃ x ∈ p.x, rnd x = a) : group rnd p a ≠ [] := by
  obtain ⟨x, hx, hr⟩ := ha
  rw [← pts_fst h] at hx
  obtain ⟨⟨x', v⟩, hm, rfl⟩ := List.mem_map.1 hx
  exact List.ne_nil_of_mem ((mem_group a v).2 ⟨x', hm, hr⟩)

theorem merge_none {m : Method} {l : List F} (hl : l ≠ []) : merge m l = none ↔ none ∈ l := by
  rw [← allSome_none]
  unfold merge
  cases m with
  | average => simp
  | min =>
    simp only
    cases h : allSome l with
    | none => simp
    | some L =>
      rw [allSome_some] at h
      have hL : L ≠ [] := by rintro rfl; exact hl h
      simp [List.min?_eq_none_iff, hL]
  | max =>
    simp only
    cases h : allSome l with
    | none => simp
    | some L =>
      rw [allSome_some] at h
      have hL : L ≠ [] := by rintro rfl; exact hl h
      simp [List.max?_eq_none_iff, hL]

/-- C233: `remove_doublons` leaves one point for each (rounded) abscissa, in strictly increasing order. -/
theorem C233_abscissae (hs : IsArgsort srt) (p : Prof) (m : Method) :
    ∃ q, removeDoublons srt rnd p m = (q, .ok ⟨⟩) ∧ Valid q ∧ Inc q.x ∧ q.ux = p.ux ∧ q.uy = p.uy ∧
      ∀ a, a ∈ q.x ↔ ∃ x ∈ p.x, rnd x = a := by
  obtain ⟨q, e, hv, u1, u2, qx, -⟩ := doublons_spec hs p m
  exact ⟨q, e, hv, by rw [qx]; exact newX_inc _, u1, u2, fun a => by rw [qx, newX_mem]⟩

/-- C233: with 'average' each value is the mean of the values merged. -/
theorem C233_average (hs : IsArgsort srt) (h : Valid p) {q : Prof} {u : Res PUnit}
    (hq : removeDoublons srt rnd p .average = (q, u)) {a w : Rat} (hw : (a, some w) ∈ pts q) :
    w = (((valid p).filter fun r => decide (rnd r.1 = a)).map Prod.snd).sum / ((valid p).filter fun r => decide (rnd r.1 = a)).length := by
  obtain ⟨q', e, -, -, -, -, hm⟩ := doublons_spec (rnd := rnd) hs p .average
  rw [e] at hq
  obtain ⟨rfl, -⟩ := Prod.mk.inj hq
  obtain ⟨-, hv⟩ := (hm a (some w)).1 hw
  simp only [merge] at hv
  symm at hv
  rw [Option.map_eq_some_iff] at hv
  obtain ⟨L, hL, rfl⟩ := hv
  rw [allSome_some] at hL
  have key : ((valid p).filter fun r => decide (rnd r.1 = a)).map Prod.snd = L := by
    clear hw
    rw [valid_eq h]
    unfold group at hL
    generalize pts p = l at hL
    induction l generalizing L with
    | nil => simp at hL ⊢; exact hL
    | cons r l ih =>
      obtain ⟨x, v⟩ := r
      by_cases hx : rnd x = a
      · rw [List.filter_cons_of_pos (by simpa using hx), List.map_cons] at hL
        cases L with
        | nil => simp at hL
        | cons w L =>
          rw [List.map_cons, List.cons.injEq] at hL
          obtain ⟨hvw, hL⟩ := hL
          simp only at hvw
          subst hvw
          rw [List.filterMap_cons_some (b := (x, w)) (by rfl), List.filter_cons_of_pos (by simpa using hx), List.map_cons, ih L hL]
      · rw [List.filter_cons_of_neg (by simpa using hx)] at hL
        cases v with
        | none => rw [List.filterMap_cons_none (by rfl)]; exact ih L hL
        | some v =>
          rw [List.filterMap_cons_some (b := (x, v)) (by rfl), List.filter_cons_of_neg (by simpa using hx)]
          exact ih L hL
  rw [key]
  congr 2
  rw [← key, List.length_map]

/-- C233: with 'min' (resp. 'max') each value is the smallest (largest) of the values merged. -/
theorem C233_extremum (hs : IsArgsort srt) {q : Prof} {u : Res PUnit} {a w : Rat} :
    (removeDoublons srt rnd p .min = (q, u) → (a, some w) ∈ pts q →
      (∃ x, (x, some w) ∈ pts p ∧ rnd x = a) ∧ ∀ x v, (x, some v) ∈ pts p → rnd x = a → w ≤ v) ∧
    (removeDoublons srt rnd p .max = (q, u) → (a, some w) ∈ pts q →
      (∃ x, (x, some w) ∈ pts p ∧ rnd x = a) ∧ ∀ x v, (x, some v) ∈ pts p → rnd x = a → v ≤ w) := by
  constructor
  · intro hq hw
    obtain ⟨q', e, -, -, -, -, hm⟩ := doublons_spec (rnd := rnd) hs p .min
    rw [e] at hq
    obtain ⟨rfl, -⟩ := Prod.mk.inj hq
    obtain ⟨-, hv⟩ := (hm a (some w)).1 hw
    simp only [merge] at hv
    symm at hv
    rw [Option.bind_eq_some_iff] at hv
    obtain ⟨L, hL, hmin⟩ := hv
    rw [allSome_some] at hL
    rw [List.min?_eq_some_iff] at hmin
    constructor
    · rw [← mem_group, hL]
      exact List.mem_map.2 ⟨w, hmin.1, rfl⟩
    · intro x v hx hr
      have := (mem_group a (some v)).2 ⟨x, hx, hr⟩
      rw [hL] at this
      obtain ⟨v', hv', e⟩ := List.mem_map.1 this
      rw [← Option.some.inj e]
      exact hmin.2 v' hv'
  · intro hq hw
    obtain ⟨q', e, -, -, -, -, hm⟩ := doublons_spec (rnd := rnd) hs p .max
    rw [e] at hq
    obtain ⟨rfl, -⟩ := Prod.mk.inj hq
    obtain ⟨-, hv⟩ := (hm a (some w)).1 hw
    simp only [merge] at hv
    symm at hv
    rw [Option.bind_eq_some_iff] at hv
    obtain ⟨L, hL, hmax⟩ := hv
    rw [allSome_some] at hL
    rw [List.max?_eq_some_iff] at hmax
    constructor
    · rw [← mem_group, hL]
      exact List.mem_map.2 ⟨w, hmax.1, rfl⟩
    · intro x v hx hr
      have := (mem_group a (some v)).2 ⟨x, hx, hr⟩
      rw [hL] at this
      obtain ⟨v', hv', e⟩ := List.mem_map.1 this
      rw [← Option.some.inj e]
      exact hmax.2 v' hv'

/-- C233: a point of the result is unmasked when none of the points merged is masked. -/
theorem C233_unmasked_partial (hs : IsArgsort srt) (h : Valid p) {m : Method} {q : Prof} {u : Res PUnit}
    (hq : removeDoublons srt rnd p m = (q, u)) {a : Rat} (ha : ∃ x ∈ p.x, rnd x = a)
    (hn : ∀ x v, (x, v) ∈ pts p → rnd x = a → v ≠ none) : ∃ w, (a, some w) ∈ pts q := by
  obtain ⟨q', e, -, -, -, -, hm⟩ := doublons_spec (rnd := rnd) hs p m
  rw [e] at hq
  obtain ⟨rfl, -⟩ := Prod.mk.inj hq
  have hv : merge m (group rnd p a) ≠ none := by
    rw [Ne, merge_none (group_ne_nil h ha), mem_group]
    rintro ⟨x, hx, hr⟩
    exact hn x none hx hr rfl
  obtain ⟨w, hw⟩ := Option.ne_none_iff_exists'.1 hv
  exact ⟨w, (hm a (some w)).2 ⟨(newX_mem _ _).2 ha, hw.symm⟩⟩

/-- C233: one masked point **masks all the points** merged with it: their values are lost. -/
theorem C233_masked_violated (hs : IsArgsort srt) (h : Valid p) {m : Method} {x x' v : Rat} (hx : (x, none) ∈ pts p)
    (hx' : (x', some v) ∈ pts p) (hr : rnd x' = rnd x) :
    ∃ q, removeDoublons srt rnd p m = (q, .ok ⟨⟩) ∧ (rnd x', none) ∈ pts q ∧ ∀ w, (rnd x', some w) ∉ pts q := by
  obtain ⟨q, e, -, -, -, -, hm⟩ := doublons_spec (rnd := rnd) hs p m
  have ha : ∃ b ∈ p.x, rnd b = rnd x' := ⟨x', by rw [← pts_fst h]; exact List.mem_map.2 ⟨_, hx', rfl⟩, rfl⟩
  have hv : merge m (group rnd p (rnd x')) = none := by
    rw [merge_none (group_ne_nil h ha), mem_group]
    exact ⟨x, hx, hr.symm⟩
  refine ⟨q, e, (hm _ _).2 ⟨(newX_mem _ _).2 ha, hv.symm⟩, ?_⟩
  intro w hw
  have := ((hm _ _).1 hw).2
  rw [hv] at this
  cases this

/-- C233: an abscissa that is not equal to its rounding is **replaced** even without any doublon. -/
theorem C233_rounded_violated (hs : IsArgsort srt) {m : Method} {x : Rat} (hx : x ∈ p.x) (hr : ∀ y ∈ p.x, rnd y ≠ x) :
    ∃ q, removeDoublons srt rnd p m = (q, .ok ⟨⟩) ∧ x ∉ q.x ∧ rnd x ∈ q.x := by
  obtain ⟨q, e, -, -, -, -, hm⟩ := C233_abscissae (rnd := rnd) hs p m
  refine ⟨q, e, ?_, (hm _).2 ⟨x, hx, rfl⟩⟩
  rw [hm]
  rintro ⟨y, hy, h⟩
  exact hr y hy h

/-- C233: a profile without doublons, at abscissae that are their own rounding, is not changed. -/
theorem C233_nothing (hs : IsArgsort srt) (h : Valid p) (hi : Inc p.x) (hr : ∀ x ∈ p.x, rnd x = x) (m : Method) :
    ∃ q, removeDoublons srt rnd p m = (q, .ok ⟨⟩) ∧ pts q = pts p := by
  obtain ⟨q, e, hv, -, -, qx, hm⟩ := doublons_spec (rnd := rnd) hs p m
  have hx : newX rnd p.x = p.x := by
    unfold newX
    rw [List.map_congr_left hr, List.map_id', List.Nodup.dedup (hi.imp fun h => ne_of_lt h)]
    exact List.Pairwise.insertionSort_eq (hi.imp fun h => le_of_lt h)
  refine ⟨q, e, ?_⟩
  have hsub : ∀ r ∈ pts p, r ∈ pts q := by
    rintro ⟨x, v⟩ hxv
    have hxm : x ∈ p.x := by rw [← pts_fst h]; exact List.mem_map.2 ⟨_, hxv, rfl⟩
    refine (hm x v).2 ⟨by rw [hx]; exact hxm, ?_⟩
    have hg : group rnd p x = [v] := by
      unfold group
      have hnd : (pts p).Pairwise fun a b => a.1 < b.1 := pts_inc h hi
      have hr' : ∀ r ∈ pts p, rnd r.1 = r.1 := fun r hrm => hr r.1 (by rw [← pts_fst h]; exact List.mem_map.2 ⟨_, hrm, rfl⟩)
      generalize pts p = l at hnd hxv hr'
      induction l with
      | nil => simp at hxv
      | cons r l ih =>
        rw [List.pairwise_cons] at hnd
        rcases List.mem_cons.1 hxv with rfl | hin
        · rw [List.filter_cons_of_pos (by simpa using hr' (x, v) (by simp)), List.filter_eq_nil_iff.2]
          · rfl
          · intro s hsm
            have h1 := hnd.1 s hsm
            simp only at h1
            rw [hr' s (by simp [hsm])]
            simp only [decide_eq_true_eq]
            exact ne_of_gt h1
        · have h1 := hnd.1 _ hin
          simp only at h1
          rw [List.filter_cons_of_neg (by
            rw [hr' r (by simp)]
            simp only [decide_eq_true_eq]
            exact ne_of_lt h1)]
          exact ih hnd.2 hin fun s hsm => hr' s (by simp [hsm])
    rw [hg]
    cases v with
    | none => cases m <;> rfl
    | some v => cases m <;> simp [merge, allSome]
  have hlen : (pts q).length = (pts p).length := by
    have l1 : (pts q).length = q.x.length := by rw [← pts_fst hv, List.length_map]
    have l2 : (pts p).length = p.x.length := by rw [← pts_fst h, List.length_map]
    rw [l1, l2, qx, hx]
  have hf : (pts q).map Prod.fst = (pts p).map Prod.fst := by rw [pts_fst hv, pts_fst h, qx, hx]
  apply List.ext_getElem?
  intro i
  cases h1 : (pts p)[i]? with
  | none =>
    rw [List.getElem?_eq_none_iff] at h1 ⊢
    omega
  | some r =>
    have hlt := getElem?_some_lt h1
    cases h2 : (pts q)[i]? with
    | none => rw [List.getElem?_eq_none_iff] at h2; omega
    | some s =>
      have e1 : s.1 = r.1 := by
        have := congrArg (fun l : List Rat => l[i]?) hf
        simp only [List.getElem?_map, h1, h2] at this
        exact Option.some.inj this
      have m1 := (hm r.1 r.2).1 (hsub r (List.mem_of_getElem? h1))
      have m2 := (hm s.1 s.2).1 (List.mem_of_getElem? h2)
      rw [e1] at m2
      exact congrArg some (Prod.ext e1 (m2.2.trans m1.2.symm))

/-! Three points, two of them at (nearly) the same abscissa. -/

def twice : Prof where
  x := [0, 1, 1]
  y := [some 0, some 2, some 6]
  m := [false, false, false]
  ux := .m
  uy := .s

example : Valid twice := by
  unfold Valid
  decide +kernel

example : pts (removeDoublons argsort id twice .average).1 = [(0, some 0), (1, some 4)] ∧
    pts (removeDoublons argsort id twice .max).1 = [(0, some 0), (1, some 6)] := by decide +kernel

/-- One of the two masked. -/
def twiceMasked : Prof where
  x := [0, 1, 1]
  y := [some 0, none, some 6]
  m := [false, true, false]
  ux := .m
  uy := .s

example : Valid twiceMasked ∧ (1, none) ∈ pts twiceMasked ∧ (1, some 6) ∈ pts twiceMasked := by
  unfold Valid
  decide +kernel

end IMT.Reshape
