import Verif.TPoints.Crop

/-! Properties C100, C102 and C103: histories, scaling and units of collections of time-resolved points. -/

namespace IMT.TPoints

open IMT.Points (P F rows Aligned)

variable {srt : List Rat → List Nat}

/-! ### C100: additions and removals -/

theorem sort_spec (hs : Profile.IsArgsort srt) {t : TP} (hp : Paired t) (hnd : t.nd = false) :
    ∃ t', sortByTime srt t = (t', .ok ⟨⟩) ∧ Paired t' ∧ Sorted t' ∧ (entries t').Perm (entries t) ∧
      t'.ut = t.ut ∧ t'.ux = t.ux ∧ t'.uy = t.uy ∧ t'.nd = false := by
  have ho : ∀ i ∈ srt t.times, i < t.times.length := fun i hi => Profile.mem_order hs hi
  have l1 : (Profile.take t.times (srt t.times)).length = t.times.length := by
    rw [Profile.take_length ho, (hs t.times).1.length_eq, List.length_range]
  have l2 : (Profile.take t.sets (srt t.times)).length = t.sets.length := by
    rw [Profile.take_length (fun i hi => hp ▸ ho i hi), (hs t.times).1.length_eq, List.length_range]; exact hp
  unfold sortByTime
  by_cases h1 : t.sets.length ≤ 1
  · rw [if_pos h1]
    refine ⟨t, rfl, hp, ?_, List.Perm.refl _, rfl, rfl, rfl, hnd⟩
    unfold Sorted
    have : t.times.length ≤ 1 := by rw [hp]; exact h1
    match hm : t.times, this with
    | [], _ => simp
    | [a], _ => simp
  · rw [if_neg h1, if_neg (by rw [l1, hp]; simp)]
    refine ⟨_, rfl, ?_, (hs t.times).2, ?_, rfl, rfl, rfl, rfl⟩
    · unfold Paired; rw [l1, l2]; exact hp
    · unfold entries
      rw [Profile.take_zip _ _ _ hp ho]
      refine Profile.take_perm ?_
      rw [List.length_zip, ← hp, min_self]
      exact (hs t.times).1

theorem announce_times (m : Heap) (t : TP) (a : Nat) (x : Rat) (u : Sym) :
    (announce m t a x u).times = if t.sets.length = 0 then [x] else t.times ++ [storedTime t x u] := by
  unfold announce; split <;> rfl

theorem announce_ut (m : Heap) (t : TP) (a : Nat) (x : Rat) (u : Sym) :
    (announce m t a x u).ut = if t.sets.length = 0 then u else t.ut := by
  unfold announce; split <;> rfl

theorem announce_sets (m : Heap) (t : TP) (a : Nat) (x : Rat) (u : Sym) :
    (announce m t a x u).sets = t.sets ∧ (announce m t a x u).nd = t.nd := by
  unfold announce; split <;> exact ⟨rfl, rfl⟩

theorem add_spec (hs : Profile.IsArgsort srt) {m : Heap} {t : TP} {a : Nat} {x : Rat} {u : Sym} (hp : Paired t)
    (hnd : t.nd = false) :
    ∃ t', addPts srt m t a x u = (t', .ok ⟨⟩) ∧ Paired t' ∧ Sorted t' ∧ t'.nd = false ∧
      t'.ut = (if t.sets.length = 0 then u else t.ut) ∧
      (entries t').Perm ((if t.sets.length = 0 then x else storedTime t x u, a) :: entries t) := by
  have hp' : Paired { announce m t a x u with sets := t.sets ++ [a] } := by
    unfold Paired
    simp only [announce_times, List.length_append, List.length_singleton]
    split
    · simp_all
    · rw [List.length_append, List.length_singleton]; exact congrArg (· + 1) hp
  obtain ⟨t', h1, h2, h3, h4, h5, -, -, h6⟩ := sort_spec hs hp' (by
    show (announce m t a x u).nd = false
    rw [(announce_sets m t a x u).2]; exact hnd)
  refine ⟨t', ?_, h2, h3, h6, ?_, h4.trans ?_⟩
  · unfold addPts
    rw [if_neg (by rw [hnd]; simp)]
    exact h1
  · rw [h5]; exact announce_ut m t a x u
  · unfold entries
    simp only [announce_times]
    by_cases h0 : t.sets.length = 0
    · rw [if_pos h0, if_pos h0]
      have e1 : t.sets = [] := List.length_eq_zero_iff.mp h0
      have e2 : t.times = [] := by rw [← List.length_eq_zero_iff, hp]; exact h0
      rw [e1, e2]
      exact List.Perm.refl _
    · rw [if_neg h0, if_neg h0, List.zip_append hp]
      exact List.perm_append_singleton _ _

/-- C100: adding a set to a collection from which nothing was removed, with a time in the unit of the collection: as many
times as sets, in increasing order, and exactly one more pair. -/
theorem C100_add (hs : Profile.IsArgsort srt) {m : Heap} {t : TP} {a : Nat} {x : Rat} {u : Sym} (hp : Paired t)
    (hnd : t.nd = false) (hu : u.size ≠ 0) (hut : t.sets ≠ [] → t.ut = u) :
    ∃ t', addPts srt m t a x u = (t', .ok ⟨⟩) ∧ Paired t' ∧ Sorted t' ∧ (entries t').Perm ((x, a) :: entries t) := by
  obtain ⟨t', h1, h2, h3, -, -, h6⟩ := add_spec hs (m := m) (a := a) (x := x) (u := u) hp hnd
  refine ⟨t', h1, h2, h3, ?_⟩
  by_cases h0 : t.sets.length = 0
  · rwa [if_pos h0] at h6
  · rw [if_neg h0] at h6
    have e : t.ut = u := hut fun e => h0 (by rw [e]; rfl)
    have : storedTime t x u = x := by
      unfold storedTime; rw [e, Temporal.unitNum_self hu, mul_one]
    rwa [this] at h6

/-- C100: removing one set removes its time with it. -/
theorem C100_remove_one {t : TP} (hp : Paired t) {i : Nat} (hi : i < t.sets.length) :
    ∃ t', removePts t [(i : Int)] = (t', .ok ⟨⟩) ∧ Paired t' ∧ entries t' = (entries t).eraseIdx i := by
  have hi' : i < t.times.length := by rw [hp]; exact hi
  refine ⟨{ t with times := t.times.eraseIdx i, sets := t.sets.eraseIdx i, nd := true }, ?_, ?_, ?_⟩
  · unfold removePts
    rw [Temporal.pyIdx_nat hi']
    simp only
    rw [Temporal.pyIdx_nat hi]
    simp only
    rfl
  · unfold Paired
    simp only [List.length_eraseIdx]
    rw [if_pos hi', if_pos hi, hp]
  · have := (Temporal.deleteAll_zip t.times t.sets hp [(i : Int)]).2.2.1
    unfold Temporal.deleteAll at this
    rw [Temporal.pyIdx_nat hi', Temporal.pyIdx_nat hi, Temporal.pyIdx_nat (by rw [List.length_zip, hp, min_self]; exact hi)] at this
    exact this

/-- C100 fails after any removal: every later addition raises AttributeError, and leaves behind a time without a set. -/
theorem C100_removed_violated {t : TP} (hp : Paired t) {i : Nat} (hi : i < t.sets.length) (m : Heap) (a : Nat) (x : Rat) (u : Sym) :
    ∃ t' t'', removePts t [(i : Int)] = (t', .ok ⟨⟩) ∧ addPts srt m t' a x u = (t'', .error .attributeError) ∧
      t''.times.length = t''.sets.length + 1 := by
  obtain ⟨t', h1, h2, -⟩ := C100_remove_one hp hi
  have hnd : t'.nd = true := by
    unfold removePts at h1
    rw [Temporal.pyIdx_nat (by rw [hp]; exact hi)] at h1
    simp only at h1
    rw [Temporal.pyIdx_nat hi] at h1
    simp only at h1
    unfold removePts at h1
    cases h1; rfl
  refine ⟨t', announce m t' a x u, h1, ?_, ?_⟩
  · unfold addPts; rw [if_pos hnd]
  · rw [announce_times, (announce_sets m t' a x u).1]
    split
    · rename_i h0; rw [h0]; rfl
    · rw [List.length_append, h2]; rfl

/-- C100 fails for a time given in another unit: the instant stored is not the instant given, unless it is zero or the
units have the same size. -/
theorem C100_unit_violated (hs : Profile.IsArgsort srt) {m : Heap} {t t' : TP} {a : Nat} {x : Rat} {u : Sym} (hp : Paired t)
    (h0 : t.sets ≠ []) (hnd : t.nd = false) (ha : a ∉ t.sets) (hc : t.ut.Compat u) (hx : x ≠ 0) (hu : 0 < u.size)
    (ht : 0 < t.ut.size) (hne : u.size ≠ t.ut.size) (h : addPts srt m t a x u = (t', .ok ⟨⟩)) :
    ∀ y, (y, a) ∈ entries t' → y * t'.ut.size ≠ x * u.size := by
  obtain ⟨t2, h1, -, -, -, h5, h6⟩ := add_spec hs (m := m) (a := a) (x := x) (u := u) hp hnd
  rw [h1] at h
  cases h
  have hl : t.sets.length ≠ 0 := fun e => h0 (List.length_eq_zero_iff.mp e)
  rw [if_neg hl] at h5 h6
  intro y hy
  have := h6.mem_iff.mp hy
  rcases List.mem_cons.mp this with c | c
  · have hy' : y = storedTime t x u := (Prod.mk.injEq _ _ _ _ ▸ c).1
    rw [h5, hy']
    unfold storedTime SF.unitNum Sym.div
    rw [if_pos (by obtain ⟨c1, c2, c3⟩ := hc; simp [Sym.Compat, Sym.one, c1, c2, c3])]
    intro e
    field_simp at e
    exact hne ((pow_left_inj₀ hu.le ht.le two_ne_zero).mp e.symm)
  · exact absurd (entries_mem c) ha

/-- An operation of a history: additions with times in one unit, and crops in time. -/
inductive Op where
  | add (a : Nat) (x : Rat)
  | crop (a b : Rat)

/-- The collection after an operation, whether it raised or not. -/
def step (srt : List Rat → List Nat) (m : Heap) (u : Sym) (t : TP) : Op → TP
  | .add a x => (addPts srt m t a x u).1
  | .crop a b => (cropInPlace m t none none none (some (a, b))).2.1

/-- What the operations added. -/
def added : List Op → List (Rat × Nat)
  | [] => []
  | .add a x :: ops => (x, a) :: added ops
  | .crop _ _ :: ops => added ops

/-- C100, for every history of additions and crops: as many times as sets, increasing times, and every pair comes from its
own addition.  Missing: removals (`C100_removed_violated`), several units (`C100_unit_violated`). -/
theorem C100_history_partial (hs : Profile.IsArgsort srt) (m : Heap) {u : Sym} (hu : u.size ≠ 0) (ops : List Op) :
    Paired (ops.foldl (step srt m u) TP.empty) ∧ Sorted (ops.foldl (step srt m u) TP.empty) ∧
      (entries (ops.foldl (step srt m u) TP.empty)).Subperm (added ops) := by
  have key : ∀ (ops : List Op) (t : TP) (l : List (Rat × Nat)), Paired t → Sorted t → t.nd = false → (t.sets ≠ [] → t.ut = u) →
      (entries t).Subperm l → Paired (ops.foldl (step srt m u) t) ∧ Sorted (ops.foldl (step srt m u) t) ∧
        (entries (ops.foldl (step srt m u) t)).Subperm (added ops ++ l) := by
    intro ops
    induction ops with
    | nil => intro t l hp hso _ _ hsub; exact ⟨hp, hso, hsub⟩
    | cons op ops ih =>
      intro t l hp hso hnd hut hsub
      cases op with
      | add a x =>
        obtain ⟨t', h1, h2, h3, h4, h5, h6⟩ := add_spec hs (m := m) (a := a) (x := x) (u := u) hp hnd
        have hst : (if t.sets.length = 0 then x else storedTime t x u) = x := by
          split
          · rfl
          · rename_i h0
            have e : t.ut = u := hut fun e => h0 (by rw [e]; rfl)
            unfold storedTime; rw [e, Temporal.unitNum_self hu, mul_one]
        rw [hst] at h6
        have hs' : step srt m u t (.add a x) = t' := by
          show (addPts srt m t a x u).1 = t'
          rw [h1]
        rw [List.foldl_cons, hs']
        obtain ⟨k1, k2, k3⟩ := ih t' ((x, a) :: l) h2 h3 h4 (by
          intro _
          rw [h5]
          split
          · rfl
          · rename_i h0; exact hut fun e => h0 (by rw [e]; rfl)) (h6.subperm.trans ((List.subperm_cons _).mpr hsub))
        refine ⟨k1, k2, k3.trans ?_⟩
        exact List.perm_middle.subperm
      | crop c d =>
        rw [List.foldl_cons]
        have hcell : ∀ t1, cropTime t (some (c, d)) = .ok t1 → step srt m u t (.crop c d) = t1 := by
          intro t1 h1
          show (cropInPlace m t none none none (some (c, d))).2.1 = t1
          unfold cropInPlace
          rw [h1]
        cases h1 : cropTime t (some (c, d)) with
        | error e =>
          have : step srt m u t (.crop c d) = t := by
            show (cropInPlace m t none none none (some (c, d))).2.1 = t
            unfold cropInPlace
            rw [h1]
          rw [this]
          exact ih t l hp hso hnd hut hsub
        | ok t1 =>
          rw [hcell t1 h1]
          obtain ⟨e1, e2, e3, e4, e5, e6⟩ := cropTime_spec hp hso h1
          refine ih t1 l e2 e3 (e5.trans hnd) ?_ ?_
          · intro hne
            rw [e4]
            apply hut
            rintro he
            rw [he] at e6
            exact hne (List.sublist_nil.mp e6)
          · rw [e1]
            exact (List.filter_sublist).subperm.trans hsub
  have := key ops TP.empty [] rfl (by simp [Sorted, TP.empty]) rfl (fun h => absurd rfl h) (by simp [entries, TP.empty])
  rwa [List.append_nil] at this

example : ((([.add 0 3, .add 1 1, .crop 0 5, .add 0 2] : List Op).foldl (step Profile.argsort heap2 .s) TP.empty).times,
    (([.add 0 3, .add 1 1, .crop 0 5, .add 0 2] : List Op).foldl (step Profile.argsort heap2 .s) TP.empty).sets) =
    ([1, 2, 3], [1, 0, 0]) := by decide +kernel

example : Paired col2 ∧ (1 : Nat) < col2.sets.length ∧ (2 : Nat) ∉ col2.sets ∧ col2.ut.Compat .ms ∧
    (storedTime col2 5 .ms : Rat) = 5000 := ⟨rfl, by decide, by decide, by decide, by decide +kernel⟩

/-! ### C102 -/

/-- A loop on the sets that replaces each object by its image. -/
theorem scaleCells_spec (x y v : Rat) (as : List Nat) (hn : as.Nodup) (m : Heap) :
    (scaleCells m (some x) (some y) (some v) as).2 = .ok ⟨⟩ ∧
    ∀ a, (scaleCells m (some x) (some y) (some v) as).1[a]? =
      if a ∈ as then (m[a]?).map fun p => Points.scale p x y v else m[a]? := by
  induction as generalizing m with
  | nil => exact ⟨rfl, fun a => by simp [scaleCells]⟩
  | cons b as ih =>
    rw [List.nodup_cons] at hn
    unfold scaleCells
    cases hb : m[b]? with
    | none =>
      simp only
      obtain ⟨i1, i2⟩ := ih hn.2 m
      refine ⟨i1, fun a => ?_⟩
      rw [i2 a]
      by_cases hab : a = b
      · subst hab
        rw [if_neg hn.1, if_pos (by simp), hb]; rfl
      · simp [hab]
    | some p =>
      simp only [scalePts]
      obtain ⟨i1, i2⟩ := ih hn.2 (m.set b (Points.scale p x y v))
      refine ⟨i1, fun a => ?_⟩
      rw [i2 a]
      have hbl : b < m.length := getElem?_some_lt hb
      by_cases hab : a = b
      · subst hab
        rw [if_neg hn.1, if_pos (by simp), List.getElem?_set_self hbl, hb]; rfl
      · rw [List.getElem?_set_ne (fun e => hab e.symm)]
        simp [hab]

/-- The content of a collection with positions, values and times multiplied: a specification. -/
def scaled (x y v s : Rat) (c : List (Rat × Option (List ((F × F) × Option F)))) :
    List (Rat × Option (List ((F × F) × Option F))) :=
  c.map fun e => (e.1 * s, e.2.map (List.map fun r => ((r.1.1.map (· * x), r.1.2.map (· * y)), r.2.map (Option.map (· * v)))))

/-- C102, when the three scales of the points are given: the result shows the positions, values and times of the
collection multiplied, and the collection still shows what it showed.  Missing: leaving one of them out
(`C102_default_violated`). -/
theorem C102_scale_partial {m : Heap} {t : TP} (hok : Sound m t) (hn : t.sets.Nodup) (x y v : Rat) (s : Option Rat) :
    ∃ m' t', scale m t (some x) (some y) (some v) s = (m', .ok t') ∧
      content m' t' = scaled x y v (s.getD 1) (content m t) ∧ content m' t = content m t := by
  have hlt : ∀ a ∈ t.sets, a < m.length := by
    intro a ha
    obtain ⟨p, hpa, -⟩ := hok a ha
    exact getElem?_some_lt hpa
  obtain ⟨h1, h2⟩ := scaleCells_spec x y v (deepCopy m t).2.sets
    (hn.map (fun a b h => by simpa using h)) (m ++ m)
  have hsc : scaleCells (deepCopy m t).1 (some x) (some y) (some v) (deepCopy m t).2.sets =
      ((scaleCells (m ++ m) (some x) (some y) (some v) (deepCopy m t).2.sets).1, .ok ⟨⟩) := Prod.ext rfl h1
  have htimes : scaledTimes (deepCopy m t).2.times s =
      t.times.map (· * s.getD 1) := by
    cases s with
    | none => simp [deepCopy, scaledTimes]
    | some c => rfl
  refine ⟨(scaleCells (m ++ m) (some x) (some y) (some v) (deepCopy m t).2.sets).1, { (deepCopy m t).2 with times := t.times.map (· * s.getD 1) }, ?_, ?_, ?_⟩
  · unfold scale scaleInPlace
    rw [hsc]
    simp only
    rw [htimes]
  · unfold content scaled entries
    simp only [deepCopy]
    rw [List.zip_map, List.map_map, List.map_map]
    apply List.map_congr_left
    intro e he
    have ha : e.2 ∈ t.sets := (List.of_mem_zip he).2
    obtain ⟨p, hpa, hal⟩ := hok e.2 ha
    simp only [Function.comp, Prod.map]
    rw [show (scaleCells (m ++ m) (some x) (some y) (some v) (t.sets.map (· + m.length))).1[e.2 + m.length]? = _ from
      h2 (e.2 + m.length)]
    rw [if_pos (by simp only [deepCopy]; exact List.mem_map.mpr ⟨e.2, ha, rfl⟩),
      List.getElem?_append_right (by omega), Nat.add_sub_cancel, hpa]
    simp only [Option.map_some]
    have hr := Points.rows_map (p := p) (fun c => (c.1.map (· * x), c.2.map (· * y))) (Option.map (· * v))
    unfold Points.scale
    rw [hr]
  · apply content_congr
    intro a ha
    rw [h2 a, if_neg, List.getElem?_append_left (hlt a ha)]
    simp only [deepCopy, List.mem_map, not_exists, not_and]
    intro b _ e
    have := hlt a ha
    omega

/-- C102 fails as soon as one of the three scales of the points is left to its default: TypeError, whatever the others. -/
theorem C102_default_violated {m : Heap} {t : TP} (hok : Sound m t) (h0 : t.sets ≠ []) (sx sy sv st : Option Rat)
    (h : sx = none ∨ sy = none ∨ sv = none) : (scale m t sx sy sv st).2 = .error .typeError := by
  cases hsets : t.sets with
  | nil => exact absurd hsets h0
  | cons a as =>
    obtain ⟨p, hpa, -⟩ := hok a (by rw [hsets]; simp)
    have hpt : scalePts p sx sy sv = .error .typeError := by
      unfold scalePts
      rcases h with rfl | rfl | rfl
      · rfl
      · cases sx <;> rfl
      · cases sx <;> cases sy <;> rfl
    have hc : scaleCells (deepCopy m t).1 sx sy sv (deepCopy m t).2.sets = ((deepCopy m t).1, .error .typeError) := by
      simp only [deepCopy, hsets, List.map_cons]
      unfold scaleCells
      rw [List.getElem?_append_right (by omega), Nat.add_sub_cancel, hpa]
      simp only
      rw [hpt]
    unfold scale scaleInPlace
    rw [hc]

example : Sound heap2 col2 ∧ col2.sets.Nodup ∧ col2.sets ≠ [] ∧
    (scale heap2 col2 none none none (some 2)).2.toOption.isNone := ⟨col2_sound, by decide, by decide, by decide +kernel⟩

/-! ### C103 -/

/-- C103: a set of points expressed in another unit of the same dimension: the physical positions are the same, and so is
all the rest. -/
theorem C103_points {p : P} {new : Sym} (hs : new.size ≠ 0) :
    (p.ux.Compat new → ∃ q, changeUnitPts p .x new = .ok q ∧ q.ux = new ∧ q.uy = p.uy ∧ q.v = p.v ∧ q.uv = p.uv ∧
      q.xy.map (fun c => (Points.si q.ux c.1, c.2)) = p.xy.map fun c => (Points.si p.ux c.1, c.2)) ∧
    (p.uy.Compat new → ∃ q, changeUnitPts p .y new = .ok q ∧ q.uy = new ∧ q.ux = p.ux ∧ q.v = p.v ∧ q.uv = p.uv ∧
      q.xy.map (fun c => (c.1, Points.si q.uy c.2)) = p.xy.map fun c => (c.1, Points.si p.uy c.2)) := by
  constructor
  · intro hc
    refine ⟨{ p with ux := new, xy := p.xy.map fun c => (c.1.map (· * (1 * p.ux.size / new.size)), c.2) }, ?_, rfl, rfl, rfl, rfl, ?_⟩
    · unfold changeUnitPts Unum.asUnit
      rw [if_pos hc]; rfl
    · simp only [List.map_map]
      apply List.map_congr_left
      intro c _
      simp only [Function.comp, Points.si, Option.map_map, Prod.mk.injEq, and_true]
      congr 1
      funext r
      simp only [Function.comp]
      field_simp
  · intro hc
    refine ⟨{ p with uy := new, xy := p.xy.map fun c => (c.1, c.2.map (· * (1 * p.uy.size / new.size))) }, ?_, rfl, rfl, rfl, rfl, ?_⟩
    · unfold changeUnitPts Unum.asUnit
      rw [if_pos hc]; rfl
    · simp only [List.map_map]
      apply List.map_congr_left
      intro c _
      simp only [Function.comp, Points.si, Option.map_map, Prod.mk.injEq, true_and]
      congr 1
      funext r
      simp only [Function.comp]
      field_simp

/-- C103: changing the unit of time of a collection leaves the instants and the sets as they are. -/
theorem C103_time {m : Heap} {t : TP} {new : Sym} (hs : new.size ≠ 0) (hc : t.ut.Compat new) :
    ∃ t', changeUnit m t .time new = (m, t', .ok ⟨⟩) ∧ t'.ut = new ∧ t'.sets = t.sets ∧
      t'.times.map (· * new.size) = t.times.map (· * t.ut.size) := by
  refine ⟨{ t with times := t.times.map (· * (1 * t.ut.size / new.size)), ut := new }, ?_, rfl, rfl, ?_⟩
  · unfold changeUnit Unum.asUnit
    rw [if_pos hc]
  · simp only [List.map_map]
    apply List.map_congr_left
    intro c _
    simp only [Function.comp]
    field_simp

/-- C103: a unit of another dimension is refused, and nothing changes. -/
theorem C103_refused {m : Heap} {t : TP} {new : Sym} (hc : ¬ t.ut.Compat new) :
    changeUnit m t .time new = (m, t, .error .valueError) := by
  unfold changeUnit Unum.asUnit
  rw [if_neg hc]

/-- C103 fails for the values: a collection that holds a set refuses every unit for its values. -/
theorem C103_values_violated {m : Heap} {t : TP} (hok : Sound m t) (h0 : t.sets ≠ []) (new : Sym) :
    changeUnit m t .values new = (m, t, .error .valueError) := by
  cases hsets : t.sets with
  | nil => exact absurd hsets h0
  | cons a as =>
    obtain ⟨p, hpa, -⟩ := hok a (by rw [hsets]; simp)
    unfold changeUnit
    simp only [hsets]
    unfold changeUnitCells
    rw [hpa]
    rfl

/-- C103 fails for the units of the collection itself: they stay the former ones after a change of the unit of an axis. -/
theorem C103_stale_violated {m : Heap} {t : TP} {w : Axe} (hw : w = .x ∨ w = .y) (new : Sym) :
    (changeUnit m t w new).2.1.ux = t.ux ∧ (changeUnit m t w new).2.1.uy = t.uy := by
  unfold changeUnit
  rcases hw with rfl | rfl <;> exact ⟨rfl, rfl⟩

/-- C103, for the positions of a collection of distinct sets that are all in a unit of the right dimension: each set is
expressed in the new unit. -/
theorem C103_sets_partial {m : Heap} {t : TP} (hok : Sound m t) (hn : t.sets.Nodup) {new : Sym}
    (hc : ∀ a ∈ t.sets, ∀ p, m[a]? = some p → p.ux.Compat new) :
    (changeUnit m t .x new).2.2 = .ok ⟨⟩ ∧
    ∀ a ∈ t.sets, ∃ p q, m[a]? = some p ∧ (changeUnit m t .x new).1[a]? = some q ∧ changeUnitPts p .x new = .ok q := by
  have key : ∀ (as : List Nat) (m : Heap), as.Nodup → (∀ a ∈ as, ∃ p, m[a]? = some p ∧ p.ux.Compat new) →
      (changeUnitCells m .x new as).2 = .ok ⟨⟩ ∧ (∀ a, a ∉ as → (changeUnitCells m .x new as).1[a]? = m[a]?) ∧
      ∀ a ∈ as, ∃ p q, m[a]? = some p ∧ (changeUnitCells m .x new as).1[a]? = some q ∧ changeUnitPts p .x new = .ok q := by
    intro as
    induction as with
    | nil => intro m _ _; exact ⟨rfl, fun _ _ => rfl, fun a ha => absurd ha (by simp)⟩
    | cons b as ih =>
      intro m hn h
      rw [List.nodup_cons] at hn
      obtain ⟨p, hp, hcp⟩ := h b (by simp)
      obtain ⟨q, hq⟩ : ∃ q, changeUnitPts p .x new = .ok q := by
        unfold changeUnitPts Unum.asUnit
        rw [if_pos hcp]
        exact ⟨_, rfl⟩
      have hbl : b < m.length := getElem?_some_lt hp
      obtain ⟨i1, i2, i3⟩ := ih (m.set b q) hn.2 (by
        intro a ha
        obtain ⟨p', hp', hc'⟩ := h a (by simp [ha])
        exact ⟨p', by rw [List.getElem?_set_ne (by rintro rfl; exact hn.1 ha)]; exact hp', hc'⟩)
      unfold changeUnitCells
      rw [hp]
      simp only
      rw [hq]
      simp only
      refine ⟨i1, ?_, ?_⟩
      · intro a ha
        have hab : b ≠ a := by rintro rfl; exact ha (by simp)
        rw [i2 a (fun c => ha (by simp [c])), List.getElem?_set_ne hab]
      · intro a ha
        rcases List.mem_cons.mp ha with rfl | c
        · exact ⟨p, q, hp, by rw [i2 _ hn.1, List.getElem?_set_self hbl], hq⟩
        · obtain ⟨p', q', h1, h2, h3⟩ := i3 a c
          have hab : b ≠ a := by rintro rfl; exact hn.1 c
          rw [List.getElem?_set_ne hab] at h1
          exact ⟨p', q', h1, h2, h3⟩
  obtain ⟨k1, -, k3⟩ := key t.sets m hn fun a ha => by
    obtain ⟨p, hp, -⟩ := hok a ha
    exact ⟨p, hp, hc a ha p hp⟩
  exact ⟨k1, k3⟩

example : Sym.mm.Compat .m ∧ Sym.m.size ≠ 0 ∧ col2.ut.Compat .ms ∧
    (changeUnit heap2 col2 .time .ms).2.1.times = [1000, 2000] ∧
    ((changeUnit heap2 col2 .x .cm).1[1]?.map fun p : P => p.xy) = some [(some (1/10), some 1)] :=
  ⟨by decide, by decide +kernel, by decide, by decide +kernel, by decide +kernel⟩

end IMT.TPoints
