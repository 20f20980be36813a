import Verif.TPoints.Lemmas

/-! Properties C48 and C101: cropping a collection of time-resolved points, and what it does to the objects of the caller. -/

namespace IMT.TPoints

open IMT.Points (P F rows Aligned keepRow Inside)

/-- The content of a collection restricted to the windows: a specification, with the test `keep` on a point. -/
def restricted (it : Option (Rat × Rat)) (keep : (F × F) × Option F → Bool)
    (c : List (Rat × Option (List ((F × F) × Option F)))) : List (Rat × Option (List ((F × F) × Option F))) :=
  (c.filter fun e => decide (Temporal.inside it e.1)).map fun e => (e.1, e.2.map (List.filter keep))

theorem filter_none {α : Type} {l : List (Rat × α)} : l.filter (fun e => decide (Temporal.inside none e.1)) = l :=
  List.filter_eq_self.mpr fun _ _ => decide_eq_true trivial

theorem content_filter (m : Heap) (t t1 : TP) (it : Option (Rat × Rat))
    (h : entries t1 = (entries t).filter (fun p => decide (Temporal.inside it p.1))) :
    content m t1 = (content m t).filter fun e => decide (Temporal.inside it e.1) := by
  unfold content
  rw [h, List.filter_map]
  rfl

/-- C48, in place: the collection holds exactly the sets whose time lies in the closed interval, with the same times and in
the same order, each of them reduced to the points of which no number lies outside the closed windows. -/
theorem C48_in_place {m : Heap} {t : TP} (hp : Paired t) (hs : Sorted t) (hok : Sound m t) {ix iy iv it : Option (Rat × Rat)}
    {m' : Heap} {t' : TP} (h : cropInPlace m t ix iy iv it = (m', t', .ok ⟨⟩)) :
    (∃ keep, (∀ r, keep r = true ↔ Inside ix iy iv r) ∧ content m' t' = restricted it keep (content m t)) ∧
      Paired t' ∧ Sorted t' ∧ ∀ a, a ∉ t.sets → m'[a]? = m[a]? := by
  unfold cropInPlace at h
  cases h1 : cropTime t it with
  | error e => rw [h1] at h; simp at h
  | ok t1 =>
    rw [h1] at h
    simp only [Prod.mk.injEq] at h
    obtain ⟨hm, rfl, hr⟩ := h
    obtain ⟨he, hp1, hs1, -, -, hsub⟩ := cropTime_spec hp hs h1
    obtain ⟨-, hlen, hc⟩ := cropCells_spec ix iy iv t1.sets m (by
      intro a ha p hpa
      obtain ⟨p', hp', hal⟩ := hok a (hsub.subset ha)
      rw [hpa] at hp'; cases hp'; exact hal)
    refine ⟨⟨keepRow ix iy iv, Points.keepRow_iff ix iy iv, ?_⟩, hp1, hs1, ?_⟩
    · unfold restricted
      rw [← content_filter m t t1 it he]
      unfold content
      rw [List.map_map]
      apply List.map_congr_left
      intro e hmem
      have ha := entries_mem hmem
      obtain ⟨p, hpa, hal⟩ := hok e.2 (hsub.subset ha)
      obtain ⟨q, hq, -, h2⟩ := hc e.2 p hpa
      rw [← hm, hq]
      simp only [Function.comp, hpa, Option.map_some]
      rw [(h2 ha).2]
    · intro a ha
      rw [← hm]
      cases hma : m[a]? with
      | none =>
        rw [List.getElem?_eq_none_iff] at hma ⊢
        omega
      | some p =>
        obtain ⟨q, hq, h2, -⟩ := hc a p hma
        rw [hq, h2 fun c => ha (hsub.subset c)]

/-- What a crop that is not in place does to the memory and to the collection it returns. -/
theorem crop_spec {m : Heap} {t : TP} (hp : Paired t) (hs : Sorted t) (hok : Sound m t) (ix iy iv it : Option (Rat × Rat))
    {t1 : TP} (h : cropTime (deepCopy m t).2 it = .ok t1) :
    ∃ m', crop m t ix iy iv it = (m', .ok t1) ∧
      content m' t1 = (content m t).filter (fun e => decide (Temporal.inside it e.1)) ∧
      content m' t = restricted none (keepRow ix iy iv) (content m t) := by
  have hlt : ∀ a ∈ t.sets, a < m.length := by
    intro a ha
    obtain ⟨p, hpa, -⟩ := hok a ha
    exact getElem?_some_lt hpa
  obtain ⟨h1, hlen, hc⟩ := cropCells_spec ix iy iv t.sets (m ++ m) (by
    intro a ha p hpa
    rw [List.getElem?_append_left (hlt a ha)] at hpa
    obtain ⟨p', hp', hal⟩ := hok a ha
    rw [hpa] at hp'; cases hp'; exact hal)
  refine ⟨(cropCells (m ++ m) ix iy iv t.sets).1, ?_, ?_, ?_⟩
  · unfold crop
    rw [h]
    simp only
    have e : cropCells (deepCopy m t).1 ix iy iv t.sets = ((cropCells (m ++ m) ix iy iv t.sets).1, .ok ⟨⟩) :=
      Prod.ext rfl h1
    rw [e]
  · obtain ⟨he, -, -, -, -, hsub⟩ := cropTime_spec (deepCopy_paired hp) hs h
    rw [deepCopy_entries, List.filter_map] at he
    unfold content
    rw [he, List.filter_map, List.map_map]
    apply List.map_congr_left
    intro e hmem
    have ha := entries_mem (List.mem_of_mem_filter hmem)
    obtain ⟨p, hpa, -⟩ := hok e.2 ha
    have hd : (m ++ m)[e.2 + m.length]? = some p := by
      rw [List.getElem?_append_right (by omega), Nat.add_sub_cancel]; exact hpa
    obtain ⟨q, hq, h2, -⟩ := hc _ p hd
    simp only [Function.comp]
    rw [hq, h2 (fun hin => by have := hlt _ hin; omega), hpa]
  · unfold restricted content
    rw [filter_none, List.map_map]
    apply List.map_congr_left
    intro e hmem
    have ha := entries_mem hmem
    obtain ⟨p, hpa, -⟩ := hok e.2 ha
    have hd : (m ++ m)[e.2]? = some p := by rw [List.getElem?_append_left (hlt _ ha)]; exact hpa
    obtain ⟨q, hq, -, h2⟩ := hc _ p hd
    simp only [Function.comp, hpa, Option.map_some]
    rw [hq, Option.map_some, (h2 ha).2]

/-- C48, for a window in time only: the result holds exactly the sets of the closed interval, and the collection it
was taken from still holds what it held.  Missing: windows in space or on the values (`C48_source_violated`). -/
theorem C48_time_partial {m : Heap} {t : TP} (hp : Paired t) (hs : Sorted t) (hok : Sound m t) {it : Option (Rat × Rat)}
    {m' : Heap} {t' : TP} (h : crop m t none none none it = (m', .ok t')) :
    content m' t' = (content m t).filter (fun e => decide (Temporal.inside it e.1)) ∧ content m' t = content m t := by
  cases h1 : cropTime (deepCopy m t).2 it with
  | error e => unfold crop at h; rw [h1] at h; simp at h
  | ok t1 =>
    obtain ⟨m1, h2, h3, h4⟩ := crop_spec hp hs hok none none none it h1
    rw [h2] at h
    cases h
    refine ⟨h3, ?_⟩
    rw [h4]
    unfold restricted
    rw [filter_none]
    have : ∀ e : Rat × Option (List ((F × F) × Option F)), (e.1, e.2.map (List.filter (keepRow none none none))) = e := by
      intro e
      have hk : List.filter (keepRow none none none) = id := by
        funext l
        exact List.filter_eq_self.mpr fun r _ => keepRow_none r
      rw [hk, Option.map_id]; rfl
    simp only [this, List.map_id']

/-- C48 fails for every window that excludes a point: the crop that is not in place returns the sets with all their
points, and removes the points from the collection it was called on. -/
theorem C48_source_violated {m : Heap} {t : TP} (hp : Paired t) (hs : Sorted t) (hok : Sound m t)
    {ix iy iv : Option (Rat × Rat)} {a : Nat} {p : P} {r : (F × F) × Option F} (ha : a ∈ t.sets) (hpa : m[a]? = some p)
    (hr : r ∈ rows p) (hout : ¬ Inside ix iy iv r) :
    ∃ m' t', crop m t ix iy iv none = (m', .ok t') ∧ content m' t' = content m t ∧
      (∃ keep, (∀ r, keep r = true ↔ Inside ix iy iv r) ∧ content m' t = restricted none keep (content m t)) ∧
      content m' t ≠ content m t := by
  obtain ⟨m', h2, h3, h4⟩ := crop_spec hp hs hok ix iy iv none (t1 := (deepCopy m t).2) rfl
  refine ⟨m', _, h2, ?_, ⟨_, Points.keepRow_iff ix iy iv, h4⟩, ?_⟩
  · rw [h3]
    exact filter_none
  · intro e
    rw [h4] at e
    unfold restricted at e
    rw [filter_none] at e
    obtain ⟨x, hx⟩ := mem_entries hp ha
    have hmem : (x, some (rows p)) ∈ content m t := by
      unfold content
      refine List.mem_map.mpr ⟨(x, a), hx, ?_⟩
      simp [hpa]
    have hf : ∀ e ∈ content m t, (e.1, e.2.map (List.filter (keepRow ix iy iv))) = e := by
      intro e' he'
      have := List.map_inj_left (f := fun e : Rat × Option (List ((F × F) × Option F)) =>
        (e.1, e.2.map (List.filter (keepRow ix iy iv)))) (g := id) (l := content m t)
      rw [List.map_id] at this
      exact this.mp e e' he'
    have := hf _ hmem
    simp only [Option.map_some, Prod.mk.injEq, Option.some.injEq, true_and] at this
    have := List.filter_eq_self.mp this r hr
    rw [Points.keepRow_iff] at this
    exact hout this

/-- C48: a refused window in time changes no object of the caller. -/
theorem C48_refused {m : Heap} {t : TP} (ix iy iv : Option (Rat × Rat)) {it : Option (Rat × Rat)} {e : Err}
    (h : cropTime t it = .error e) : crop m t ix iy iv it = (m, .error e) := by
  have : cropTime (deepCopy m t).2 it = .error e := by
    unfold cropTime at h ⊢
    cases it with
    | none => cases h
    | some q =>
      obtain ⟨a, b⟩ := q
      simp only at h ⊢
      have e1 : (deepCopy m t).2.times = t.times := rfl
      rw [e1]
      cases hc : Temporal.cropTimeInds t.times a b with
      | error e' => rw [hc] at h; simpa using h
      | ok q => rw [hc] at h; cases h
  unfold crop
  rw [this]

/-! ### C101 -/

/-- C101 fails: the collection holds the caller's own object, so that cropping the collection in place crops the object
that was added. -/
theorem C101_crop_violated {srt : List Rat → List Nat} (hs : Profile.IsArgsort srt) {m : Heap} {t t' : TP} {a : Nat} {x : Rat}
    {u : Sym} {p : P} (hp : Paired t) (hok : Sound m t) (hpa : m[a]? = some p) (hal : Aligned p)
    (h : addPts srt m t a x u = (t', .ok ⟨⟩)) (ix iy iv : Option (Rat × Rat)) :
    ∃ q, (cropInPlace m t' ix iy iv none).1[a]? = some q ∧
      ∃ keep, (∀ r, keep r = true ↔ Inside ix iy iv r) ∧ rows q = (rows p).filter keep := by
  have hmem : ∀ b, b ∈ t'.sets ↔ b ∈ t.sets ∨ b = a := by
    intro b
    unfold addPts at h
    split at h
    · simp at h
    · unfold sortByTime at h
      split at h
      · cases h; simp
      · split at h
        · simp at h
        · rename_i hn hl
          cases h
          simp only
          have hannl : (announce m t a x u).times.length = (t.sets ++ [a]).length := by
            unfold announce
            unfold Paired at hp
            split <;> simp_all
          have := (Profile.take_perm (l := t.sets ++ [a]) (o := srt (announce m t a x u).times) (by
            rw [← hannl]; exact (hs _).1)).mem_iff (a := b)
          rw [this]
          simp
  obtain ⟨-, -, hc⟩ := cropCells_spec ix iy iv t'.sets m (by
    intro b hb p' hp'
    rcases (hmem b).mp hb with c | c
    · obtain ⟨p'', hp'', hal'⟩ := hok b c
      rw [hp'] at hp''; cases hp''; exact hal'
    · subst c
      rw [hpa] at hp'; cases hp'; exact hal)
  obtain ⟨q, hq, -, h2⟩ := hc a p hpa
  refine ⟨q, ?_, keepRow ix iy iv, Points.keepRow_iff ix iy iv, (h2 ((hmem a).mpr (Or.inr rfl))).2⟩
  unfold cropInPlace cropTime
  exact hq

/-! ### examples -/

/-- Two sets of points without values. -/
def heap2 : Heap := [⟨[(some 0, some 0), (some 5, some 1)], [], .mm, .mm, .one⟩, ⟨[(some 1, some 1)], [], .mm, .mm, .one⟩]

/-- A collection of two sets. -/
def col2 : TP := ⟨[1, 2], .s, .mm, .mm, [0, 1], false⟩

theorem col2_sound : Sound heap2 col2 := by
  intro a ha
  have : a = 0 ∨ a = 1 := by simpa [col2] using ha
  rcases this with rfl | rfl
  · exact ⟨_, rfl, Or.inl rfl⟩
  · exact ⟨_, rfl, Or.inl rfl⟩

example : Paired col2 ∧ Sorted col2 ∧ Sound heap2 col2 ∧
    (cropInPlace heap2 col2 (some (0, 2)) none none (some (0, 1))).2.2 = .ok ⟨⟩ ∧
    (cropInPlace heap2 col2 (some (0, 2)) none none (some (0, 1))).2.1.times = [1] ∧
    ((cropInPlace heap2 col2 (some (0, 2)) none none (some (0, 1))).1[0]?.map fun p : P => p.xy) = some [(some 0, some 0)] :=
  ⟨rfl, by unfold Sorted; decide +kernel, col2_sound, rfl, by decide +kernel, by decide +kernel⟩

example : (crop heap2 col2 none none none (some (2, 3))).2.toOption.isSome := by decide +kernel

example : (0 : Nat) ∈ col2.sets ∧ ((some 5, some 1), none) ∈ rows ⟨[(some 0, some 0), (some 5, some 1)], [], .mm, .mm, .one⟩ ∧
    ¬ Inside (some (0, 2)) none none ((some 5, some 1), none) := by
  refine ⟨by decide, by decide +kernel, ?_⟩
  rintro ⟨h, -, -⟩
  have := (h 5 rfl).2
  norm_num at this

example : cropTime col2 (some (3, 4)) = .error .valueError := by rfl

example : (addPts Profile.argsort heap2 TP.empty 0 1 .s).2 = .ok ⟨⟩ := rfl

end IMT.TPoints
