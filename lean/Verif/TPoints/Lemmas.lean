import Verif.TPoints.Model
import Verif.Temporal.Crop
import Verif.Points.Props

/-! Lemmas on time-resolved sets of points. -/

namespace IMT.TPoints

open IMT.Points (P F rows Aligned keepRow)

/-- Addresses with their times. -/
def entries (t : TP) : List (Rat × Nat) := t.times.zip t.sets

/-- What is seen of a collection: its times, each with the points (and values) of its set. -/
def content (m : Heap) (t : TP) : List (Rat × Option (List ((F × F) × Option F))) :=
  (entries t).map fun e => (e.1, (m[e.2]?).map rows)

/-- As many times as sets. -/
def Paired (t : TP) : Prop := t.times.length = t.sets.length

/-- Times in increasing order. -/
def Sorted (t : TP) : Prop := t.times.Pairwise (· ≤ ·)

/-- Every set exists and has no value or one per point. -/
def Sound (m : Heap) (t : TP) : Prop := ∀ a ∈ t.sets, ∃ p, m[a]? = some p ∧ Aligned p

theorem crop_keep {p : P} (h : Aligned p) (ix iy iv : Option (Rat × Rat)) :
    ∃ q, Points.crop p ix iy iv = (q, .ok ⟨⟩) ∧ Aligned q ∧ rows q = (rows p).filter (keepRow ix iy iv) := by
  obtain ⟨h1, h3, h2, -⟩ := Points.applyMask_rows h (Points.cropMask_length h ix iy iv)
  refine ⟨(Points.crop p ix iy iv).1, ?_, ?_, ?_⟩
  · rw [Points.crop_aligned_eq h]; exact Prod.ext rfl h1
  · rw [Points.crop_aligned_eq h]; exact h3
  · rw [Points.crop_aligned_eq h, h2, Points.cropMask_rows, Points.sel_map]; simp

theorem keepRow_none (r : (F × F) × Option F) : keepRow none none none r = true := by
  rw [Points.keepRow_iff]
  exact ⟨fun _ _ => trivial, fun _ _ => trivial, fun _ _ => trivial⟩

/-- The loop on the sets crops each of the designated objects and no other. -/
theorem cropCells_spec (ix iy iv : Option (Rat × Rat)) (as : List Nat) (m : Heap)
    (h : ∀ a ∈ as, ∀ p, m[a]? = some p → Aligned p) :
    (cropCells m ix iy iv as).2 = .ok ⟨⟩ ∧ (cropCells m ix iy iv as).1.length = m.length ∧
    ∀ a p, m[a]? = some p → ∃ q, (cropCells m ix iy iv as).1[a]? = some q ∧ (a ∉ as → q = p) ∧
      (a ∈ as → Aligned q ∧ rows q = (rows p).filter (keepRow ix iy iv)) := by
  induction as generalizing m with
  | nil => exact ⟨rfl, rfl, fun a p hp => ⟨p, hp, fun _ => rfl, fun hn => absurd hn (by simp)⟩⟩
  | cons b as ih =>
    unfold cropCells
    cases hb : m[b]? with
    | none =>
      simp only
      obtain ⟨i1, i2, i3⟩ := ih m fun a ha => h a (by simp [ha])
      refine ⟨i1, i2, ?_⟩
      intro a p hp
      obtain ⟨q, hq, h1, h2⟩ := i3 a p hp
      have hab : a ≠ b := by rintro rfl; rw [hb] at hp; cases hp
      refine ⟨q, hq, fun hn => h1 fun c => hn (by simp [c]), fun hm => h2 ?_⟩
      rcases List.mem_cons.mp hm with c | c
      · exact absurd c hab
      · exact c
    | some pb =>
      simp only
      obtain ⟨qb, hc, hal, hrows⟩ := crop_keep (h b (by simp) pb hb) ix iy iv
      rw [hc]
      simp only
      have hbl : b < m.length := by
        by_contra hn
        rw [List.getElem?_eq_none (by omega)] at hb
        cases hb
      have hset : ∀ a p, m[a]? = some p → (m.set b qb)[a]? = some (if a = b then qb else p) := by
        intro a p hp
        by_cases hab : a = b
        · subst hab; rw [if_pos rfl, List.getElem?_set_self hbl]
        · rw [if_neg hab, List.getElem?_set_ne (fun e => hab e.symm)]; exact hp
      obtain ⟨i1, i2, i3⟩ := ih (m.set b qb) (by
        intro a ha p hp
        by_cases hab : a = b
        · subst hab
          rw [List.getElem?_set_self hbl] at hp
          cases hp; exact hal
        · rw [List.getElem?_set_ne (fun e => hab e.symm)] at hp
          exact h a (by simp [ha]) p hp)
      refine ⟨i1, by rw [i2, List.length_set], ?_⟩
      intro a p hp
      obtain ⟨q, hq, h1, h2⟩ := i3 a _ (hset a p hp)
      refine ⟨q, hq, ?_, ?_⟩
      · intro hn
        have hab : a ≠ b := fun e => hn (by simp [e])
        rw [if_neg hab] at h1
        exact h1 fun c => hn (by simp [c])
      · intro hm
        by_cases hab : a = b
        · subst hab
          rw [if_pos rfl] at h1 h2
          rw [hb] at hp
          cases hp
          by_cases hmem : a ∈ as
          · obtain ⟨k1, k2⟩ := h2 hmem
            refine ⟨k1, ?_⟩
            rw [k2, hrows, List.filter_filter]
            congr 1
            funext r
            simp
          · rw [h1 hmem]
            exact ⟨hal, hrows⟩
        · rw [if_neg hab] at h2
          rcases List.mem_cons.mp hm with c | c
          · exact absurd c hab
          · exact h2 c

/-- The temporal part of a crop. -/
theorem cropTime_spec {t t' : TP} (hp : Paired t) (hs : Sorted t) {it : Option (Rat × Rat)} (h : cropTime t it = .ok t') :
    entries t' = (entries t).filter (fun p => decide (Temporal.inside it p.1)) ∧ Paired t' ∧ Sorted t' ∧
      t'.ut = t.ut ∧ t'.nd = t.nd ∧ t'.sets.Sublist t.sets := by
  unfold cropTime at h
  cases it with
  | none =>
    cases h
    refine ⟨?_, hp, hs, rfl, rfl, List.Sublist.refl _⟩
    simp only [Temporal.inside]
    exact (List.filter_eq_self.mpr fun _ _ => rfl).symm
  | some p =>
    obtain ⟨a, b⟩ := p
    simp only at h
    cases hc : Temporal.cropTimeInds t.times a b with
    | error e => rw [hc] at h; cases h
    | ok q =>
      obtain ⟨i, j⟩ := q
      rw [hc] at h
      cases h
      refine ⟨?_, ?_, ?_, rfl, rfl, ?_⟩
      · unfold entries cutTime
        simp only
        rw [Profile.slice_zip]
        apply Profile.slice_filter
        intro k hk
        have hk' : k < t.times.length := by rw [List.length_zip] at hk; omega
        simp only [List.getElem_zip, decide_eq_true_eq, Temporal.inside]
        exact Temporal.cropTimeInds_spec hs hc hk'
      · unfold Paired cutTime
        simp only [slice_length]
        rw [hp]
      · unfold Sorted cutTime slice
        exact List.Pairwise.sublist ((List.drop_sublist _ _).trans (List.take_sublist _ _)) hs
      · exact (List.drop_sublist _ _).trans (List.take_sublist _ _)

theorem deepCopy_paired {m : Heap} {t : TP} (hp : Paired t) : Paired (deepCopy m t).2 := by
  unfold Paired deepCopy; simp only [List.length_map]; exact hp

theorem deepCopy_entries (m : Heap) (t : TP) : entries (deepCopy m t).2 = (entries t).map fun e => (e.1, e.2 + m.length) := by
  unfold entries deepCopy
  simp only
  rw [List.zip_map_right]
  rfl

/-- The content depends on the designated objects only. -/
theorem content_congr {m m' : Heap} {t : TP} (h : ∀ a ∈ t.sets, (m'[a]?).map rows = (m[a]?).map rows) :
    content m' t = content m t := by
  unfold content
  apply List.map_congr_left
  intro e he
  rw [h e.2 (List.of_mem_zip he).2]

theorem entries_mem {t : TP} {e : Rat × Nat} (h : e ∈ entries t) : e.2 ∈ t.sets := (List.of_mem_zip h).2

theorem mem_entries {t : TP} (hp : Paired t) {a : Nat} (h : a ∈ t.sets) : ∃ x, (x, a) ∈ entries t := by
  have : a ∈ (entries t).map Prod.snd := by
    unfold entries; rw [List.map_snd_zip (le_of_eq hp.symm)]; exact h
  obtain ⟨e, he, rfl⟩ := List.mem_map.mp this
  exact ⟨e.1, he⟩

end IMT.TPoints
