import Verif.Cp.Lemmas

/-! C60, C61, C62. -/

namespace IMT.Cp

variable {Tr : Type}

/-! ### C61 -/

theorem valid_new (ut : Sym) : Valid (new ut : CP Tr) := ⟨fun _ => rfl, List.Pairwise.nil⟩

theorem firstUnits_pts (c : CP Tr) (g : Kind → Option Pts) :
    (firstUnits c g).pts = c.pts ∧ (firstUnits c g).times = c.times ∧ (firstUnits c g).traj = c.traj := by
  unfold firstUnits
  by_cases h : c.times = []
  · rw [if_pos h]
    rcases (kinds.filterMap g).head? with _ | p <;> exact ⟨rfl, rfl, rfl⟩
  · rw [if_neg h]; exact ⟨rfl, rfl, rfl⟩

theorem at_congr {c d : CP Tr} (h1 : c.pts = d.pts) (h2 : c.times = d.times) (t : Rat) (k : Kind) (p : Pts) :
    At c t k p ↔ At d t k p := by
  unfold At; rw [h1, h2]

theorem valid_congr {c d : CP Tr} (h1 : c.pts = d.pts) (h2 : c.times = d.times) : Valid c ↔ Valid d := by
  unfold Valid; rw [h1, h2]

/-- The given point sets all have the units of the collection (those of the first given set when it is empty). -/
def UnitsMatch (c : CP Tr) (given : Kind → Option Pts) : Prop :=
  ∀ k p, given k = some p → p.ux = (firstUnits c given).ux ∧ p.uy = (firstUnits c given).uy

theorem units_cond {c : CP Tr} {g : Kind → Option Pts} (h : UnitsMatch c g) :
    ¬ ∃ k ∈ kinds, (complete (firstUnits c g) g k).ux ≠ (firstUnits c g).ux ∨
      (complete (firstUnits c g) g k).uy ≠ (firstUnits c g).uy := by
  rintro ⟨k, -, hk⟩
  unfold complete at hk
  rcases hg : g k with _ | p
  · rw [hg] at hk; simp at hk
  · rw [hg] at hk
    obtain ⟨h1, h2⟩ := h k p hg
    rcases hk with hk | hk
    · exact hk h1
    · exact hk h2

theorem valid_append {c : CP Tr} (h : Valid c) (f : Kind → Pts) {t : Rat} (ht : t ∉ c.times) :
    SameLen (append c f t) ∧ (append c f t).times.Nodup := by
  constructor
  · intro k
    simp [append, h.1 k]
  · unfold append
    simp only
    rw [List.nodup_append]
    exact ⟨nodup_of_lt h.2, by simp, fun a ha b hb => by rw [List.mem_singleton] at hb; subst hb; exact fun e => ht (e ▸ ha)⟩

/-- C61 (adding): a new time is stored with its five point sets (an empty set for each kind that is not given), next to
everything that was there; the collection stays paired and sorted. -/
theorem C61_add {c : CP Tr} (h : Valid c) {given : Kind → Option Pts} {t : Rat} (ht : t ∉ c.times)
    (hu : UnitsMatch c given) :
    (addPoint c given t).2 = .ok ⟨⟩ ∧ Valid (addPoint c given t).1 ∧
    ∀ t' k p, At (addPoint c given t).1 t' k p ↔
      At c t' k p ∨ (t' = t ∧ ((given k = some p) ∨
        (given k = none ∧ p.xy = [] ∧ p.ux = (addPoint c given t).1.ux ∧ p.uy = (addPoint c given t).1.uy))) := by
  obtain ⟨f1, f2, f3⟩ := firstUnits_pts c given
  have hv : Valid (firstUnits c given) := (valid_congr f1 f2).mpr h
  have ht' : t ∉ (firstUnits c given).times := by rw [f2]; exact ht
  obtain ⟨v1, v2⟩ := valid_append hv (complete (firstUnits c given) given) ht'
  have e : addPoint c given t = (removeTrajectories (sortByTime (append (firstUnits c given)
      (complete (firstUnits c given) given) t)), .ok ⟨⟩) := by
    unfold addPoint
    rw [if_neg ht, if_neg (units_cond hu)]
  rw [e]
  refine ⟨rfl, (valid_congr (d := sortByTime _) rfl rfl).mpr (sort_valid v1 v2), ?_⟩
  intro t' k p
  refine (at_congr (d := sortByTime (append (firstUnits c given) (complete (firstUnits c given) given) t))
    rfl rfl t' k p).trans ?_
  rw [at_sort v1, at_append hv.1, at_congr f1 f2]
  apply or_congr_right
  apply and_congr_right
  intro _
  unfold complete
  rcases hg : given k with _ | q
  · simp only [Option.getD_none, reduceCtorEq, true_and, false_or]
    constructor
    · rintro rfl; exact ⟨rfl, rfl, rfl⟩
    · rintro ⟨h1, h2, h3⟩
      obtain ⟨a, b, l⟩ := p
      simp only at h1 h2 h3
      subst h1
      have h2' : a = (firstUnits c given).ux := h2
      have h3' : b = (firstUnits c given).uy := h3
      rw [h2', h3']
  · simp only [Option.getD_some, Option.some.injEq, reduceCtorEq, false_and, or_false]
    exact eq_comm

/-- C61 (refusal): a time that is already there is refused and nothing changes. -/
theorem C61_add_refused (c : CP Tr) (given : Kind → Option Pts) {t : Rat} (ht : t ∈ c.times) :
    addPoint c given t = (c, .error .valueError) := by
  unfold addPoint
  rw [if_pos ht]

theorem erase_at {c : CP Tr} (h : Valid c) {i : Nat} {t0 : Rat} (hi : c.times[i]? = some t0) :
    Valid { c with pts := fun k => delete (c.pts k) i, times := delete c.times i } ∧
    ∀ t k p, At { c with pts := fun k => delete (c.pts k) i, times := delete c.times i } t k p ↔
      At c t k p ∧ t ≠ t0 := by
  obtain ⟨hlt, -⟩ := List.getElem?_eq_some_iff.mp hi
  have hn := nodup_of_lt h.2
  constructor
  · constructor
    · intro k
      simp only [delete]
      rw [List.length_eraseIdx, List.length_eraseIdx, h.1 k]
    · exact h.2.sublist (List.eraseIdx_sublist _ _)
  · intro t k p
    unfold At delete
    simp only
    constructor
    · rintro ⟨j, h1, h2⟩
      rw [List.getElem?_eraseIdx] at h1 h2
      by_cases hj : j < i
      · rw [if_pos hj] at h1 h2
        refine ⟨⟨j, h1, h2⟩, ?_⟩
        rintro rfl
        have := nodup_index hn h1 hi
        omega
      · rw [if_neg hj] at h1 h2
        refine ⟨⟨j + 1, h1, h2⟩, ?_⟩
        rintro rfl
        have := nodup_index hn h1 hi
        omega
    · rintro ⟨⟨j, h1, h2⟩, hne⟩
      have hji : j ≠ i := by
        rintro rfl
        rw [hi] at h1
        exact hne (Option.some.inj h1).symm
      by_cases hj : j < i
      · refine ⟨j, ?_, ?_⟩ <;> rw [List.getElem?_eraseIdx, if_pos hj] <;> assumption
      · refine ⟨j - 1, ?_, ?_⟩ <;>
        · rw [List.getElem?_eraseIdx, if_neg (by omega), show j - 1 + 1 = j by omega]; assumption

/-- C61 (removing by index): the entry of that index disappears, the others stay; an index that is too large is
refused. -/
theorem C61_remove_index {c : CP Tr} (h : Valid c) {i : Nat} {t0 : Rat} (hi : c.times[i]? = some t0) :
    (removeIdx c i).2 = .ok ⟨⟩ ∧ Valid (removeIdx c i).1 ∧
    ∀ t k p, At (removeIdx c i).1 t k p ↔ At c t k p ∧ t ≠ t0 := by
  obtain ⟨hlt, -⟩ := List.getElem?_eq_some_iff.mp hi
  obtain ⟨e1, e2⟩ := erase_at h hi
  unfold removeIdx
  rw [if_pos hlt]
  exact ⟨rfl, (valid_congr rfl rfl).mp e1, fun t k p => (at_congr rfl rfl t k p).trans (e2 t k p)⟩

theorem C61_remove_index_refused (c : CP Tr) {i : Nat} (hi : c.times.length ≤ i) :
    removeIdx c i = (c, .error .indexError) := by
  unfold removeIdx
  rw [if_neg (by omega)]

/-- C61 (removing by time). -/
theorem C61_remove_time {c : CP Tr} (h : Valid c) {t0 : Rat} (ht : t0 ∈ c.times) :
    (removeTime c t0).2 = .ok ⟨⟩ ∧ Valid (removeTime c t0).1 ∧
    ∀ t k p, At (removeTime c t0).1 t k p ↔ At c t k p ∧ t ≠ t0 := by
  unfold removeTime
  rcases hf : c.times.findIdx? (· = t0) with _ | i
  · rw [List.findIdx?_eq_none_iff] at hf
    exact absurd (hf t0 ht) (by simp)
  · simp only
    rw [List.findIdx?_eq_some_iff_getElem] at hf
    obtain ⟨h1, h2, -⟩ := hf
    apply C61_remove_index h
    rw [List.getElem?_eq_getElem h1]
    simpa using h2

theorem C61_remove_time_refused (c : CP Tr) {t0 : Rat} (ht : t0 ∉ c.times) :
    removeTime c t0 = (c, .error .valueError) := by
  unfold removeTime
  have : c.times.findIdx? (· = t0) = none := by
    rw [List.findIdx?_eq_none_iff]
    intro x hx
    simp only [decide_eq_false_iff_not]
    rintro rfl
    exact ht hx
  rw [this]

/-- C61 (cropping): each point set keeps its time, its kind and its units, and exactly its points in the closed box, in
order. -/
theorem C61_crop {c : CP Tr} (h : Valid c) (ix iy : Rat × Rat) :
    Valid (cropSpace c ix iy) ∧
    (∀ t k p, At (cropSpace c ix iy) t k p → ∃ p0, At c t k p0 ∧ p.ux = p0.ux ∧ p.uy = p0.uy ∧ p.xy.Sublist p0.xy ∧
      ∀ q, q ∈ p.xy ↔ q ∈ p0.xy ∧ (ix.1 ≤ q.1 ∧ q.1 ≤ ix.2) ∧ (iy.1 ≤ q.2 ∧ q.2 ≤ iy.2)) ∧
    (∀ t k p0, At c t k p0 → ∃ p, At (cropSpace c ix iy) t k p) := by
  have hmem : ∀ (p0 : Pts) q, q ∈ (cropPts ix iy p0).xy ↔
      q ∈ p0.xy ∧ (ix.1 ≤ q.1 ∧ q.1 ≤ ix.2) ∧ (iy.1 ≤ q.2 ∧ q.2 ≤ iy.2) := by
    intro p0 q
    unfold cropPts
    rw [List.mem_filter]
    simp [and_assoc]
  refine ⟨⟨fun k => ?_, h.2⟩, ?_, ?_⟩
  · simp [cropSpace, removeTrajectories, h.1 k]
  · intro t k p hp
    obtain ⟨i, h1, h2⟩ := hp
    have h2' : ((c.pts k).map (cropPts ix iy))[i]? = some p := h2
    rw [List.getElem?_map] at h2'
    cases e : (c.pts k)[i]? with
    | none => rw [e] at h2'; simp at h2'
    | some p0 =>
      rw [e] at h2'
      simp at h2'
      subst h2'
      exact ⟨p0, ⟨i, h1, e⟩, rfl, rfl, List.filter_sublist, hmem p0⟩
  · rintro t k p0 ⟨i, h1, h2⟩
    refine ⟨cropPts ix iy p0, i, h1, ?_⟩
    show ((c.pts k).map (cropPts ix iy))[i]? = _
    rw [List.getElem?_map, h2]
    rfl

theorem run_valid {c : CP Tr} (h : Valid c) (o : Op) : Valid (o.run c).1 := by
  cases o with
  | addPoint g t =>
    show Valid (addPoint c g t).1
    by_cases ht : t ∈ c.times
    · rw [C61_add_refused c g ht]; exact h
    · by_cases hu : ∃ k ∈ kinds, (complete (firstUnits c g) g k).ux ≠ (firstUnits c g).ux ∨
          (complete (firstUnits c g) g k).uy ≠ (firstUnits c g).uy
      · unfold addPoint
        rw [if_neg ht, if_pos hu]
        obtain ⟨f1, f2, -⟩ := firstUnits_pts c g
        exact (valid_congr f1 f2).mpr h
      · unfold addPoint
        rw [if_neg ht, if_neg hu]
        obtain ⟨f1, f2, -⟩ := firstUnits_pts c g
        have hv : Valid (firstUnits c g) := (valid_congr f1 f2).mpr h
        obtain ⟨v1, v2⟩ := valid_append hv (complete (firstUnits c g) g) (by rw [f2]; exact ht)
        exact (valid_congr (d := sortByTime _) rfl rfl).mpr (sort_valid v1 v2)
  | removeTime t =>
    show Valid (removeTime c t).1
    by_cases ht : t ∈ c.times
    · exact (C61_remove_time h ht).2.1
    · rw [C61_remove_time_refused c ht]; exact h
  | removeIdx i =>
    show Valid (removeIdx c i).1
    by_cases hi : i < c.times.length
    · exact (C61_remove_index h (List.getElem?_eq_getElem hi)).2.1
    · rw [C61_remove_index_refused c (by omega)]; exact h
  | cropSpace ix iy =>
    refine ⟨fun k => ?_, h.2⟩
    simp [Op.run, cropSpace, removeTrajectories, h.1 k]

/-- C61 (histories): after every sequence of additions, removals and crops, refused or not, the collection has one
entry of each kind per time and its times are strictly increasing. -/
theorem C61_history (ut : Sym) (h : List Op) : Valid (after (new ut : CP Tr) h) := by
  have : ∀ (h : List Op) (c : CP Tr), Valid c → Valid (after c h) := by
    intro h
    induction h with
    | nil => exact fun c hc => hc
    | cons o h ih => exact fun c hc => ih _ (run_valid hc o)
  exact this h _ (valid_new ut)

/-! ### C62 -/

/-- C62 is violated: whatever the collection and the operation, refused or not, the trajectories computed before are
still there. -/
theorem C62_trajectories_violated (c : CP Tr) (o : Op) : (o.run c).1.traj = c.traj := by
  cases o with
  | addPoint g t =>
    show (addPoint c g t).1.traj = c.traj
    obtain ⟨-, -, f3⟩ := firstUnits_pts c g
    unfold addPoint
    by_cases ht : t ∈ c.times
    · rw [if_pos ht]
    · rw [if_neg ht]
      split
      · exact f3
      · exact f3
  | removeTime t =>
    show (removeTime c t).1.traj = c.traj
    unfold removeTime
    rcases c.times.findIdx? (· = t) with _ | i
    · rfl
    · simp only
      unfold removeIdx
      split <;> rfl
  | removeIdx i =>
    show (removeIdx c i).1.traj = c.traj
    unfold removeIdx
    split <;> rfl
  | cropSpace ix iy => rfl

/-- C62: what does hold is that the stored linking distance is erased by every operation that succeeds.  Missing: the
trajectories themselves. -/
theorem C62_epsilon_partial (c : CP Tr) (o : Op) (h : (o.run c).2 = .ok ⟨⟩) : (o.run c).1.eps = none := by
  cases o with
  | addPoint g t =>
    change (addPoint c g t).2 = _ at h
    show (addPoint c g t).1.eps = none
    unfold addPoint at h ⊢
    by_cases ht : t ∈ c.times
    · rw [if_pos ht] at h; cases h
    · rw [if_neg ht] at h ⊢
      split at h
      · cases h
      · rename_i hu; rw [if_neg hu]; rfl
  | removeTime t =>
    change (removeTime c t).2 = _ at h
    show (removeTime c t).1.eps = none
    unfold removeTime at h ⊢
    rcases hf : c.times.findIdx? (· = t) with _ | i
    · rw [hf] at h; cases h
    · rw [hf] at h
      simp only at h ⊢
      unfold removeIdx at h ⊢
      by_cases hi : i < c.times.length
      · rw [if_pos hi]; rfl
      · rw [if_neg hi] at h; cases h
  | removeIdx i =>
    change (removeIdx c i).2 = _ at h
    show (removeIdx c i).1.eps = none
    unfold removeIdx at h ⊢
    by_cases hi : i < c.times.length
    · rw [if_pos hi]; rfl
    · rw [if_neg hi] at h; cases h
  | cropSpace ix iy => rfl

/-! ### C60 -/

/-- All the collections have the same units. -/
def SameUnits (a b : CP Tr) : Prop := a.ut = b.ut ∧ a.ux = b.ux ∧ a.uy = b.uy

/-- The results can be merged: same units, and no time occurs twice. -/
def Mergeable (l : List (CP Tr)) : Prop :=
  (∀ a ∈ l, ∀ b ∈ l, SameUnits a b) ∧ (l.flatMap fun c => c.times).Nodup

theorem add_units {a b : CP Tr} (ha : a.times ≠ []) (hb : b.times ≠ []) (h : ¬ SameUnits a b) :
    add a b = .error .valueError := by
  unfold add
  rw [if_neg hb, if_neg ha]
  by_cases h1 : a.ut = b.ut
  · rw [if_neg (by simpa using h1)]
    by_cases h2 : a.ux = b.ux
    · rw [if_neg (by simpa using h2)]
      by_cases h3 : a.uy = b.uy
      · exact absurd ⟨h1, h2, h3⟩ h
      · rw [if_pos h3]
    · rw [if_pos h2]
  · rw [if_pos h1]

theorem add_ok {a b : CP Tr} (ha : a.times ≠ []) (hb : b.times ≠ []) (h : SameUnits a b) :
    add a b = if (a.times ++ b.times).Nodup then .ok (sortByTime (concat a b)) else .error .valueError := by
  unfold add
  rw [if_neg hb, if_neg ha, if_neg (by simpa using h.1), if_neg (by simpa using h.2.1), if_neg (by simpa using h.2.2)]
  have hd := hasDouble_iff (sort_times_le (concat a b))
  rw [(sort_times_perm (concat a b)).nodup_iff] at hd
  by_cases hn : (a.times ++ b.times).Nodup
  · rw [if_pos hn, if_neg (by rw [hd.mpr hn]; decide)]
  · rw [if_neg hn, if_pos]
    by_contra hc
    exact hn (hd.mp (by simpa using hc))

/-- What the accumulation of results does. -/
theorem sumAll_spec (l : List (CP Tr)) (a : CP Tr) (hv : ∀ c ∈ a :: l, Valid c) (hne : ∀ c ∈ a :: l, c.times ≠ []) :
    (Mergeable (a :: l) → ∃ c, sumAll a l = .ok c ∧ Valid c ∧ SameUnits a c ∧
      (l ≠ [] → c.traj = (fun _ => none) ∧ c.eps = none) ∧
      ∀ t k p, At c t k p ↔ ∃ x ∈ a :: l, At x t k p) ∧
    (¬ Mergeable (a :: l) → sumAll a l = .error .valueError) := by
  induction l generalizing a with
  | nil =>
    constructor
    · intro _
      exact ⟨a, rfl, hv a (by simp), ⟨rfl, rfl, rfl⟩, fun h => absurd rfl h, fun t k p => by simp⟩
    · intro h
      exfalso; apply h
      refine ⟨?_, ?_⟩
      · intro x hx y hy
        rw [List.mem_singleton] at hx hy
        subst hx hy
        exact ⟨rfl, rfl, rfl⟩
      · simpa using nodup_of_lt (hv a (by simp)).2
  | cons b l ih =>
    have va := hv a (by simp)
    have vb := hv b (by simp)
    have na := hne a (by simp)
    have nb := hne b (by simp)
    by_cases hu : SameUnits a b
    swap
    · have hm : ¬ Mergeable (a :: b :: l) := fun h => hu (h.1 a (by simp) b (by simp))
      refine ⟨fun h => absurd h hm, fun _ => ?_⟩
      unfold sumAll
      rw [add_units na nb hu]
    by_cases hn : (a.times ++ b.times).Nodup
    swap
    · have hm : ¬ Mergeable (a :: b :: l) := by
        intro h
        apply hn
        have := h.2
        simp only [List.flatMap_cons, ← List.append_assoc] at this
        exact (List.nodup_append.mp this).1
      refine ⟨fun h => absurd h hm, fun _ => ?_⟩
      unfold sumAll
      rw [add_ok na nb hu, if_neg hn]
    have hcl : SameLen (concat a b) := by
      intro k; simp [concat, va.1 k, vb.1 k]
    set c := sortByTime (concat a b) with hc
    have vc : Valid c := sort_valid hcl hn
    have hperm : c.times.Perm (a.times ++ b.times) := sort_times_perm (concat a b)
    have nc : c.times ≠ [] := by
      intro h
      rw [h] at hperm
      have := hperm.length_eq
      rw [List.length_append] at this
      exact na (List.length_eq_zero_iff.mp (by simp at this; omega))
    have hat : ∀ t k p, At c t k p ↔ At a t k p ∨ At b t k p := by
      intro t k p
      rw [hc, at_sort hcl, at_concat va.1]
    have huc : SameUnits a c := ⟨rfl, rfl, rfl⟩
    have hmerge : Mergeable (a :: b :: l) ↔ Mergeable (c :: l) := by
      unfold Mergeable
      apply and_congr
      · constructor
        · intro h x hx y hy
          have conv : ∀ z ∈ c :: l, ∃ w ∈ a :: b :: l, SameUnits w z := by
            intro z hz
            rcases List.mem_cons.mp hz with rfl | hz
            · exact ⟨a, by simp, huc⟩
            · exact ⟨z, by simp [hz], ⟨rfl, rfl, rfl⟩⟩
          obtain ⟨x', hx', ex⟩ := conv x hx
          obtain ⟨y', hy', ey⟩ := conv y hy
          have := h x' hx' y' hy'
          exact ⟨ex.1.symm.trans (this.1.trans ey.1), ex.2.1.symm.trans (this.2.1.trans ey.2.1),
            ex.2.2.symm.trans (this.2.2.trans ey.2.2)⟩
        · intro h x hx y hy
          have conv : ∀ z ∈ a :: b :: l, ∃ w ∈ c :: l, SameUnits w z := by
            intro z hz
            rcases List.mem_cons.mp hz with rfl | hz
            · exact ⟨c, by simp, ⟨rfl, rfl, rfl⟩⟩
            · rcases List.mem_cons.mp hz with rfl | hz
              · exact ⟨c, by simp, hu⟩
              · exact ⟨z, by simp [hz], ⟨rfl, rfl, rfl⟩⟩
          obtain ⟨x', hx', ex⟩ := conv x hx
          obtain ⟨y', hy', ey⟩ := conv y hy
          have := h x' hx' y' hy'
          exact ⟨ex.1.symm.trans (this.1.trans ey.1), ex.2.1.symm.trans (this.2.1.trans ey.2.1),
            ex.2.2.symm.trans (this.2.2.trans ey.2.2)⟩
      · simp only [List.flatMap_cons, ← List.append_assoc]
        exact ((hperm.append_right _).nodup_iff).symm
    have hstep : sumAll a (b :: l) = sumAll c l := by
      unfold sumAll
      rw [add_ok na nb hu, if_pos hn]
      cases l <;> rfl
    have hv' : ∀ x ∈ c :: l, Valid x := by
      intro x hx
      rcases List.mem_cons.mp hx with rfl | hx
      · exact vc
      · exact hv x (by simp [hx])
    have hne' : ∀ x ∈ c :: l, x.times ≠ [] := by
      intro x hx
      rcases List.mem_cons.mp hx with rfl | hx
      · exact nc
      · exact hne x (by simp [hx])
    obtain ⟨i1, i2⟩ := ih c hv' hne'
    rw [hstep, hmerge]
    refine ⟨?_, i2⟩
    intro hm
    obtain ⟨d, d1, d2, d3, d4, d5⟩ := i1 hm
    refine ⟨d, d1, d2, d3, ?_, ?_⟩
    · intro _
      by_cases hl : l = []
      · subst hl
        unfold sumAll at d1
        cases d1
        exact ⟨rfl, rfl⟩
      · exact d4 hl
    · intro t k p
      rw [d5]
      constructor
      · rintro ⟨x, hx, h⟩
        rcases List.mem_cons.mp hx with rfl | hx
        · rcases (hat t k p).mp h with h | h
          · exact ⟨a, by simp, h⟩
          · exact ⟨b, by simp, h⟩
        · exact ⟨x, by simp [hx], h⟩
      · rintro ⟨x, hx, h⟩
        rcases List.mem_cons.mp hx with rfl | hx
        · exact ⟨c, by simp, (hat t k p).mpr (.inl h)⟩
        · rcases List.mem_cons.mp hx with rfl | hx
          · exact ⟨c, by simp, (hat t k p).mpr (.inr h)⟩
          · exact ⟨x, by simp [hx], h⟩

/-- C60 (contents): summing per-field results of one unit system whose times are all distinct gives a valid collection
storing exactly what the results stored. -/
theorem C60_sum {a : CP Tr} {l : List (CP Tr)} (hv : ∀ c ∈ a :: l, Valid c) (hne : ∀ c ∈ a :: l, c.times ≠ [])
    (hm : Mergeable (a :: l)) :
    ∃ c, sumAll a l = .ok c ∧ Valid c ∧ ∀ t k p, At c t k p ↔ ∃ x ∈ a :: l, At x t k p := by
  obtain ⟨c, h1, h2, -, -, h5⟩ := (sumAll_spec l a hv hne).1 hm
  exact ⟨c, h1, h2, h5⟩

/-- C60 (refusal): two results at one time, or different units, are refused. -/
theorem C60_refused {a : CP Tr} {l : List (CP Tr)} (hv : ∀ c ∈ a :: l, Valid c) (hne : ∀ c ∈ a :: l, c.times ≠ [])
    (hm : ¬ Mergeable (a :: l)) : sumAll a l = .error .valueError :=
  (sumAll_spec l a hv hne).2 hm

/-- C60 (order): the sum is the same, result or refusal, for every processing order. -/
theorem C60_order {a b : CP Tr} {l m : List (CP Tr)} (hp : (a :: l).Perm (b :: m)) (hv : ∀ c ∈ a :: l, Valid c)
    (hne : ∀ c ∈ a :: l, c.times ≠ []) : sumAll a l = sumAll b m := by
  have hv' : ∀ c ∈ b :: m, Valid c := fun c hc => hv c (hp.mem_iff.mpr hc)
  have hne' : ∀ c ∈ b :: m, c.times ≠ [] := fun c hc => hne c (hp.mem_iff.mpr hc)
  have hmm : Mergeable (a :: l) ↔ Mergeable (b :: m) := by
    unfold Mergeable
    apply and_congr
    · constructor
      · intro h x hx y hy; exact h x (hp.mem_iff.mpr hx) y (hp.mem_iff.mpr hy)
      · intro h x hx y hy; exact h x (hp.mem_iff.mp hx) y (hp.mem_iff.mp hy)
    · exact (hp.flatMap_right _).nodup_iff
  by_cases hm : Mergeable (a :: l)
  · by_cases hl : l = []
    · subst hl
      have := hp.length_eq
      have hml : m = [] := by
        apply List.length_eq_zero_iff.mp
        simp only [List.length_cons, List.length_nil] at this
        omega
      subst hml
      have : a = b := by simpa using hp.mem_iff (a := a)
      rw [this]
    · have hml : m ≠ [] := by
        rintro rfl
        have := hp.length_eq
        simp at this
        exact hl this
      obtain ⟨c, c1, c2, c3, c4, c5⟩ := (sumAll_spec l a hv hne).1 hm
      obtain ⟨d, d1, d2, d3, d4, d5⟩ := (sumAll_spec m b hv' hne').1 (hmm.mp hm)
      have hcd : c = d := by
        obtain ⟨e1, e2⟩ := ext_of_at c2 d2 (fun t k p => by
          rw [c5, d5]
          constructor
          · rintro ⟨x, hx, h⟩; exact ⟨x, hp.mem_iff.mp hx, h⟩
          · rintro ⟨x, hx, h⟩; exact ⟨x, hp.mem_iff.mpr hx, h⟩)
        have hab := hm.1 a (by simp) b (hp.mem_iff.mpr (by simp))
        obtain ⟨c41, c42⟩ := c4 hl
        obtain ⟨d41, d42⟩ := d4 hml
        obtain ⟨u1, u2, u3⟩ := c3
        obtain ⟨v1, v2, v3⟩ := d3
        obtain ⟨w1, w2, w3⟩ := hab
        cases c; cases d
        simp only at *
        subst e1 e2 c41 d41 c42 d42
        congr 1
        · exact u1.symm.trans (w1.trans v1)
        · exact u2.symm.trans (w2.trans v2)
        · exact u3.symm.trans (w3.trans v3)
      rw [c1, d1, hcd]
  · rw [C60_refused hv hne hm, C60_refused hv' hne' fun h => hm (hmm.mpr h)]

/-! ### Examples -/

/-- A collection with one time and one saddle. -/
def exCp (t x : Rat) : CP Nat :=
  ⟨fun k => if k = .sadd then [⟨.mm, .mm, [(x, x)]⟩] else [⟨.mm, .mm, []⟩], [t], .s, .mm, .mm, fun _ => none, none⟩

theorem exCp_valid (t x : Rat) : Valid (exCp t x) := by
  refine ⟨fun k => ?_, by simp [exCp]⟩
  cases k <;> simp [exCp]

/-- The hypotheses of `C60_sum` and `C60_order` are met by three results given out of order. -/
example : (∀ c ∈ [exCp 3 1, exCp 1 2, exCp 2 7], Valid c) ∧
    (∀ c ∈ [exCp 3 1, exCp 1 2, exCp 2 7], c.times ≠ []) ∧ Mergeable [exCp 3 1, exCp 1 2, exCp 2 7] := by
  refine ⟨?_, ?_, ?_, ?_⟩
  · simp [exCp_valid]
  · simp [exCp]
  · simp [SameUnits, exCp]
  · simp only [List.flatMap_cons, List.flatMap_nil, exCp]
    decide +kernel

example : ((sumAll (exCp 3 1) [exCp 1 2, exCp 2 7]).toOption.map fun c => (c.times, (c.pts .sadd).map Pts.xy)) =
    some ([1, 2, 3], [[(2, 2)], [(7, 7)], [(1, 1)]]) := by decide +kernel

/-- The hypotheses of `C61_add` are met, and the history theorem covers a refused addition. -/
example : UnitsMatch (exCp 3 1) (fun k => if k = .foc then some ⟨.mm, .mm, [(0, 1)]⟩ else none) ∧
    (1 : Rat) ∉ (exCp 3 1).times := by
  constructor
  · intro k p hp
    cases k <;> simp at hp
    subst hp
    simp [firstUnits, exCp]
  · simp [exCp]

example : (after (new .s : CP Nat) [.addPoint (fun _ => none) 3, .addPoint (fun _ => none) 1,
    .addPoint (fun _ => none) 3, .removeIdx 0, .addPoint (fun _ => none) 2]).times = [2, 3] := by decide +kernel

end IMT.Cp
