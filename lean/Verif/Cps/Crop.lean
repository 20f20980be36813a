import Verif.Cps.Model
import Verif.Points.Props

/-! C240: cropping critical points and their trajectories in time; C241: removing short trajectories. -/

namespace IMT.Cps

open Cp (Kind kinds)
open Points (P F rows Aligned)

/-! ### specification -/

/-- The collection stores the set of points `p` of kind `k` for the time `t`. -/
def At (c : CP) (t : Rat) (k : Kind) (p : P) : Prop := ∃ i : Nat, c.times[i]? = some t ∧ (c.pts k)[i]? = some p

/-- One set of each kind per time. -/
def Paired (c : CP) : Prop := ∀ k, (c.pts k).length = c.times.length

/-- The time of a row of a trajectory. -/
def time (r : (F × F) × Option F) : F := r.2.join

/-- The rows of a trajectory from `a` to `b`. -/
def during (a b : Rat) (l : List ((F × F) × Option F)) : List ((F × F) × Option F) :=
  l.filter fun r => match time r with
    | some t => decide (a ≤ t) && decide (t ≤ b)
    | none => true

/-- The rows of a trajectory at a time. -/
def instant (t : Rat) (l : List ((F × F) × Option F)) : List ((F × F) × Option F) := l.filter fun r => decide (time r = some t)

/-- A trajectory: a time for each of its points, and at least a point. -/
def Traj (p : P) : Prop := p.v.length = p.xy.length ∧ p.xy ≠ []

/-- The object has trajectories of this kind. -/
def Has (c : CP) (k : Kind) (ts : List P) : Prop := ∃ t, c.traj k = some t ∧ t.sets = ts

/-! ### lemmas -/

theorem all_kinds (k : Kind) : k ∈ kinds := by cases k <;> simp [kinds]

theorem pick_eq_filter {α : Type} (f : α → Bool) (l : List α) : pick l (l.map f) = l.filter f := by
  unfold pick
  induction l with
  | nil => rfl
  | cons a l ih =>
    rw [List.map_cons, List.zip_cons_cons, List.filter_cons, List.filter_cons]
    cases f a <;> simp [ih]

theorem pick_zip {α β : Type} : ∀ (l : List α) (l' : List β) (m : List Bool), l.length = l'.length →
    (pick l m).zip (pick l' m) = pick (l.zip l') m ∧ (pick l m).length = (pick l' m).length := by
  intro l
  unfold pick
  induction l with
  | nil => intro l' m h; cases l' with
    | nil => simp
    | cons => cases h
  | cons a l ih =>
    intro l' m h
    cases l' with
    | nil => cases h
    | cons b l' =>
      cases m with
      | nil => simp
      | cons x m =>
        obtain ⟨h1, h2⟩ := ih l' m (by simpa using h)
        cases x <;> simp [h1, h2]

theorem pick_fst {α β : Type} (f : α → Bool) : ∀ (l : List α) (l' : List β), pick (l.zip l') (l.map f) = (l.zip l').filter fun q => f q.1 := by
  intro l
  unfold pick
  induction l with
  | nil => intro l'; simp
  | cons a l ih =>
    intro l'
    cases l' with
    | nil => simp
    | cons b l' =>
      have := ih l'
      cases h : f a <;> simp [h, this]

theorem at_iff (c : CP) (t : Rat) (k : Kind) (p : P) : At c t k p ↔ (t, p) ∈ c.times.zip (c.pts k) := by
  unfold At
  rw [List.mem_iff_getElem?]
  apply exists_congr
  intro i
  rw [List.getElem?_zip_eq_some]

theorem entries (a b : Rat) {c : CP} (h : Paired c) :
    (cropEntries (.times a b) c).times = c.times.filter (fun t => decide (a ≤ t) && decide (t ≤ b)) ∧ Paired (cropEntries (.times a b) c) ∧
      ∀ t k p, At (cropEntries (.times a b) c) t k p ↔ At c t k p ∧ a ≤ t ∧ t ≤ b := by
  refine ⟨pick_eq_filter _ _, fun k => ((pick_zip c.times (c.pts k) _ (h k).symm).2).symm, fun t k p => ?_⟩
  rw [at_iff, at_iff]
  show (t, p) ∈ (pick c.times _).zip (pick (c.pts k) _) ↔ _
  rw [(pick_zip c.times (c.pts k) _ (h k).symm).1]
  show (t, p) ∈ pick _ (c.times.map _) ↔ _
  rw [pick_fst, List.mem_filter]
  simp

theorem traj_rows {p : P} (h : Traj p) : rows p = List.zipWith (fun c w => (c, some w)) p.xy p.v := by
  unfold rows
  rw [if_neg]
  intro e
  have := h.1
  rw [e] at this
  exact h.2 (List.length_eq_zero_iff.1 this.symm)

theorem crop_rows {p : P} (h : Traj p) (a b : Rat) :
    rows (cropOne (.times a b) p) = during a b (rows p) ∧ (cropOne (.times a b) p).xy.length = (during a b (rows p)).length := by
  have hal : Aligned p := .inr h.1
  obtain ⟨-, keep, hk, hr⟩ := Points.C25_crop_partial hal none none (some (a, b))
  have e : rows (cropOne (.times a b) p) = during a b (rows p) := by
    show rows (Points.crop p none none (some (a, b))).1 = _
    rw [hr]
    unfold during
    apply List.filter_congr
    rintro ⟨⟨x, y⟩, w⟩ hm
    have hk' := hk ((x, y), w)
    rw [traj_rows h] at hm
    obtain ⟨i, hi⟩ := List.mem_iff_getElem?.1 hm
    rw [List.getElem?_zipWith] at hi
    rw [Bool.eq_iff_iff, hk']
    unfold Points.Inside Points.Within
    cases w with
    | none => split at hi <;> simp at hi
    | some w => cases w <;> simp [time]
  refine ⟨e, ?_⟩
  rw [← e]
  symm
  apply Points.rows_length
  show Aligned (Points.crop p none none (some (a, b))).1
  exact Points.run_aligned hal (o := .crop none none (some (a, b))) trivial

/-! ### C240 -/

/-- **C240** Cropping in place from `a` to `b` keeps exactly the entries whose time is in this interval, as they are, and of each trajectory the points
of this interval, dropping the trajectories without any.  Missing: every kind must have at least two trajectories (`C240_single_violated`,
`C240_none_violated`), the interval is given in times (`C240_indices_violated`), and the crop is in place (`C240_copy_violated`). -/
theorem C240_crop_partial {c : CP} (h : Paired c) (a b : Rat) {T : Kind → List P} (hT : ∀ k, c.traj k = some ⟨true, T k⟩)
    (ht : ∀ k, ∀ p ∈ T k, Traj p) :
    ∃ r, cropTime (.times a b) c = .ok r ∧ Paired r ∧ r.times = c.times.filter (fun t => decide (a ≤ t) && decide (t ≤ b)) ∧
      (∀ t k p, At r t k p ↔ At c t k p ∧ a ≤ t ∧ t ≤ b) ∧
      ∀ k, ∃ L, Has r k L ∧ L.map rows = ((T k).map fun p => during a b (rows p)).filter (fun l => decide (l ≠ [])) := by
  obtain ⟨h1, h2, h3⟩ := entries a b h
  have e1 : cropTraj (.times a b) (cropEntries (.times a b) c) = .ok { cropEntries (.times a b) c with
      traj := fun k => (c.traj k).map fun t => { t with sets := t.sets.map (cropOne (.times a b)) } } := by
    unfold cropTraj
    rw [if_neg]
    · rfl
    · rintro ⟨k, -, hk⟩
      exact absurd ((hT k).symm.trans hk) (by simp)
  have e2 : cropTime (.times a b) c = .ok { cropEntries (.times a b) c with
      traj := fun k => some ⟨true, ((T k).map (cropOne (.times a b))).filter fun p => decide (p.xy.length ≠ 0)⟩ } := by
    unfold cropTime
    rw [e1]
    simp only
    unfold removeVoid
    rw [if_neg]
    · simp only [hT, Option.map_some]
    · rintro ⟨k, -, hk⟩
      simp only [hT, Option.map_some] at hk
      have := hk _ rfl
      simp at this
  refine ⟨_, e2, h2, h1, h3, fun k => ⟨_, ⟨_, rfl, rfl⟩, ?_⟩⟩
  have hk := ht k
  generalize T k = l at hk
  induction l with
  | nil => rfl
  | cons p l ih =>
    obtain ⟨r1, r2⟩ := crop_rows (hk p (by simp)) a b
    have ih := ih (fun q hq => hk q (by simp [hq]))
    rw [List.map_cons, List.map_cons, List.filter_cons, List.filter_cons]
    have hc : decide ((cropOne (.times a b) p).xy.length ≠ 0) = decide (during a b (rows p) ≠ []) := by
      rw [r2]
      apply decide_eq_decide.2
      rw [Ne, List.length_eq_zero_iff]
    rw [hc]
    split_ifs
    · rw [List.map_cons, ih, r1]
    · exact ih

/-- **C240** Before the trajectories are computed, cropping in time is refused whatever the collection and the interval. -/
theorem C240_none_violated (c : CP) (w : Win) {k : Kind} (hk : c.traj k = none) :
    cropTime w c = .error .typeError ∧ cropTimeCopy w c = .error .typeError := by
  have h : ∀ d : CP, d.traj = c.traj → cropTraj w d = .error .typeError := by
    intro d hd
    unfold cropTraj
    rw [if_pos ⟨k, all_kinds k, by rw [hd]; exact hk⟩]
  constructor
  · unfold cropTime
    rw [h (cropEntries w c) rfl]
  · unfold cropTimeCopy
    rw [h c rfl]

/-- **C240** It is refused too as soon as a kind has one trajectory or none. -/
theorem C240_single_violated (c : CP) (w : Win) {k : Kind} {t : Trajs} (hk : c.traj k = some t) (hn : t.nd = false) :
    cropTime w c = .error .typeError ∧ cropTimeCopy w c = .error .typeError := by
  have h : ∀ d : CP, d.traj = c.traj → ∀ d', cropTraj w d = .ok d' → removeVoid d' = .error .typeError := by
    intro d hd d' hok
    unfold cropTraj at hok
    split_ifs at hok
    cases hok
    unfold removeVoid
    rw [if_pos]
    refine ⟨k, all_kinds k, ?_⟩
    simp [hd, hk, hn]
  have h' : ∀ d : CP, ∀ e, cropTraj w d = .error e → e = .typeError := by
    intro d e he
    unfold cropTraj at he
    split_ifs at he
    cases he; rfl
  constructor
  · unfold cropTime
    cases e : cropTraj w (cropEntries w c) with
    | error x => simp only [h' _ _ e]
    | ok d => simp only [h (cropEntries w c) rfl d e]
  · unfold cropTimeCopy
    cases e : cropTraj w c with
    | error x => simp only [h' _ _ e]
    | ok d => simp only [h c rfl d e]

/-- **C240** Cropping a copy leaves the trajectories of the copy as they were and crops those of the object itself. -/
theorem C240_copy_violated {c : CP} (w : Win) {T : Kind → List P} (hT : ∀ k, c.traj k = some ⟨true, T k⟩) :
    ∃ d r, cropTimeCopy w c = .ok (d, r) ∧ r.traj = c.traj ∧ d.times = c.times ∧
      ∀ k, d.traj k = some ⟨true, ((T k).map (cropOne w)).filter fun p => decide (p.xy.length ≠ 0)⟩ := by
  have e1 : cropTraj w c = .ok { c with traj := fun k => (c.traj k).map fun t => { t with sets := t.sets.map (cropOne w) } } := by
    unfold cropTraj
    rw [if_neg]
    rintro ⟨k, -, hk⟩
    exact absurd ((hT k).symm.trans hk) (by simp)
  have e2 : cropTimeCopy w c = .ok ({ c with
      traj := fun k => some ⟨true, ((T k).map (cropOne w)).filter fun p => decide (p.xy.length ≠ 0)⟩ }, cropEntries w c) := by
    unfold cropTimeCopy
    rw [e1]
    simp only
    unfold removeVoid
    rw [if_neg]
    · simp only [hT, Option.map_some]
    · rintro ⟨k, -, hk⟩
      simp only [hT, Option.map_some] at hk
      have := hk _ rfl
      simp at this
  exact ⟨_, _, e2, rfl, rfl, fun k => rfl⟩

/-- **C240** With indices, the times kept are those of the indices, but each trajectory is cropped by its own numbering: a trajectory of more than `i`
points is still there, with its points number `i` to `j`, even if it has no time in common with the times kept. -/
theorem C240_indices_violated {c : CP} {i j : Nat} (hij : i < j) {T : Kind → List P} (hT : ∀ k, c.traj k = some ⟨true, T k⟩)
    {k : Kind} {p : P} (hp : p ∈ T k) (ht : Traj p) (hi : i < p.xy.length) :
    ∃ r, cropTime (.inds i j) c = .ok r ∧ r.times = pick c.times ((List.range c.times.length).map fun n => decide (i ≤ n) && decide (n < j)) ∧
      ∃ L q, Has r k L ∧ q ∈ L ∧ rows q = slice (rows p) i j ∧ rows q ≠ [] := by
  have e1 : cropTraj (.inds i j) (cropEntries (.inds i j) c) = .ok { cropEntries (.inds i j) c with
      traj := fun k => (c.traj k).map fun t => { t with sets := t.sets.map (cropOne (.inds i j)) } } := by
    unfold cropTraj
    rw [if_neg]
    · rfl
    · rintro ⟨k, -, hk⟩
      exact absurd ((hT k).symm.trans hk) (by simp)
  have e2 : cropTime (.inds i j) c = .ok { cropEntries (.inds i j) c with
      traj := fun k => some ⟨true, ((T k).map (cropOne (.inds i j))).filter fun p => decide (p.xy.length ≠ 0)⟩ } := by
    unfold cropTime
    rw [e1]
    simp only
    unfold removeVoid
    rw [if_neg]
    · simp only [hT, Option.map_some]
    · rintro ⟨k, -, hk⟩
      simp only [hT, Option.map_some] at hk
      have := hk _ rfl
      simp at this
  have hal : Aligned p := .inr ht.1
  obtain ⟨-, hr⟩ := Points.C25_crop_ind hal i j
  have hal' : Aligned (cropOne (.inds i j) p) := Points.run_aligned hal (o := .cropInd i j) trivial
  have hne : slice (rows p) i j ≠ [] := by
    intro e
    have := congrArg List.length e
    rw [← Points.rows_length hal] at hi
    simp [slice] at this
    omega
  have hr' : rows (cropOne (.inds i j) p) = slice (rows p) i j := hr
  refine ⟨_, e2, rfl, _, cropOne (.inds i j) p, ⟨_, rfl, rfl⟩, ?_, hr', by rw [hr']; exact hne⟩
  rw [List.mem_filter]
  refine ⟨List.mem_map_of_mem hp, ?_⟩
  rw [decide_eq_true_eq, ← Points.rows_length hal', hr']
  exact fun e => hne (List.length_eq_zero_iff.1 e)

/-! ### C241 -/

/-- The set has these units. -/
def Units (c : CP) (p : P) : Prop := p.ux = c.ux ∧ p.uy = c.uy ∧ p.uv = c.ut

theorem total_rows {c : CP} (h0 : c.ux.size ≠ 0) (h1 : c.uy.size ≠ 0) (h2 : c.ut.size ≠ 0) : ∀ (qs : List P) (p : P),
    (∀ q ∈ qs, Traj q ∧ Units c q) → p.v.length = p.xy.length → Units c p →
    ∃ r, total p qs = .ok r ∧ r.v.length = r.xy.length ∧ Units c r ∧ rows r = rows p ++ qs.flatMap rows := by
  intro qs
  induction qs with
  | nil => intro p _ hp hu; exact ⟨p, rfl, hp, hu, by simp⟩
  | cons q qs ih =>
    intro p hq hp hu
    obtain ⟨tq, uq⟩ := hq q (by simp)
    have key : ∃ r, (Points.plus p q).2 = .ok r ∧ r.v.length = r.xy.length ∧ Units c r ∧ rows r = rows p ++ rows q := by
      by_cases hpe : p.xy = []
      · refine ⟨q, ?_, tq.1, uq, ?_⟩
        · unfold Points.plus
          rw [if_pos hpe]
        · have : rows p = [] := by
            rw [← List.length_eq_zero_iff, Points.rows_length (.inr hp), hpe]; rfl
          rw [this]; rfl
      · have hpv : p.v ≠ [] := fun e => by rw [e] at hp; exact hpe (List.length_eq_zero_iff.1 hp.symm)
        have hqv : q.v ≠ [] := fun e => by
          have := tq.1
          rw [e] at this; exact tq.2 (List.length_eq_zero_iff.1 this.symm)
        obtain ⟨-, r, e, hr, rx, ry, rv⟩ := Points.C27_sum_partial (p := p) (q := q) (.inr hp) (.inr tq.1) (by simp [hpv, hqv])
          (hu.1.trans uq.1.symm) (hu.2.1.trans uq.2.1.symm) (hu.2.2.trans uq.2.2.symm) (by rw [hu.1]; exact h0) (by rw [hu.2.1]; exact h1)
          (by rw [hu.2.2]; exact h2)
        refine ⟨r, e, ?_, ⟨rx.trans hu.1, ry.trans hu.2.1, rv.trans hu.2.2⟩, hr⟩
        unfold Points.plus at e
        rw [if_neg hpe, if_neg tq.2] at e
        split_ifs at e
        simp only at e
        unfold Points.new Points.setV at e
        split_ifs at e with hc
        · cases e
          rcases hc with hc | hc
          · simp at hc
            exact absurd hc.1 hpv
          · exact hc
    obtain ⟨r, e, r1, r2, r3⟩ := key
    obtain ⟨s, e', s1, s2, s3⟩ := ih r (fun q' hq' => hq q' (by simp [hq'])) r1 r2
    refine ⟨s, ?_, s1, s2, ?_⟩
    · unfold total
      rw [e]; exact e'
    · rw [s3, r3, List.flatMap_cons, List.append_assoc]

theorem zip_filter_snd {α β : Type} (f : β → Bool) : ∀ (l : List α) (m : List β), l.length = m.length →
    ((l.zip m).filter fun q => f q.2).map Prod.snd = m.filter f := by
  intro l
  induction l with
  | nil => intro m h; cases m with
    | nil => rfl
    | cons => cases h
  | cons a l ih =>
    intro m h
    cases m with
    | nil => cases h
    | cons b m =>
      have := ih m (by simpa using h)
      cases hb : f b <;> simp [hb, this]

theorem atTime_rows {p : P} (h : p.v.length = p.xy.length) (t : Rat) : rows (atTime p t) = instant t (rows p) := by
  have hl : (atTime p t).v.length = (atTime p t).xy.length := by
    show (p.v.filter _).length = (((p.xy.zip p.v).filter _).map Prod.fst).length
    rw [← zip_filter_snd _ p.xy p.v h.symm, List.length_map, List.length_map]
  have full : ∀ q : P, q.v.length = q.xy.length → rows q = (q.xy.zip q.v).map fun r => (r.1, some r.2) := by
    intro q hq
    unfold rows
    split_ifs with hv
    · have : q.xy = [] := by rw [hv] at hq; exact List.length_eq_zero_iff.1 hq.symm
      rw [this]; rfl
    · rw [List.zip, List.map_zipWith]
  rw [full _ hl, full _ h]
  unfold instant
  have e : (atTime p t).xy.zip (atTime p t).v = (p.xy.zip p.v).filter fun q => decide (q.2 = some t) := by
    show (((p.xy.zip p.v).filter _).map Prod.fst).zip (p.v.filter _) = _
    rw [← zip_filter_snd (fun w => decide (w = some t)) p.xy p.v h.symm]
    rw [List.zip_map']
    exact List.map_id _
  rw [e, List.filter_map]
  congr 1

theorem trajToPts_ok {c : CP} {T : Kind → Trajs} {L : Kind → List P} : ∀ (ks : List Kind) (d : CP), ks.Nodup → d.times = c.times → d.ux = c.ux →
    d.uy = c.uy → d.ut = c.ut → (∀ k, d.traj k = some (T k)) → (∀ k ∈ ks, ptsOf c (T k) = .ok (L k)) →
    ∃ r, trajToPts d ks = .ok r ∧ r.times = c.times ∧ r.traj = d.traj ∧ (∀ k ∈ ks, r.pts k = L k) ∧ ∀ k, k ∉ ks → r.pts k = d.pts k := by
  intro ks
  induction ks with
  | nil => intro d _ ht _ _ _ _ _; exact ⟨d, rfl, ht, rfl, by simp, fun _ _ => rfl⟩
  | cons k ks ih =>
    intro d hnd ht hx hy hu hT hL
    rw [List.nodup_cons] at hnd
    have hp : ptsOf d (T k) = .ok (L k) := by
      rw [← hL k (by simp)]
      unfold ptsOf
      rw [ht, hx, hy, hu]
    obtain ⟨r, e, r1, r2, r3, r4⟩ := ih { d with pts := fun k' => if k' = k then L k else d.pts k' } hnd.2 ht hx hy hu hT
      (fun k' hk' => hL k' (by simp [hk']))
    refine ⟨r, ?_, r1, r2, ?_, ?_⟩
    · unfold trajToPts
      rw [hT k]
      simp only
      rw [hp]
      exact e
    · intro k' hk'
      rcases List.mem_cons.1 hk' with rfl | hk''
      · rw [r4 _ hnd.1]
        simp
      · exact r3 k' hk''
    · intro k' hk'
      rw [List.mem_cons, not_or] at hk'
      rw [r4 k' hk'.2]
      simp [hk'.1]

/-- **C241** After `clean_traj(n)` the trajectories of at least `n` points are left, in order and unchanged, and at each time the points of each kind are
those of the trajectories left at this time, and no other. -/
theorem C241_clean {c : CP} (n : Nat) (he : c.eps ≠ none) (h0 : c.ux.size ≠ 0) (h1 : c.uy.size ≠ 0) (h2 : c.ut.size ≠ 0) {T : Kind → List P}
    (hT : ∀ k, Has c k (T k)) (ht : ∀ k, ∀ p ∈ T k, Traj p ∧ Units c p) :
    ∃ r, cleanTraj n c = .ok r ∧ r.times = c.times ∧ ∀ k, Has r k ((T k).filter fun p => decide (n ≤ p.xy.length)) ∧
      (r.pts k).length = c.times.length ∧
      ∀ (j : Nat) t, c.times[j]? = some t → ∃ p, (r.pts k)[j]? = some p ∧
        rows p = instant t (((T k).filter fun p => decide (n ≤ p.xy.length)).flatMap rows) := by
  choose S hS hs using hT
  have hf : ∀ k, (keepLong n (S k)).sets = (T k).filter fun p => decide (n ≤ p.xy.length) := by
    intro k
    unfold keepLong
    rw [hs k]
    apply List.filter_congr
    intro p _
    rw [Bool.eq_iff_iff]
    simp
  have hp : ∀ k, ∃ L, ptsOf c (keepLong n (S k)) = .ok L ∧ ∃ tot, L = c.times.map (atTime tot) ∧ tot.v.length = tot.xy.length ∧
      rows tot = ((T k).filter fun p => decide (n ≤ p.xy.length)).flatMap rows := by
    intro k
    obtain ⟨tot, e, t1, -, t2⟩ := total_rows h0 h1 h2 ((T k).filter fun p => decide (n ≤ p.xy.length)) ⟨[], [], c.ux, c.uy, c.ut⟩
      (fun q hq => ht k q (List.mem_filter.1 hq).1) rfl ⟨rfl, rfl, rfl⟩
    refine ⟨_, ?_, tot, rfl, t1, by rw [t2]; simp [rows]⟩
    unfold ptsOf
    rw [hf k, e]
  choose L hL tot ht1 ht2 ht3 using hp
  obtain ⟨r, e, r1, r2, r3, -⟩ := trajToPts_ok (c := c) (T := fun k => keepLong n (S k)) (L := L) kinds
    { c with traj := fun k => (c.traj k).map (keepLong n) } (by decide) rfl rfl rfl rfl (fun k => by simp [hS k]) (fun k _ => hL k)
  refine ⟨r, ?_, r1, fun k => ⟨⟨keepLong n (S k), ?_, hf k⟩, ?_, ?_⟩⟩
  · unfold cleanTraj
    rw [if_neg he, if_neg]
    · exact e
    · rintro ⟨k, -, hk⟩
      exact absurd ((hS k).symm.trans hk) (by simp)
  · rw [r2]; simp [hS k]
  · rw [r3 k (all_kinds k), ht1 k, List.length_map]
  · intro j t hj
    refine ⟨atTime (tot k) t, ?_, ?_⟩
    · rw [r3 k (all_kinds k), ht1 k, List.getElem?_map, hj]; rfl
    · rw [atTime_rows (ht2 k), ht3 k]

/-- **C241** Before the trajectories are computed, `clean_traj` is refused. -/
theorem C241_refused (n : Nat) {c : CP} (he : c.eps = none) : cleanTraj n c = .error .exception := by
  unfold cleanTraj
  rw [if_pos he]

/-! ### the hypotheses hold on a collection -/

/-- A trajectory of two points of the kind of all the examples. -/
def exT (a b : Rat) : P := ⟨[(some a, some 0), (some (a + 1), some 0)], [some b, some (b + 1)], .mm, .mm, .s⟩

/-- A trajectory of one point. -/
def exOne (a b : Rat) : P := ⟨[(some a, some 0)], [some b], .mm, .mm, .s⟩

/-- The trajectories of a kind of the example. -/
def exTr : List P := [exT 0 0, exOne 5 2]

/-- Three instants, with two trajectories of each kind. -/
def exC : CP :=
  { pts := fun _ => [⟨[(some 0, some 0)], [some 0], .mm, .mm, .s⟩, ⟨[(some 1, some 0)], [some 1], .mm, .mm, .s⟩,
      ⟨[(some 5, some 0)], [some 2], .mm, .mm, .s⟩],
    times := [0, 1, 2], ut := .s, ux := .mm, uy := .mm, traj := fun _ => some ⟨true, exTr⟩, eps := some 2 }

theorem exC_traj (p : P) (hp : p ∈ exTr) : Traj p ∧ Units exC p := by
  simp only [exTr, List.mem_cons, List.not_mem_nil, or_false] at hp
  rcases hp with rfl | rfl <;> simp [Traj, Units, exT, exOne, exC]

example : ∃ r, cropTime (.times 1 2) exC = .ok r ∧ r.times = [1, 2] ∧
    ∃ L, Has r .foc L ∧ L.map rows = [[((some 1, some 0), some (some 1))], [((some 5, some 0), some (some 2))]] := by
  obtain ⟨r, h1, -, h2, -, h3⟩ := C240_crop_partial (c := exC) (fun _ => rfl) 1 2 (T := fun _ => exTr) (fun _ => rfl) (fun _ p hp => (exC_traj p hp).1)
  obtain ⟨L, h4, h5⟩ := h3 .foc
  refine ⟨r, h1, ?_, L, h4, ?_⟩
  · rw [h2]; decide +kernel
  · rw [h5]; decide +kernel

example : ∃ r p, cleanTraj 2 exC = .ok r ∧ Has r .sadd [exT 0 0] ∧ (r.pts .sadd)[2]? = some p ∧ rows p = [] := by
  obtain ⟨r, h1, -, h2⟩ := C241_clean (c := exC) 2 (by simp [exC]) (by simp [exC, Sym.mm]) (by simp [exC, Sym.mm]) (by simp [exC, Sym.s])
    (T := fun _ => exTr) (fun _ => ⟨_, rfl, rfl⟩) (fun _ p hp => exC_traj p hp)
  obtain ⟨h3, -, h4⟩ := h2 .sadd
  obtain ⟨p, h5, h6⟩ := h4 2 2 rfl
  exact ⟨r, p, h1, by simpa [exTr, exT, exOne] using h3, h5, by rw [h6]; decide +kernel⟩

end IMT.Cps
