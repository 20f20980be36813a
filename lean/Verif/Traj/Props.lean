import Verif.Traj.Lemmas
import Verif.Traj.Spec

/-! C50-C53, C83: trajectories of critical points. -/

namespace IMT.Traj

theorem apart2_iff {new : List Pt} {old : List Line} {i j : Nat} {v : Rat} :
    Apart2 new old i j v ↔ distMat new old i j = some v := by
  unfold Apart2 distMat
  constructor
  · rintro ⟨p, l, q, h1, h2, h3, rfl⟩
    simp [h1, h2, h3, Pt.dist2]
  · intro h
    cases h1 : new[i]? with
    | none => simp [h1] at h
    | some p =>
      cases h2 : old[j]? with
      | none => simp [h1, h2] at h
      | some l =>
        cases h3 : l.getLast? with
        | none => simp [h1, h2, h3] at h
        | some q =>
          simp only [h1, h2, h3, Option.bind_some, Option.some.injEq] at h
          exact ⟨p, l, q, rfl, rfl, h3, by rw [← h]; rfl⟩

theorem within_iff {eps : Option Rat} {v : Rat} : Within eps v ↔ tooFar eps v = false := by
  cases eps <;> simp [Within, tooFar]

theorem apart2_range {new : List Pt} {old : List Line} {i j : Nat} {v : Rat} (h : Apart2 new old i j v) :
    i < new.length ∧ j < old.length := by
  obtain ⟨p, l, q, h1, h2, -, -⟩ := h
  rw [List.getElem?_eq_some_iff] at h1 h2
  exact ⟨h1.1, h2.1⟩

theorem linkAll_inv {eps : Option Rat} {fuel : Nat} {new : List Pt} {old : List Line} {s : LinkSt}
    (h : linkAll eps fuel new old = some s) :
    ∃ M, Inv eps new old s M ∧ Greedy eps new old M := by
  unfold linkAll at h
  by_cases hne : new.length ≠ 0 ∧ old.length ≠ 0
  · rw [if_pos hne] at h
    have hp : 0 < new.length := by omega
    have hl : 0 < old.length := by omega
    obtain ⟨M, hI, hstop⟩ := linkLoop_inv hp hl fuel _ s [] (inv_init eps new old) h
    refine ⟨M, hI, hI.range, hI.pts, hI.lns, ?_, ?_⟩
    · intro p hpm
      obtain ⟨v, h1, h2⟩ := hI.close p hpm
      exact ⟨v, apart2_iff.mpr h1, within_iff.mpr h2⟩
    · intro a b v hab hw
      obtain ⟨ha, hb⟩ := apart2_range hab
      by_cases hu : a ∈ M.map Prod.fst ∨ b ∈ M.map Prod.snd
      · obtain ⟨p, hpm, h1, h2⟩ := hI.stable a b ha hb hu
        obtain ⟨w, h3, -⟩ := hI.close p hpm
        refine ⟨p, hpm, h1, w, apart2_iff.mpr h3, ?_⟩
        rw [h3, apart2_iff.mp hab] at h2
        simpa [LeInf, ltInf] using h2
      · rw [not_or] at hu
        have := stop_far hp hl hI hstop a b v ha hb hu.1 hu.2 (apart2_iff.mp hab)
        rw [within_iff.mp hw] at this
        simp at this
  · rw [if_neg hne] at h
    obtain rfl : _ = s := by simpa using h
    refine ⟨[], inv_init eps new old, by simp, by simp, by simp, by simp, ?_⟩
    intro a b v hab
    exfalso
    have := apart2_range hab
    omega

theorem filter_snd {M : List (Nat × Nat)} (hn : (M.map Prod.snd).Nodup) {p : Nat × Nat} (hp : p ∈ M) :
    M.filter (fun q => q.2 = p.2) = [p] := by
  induction M with
  | nil => simp at hp
  | cons a M ih =>
    rw [List.map_cons, List.nodup_cons] at hn
    rcases List.mem_cons.mp hp with rfl | hp
    · rw [List.filter_cons, if_pos (by simp)]
      congr 1
      rw [List.filter_eq_nil_iff]
      intro q hq hc
      have : q.2 = p.2 := by simpa using hc
      exact hn.1 (this ▸ List.mem_map_of_mem hq)
    · rw [List.filter_cons, if_neg, ih hn.2 hp]
      have : a.2 ≠ p.2 := fun hc => hn.1 (hc ▸ List.mem_map_of_mem hp)
      simpa using this

/-- What a step does, in the words of the specification. -/
theorem oneStep_spec {eps : Option Rat} {fuel : Nat} {new : List Pt} {s s' : St}
    (h : oneStep eps fuel new s = some s') :
    ∃ M, Greedy eps new s.op M ∧ s'.closed = s.closed ++ stopped s.op M ∧
      s'.op = continued new s.op M ++ started new M ∧
      (s'.closed ++ s'.op).flatten.Perm ((s.closed ++ s.op).flatten ++ new) := by
  unfold oneStep at h
  cases hr : linkAll eps fuel new s.op with
  | none => rw [hr] at h; simp at h
  | some r =>
    rw [hr] at h
    obtain rfl : finishStep new s.closed r = s' := by simpa using h
    obtain ⟨M, hI, hG⟩ := linkAll_inv hr
    have hclose := closeLoop_spec r.usedL r.lines r.lines.length s.closed [] (le_refl _)
    rw [List.append_nil, List.take_length, List.append_nil] at hclose
    have hcl : (finishStep new s.closed r).closed =
        s.closed ++ pick r.lines ((List.range r.lines.length).reverse.filter fun i => !r.usedL i) := by
      unfold finishStep; rw [hclose]
    have hop : (finishStep new s.closed r).op = pick r.lines ((List.range r.lines.length).filter r.usedL) ++
        (pick new ((List.range new.length).filter fun i => !r.usedP i)).map fun p => [p] := by
      unfold finishStep; rw [hclose]
    refine ⟨M, hG, ?_, ?_, ?_⟩
    · rw [hcl]
      congr 1
      unfold stopped pick
      rw [List.filterMap_filter, hI.len]
      apply List.filterMap_congr
      intro j _
      by_cases hj : r.usedL j = true
      · rw [if_neg (by simp [hj]), if_pos ((hI.usedL j).mp hj)]
      · rw [if_pos (by simp [hj]), if_neg (fun hc => hj ((hI.usedL j).mpr hc)), hI.lines j]
        have : M.filter (fun p => p.2 = j) = [] := by
          rw [List.filter_eq_nil_iff]
          intro p hpm hc
          have hp2 : p.2 = j := by simpa using hc
          exact hj ((hI.usedL j).mpr (hp2 ▸ List.mem_map_of_mem hpm))
        rw [this]
        cases s.op[j]? <;> simp [pick]
    · rw [hop]
      congr 1
      · unfold continued
        rw [show pick r.lines ((List.range r.lines.length).filter r.usedL) =
          (List.range s.op.length).filterMap fun j : Nat => if r.usedL j = true then r.lines[j]? else none by
            unfold pick; rw [List.filterMap_filter, hI.len]]
        apply List.filterMap_congr
        intro j _
        by_cases hj : r.usedL j = true
        · rw [if_pos hj]
          obtain ⟨p, hpm, hp2⟩ := List.mem_map.mp ((hI.usedL j).mp hj)
          subst hp2
          have hf := filter_snd hI.lns hpm
          have hfind : M.find? (fun q => decide (q.2 = p.2)) = some p := by
            rw [← List.head?_filter, hf]; rfl
          rw [hfind, hI.lines, hf]
          have hlt := (hI.range p hpm).1
          cases ho : s.op[p.2]? with
          | none => simp
          | some l => simp [pick, hlt]
        · rw [if_neg hj]
          have : M.find? (fun q => decide (q.2 = j)) = none := by
            rw [List.find?_eq_none]
            intro p hpm hc
            have hp2 : p.2 = j := by simpa using hc
            exact hj ((hI.usedL j).mpr (hp2 ▸ List.mem_map_of_mem hpm))
          rw [this]
      · unfold started pick
        rw [List.filterMap_filter, List.map_filterMap]
        apply List.filterMap_congr
        intro i _
        by_cases hi : r.usedP i = true
        · rw [if_neg (by simp [hi]), if_pos ((hI.usedP i).mp hi)]; rfl
        · rw [if_pos (by simp [hi]), if_neg (fun hc => hi ((hI.usedP i).mpr hc))]
    · rw [hcl, hop]
      have hlines : (pick r.lines ((List.range r.lines.length).reverse.filter fun i => !r.usedL i) ++
          pick r.lines ((List.range r.lines.length).filter r.usedL)).Perm r.lines := by
        have hperm : ((List.range r.lines.length).reverse.filter (fun i => !r.usedL i) ++
            (List.range r.lines.length).filter r.usedL).Perm (List.range r.lines.length) := by
          refine (List.Perm.append_right _ ((List.reverse_perm _).filter _)).trans ?_
          exact List.perm_append_comm.trans (List.filter_append_perm _ _)
        have := pick_perm r.lines hperm
        rwa [pick_append, pick_range] at this
      have hpts : (pick new (M.map Prod.fst) ++
          pick new ((List.range new.length).filter fun i => !r.usedP i)).Perm new := by
        have hperm : (M.map Prod.fst ++ (List.range new.length).filter fun i => !r.usedP i).Perm
            (List.range new.length) := by
          rw [List.perm_ext_iff_of_nodup]
          · intro a
            simp only [List.mem_append, List.mem_filter, List.mem_range]
            constructor
            · rintro (ha | ha)
              · obtain ⟨p, hpm, rfl⟩ := List.mem_map.mp ha
                exact (hI.range p hpm).1
              · exact ha.1
            · intro ha
              by_cases hu : r.usedP a = true
              · exact Or.inl ((hI.usedP a).mp hu)
              · exact Or.inr ⟨ha, by simp [hu]⟩
          · rw [List.nodup_append]
            refine ⟨hI.pts, List.nodup_range.filter _, ?_⟩
            intro a ha b hb hc
            subst hc
            have h1 := (hI.usedP a).mpr ha
            have h2 := (List.mem_filter.mp hb).2
            rw [h1] at h2; simp at h2
          · exact List.nodup_range
        have := pick_perm new hperm
        rwa [pick_append, pick_range] at this
      have hsing : ∀ l : List Pt, (l.map fun p => [p]).flatten = l := by
        intro l; induction l with
        | nil => rfl
        | cons a l ih => simpa using ih
      rw [List.append_assoc, ← List.append_assoc (pick r.lines _), List.flatten_append, List.flatten_append,
        hsing, List.flatten_append (L₁ := s.closed), List.append_assoc]
      refine List.Perm.append_left _ ?_
      refine (hlines.flatten.append_right _).trans ?_
      refine (hI.flat.append_right _).trans ?_
      rw [List.append_assoc]
      exact hpts.append_left _

/-- C53 (one-to-one, greedy, maximal).  One time step, from any set of open trajectories: there is a set of links
between the new points and the open trajectories, one-to-one, of squared length at most `epsilon`, greedy (hence
maximal: no point and trajectory both left unlinked are within reach), such that the linked trajectories get their
point, the others are closed, the points left alone start trajectories.
Partial: the reach is `sqrt epsilon`, not `epsilon` (`C53_reach_violated`). -/
theorem C53_step_greedy_partial {eps : Option Rat} {fuel : Nat} {new : List Pt} {s s' : St}
    (h : oneStep eps fuel new s = some s') :
    ∃ M, Greedy eps new s.op M ∧ s'.closed = s.closed ++ stopped s.op M ∧
      s'.op = continued new s.op M ++ started new M := by
  obtain ⟨M, h1, h2, h3, -⟩ := oneStep_spec h
  exact ⟨M, h1, h2, h3⟩

/-- C53: the step always ends. -/
theorem C53_step_terminates (eps : Option Rat) (new : List Pt) (s : St) (fuel : Nat) (hf : new.length < fuel) :
    oneStep eps fuel new s ≠ none := by
  unfold oneStep
  cases hr : linkAll eps fuel new s.op with
  | some r => simp
  | none =>
    exfalso
    unfold linkAll at hr
    by_cases hne : new.length ≠ 0 ∧ s.op.length ≠ 0
    · rw [if_pos hne] at hr
      exact linkLoop_terminates (by omega) (by omega) fuel _ [] (inv_init eps new s.op) (by simpa using hf) hr
    · rw [if_neg hne] at hr; simp at hr

/-- The elements of the lists of lines after a step. -/
theorem oneStep_mem {eps : Option Rat} {fuel : Nat} {new : List Pt} {s s' : St}
    (h : oneStep eps fuel new s = some s') :
    (∀ l ∈ s'.closed, l ∈ s.closed ∨ l ∈ s.op) ∧
    ∀ l ∈ s'.op, (∃ p ∈ new, l = [p]) ∨
      ∃ l' ∈ s.op, ∃ p ∈ new, ∃ q, l'.getLast? = some q ∧ Within eps (p.dist2 q) ∧ l = l' ++ [p] := by
  obtain ⟨M, hG, h1, h2, -⟩ := oneStep_spec h
  constructor
  · intro l hl
    rw [h1, List.mem_append] at hl
    rcases hl with hl | hl
    · exact Or.inl hl
    · right
      obtain ⟨j, -, hj⟩ := List.mem_filterMap.mp hl
      by_cases hm : j ∈ M.map Prod.snd
      · rw [if_pos hm] at hj; simp at hj
      · rw [if_neg hm] at hj; exact List.mem_of_getElem? hj
  · intro l hl
    rw [h2, List.mem_append] at hl
    rcases hl with hl | hl
    · right
      obtain ⟨j, -, hj⟩ := List.mem_filterMap.mp hl
      cases hf : M.find? (fun p => decide (p.2 = j)) with
      | none => rw [hf] at hj; simp at hj
      | some p =>
        rw [hf] at hj
        have hpm := List.mem_of_find?_eq_some hf
        have hp2 : p.2 = j := by simpa using List.find?_some hf
        obtain ⟨v, ⟨a, b, c, ha, hb, hc, hv⟩, hw⟩ := hG.close p hpm
        rw [hp2] at hb
        simp only [hb, ha, Option.bind_some, Option.map_some, Option.some.injEq] at hj
        refine ⟨b, List.mem_of_getElem? hb, a, List.mem_of_getElem? ha, c, hc, ?_, hj.symm⟩
        rw [hv] at hw; exact hw
    · left
      obtain ⟨i, -, hi⟩ := List.mem_filterMap.mp hl
      by_cases hm : i ∈ M.map Prod.fst
      · rw [if_pos hm] at hi; simp at hi
      · rw [if_neg hm] at hi
        obtain ⟨p, hp, rfl⟩ := Option.map_eq_some_iff.mp hi
        exact ⟨p, List.mem_of_getElem? hp, rfl⟩

theorem steps_perm {eps : Option Rat} {fuel : Nat} : ∀ (gs : List (List Pt)) (s s' : St),
    steps eps fuel gs s = some s' → (s'.closed ++ s'.op).flatten.Perm ((s.closed ++ s.op).flatten ++ gs.flatten) := by
  intro gs
  induction gs with
  | nil => intro s s' h; simp only [steps, Option.some.injEq] at h; subst h; simp
  | cons g gs ih =>
    intro s s' h
    simp only [steps] at h
    obtain ⟨s1, h1, h2⟩ := Option.bind_eq_some_iff.mp h
    refine (ih s1 s' h2).trans ?_
    obtain ⟨-, -, -, -, hp⟩ := oneStep_spec h1
    rw [List.flatten_cons, ← List.append_assoc]
    exact hp.append_right _

theorem steps_terminate {eps : Option Rat} {fuel : Nat} : ∀ (gs : List (List Pt)) (s : St),
    (∀ g ∈ gs, g.length < fuel) → ∃ s', steps eps fuel gs s = some s' := by
  intro gs
  induction gs with
  | nil => intro s _; exact ⟨s, rfl⟩
  | cons g gs ih =>
    intro s h
    cases h1 : oneStep eps fuel g s with
    | none => exact absurd h1 (C53_step_terminates eps g s fuel (h g (by simp)))
    | some s1 =>
      obtain ⟨s', h2⟩ := ih s1 fun g hg => h g (List.mem_cons_of_mem _ hg)
      exact ⟨s', by simp [steps, h1, h2]⟩

theorem group_perm : ∀ (times : List Rat) (pts : List Pt), times.Nodup → (∀ p ∈ pts, p.t ∈ times) →
    (group pts times).flatten.Perm pts := by
  intro times
  induction times with
  | nil =>
    intro pts _ h
    cases pts with
    | nil => simp [group]
    | cons p _ => exact absurd (h p (by simp)) (by simp)
  | cons t ts ih =>
    intro pts hn h
    rw [List.nodup_cons] at hn
    have hrest : group pts ts = group (pts.filter fun p => !decide (p.t = t)) ts := by
      unfold group
      apply List.map_congr_left
      intro u hu
      rw [List.filter_filter]
      apply List.filter_congr
      intro p _
      by_cases hp : p.t = u
      · have : p.t ≠ t := by rintro rfl; exact hn.1 (hp ▸ hu)
        rw [decide_eq_false this, decide_eq_true hp]; rfl
      · simp [hp]
    show (pts.filter (fun p => decide (p.t = t)) ++ (group pts ts).flatten).Perm pts
    rw [hrest]
    refine ((ih _ hn.2 ?_).append_left _).trans (List.filter_append_perm _ _)
    intro p hp
    obtain ⟨hp1, hp2⟩ := List.mem_filter.mp hp
    have := h p hp1
    rcases List.mem_cons.mp this with h' | h'
    · simp [h'] at hp2
    · exact h'

theorem byLength_perm (ls : List Line) : (byLength ls).Perm ls :=
  (List.reverse_perm _).trans (List.perm_insertionSort _ _)

theorem mem_allPoints {times : List Rat} {clouds : List (List (Rat × Rat))} {p : Pt}
    (h : p ∈ allPoints times clouds) : p.t ∈ times := by
  unfold allPoints at h
  obtain ⟨tc, h1, h2⟩ := List.mem_flatMap.mp h
  obtain ⟨xy, -, rfl⟩ := List.mem_map.mp h2
  exact (List.of_mem_zip h1).1

/-- The shape of every result. -/
theorem computeTraj_shape {eps : Option Rat} {fuel : Nat} {times : List Rat} {clouds : List (List (Rat × Rat))}
    {trajs : List Line} (h : computeTraj eps fuel times clouds = some (.ok trajs)) :
    (allPoints times clouds = [] ∧ trajs = []) ∨
    ∃ t ts s, times = t :: ts ∧
      steps eps fuel (group (allPoints times clouds) ts)
        ⟨[], ((allPoints times clouds).filter fun p => p.t = t).map fun p => [p]⟩ = some s ∧
      trajs = byLength (s.closed ++ s.op) := by
  unfold computeTraj timeEvolution at h
  change (if (allPoints times clouds).isEmpty = true then _ else
    (allSteps eps fuel (group (allPoints times clouds) times)).map _) = _ at h
  by_cases he : (allPoints times clouds).isEmpty = true
  · rw [if_pos he] at h
    left
    exact ⟨by simpa using he, by simpa using h.symm⟩
  · right
    rw [if_neg he] at h
    generalize allPoints times clouds = pts at *
    cases times with
    | nil => simp [group, allSteps, Except.map] at h
    | cons t ts =>
      obtain ⟨r, h1, h2⟩ := Option.map_eq_some_iff.mp h
      simp only [group, List.map_cons, allSteps] at h1
      obtain ⟨s, h3, rfl⟩ := Option.map_eq_some_iff.mp h1
      exact ⟨t, ts, s, rfl, h3, by simpa [Except.map] using h2.symm⟩

/-- C50 (partition).  `compute_traj` always ends, and the points of all trajectories together are exactly the
points given, each as many times as it was given.  The stored times are distinct (this is what `add_point`
enforces, see C61). -/
theorem C50_partition (eps : Option Rat) (times : List Rat) (clouds : List (List (Rat × Rat)))
    (ht : times.Nodup) (fuel : Nat) (hf : (allPoints times clouds).length < fuel) :
    ∃ trajs, computeTraj eps fuel times clouds = some (.ok trajs) ∧
      trajs.flatten.Perm (allPoints times clouds) ∧ ∀ l ∈ trajs, l ≠ [] := by
  have hmem : ∀ p ∈ allPoints times clouds, p.t ∈ times := fun p hp => mem_allPoints hp
  have key : ∃ trajs, computeTraj eps fuel times clouds = some (.ok trajs) := by
    unfold computeTraj timeEvolution
    change ∃ trajs, (if (allPoints times clouds).isEmpty = true then _ else
      (allSteps eps fuel (group (allPoints times clouds) times)).map _) = _
    by_cases he : (allPoints times clouds).isEmpty = true
    · rw [if_pos he]; exact ⟨[], rfl⟩
    · rw [if_neg he]
      generalize allPoints times clouds = pts at *
      cases times with
      | nil =>
        cases pts with
        | nil => simp at he
        | cons p _ => exact absurd (hmem p (by simp)) (by simp)
      | cons t ts =>
        obtain ⟨s, hs⟩ := steps_terminate (eps := eps) (fuel := fuel) (group pts ts)
          ⟨[], (pts.filter fun p => p.t = t).map fun p => [p]⟩ (by
            intro g hg
            unfold group at hg
            obtain ⟨u, -, rfl⟩ := List.mem_map.mp hg
            exact lt_of_le_of_lt (List.length_filter_le _ _) hf)
        refine ⟨byLength (s.closed ++ s.op), ?_⟩
        simp only [group, List.map_cons, allSteps]
        simp only [group] at hs
        rw [hs]; rfl
  obtain ⟨trajs, h⟩ := key
  refine ⟨trajs, h, ?_⟩
  rcases computeTraj_shape h with ⟨h1, h2⟩ | ⟨t, ts, s, h1, h2, h3⟩
  · subst h2; rw [h1]; simp
  · generalize allPoints times clouds = pts at *
    subst h1 h3
    have hsing : ∀ l : List Pt, (l.map fun p => [p]).flatten = l := by
      intro l; induction l with
      | nil => rfl
      | cons a l ih => simpa using ih
    constructor
    · refine ((byLength_perm _).flatten).trans ((steps_perm _ _ _ h2).trans ?_)
      simp only [List.nil_append, hsing]
      exact group_perm (t :: ts) pts ht hmem
    · have : ∀ (gs : List (List Pt)) (s s' : St), steps eps fuel gs s = some s' →
          (∀ l ∈ s.closed ++ s.op, l ≠ []) → ∀ l ∈ s'.closed ++ s'.op, l ≠ [] := by
        intro gs
        induction gs with
        | nil => intro s s' h hs; simp only [steps, Option.some.injEq] at h; subst h; exact hs
        | cons g gs ih =>
          intro s s' h hs
          simp only [steps] at h
          obtain ⟨s1, h1, h2⟩ := Option.bind_eq_some_iff.mp h
          refine ih s1 s' h2 ?_
          obtain ⟨hc, ho⟩ := oneStep_mem h1
          intro l hl
          rcases List.mem_append.mp hl with hl | hl
          · exact hs l (List.mem_append.mpr (hc l hl))
          · rcases ho l hl with ⟨p, -, rfl⟩ | ⟨l', -, p, -, q, -, -, rfl⟩ <;> simp
      intro l hl
      refine this _ _ _ h2 ?_ l ((byLength_perm _).mem_iff.mp hl)
      intro l hl
      simp only [List.nil_append, List.mem_map] at hl
      obtain ⟨p, -, rfl⟩ := hl
      simp

theorem steps_times {eps : Option Rat} {fuel : Nat} {pts : List Pt} : ∀ (ts pre : List Rat) (s s' : St),
    steps eps fuel (group pts ts) s = some s' →
    (∀ l ∈ s.closed, l.map (·.t) <:+: pre) → (∀ l ∈ s.op, l.map (·.t) <:+ pre) →
    ∀ l ∈ s'.closed ++ s'.op, l.map (·.t) <:+: pre ++ ts := by
  intro ts
  induction ts with
  | nil =>
    intro pre s s' h hc ho l hl
    simp only [group, List.map_nil, steps, Option.some.injEq] at h; subst h
    rw [List.append_nil]
    rcases List.mem_append.mp hl with hl | hl
    · exact hc l hl
    · exact (ho l hl).isInfix
  | cons t ts ih =>
    intro pre s s' h hc ho
    simp only [group, List.map_cons, steps] at h
    obtain ⟨s1, h1, h2⟩ := Option.bind_eq_some_iff.mp h
    have := ih (pre ++ [t]) s1 s' h2 ?_ ?_
    · simpa using this
    · intro l hl
      have : l.map (·.t) <:+: pre := by
        rcases (oneStep_mem h1).1 l hl with hl | hl
        · exact hc l hl
        · exact (ho l hl).isInfix
      exact this.trans (List.prefix_append _ _).isInfix
    · intro l hl
      have ht : ∀ p ∈ pts.filter (fun p => decide (p.t = t)), p.t = t := fun p hp => by
        simpa using (List.mem_filter.mp hp).2
      rcases (oneStep_mem h1).2 l hl with ⟨p, hp, rfl⟩ | ⟨l', hl', p, hp, q, -, -, rfl⟩
      · simp only [List.map_cons, List.map_nil, ht p hp]
        exact List.suffix_append _ _
      · simp only [List.map_append, List.map_cons, List.map_nil, ht p hp]
        obtain ⟨a, ha⟩ := ho l' hl'
        exact ⟨a, by rw [← List.append_assoc, ha]⟩

/-- C51 (no time is skipped or repeated): the times of the points of a trajectory are a contiguous part of the list
of stored times. -/
theorem C51_consecutive {eps : Option Rat} {fuel : Nat} {times : List Rat} {clouds : List (List (Rat × Rat))}
    {trajs : List Line} (h : computeTraj eps fuel times clouds = some (.ok trajs)) :
    ∀ l ∈ trajs, l.map (·.t) <:+: times := by
  rcases computeTraj_shape h with ⟨-, rfl⟩ | ⟨t, ts, s, h1, h2, rfl⟩
  · simp
  · intro l hl
    have hl' := (byLength_perm _).mem_iff.mp hl
    have := steps_times ts [t] _ _ h2 (by simp) (by
      intro l hl
      obtain ⟨p, hp, rfl⟩ := List.mem_map.mp hl
      have : p.t = t := by simpa using (List.mem_filter.mp hp).2
      simp [this]) l hl'
    rw [h1]
    simpa using this

/-- Consecutive elements of `l` are related by `R`. -/
def Links (R : Pt → Pt → Prop) (l : Line) : Prop :=
  ∀ (k : Nat) (p q : Pt), l[k]? = some p → l[k + 1]? = some q → R p q

theorem links_append {R : Pt → Pt → Prop} {l : Line} {p q : Pt} (h : Links R l) (hq : l.getLast? = some q)
    (hR : R q p) : Links R (l ++ [p]) := by
  intro k a b ha hb
  have hkb := (List.getElem?_eq_some_iff.mp hb).1
  rw [List.length_append, List.length_singleton] at hkb
  by_cases hk : k + 1 < l.length
  · rw [List.getElem?_append_left hk] at hb
    rw [List.getElem?_append_left (by omega)] at ha
    exact h k a b ha hb
  · have hk' : k + 1 = l.length := by omega
    rw [List.getElem?_append_left (by omega)] at ha
    rw [hk', List.getElem?_append_right (le_refl _)] at hb
    rw [List.getLast?_eq_getElem?, show l.length - 1 = k by omega, ha] at hq
    simp at hq hb
    subst hq hb
    exact hR

theorem steps_links {eps : Option Rat} {fuel : Nat} : ∀ (gs : List (List Pt)) (s s' : St),
    steps eps fuel gs s = some s' →
    (∀ l ∈ s.closed ++ s.op, Links (fun p q => Within eps (q.dist2 p)) l) →
    ∀ l ∈ s'.closed ++ s'.op, Links (fun p q => Within eps (q.dist2 p)) l := by
  intro gs
  induction gs with
  | nil => intro s s' h hs; simp only [steps, Option.some.injEq] at h; subst h; exact hs
  | cons g gs ih =>
    intro s s' h hs
    simp only [steps] at h
    obtain ⟨s1, h1, h2⟩ := Option.bind_eq_some_iff.mp h
    refine ih s1 s' h2 ?_
    obtain ⟨hc, ho⟩ := oneStep_mem h1
    intro l hl
    rcases List.mem_append.mp hl with hl | hl
    · exact hs l (List.mem_append.mpr (hc l hl))
    · rcases ho l hl with ⟨p, -, rfl⟩ | ⟨l', hl', p, -, q, hq, hw, rfl⟩
      · intro k a b _ hb
        simp at hb
      · exact links_append (hs l' (List.mem_append_right _ hl')) hq hw

/-- C52 (links are no longer than epsilon).  Two consecutive points of a trajectory have a squared distance of at
most `epsilon`; so their distance is at most `epsilon` whenever `epsilon ≥ 1`.
Partial: for `epsilon < 1` the distance can exceed it (`C52_small_epsilon_violated`). -/
theorem C52_links_partial {eps : Rat} {fuel : Nat} {times : List Rat} {clouds : List (List (Rat × Rat))}
    {trajs : List Line} (h : computeTraj (some eps) fuel times clouds = some (.ok trajs)) :
    ∀ l ∈ trajs, ∀ (k : Nat) (p q : Pt), l[k]? = some p → l[k + 1]? = some q →
      (q.x - p.x) ^ 2 + (q.y - p.y) ^ 2 ≤ eps ∧
      (1 ≤ eps → (q.x - p.x) ^ 2 + (q.y - p.y) ^ 2 ≤ eps ^ 2) := by
  rcases computeTraj_shape h with ⟨-, rfl⟩ | ⟨t, ts, s, h1, h2, rfl⟩
  · simp
  · intro l hl k p q hp hq
    have hl' := (byLength_perm _).mem_iff.mp hl
    have := steps_links _ _ _ h2 (by
      intro l hl
      simp only [List.nil_append, List.mem_map] at hl
      obtain ⟨p, -, rfl⟩ := hl
      intro k a b _ hb
      simp at hb) l hl' k p q hp hq eps rfl
    unfold Pt.dist2 at this
    refine ⟨this, fun h1 => ?_⟩
    have : eps ≤ eps ^ 2 := by nlinarith
    linarith

/-- C52 fails for `epsilon < 1`: with `epsilon = 1/4` two points at distance 2/5 are linked. -/
theorem C52_small_epsilon_violated :
    (computeTraj (some (1/4)) 3 [0, 1] [[(0, 0)], [(2/5, 0)]]).getD (.error .exception) =
      .ok [[⟨0, 0, 0⟩, ⟨2/5, 0, 1⟩]] ∧ ((2/5 : Rat) - 0) ^ 2 + (0 - 0) ^ 2 > (1/4) ^ 2 := by
  decide +kernel

/-- C53 fails for `epsilon > 1`: with `epsilon = 2` two points at distance 3/2 are not linked, although nothing
else competes for them. -/
theorem C53_reach_violated :
    (computeTraj (some 2) 3 [0, 1] [[(0, 0)], [(3/2, 0)]]).getD (.error .exception) =
      .ok [[⟨3/2, 0, 1⟩], [⟨0, 0, 0⟩]] ∧ ((3/2 : Rat) - 0) ^ 2 + (0 - 0) ^ 2 ≤ 2 ^ 2 := by
  decide +kernel

/-- C83 (longest first): the trajectories are returned by decreasing number of points. -/
theorem C83_longest_first {eps : Option Rat} {fuel : Nat} {times : List Rat} {clouds : List (List (Rat × Rat))}
    {trajs : List Line} (h : computeTraj eps fuel times clouds = some (.ok trajs)) :
    trajs.Pairwise fun a b => b.length ≤ a.length := by
  rcases computeTraj_shape h with ⟨-, rfl⟩ | ⟨t, ts, s, h1, h2, rfl⟩
  · simp
  · unfold byLength
    rw [List.pairwise_reverse]
    have : Std.Total (fun a b : Line => a.length ≤ b.length) := ⟨fun a b => le_total _ _⟩
    have : IsTrans Line (fun a b : Line => a.length ≤ b.length) := ⟨fun a b c => le_trans⟩
    exact List.pairwise_insertionSort _ _

/-- Two vortices crossing three time steps, one of them disappearing and one appearing. -/
example : (computeTraj (some 2) 7 [0, 1, 2] [[(0, 0), (5, 5)], [(5, 6), (0, 1)], [(1, 1), (9, 9)]]).getD
    (.error .exception) =
    .ok [[⟨0, 0, 0⟩, ⟨0, 1, 1⟩, ⟨1, 1, 2⟩], [⟨5, 5, 0⟩, ⟨5, 6, 1⟩], [⟨9, 9, 2⟩]] := by decide +kernel

example : ([0, 1, 2] : List Rat).Nodup ∧
    (allPoints [0, 1, 2] [[(0, 0), (5, 5)], [(5, 6), (0, 1)], [(1, 1), (9, 9)]]).length < 7 := by decide +kernel

/-- A step with two candidates for one line: the closest one is taken, the other starts a line. -/
example : (oneStep none 3 [⟨3, 0, 1⟩, ⟨1, 0, 1⟩] ⟨[], [[⟨0, 0, 0⟩]]⟩).map (fun s => (s.closed, s.op)) =
    some ([], [[⟨0, 0, 0⟩, ⟨1, 0, 1⟩], [⟨3, 0, 1⟩]]) := by decide +kernel

end IMT.Traj
