import Verif.Vortex.SeriesModel
import Verif.Vortex.Motion

/-!
C370: the velocity fields of a vortex system in time.
-/

namespace IMT.Vortex

open Real

/-! ### specification -/

/-- The velocities of a content (vortices, walls, custom fields) on a grid. -/
noncomputable def Content.frame (c : Content) (ax ay : List ℝ) : List (List (ℝ × ℝ)) := ax.map fun x => ay.map fun y => c.velocity x y

/-- The content after `k` steps of time. -/
noncomputable def Content.after (fn : Nat → ℝ → ℝ → ℝ × ℝ) (dt : ℝ) : Nat → Content → Content
  | 0, c => c
  | k + 1, c => (Content.after fn dt k c).step fn (.evolve dt)

/-- The vortices `vs` put at the points `k` of the trajectories `trs`. -/
def Placed (vs : List Vort) (trs : List (List (ℝ × ℝ × ℝ))) (k : Nat) (out : List Vort) : Prop :=
  out.length = vs.length ∧ ∀ (i : Nat) (v : Vort), vs[i]? = some v → ∃ (tr : List (ℝ × ℝ × ℝ)) (x y t : ℝ), trs[i]? = some tr ∧ tr[k]? = some (x, y, t) ∧
    out[i]? = some { bare v with x0 := x, y0 := y }

/-! ### lemmas -/

theorem fieldAt_holds {h : Heap} {s : Sys} {c : Content} (H : Holds h s c) (x y : ℝ) : s.fieldAt h x y = c.velocity x y := by
  unfold Sys.fieldAt Content.velocity
  rw [current_vortex, current_im H, total_induced, H.vs, H.walls, H.fields, induced_bare, List.map_map]
  rfl

theorem shot_holds {h : Heap} {s : Sys} {c : Content} (H : Holds h s c) (ax ay : List ℝ) : s.shot h ax ay = c.frame ax ay := by
  unfold Sys.shot Content.frame
  simp only [fieldAt_holds H]

theorem holds_current {h : Heap} {s : Sys} {c : Content} (H : Holds h s c) : Holds h s.current c := (holds_step H (.ask 0 0 .all .all) trivial).1

theorem holds_evolve {h : Heap} {s : Sys} {c : Content} (H : Holds h s c) {dt : ℝ} (hd : 0 < dt) :
    ∃ s', s.evolution h dt = .ok s' ∧ Holds h s' (c.step h.fn (.evolve dt)) := by
  have e : s.evolution h dt = .ok (Sys.refreshed { s with vortex := s.vortex.map (moved h s dt) }) := by
    unfold Sys.evolution; rw [if_neg (not_le.mpr hd)]
  have hs := (holds_step H (.evolve dt) trivial).1
  simp only [step, e] at hs
  exact ⟨_, e, hs⟩

theorem after_step (fn : Nat → ℝ → ℝ → ℝ × ℝ) (dt : ℝ) (k : Nat) (c : Content) :
    Content.after fn dt k (c.step fn (.evolve dt)) = Content.after fn dt (k + 1) c := by
  induction k with
  | zero => rfl
  | succ k ih => rw [Content.after, ih]; rfl

theorem holds_steps {h : Heap} {dt : ℝ} (hd : 0 < dt) (n : Nat) : ∀ {s : Sys} {c : Content}, Holds h s c →
    ∃ s', s.run h dt n = .ok s' ∧ Holds h s' (Content.after h.fn dt n c) := by
  induction n with
  | zero => intro s c H; exact ⟨s, rfl, H⟩
  | succ n ih =>
    intro s c H
    obtain ⟨s1, e, H1⟩ := holds_evolve H hd
    obtain ⟨s2, r, H2⟩ := ih H1
    refine ⟨s2, by rw [Sys.run, e]; exact r, ?_⟩
    rw [← after_step]
    exact H2

theorem seriesLoop_eq {h : Heap} {dt : ℝ} (hd : 0 < dt) (ax ay : List ℝ) (n : Nat) : ∀ (t : ℝ) {s : Sys} {c : Content} (acc : List (ℝ × List (List (ℝ × ℝ)))),
    Holds h s c → seriesLoop h dt ax ay n t s acc =
      .ok (acc ++ (List.range n).map fun k : Nat => (t + k * dt, (Content.after h.fn dt (k + 1) c).frame ax ay)) := by
  induction n with
  | zero => intro t s c acc _; simp [seriesLoop]
  | succ n ih =>
    intro t s c acc H
    obtain ⟨s1, e, H1⟩ := holds_evolve H hd
    rw [seriesLoop, e]
    simp only
    rw [ih (t + dt) _ H1, List.range_succ_eq_map, List.map_cons, List.map_map, shot_holds H1, List.append_assoc, List.singleton_append]
    congr 2
    · congr 1
      · simp [Content.after]
      · apply List.map_congr_left
        intro k _
        simp only [Function.comp, Nat.succ_eq_add_one, after_step]
        congr 1
        push_cast
        ring

theorem series_eq {h : Heap} {s : Sys} {c : Content} (H : Holds h s c) {dt : ℝ} (hd : 0 < dt) (ax ay : List ℝ) (n : Nat) :
    s.series h dt ax ay n = .ok ((List.range (n + 1)).map fun k : Nat => ((k : ℝ) * dt, (Content.after h.fn dt k c).frame ax ay)) := by
  unfold Sys.series
  rw [seriesLoop_eq hd ax ay n _ _ (holds_current H), shot_holds H, List.range_succ_eq_map, List.map_cons, List.map_map, List.singleton_append]
  congr 2
  · simp [Content.after]
  · apply List.map_congr_left
    intro k _
    simp only [Function.comp, Nat.succ_eq_add_one]
    congr 1
    push_cast
    ring

theorem after_frame (fn : Nat → ℝ → ℝ → ℝ × ℝ) {dt : ℝ} (k : Nat) (c : Content) :
    (Content.after fn dt k c).walls = c.walls ∧ (Content.after fn dt k c).fields = c.fields := by
  induction k with
  | zero => exact ⟨rfl, rfl⟩
  | succ k ih =>
    rw [Content.after, Content.step]
    split <;> exact ih

theorem run_kept {h : Heap} {dt : ℝ} (n : Nat) : ∀ {s s' : Sys}, s.run h dt n = .ok s' → s'.vortex.length = s.vortex.length ∧
    ∀ (i : Nat) (v : Vort), s.vortex[i]? = some v → ∃ v' : Vort, s'.vortex[i]? = some v' ∧ v'.kind = v.kind ∧ v'.rot = v.rot ∧ v'.movable = v.movable := by
  induction n with
  | zero =>
    intro s s' e
    injection e with e
    rw [← e]
    exact ⟨rfl, fun i v hv => ⟨v, hv, rfl, rfl, rfl⟩⟩
  | succ n ih =>
    intro s s' e
    rw [Sys.run] at e
    cases h1 : s.evolution h dt with
    | error x => rw [h1] at e; cases e
    | ok s1 =>
      rw [h1] at e
      obtain ⟨l1, l2⟩ := ih e
      refine ⟨l1.trans (evolution_length h1), ?_⟩
      intro i v hv
      obtain ⟨v1, a1, a2, a3, a4, _⟩ := C146_step h s s1 dt h1 i v hv
      obtain ⟨v2, b1, b2, b3, b4⟩ := l2 i v1 a1
      exact ⟨v2, b1, b2.trans a2, b3.trans a3, b4.trans a4⟩

/-! ### C370 -/

/-- For a system reached by any history, with a positive time step: `nmb_it + 1` fields, the field `k` at the time `k·dt`, with at
each point of the grid the velocity of the content of the system after `k` steps. -/
theorem C370_fields (h : Heap) (ops : List Op) (hc : Counted h.fn ⟨[], [], []⟩ ops) {dt : ℝ} (hd : 0 < dt) (ax ay : List ℝ) (n : Nat) :
    ∃ l, (ops.foldl step (h, Sys.new)).2.series (ops.foldl step (h, Sys.new)).1 dt ax ay n = .ok l ∧ l.length = n + 1 ∧
      ∀ k, k ≤ n → l[k]? = some ((k : ℝ) * dt,
        ((ops ++ List.replicate k (Op.evolve dt)).foldl (Content.step h.fn) ⟨[], [], []⟩).frame ax ay) := by
  have H := holds_run h.fn ops rfl (holds_new h) hc
  have hfn : (ops.foldl step (h, Sys.new)).1.fn = h.fn := by
    have : ∀ (ops : List Op) (q : Heap × Sys), (ops.foldl step q).1.fn = q.1.fn := by
      intro ops
      induction ops with
      | nil => intro q; rfl
      | cons o l ih =>
        intro q
        rw [List.foldl_cons, ih]
        cases o with
        | remove i => simp only [step]; cases q.2.remove i <;> rfl
        | evolve d => simp only [step]; cases q.2.evolution q.1 d <;> rfl
        | _ => rfl
    exact this ops _
  refine ⟨_, series_eq H hd ax ay n, by simp, ?_⟩
  intro k hk
  rw [List.getElem?_map, List.getElem?_range (by omega)]
  have : ∀ k, Content.after h.fn dt k (ops.foldl (Content.step h.fn) ⟨[], [], []⟩) =
      (ops ++ List.replicate k (Op.evolve dt)).foldl (Content.step h.fn) ⟨[], [], []⟩ := by
    intro k
    induction k with
    | zero => simp [Content.after]
    | succ k ih => rw [Content.after, ih, List.replicate_succ', ← List.append_assoc, List.foldl_append (l := ops ++ _)]; rfl
  rw [Option.map_some, hfn, this]

/-- The fields and the trajectories given for the same steps agree: the field `k` is the one of the same vortices at the points `k` of
their trajectories, with the same walls and custom fields. -/
theorem C370_positions (h : Heap) (ops : List Op) (hc : Counted h.fn ⟨[], [], []⟩ ops) {dt : ℝ} (hd : 0 < dt) (ax ay : List ℝ) (n : Nat) :
    let g := (ops.foldl step (h, Sys.new)).1
    let s := (ops.foldl step (h, Sys.new)).2
    ∃ l trs, s.series g dt ax ay n = .ok l ∧ s.vortexEvolution g dt n = .ok trs ∧
      ∀ k, k ≤ n → ∃ vs, Placed s.vortex trs k vs ∧
        l[k]? = some ((k : ℝ) * dt, (Content.mk vs s.walls (s.cfs.map g.fn)).frame ax ay) := by
  intro g s
  have H := holds_run h.fn ops rfl (holds_new h) hc
  obtain ⟨trs, t1, t2, t3⟩ := C146_trajectories g s dt n hd
  refine ⟨_, trs, series_eq H hd ax ay n, t1, ?_⟩
  intro k hk
  obtain ⟨s', r, H'⟩ := holds_steps hd k H
  obtain ⟨k1, k2⟩ := run_kept k r
  obtain ⟨w1, w2⟩ := after_frame g.fn (dt := dt) k (ops.foldl (Content.step h.fn) ⟨[], [], []⟩)
  refine ⟨(Content.after g.fn dt k (ops.foldl (Content.step h.fn) ⟨[], [], []⟩)).vs, ⟨by rw [H'.vs, List.length_map, k1], ?_⟩, ?_⟩
  · intro i v hv
    obtain ⟨tr, a1, a2, a3⟩ := t3 i (List.getElem?_eq_some_iff.mp hv).1
    obtain ⟨s2, v2, b1, b2, b3⟩ := a3 k hk
    have e : s2 = s' := by
      rw [r] at b1
      injection b1 with b1
      exact b1.symm
    subst e
    obtain ⟨v', c1, c2, c3, c4⟩ := k2 i v hv
    rw [b2] at c1
    injection c1 with c1
    subst c1
    refine ⟨tr, v2.x0, v2.y0, _, a1, b3, ?_⟩
    rw [H'.vs, List.getElem?_map, b2, Option.map_some]
    cases v; cases v2
    simp only at c2 c3 c4
    subst c2 c3 c4
    rfl
  · rw [List.getElem?_map, List.getElem?_range (by omega), Option.map_some]
    have : Content.after g.fn dt k (ops.foldl (Content.step h.fn) ⟨[], [], []⟩) =
        ⟨(Content.after g.fn dt k (ops.foldl (Content.step h.fn) ⟨[], [], []⟩)).vs, s.walls, s.cfs.map g.fn⟩ := by
      cases hq : Content.after g.fn dt k (ops.foldl (Content.step h.fn) ⟨[], [], []⟩)
      rw [hq] at w1 w2
      simp only at w1 w2
      rw [w1, w2, H.walls, H.fields]
    rw [← this]

/-- When no vortex that can move feels any velocity at its centre, all the fields are the first one. -/
theorem C370_steady (h : Heap) (ops : List Op) (hc : Counted h.fn ⟨[], [], []⟩ ops) {dt : ℝ} (hd : 0 < dt) (ax ay : List ℝ) (n : Nat)
    (hs : ∀ v ∈ (ops.foldl (Content.step h.fn) ⟨[], [], []⟩).vs, v.movable = true →
      (ops.foldl (Content.step h.fn) ⟨[], [], []⟩).velocity v.x0 v.y0 = 0) :
    ∃ l, (ops.foldl step (h, Sys.new)).2.series (ops.foldl step (h, Sys.new)).1 dt ax ay n = .ok l ∧
      ∀ k, k ≤ n → l[k]? = some ((k : ℝ) * dt, (ops.foldl (Content.step h.fn) ⟨[], [], []⟩).frame ax ay) := by
  obtain ⟨l, e, _, el⟩ := C370_fields h ops hc hd ax ay n
  refine ⟨l, e, fun k hk => ?_⟩
  rw [el k hk, List.foldl_append]
  have fix : (ops.foldl (Content.step h.fn) ⟨[], [], []⟩).step h.fn (.evolve dt) = ops.foldl (Content.step h.fn) ⟨[], [], []⟩ := by
    simp only [Content.step, if_pos hd]
    have : ∀ c : Content, (∀ v ∈ c.vs, v.movable = true → c.velocity v.x0 v.y0 = 0) →
        ({ c with vs := c.vs.map fun v => if v.movable then
          { v with x0 := v.x0 + dt * (c.velocity v.x0 v.y0).1, y0 := v.y0 + dt * (c.velocity v.x0 v.y0).2 } else v } : Content) = c := by
      intro c hc
      have hm : (c.vs.map fun v => if v.movable then
          { v with x0 := v.x0 + dt * (c.velocity v.x0 v.y0).1, y0 := v.y0 + dt * (c.velocity v.x0 v.y0).2 } else v) = c.vs := by
        conv_rhs => rw [← List.map_id c.vs]
        apply List.map_congr_left
        intro v hv
        split
        · rename_i hm
          rw [hc v hv hm]
          simp
        · rfl
      rw [hm]
    exact this _ hs
  have : ∀ k, (List.replicate k (Op.evolve dt)).foldl (Content.step h.fn) (ops.foldl (Content.step h.fn) ⟨[], [], []⟩) =
      ops.foldl (Content.step h.fn) ⟨[], [], []⟩ := by
    intro k
    induction k with
    | zero => rfl
    | succ k ih => rw [List.replicate_succ, List.foldl_cons, fix, ih]
  rw [this]

/-- A time step that is not positive is refused as soon as a step is asked for, without any field. -/
theorem C370_refused (h : Heap) (s : Sys) (dt : ℝ) (ax ay : List ℝ) (n : Nat) (hd : dt ≤ 0) :
    s.series h dt ax ay (n + 1) = .error .valueError := by
  unfold Sys.series
  rw [seriesLoop, (C146_refused h s.current dt n hd).1]

/-- The hypotheses are met by two free vortices beside a wall. -/
example (h : Heap) : Counted h.fn ⟨[], [], []⟩ [.addWall (.atX 0), .addVortex (mkFree 1 2 (-3) true), .addVortex (mkFree 2 0 1 true)] :=
  ⟨trivial, trivial, trivial, trivial⟩

/-- A free vortex alone feels no velocity at its centre: its fields are all the same. -/
example (h : Heap) (a b g : ℝ) : ∀ v ∈ ([Op.addVortex (mkFree a b g true)].foldl (Content.step h.fn) ⟨[], [], []⟩).vs, v.movable = true →
    ([Op.addVortex (mkFree a b g true)].foldl (Content.step h.fn) ⟨[], [], []⟩).velocity v.x0 v.y0 = 0 := by
  intro v hv _
  simp only [List.foldl_cons, List.foldl_nil, Content.step, List.nil_append, List.mem_singleton] at hv
  subst hv
  have hfree : IsFree (bare (mkFree a b g true)) := ⟨|g|, rfl⟩
  have : induced [] [bare (mkFree a b g true)] (bare (mkFree a b g true)).x0 (bare (mkFree a b g true)).y0 = 0 := by
    rw [induced_none, List.map_singleton, List.sum_singleton, free_vector hfree]
    simp
  simp only [List.foldl_cons, List.foldl_nil, Content.step, List.nil_append, Content.velocity, List.map_nil, List.sum_nil, add_zero]
  exact this

end IMT.Vortex
