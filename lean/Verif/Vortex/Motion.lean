import Verif.Vortex.History
import Verif.Vortex.Shape

/-!
C146, C147: the motion of the vortices of a system: the trajectories, and what free vortices conserve.
-/

namespace IMT.Vortex

open Real

/-! ### C146: trajectories -/

theorem evolution_length {h : Heap} {s s' : Sys} {dt : ℝ} (e : s.evolution h dt = .ok s') : s'.vortex.length = s.vortex.length := by
  unfold Sys.evolution at e
  split at e
  · simp at e
  · injection e with e
    rw [← e]
    simp [Sys.refreshed]

theorem run_succ {h : Heap} {dt : ℝ} (n : Nat) (s : Sys) :
    s.run h dt (n + 1) = match s.run h dt n with
      | .error e => .error e
      | .ok s' => s'.evolution h dt := by
  induction n generalizing s with
  | zero =>
    simp only [Sys.run]
    cases s.evolution h dt <;> rfl
  | succ n ih =>
    rw [Sys.run]
    conv_rhs => rw [Sys.run]
    cases s.evolution h dt with
    | error e => rfl
    | ok s' => exact ih s'

theorem evolveLoop_eq {h : Heap} {dt : ℝ} (hd : 0 < dt) (n : Nat) : ∀ (t : ℝ) (s : Sys) (acc : List (List (ℝ × ℝ × ℝ))),
    acc.length = s.vortex.length →
    ∃ l, evolveLoop h dt n t s acc = .ok l ∧ l.length = s.vortex.length ∧
      ∀ (i : Nat) (a : List (ℝ × ℝ × ℝ)), acc[i]? = some a → ∃ b : List (ℝ × ℝ × ℝ), l[i]? = some (a ++ b) ∧ b.length = n ∧
        ∀ k : Nat, k < n → ∃ (s' : Sys) (v : Vort), s.run h dt (k + 1) = .ok s' ∧ s'.vortex[i]? = some v ∧ b[k]? = some (v.x0, v.y0, t + (k + 1) * dt) := by
  induction n with
  | zero =>
    intro t s acc hl
    exact ⟨acc, rfl, hl, fun i a ha => ⟨[], by simpa using ha, rfl, fun k hk => absurd hk (by omega)⟩⟩
  | succ n ih =>
    intro t s acc hl
    obtain ⟨s', hs⟩ : ∃ s', s.evolution h dt = .ok s' := ⟨_, by unfold Sys.evolution; rw [if_neg (not_le.mpr hd)]⟩
    have hlen := evolution_length hs
    obtain ⟨l, h1, h2, h3⟩ := ih (t + dt) s'
      (List.zipWith (fun a (v : Vort) => a ++ [(v.x0, v.y0, t + dt)]) acc s'.vortex) (by simp [hl, hlen])
    refine ⟨l, by rw [evolveLoop, hs]; exact h1, by rw [h2, hlen], ?_⟩
    intro i a ha
    have hi : i < s'.vortex.length := by
      have := (List.getElem?_eq_some_iff.mp ha).1
      omega
    have hv : s'.vortex[i]? = some (s'.vortex[i]'hi) := List.getElem?_eq_getElem hi
    obtain ⟨b, b1, b2, b3⟩ := h3 i (a ++ [((s'.vortex[i]'hi).x0, (s'.vortex[i]'hi).y0, t + dt)]) (by
      rw [List.getElem?_zipWith, ha, hv])
    refine ⟨((s'.vortex[i]'hi).x0, (s'.vortex[i]'hi).y0, t + dt) :: b, by rw [b1]; simp, by simp [b2], ?_⟩
    intro k hk
    cases k with
    | zero => exact ⟨s', s'.vortex[i]'hi, by rw [Sys.run, hs]; rfl, hv, by simp⟩
    | succ k =>
      obtain ⟨s2, v, r1, r2, r3⟩ := b3 k (by omega)
      refine ⟨s2, v, ?_, r2, ?_⟩
      · rw [Sys.run, hs]; exact r1
      · rw [List.getElem?_cons_succ, r3]
        push_cast
        congr 3
        ring

/-- Every vortex has a trajectory of `nmb_it + 1` points; the point `k` is where the vortex is after `k` evolutions, at the time
`k·dt`. -/
theorem C146_trajectories (h : Heap) (s : Sys) (dt : ℝ) (n : Nat) (hd : 0 < dt) :
    ∃ l, s.vortexEvolution h dt n = .ok l ∧ l.length = s.vortex.length ∧
      ∀ i, i < s.vortex.length → ∃ tr, l[i]? = some tr ∧ tr.length = n + 1 ∧
        ∀ k : Nat, k ≤ n → ∃ (s' : Sys) (v : Vort), s.run h dt k = .ok s' ∧ s'.vortex[i]? = some v ∧ tr[k]? = some (v.x0, v.y0, k * dt) := by
  obtain ⟨l, h1, h2, h3⟩ := evolveLoop_eq (h := h) hd n 0 s (s.vortex.map fun v => [(v.x0, v.y0, 0)]) (by simp)
  refine ⟨l, h1, h2, ?_⟩
  intro i hi
  obtain ⟨b, b1, b2, b3⟩ := h3 i [((s.vortex[i]'hi).x0, (s.vortex[i]'hi).y0, 0)] (by
    rw [List.getElem?_map, List.getElem?_eq_getElem hi]; rfl)
  refine ⟨_, b1, by simp [b2], ?_⟩
  intro k hk
  cases k with
  | zero => exact ⟨s, s.vortex[i]'hi, rfl, List.getElem?_eq_getElem hi, by simp⟩
  | succ k =>
    obtain ⟨s', v, r1, r2, r3⟩ := b3 k (by omega)
    refine ⟨s', v, r1, r2, ?_⟩
    rw [List.singleton_append, List.getElem?_cons_succ, r3]
    push_cast
    simp

/-- A time step that is not positive is refused. -/
theorem C146_refused (h : Heap) (s : Sys) (dt : ℝ) (n : Nat) (hd : dt ≤ 0) :
    s.evolution h dt = .error .valueError ∧ s.vortexEvolution h dt (n + 1) = .error .valueError := by
  have e : s.evolution h dt = .error .valueError := by unfold Sys.evolution; rw [if_pos hd]
  exact ⟨e, by unfold Sys.vortexEvolution; rw [evolveLoop, e]⟩

/-- One evolution: each vortex that can move is carried along by the velocity where it was, the others stay, nothing else about the
vortices changes; all move from the old positions. -/
theorem C146_step (h : Heap) (s s' : Sys) (dt : ℝ) (e : s.evolution h dt = .ok s') (i : Nat) (v : Vort) (hv : s.vortex[i]? = some v) :
    ∃ v', s'.vortex[i]? = some v' ∧ v'.kind = v.kind ∧ v'.rot = v.rot ∧ v'.movable = v.movable ∧
      (v.movable = true → v'.x0 = v.x0 + dt * (s.vector h v.x0 v.y0 .all .all).2.1 ∧
        v'.y0 = v.y0 + dt * (s.vector h v.x0 v.y0 .all .all).2.2) ∧
      (v.movable = false → v'.x0 = v.x0 ∧ v'.y0 = v.y0) := by
  unfold Sys.evolution at e
  split at e
  · simp at e
  · injection e with e
    rw [← e]
    refine ⟨moved h s dt v, ?_, ?_⟩
    · show (s.vortex.map (moved h s dt))[i]? = _
      rw [List.getElem?_map, hv]; rfl
    · unfold moved
      cases hm : v.movable <;> simp [hm]

/-! ### C147: free vortices -/

/-- A free vortex. -/
def IsFree (v : Vort) : Prop := ∃ g, v.kind = .free g

/-- Its signed circulation. -/
noncomputable def circulation (v : Vort) : ℝ :=
  match v.kind with
  | .free g => g * v.rot
  | _ => 0

theorem circulation_mkFree (x0 y0 g : ℝ) (m : Bool) : IsFree (mkFree x0 y0 g m) ∧ circulation (mkFree x0 y0 g m) = g :=
  ⟨⟨|g|, rfl⟩, sign_mul_abs g⟩

theorem free_vector {v : Vort} (hv : IsFree v) (x y : ℝ) :
    v.vector x y = (-(circulation v * (y - v.y0)) / (2 * π * ((x - v.x0) ^ 2 + (y - v.y0) ^ 2)),
      circulation v * (x - v.x0) / (2 * π * ((x - v.x0) ^ 2 + (y - v.y0) ^ 2))) := by
  obtain ⟨g, hk⟩ := hv
  have hc : circulation v = g * v.rot := by unfold circulation; rw [hk]
  rw [hc]
  by_cases h0 : radius v.x0 x v.y0 y = 0
  · obtain ⟨rfl, rfl⟩ := radius_eq_zero.mp h0
    unfold Vort.vector
    rw [hk, h0]
    simp [polar, cart]
  · have hs : 0 < radius v.x0 x v.y0 y := lt_of_le_of_ne (radius_nonneg _ _ _ _) (Ne.symm h0)
    rw [vector_of hs (radius_sq _ _ _ _), hk, ← radius_sq]
    simp only [polar, h0, if_false]
    have hpi := Real.pi_ne_zero
    ext
    · field_simp
      try ring
    · field_simp
      try ring

theorem sum_swap {α : Type} (l m : List α) (f : α → α → ℝ) :
    (l.map fun a => (m.map fun b => f a b).sum).sum = (m.map fun b => (l.map fun a => f a b).sum).sum := by
  induction l with
  | nil => simp
  | cons a l ih => simp only [List.map_cons, List.sum_cons, ih, List.sum_map_add]

theorem sum_minus {α : Type} (l : List α) (f : α → ℝ) : (l.map fun a => -f a).sum = -(l.map f).sum := by
  induction l with
  | nil => simp
  | cons a l ih => simp only [List.map_cons, List.sum_cons, ih]; ring

theorem sum_antisymm {α : Type} (l : List α) (f : α → α → ℝ) (h : ∀ a ∈ l, ∀ b ∈ l, f a b = -f b a) :
    (l.map fun a => (l.map fun b => f a b).sum).sum = 0 := by
  have e : (l.map fun a => (l.map fun b => f a b).sum).sum = -(l.map fun a => (l.map fun b => f b a).sum).sum := by
    rw [← sum_minus]
    congr 1
    apply List.map_congr_left
    intro a ha
    rw [← sum_minus]
    congr 1
    apply List.map_congr_left
    intro b hb
    exact h a ha b hb
  rw [sum_swap l l fun a b => f b a] at e
  linarith

theorem sum_fst (l : List (ℝ × ℝ)) : l.sum.1 = (l.map Prod.fst).sum := by
  induction l with
  | nil => rfl
  | cons a l ih => simp [ih]
theorem sum_snd (l : List (ℝ × ℝ)) : l.sum.2 = (l.map Prod.snd).sum := by
  induction l with
  | nil => rfl
  | cons a l ih => simp [ih]

theorem induced_none (vs : List Vort) (x y : ℝ) : induced [] vs x y = (vs.map fun v => v.vector x y).sum := by
  have e : ∀ v : Vort, seenIn [] v = v := by intro v; simp [seenIn]
  simp [induced, e]

theorem induced_one (w : Wall) (vs : List Vort) (x y : ℝ) :
    induced [w] vs x y = (vs.map fun v => v.vector x y + (mirror w v).vector x y).sum := by
  have e : ∀ v : Vort, seenIn [] v = v := by intro v; simp [seenIn]
  have e2 : ∀ v : Vort, (seenIn [w] v).vector x y = (mirror w v).vector x y := by
    intro v; apply vector_congr <;> simp [seenIn, mirror]
  have hs : [w].sublists = [[], [w]] := rfl
  unfold induced
  rw [hs]
  simp only [List.map_cons, List.map_nil, List.sum_cons, List.sum_nil, add_zero, e, e2, List.sum_map_add]

/-- The sum of circulation times x. -/
noncomputable def impulseX (vs : List Vort) : ℝ := (vs.map fun v => circulation v * v.x0).sum
/-- The sum of circulation times y. -/
noncomputable def impulseY (vs : List Vort) : ℝ := (vs.map fun v => circulation v * v.y0).sum

theorem pull_x (vs : List Vort) (F : Vort → Vort → ℝ)
    (hF : ∀ v ∈ vs, ∀ u ∈ vs, circulation v * F v u = -(circulation u * F u v)) :
    (vs.map fun v => circulation v * (vs.map fun u => F v u).sum).sum = 0 := by
  have e : (vs.map fun v => circulation v * (vs.map fun u => F v u).sum) = vs.map fun v => (vs.map fun u => circulation v * F v u).sum := by
    apply List.map_congr_left
    intro v _
    rw [List.sum_map_mul_left]
  rw [e]
  exact sum_antisymm vs _ hF

theorem velocity_none (vs : List Vort) (h : ∀ v ∈ vs, IsFree v) :
    (vs.map fun v => circulation v * (induced [] vs v.x0 v.y0).1).sum = 0 ∧
    (vs.map fun v => circulation v * (induced [] vs v.x0 v.y0).2).sum = 0 := by
  constructor
  · simp only [induced_none, sum_fst, List.map_map]
    refine pull_x vs (fun v u => (u.vector v.x0 v.y0).1) ?_
    intro v hv u hu
    simp only [free_vector (h v hv), free_vector (h u hu)]
    rw [show (v.x0 - u.x0) ^ 2 + (v.y0 - u.y0) ^ 2 = (u.x0 - v.x0) ^ 2 + (u.y0 - v.y0) ^ 2 by ring]
    ring
  · simp only [induced_none, sum_snd, List.map_map]
    refine pull_x vs (fun v u => (u.vector v.x0 v.y0).2) ?_
    intro v hv u hu
    simp only [free_vector (h v hv), free_vector (h u hu)]
    rw [show (v.x0 - u.x0) ^ 2 + (v.y0 - u.y0) ^ 2 = (u.x0 - v.x0) ^ 2 + (u.y0 - v.y0) ^ 2 by ring]
    ring

theorem mirror_free {v : Vort} (w : Wall) (h : IsFree v) : IsFree (mirror w v) ∧ circulation (mirror w v) = -circulation v := by
  obtain ⟨g, hk⟩ := h
  have hk' : (mirror w v).kind = .free g := hk
  refine ⟨⟨g, hk'⟩, ?_⟩
  unfold circulation
  rw [hk, hk']
  simp [mirror]

theorem velocity_x (p : ℝ) (vs : List Vort) (h : ∀ v ∈ vs, IsFree v) :
    (vs.map fun v => circulation v * (induced [.atX p] vs v.x0 v.y0).1).sum = 0 := by
  simp only [induced_one, sum_fst, List.map_map]
  refine pull_x vs (fun v u => (u.vector v.x0 v.y0 + (mirror (.atX p) u).vector v.x0 v.y0).1) ?_
  intro v hv u hu
  simp only [Prod.fst_add, Prod.snd_add, free_vector (h v hv), free_vector (h u hu), free_vector (mirror_free _ (h v hv)).1,
    free_vector (mirror_free _ (h u hu)).1, (mirror_free _ (h v hv)).2, (mirror_free _ (h u hu)).2]
  simp only [mirror, Wall.symmetry, Prod.fst_add]
  rw [show (v.x0 - u.x0) ^ 2 + (v.y0 - u.y0) ^ 2 = (u.x0 - v.x0) ^ 2 + (u.y0 - v.y0) ^ 2 by ring,
    show (v.x0 - (p + (p - u.x0))) ^ 2 + (v.y0 - u.y0) ^ 2 = (u.x0 - (p + (p - v.x0))) ^ 2 + (u.y0 - v.y0) ^ 2 by ring]
  ring

theorem velocity_y (p : ℝ) (vs : List Vort) (h : ∀ v ∈ vs, IsFree v) :
    (vs.map fun v => circulation v * (induced [.atY p] vs v.x0 v.y0).2).sum = 0 := by
  simp only [induced_one, sum_snd, List.map_map]
  refine pull_x vs (fun v u => (u.vector v.x0 v.y0 + (mirror (.atY p) u).vector v.x0 v.y0).2) ?_
  intro v hv u hu
  simp only [Prod.fst_add, Prod.snd_add, free_vector (h v hv), free_vector (h u hu), free_vector (mirror_free _ (h v hv)).1,
    free_vector (mirror_free _ (h u hu)).1, (mirror_free _ (h v hv)).2, (mirror_free _ (h u hu)).2]
  simp only [mirror, Wall.symmetry, Prod.snd_add]
  rw [show (v.x0 - u.x0) ^ 2 + (v.y0 - u.y0) ^ 2 = (u.x0 - v.x0) ^ 2 + (u.y0 - v.y0) ^ 2 by ring,
    show (v.x0 - u.x0) ^ 2 + (v.y0 - (p + (p - u.y0))) ^ 2 = (u.x0 - v.x0) ^ 2 + (u.y0 - (p + (p - v.y0))) ^ 2 by ring]
  ring

/-- A content of free vortices, all of them carried along. -/
structure Drifting (c : Content) : Prop where
  free : ∀ v ∈ c.vs, IsFree v
  movable : ∀ v ∈ c.vs, v.movable = true
  fields : c.fields = []

theorem drift_step (fn : Nat → ℝ → ℝ → ℝ × ℝ) {c : Content} (D : Drifting c) {dt : ℝ} (hd : 0 < dt) :
    (c.step fn (.evolve dt)).vs = c.vs.map fun v =>
      { v with x0 := v.x0 + dt * (induced c.walls c.vs v.x0 v.y0).1, y0 := v.y0 + dt * (induced c.walls c.vs v.x0 v.y0).2 } := by
  simp only [Content.step, if_pos hd]
  apply List.map_congr_left
  intro v hv
  rw [if_pos (D.movable v hv)]
  simp [Content.velocity, D.fields]

theorem drifting_step (fn : Nat → ℝ → ℝ → ℝ × ℝ) {c : Content} (D : Drifting c) (dt : ℝ) :
    Drifting (c.step fn (.evolve dt)) ∧ (c.step fn (.evolve dt)).walls = c.walls := by
  by_cases hd : 0 < dt
  · refine ⟨⟨?_, ?_, ?_⟩, by simp [Content.step, if_pos hd]⟩
    · rw [drift_step fn D hd]
      intro v hv
      obtain ⟨u, hu, rfl⟩ := List.mem_map.mp hv
      exact D.free u hu
    · rw [drift_step fn D hd]
      intro v hv
      obtain ⟨u, hu, rfl⟩ := List.mem_map.mp hv
      exact D.movable u hu
    · simp [Content.step, if_pos hd, D.fields]
  · simp only [Content.step, if_neg hd]
    exact ⟨D, trivial⟩

theorem impulse_step (fn : Nat → ℝ → ℝ → ℝ × ℝ) {c : Content} (D : Drifting c) (dt : ℝ) :
    ((c.walls = [] ∨ ∃ p, c.walls = [.atX p]) → impulseX (c.step fn (.evolve dt)).vs = impulseX c.vs) ∧
    ((c.walls = [] ∨ ∃ p, c.walls = [.atY p]) → impulseY (c.step fn (.evolve dt)).vs = impulseY c.vs) := by
  by_cases hd : 0 < dt
  · rw [drift_step fn D hd]
    constructor
    · intro hw
      unfold impulseX
      rw [List.map_map]
      have e : (c.vs.map ((fun v => circulation v * v.x0) ∘ fun v : Vort =>
          { v with x0 := v.x0 + dt * (induced c.walls c.vs v.x0 v.y0).1, y0 := v.y0 + dt * (induced c.walls c.vs v.x0 v.y0).2 })) =
          c.vs.map fun v => circulation v * v.x0 + dt * (circulation v * (induced c.walls c.vs v.x0 v.y0).1) := by
        apply List.map_congr_left
        intro v _
        simp only [Function.comp, circulation]
        ring
      rw [e, List.sum_map_add, List.sum_map_mul_left]
      have hz : (c.vs.map fun v => circulation v * (induced c.walls c.vs v.x0 v.y0).1).sum = 0 := by
        rcases hw with hw | ⟨p, hw⟩
        · rw [hw]; exact (velocity_none c.vs D.free).1
        · rw [hw]; exact velocity_x p c.vs D.free
      rw [hz]; ring
    · intro hw
      unfold impulseY
      rw [List.map_map]
      have e : (c.vs.map ((fun v => circulation v * v.y0) ∘ fun v : Vort =>
          { v with x0 := v.x0 + dt * (induced c.walls c.vs v.x0 v.y0).1, y0 := v.y0 + dt * (induced c.walls c.vs v.x0 v.y0).2 })) =
          c.vs.map fun v => circulation v * v.y0 + dt * (circulation v * (induced c.walls c.vs v.x0 v.y0).2) := by
        apply List.map_congr_left
        intro v _
        simp only [Function.comp, circulation]
        ring
      rw [e, List.sum_map_add, List.sum_map_mul_left]
      have hz : (c.vs.map fun v => circulation v * (induced c.walls c.vs v.x0 v.y0).2).sum = 0 := by
        rcases hw with hw | ⟨p, hw⟩
        · rw [hw]; exact (velocity_none c.vs D.free).2
        · rw [hw]; exact velocity_y p c.vs D.free
      rw [hz]; ring
  · simp [Content.step, if_neg hd]

theorem impulse_run (fn : Nat → ℝ → ℝ → ℝ × ℝ) (dts : List ℝ) : ∀ {c : Content}, Drifting c →
    ((c.walls = [] ∨ ∃ p, c.walls = [.atX p]) →
      impulseX ((dts.map Op.evolve).foldl (Content.step fn) c).vs = impulseX c.vs) ∧
    ((c.walls = [] ∨ ∃ p, c.walls = [.atY p]) →
      impulseY ((dts.map Op.evolve).foldl (Content.step fn) c).vs = impulseY c.vs) := by
  induction dts with
  | nil => intro c _; exact ⟨fun _ => rfl, fun _ => rfl⟩
  | cons dt dts ih =>
    intro c D
    obtain ⟨D', hw⟩ := drifting_step fn D dt
    obtain ⟨i1, i2⟩ := ih D'
    obtain ⟨s1, s2⟩ := impulse_step fn D dt
    rw [hw] at i1 i2
    rw [List.map_cons, List.foldl_cons]
    exact ⟨fun h => (i1 h).trans (s1 h), fun h => (i2 h).trans (s2 h)⟩

theorem impulse_bare (vs : List Vort) : impulseX (vs.map bare) = impulseX vs ∧ impulseY (vs.map bare) = impulseY vs := by
  constructor
  · unfold impulseX; rw [List.map_map]; rfl
  · unfold impulseY; rw [List.map_map]; rfl

theorem counted_append (fn : Nat → ℝ → ℝ → ℝ × ℝ) (a b : List Op) : ∀ {c : Content}, Counted fn c a →
    Counted fn (a.foldl (Content.step fn) c) b → Counted fn c (a ++ b) := by
  induction a with
  | nil => intro c _ h; exact h
  | cons op a ih => intro c ha hb; exact ⟨ha.1, ih ha.2 hb⟩

theorem counted_evolve (fn : Nat → ℝ → ℝ → ℝ × ℝ) (dts : List ℝ) : ∀ c : Content, Counted fn c (dts.map Op.evolve) := by
  induction dts with
  | nil => intro c; trivial
  | cons dt dts ih => intro c; exact ⟨trivial, ih _⟩

/-- A system of free vortices, all movable, reached by any history, then any number of evolutions: without wall, the sums of
circulation × x and of circulation × y stay what they were; with one wall, the one of the coordinate across the wall does. -/
theorem C147_conserved (h : Heap) (ops : List Op) (hc : Counted h.fn ⟨[], [], []⟩ ops) (dts : List ℝ)
    (D : Drifting (ops.foldl (Content.step h.fn) ⟨[], [], []⟩)) :
    let s := (ops.foldl step (h, Sys.new)).2
    let s' := ((ops ++ dts.map Op.evolve).foldl step (h, Sys.new)).2
    ((s.walls = [] ∨ ∃ p, s.walls = [.atX p]) → impulseX s'.vortex = impulseX s.vortex) ∧
    ((s.walls = [] ∨ ∃ p, s.walls = [.atY p]) → impulseY s'.vortex = impulseY s.vortex) := by
  intro s s'
  have H := holds_run h.fn ops rfl (holds_new h) hc
  have H' := holds_run h.fn (ops ++ dts.map Op.evolve) rfl (holds_new h) (counted_append _ _ _ hc (counted_evolve _ _ _))
  obtain ⟨r1, r2⟩ := impulse_run h.fn dts D
  rw [← List.foldl_append, H.vs, H'.vs, (impulse_bare _).1, (impulse_bare _).1, H.walls] at r1
  rw [← List.foldl_append, H.vs, H'.vs, (impulse_bare _).2, (impulse_bare _).2, H.walls] at r2
  exact ⟨r1, r2⟩

/-- The hypotheses are met by three free vortices near a wall. -/
example (h : Heap) :
    let ops : List Op := [.addWall (.atX 0), .addVortex (mkFree 1 2 (-3) true), .addVortex (mkFree 2 0 1 true),
      .addVortex (mkFree 5 2 4 true), .evolve 1, .remove 1]
    Counted h.fn ⟨[], [], []⟩ ops ∧ Drifting (ops.foldl (Content.step h.fn) ⟨[], [], []⟩) := by
  refine ⟨?_, ?_⟩
  · refine ⟨trivial, trivial, trivial, trivial, trivial, ?_, trivial⟩
    show -(_ : Int) ≤ 1
    omega
  · have D : Drifting ⟨[bare (mkFree 1 2 (-3) true), bare (mkFree 2 0 1 true), bare (mkFree 5 2 4 true)], [.atX 0], []⟩ := by
      refine ⟨?_, ?_, rfl⟩
      · intro v hv
        simp only [List.mem_cons, List.not_mem_nil, or_false] at hv
        rcases hv with rfl | rfl | rfl <;> exact ⟨_, rfl⟩
      · intro v hv
        simp only [List.mem_cons, List.not_mem_nil, or_false] at hv
        rcases hv with rfl | rfl | rfl <;> rfl
    have D' := (drifting_step h.fn D 1).1
    refine ⟨fun v hv => D'.free v ?_, fun v hv => D'.movable v ?_, D'.fields⟩
    · exact List.mem_of_mem_eraseIdx hv
    · exact List.mem_of_mem_eraseIdx hv

/-- A free vortex alone before a wall goes along it, at the speed of its image: `circulation / (4π · distance)`. -/
theorem C147_along_wall (h : Heap) (a b g p dt : ℝ) (n : Nat) (hd : 0 < dt) :
    ∃ s' v, ((((Sys.new.addVortex (mkFree a b g true)).addWall (.atX p)).run h dt n) = .ok s') ∧ s'.vortex = [v] ∧
      v.x0 = a ∧ v.y0 = b - n * (dt * (g / (4 * π * (a - p)))) := by
  have step1 : ∀ (s : Sys) (y : ℝ) (c : Content), Holds h s c → s.vortex = [(mkFree a y g true)] → s.walls = [.atX p] →
      s.cfs = [] → ∃ s' c', s.evolution h dt = .ok s' ∧ Holds h s' c' ∧
        s'.vortex = [(mkFree a (y - dt * (g / (4 * π * (a - p)))) g true)] ∧ s'.walls = [.atX p] ∧ s'.cfs = [] := by
    intro s y c H hv hw hf
    have hs := (holds_step H (.evolve dt) trivial).1
    have e : s.evolution h dt = .ok (Sys.refreshed { s with vortex := s.vortex.map (moved h s dt) }) := by
      unfold Sys.evolution; rw [if_neg (not_le.mpr hd)]
    simp only [step, e] at hs
    refine ⟨_, _, e, hs, ?_, hw, hf⟩
    show s.vortex.map (moved h s dt) = _
    rw [hv, List.map_singleton]
    have hm : (mkFree a y g true).movable = true := rfl
    unfold moved
    rw [if_pos hm, vector_all H]
    have hvel : c.velocity a y = (0, -(g / (4 * π * (a - p)))) := by
      unfold Content.velocity
      rw [H.vs, H.walls, H.fields, hv, hw, hf, induced_one]
      simp only [List.map_cons, List.map_nil, List.sum_cons, List.sum_nil, add_zero]
      have hfree : IsFree (bare (mkFree a y g true)) := ⟨|g|, rfl⟩
      have hcirc : circulation (bare (mkFree a y g true)) = g := sign_mul_abs g
      rw [free_vector hfree, free_vector (mirror_free _ hfree).1, (mirror_free _ hfree).2, hcirc]
      have hx : (bare (mkFree a y g true)).x0 = a := rfl
      have hy : (bare (mkFree a y g true)).y0 = y := rfl
      simp only [mirror, Wall.symmetry, hx, hy]
      have e4 : a - (p + (p - a)) = 2 * (a - p) := by ring
      rw [e4]
      by_cases h0 : a - p = 0
      · simp [h0]
      · have hpi := Real.pi_ne_zero
        ext
        · simp
        · simp only [Prod.snd_add, sub_self]
          field_simp
          ring
    show [_] = [_]
    have hx : (mkFree a y g true).x0 = a := rfl
    have hy : (mkFree a y g true).y0 = y := rfl
    simp only [hx, hy, hvel]
    simp only [mkFree, mul_zero, add_zero, mul_neg, ← sub_eq_add_neg]
  have loop : ∀ (n : Nat) (s : Sys) (y : ℝ) (c : Content), Holds h s c → s.vortex = [(mkFree a y g true)] →
      s.walls = [.atX p] → s.cfs = [] → ∃ s', s.run h dt n = .ok s' ∧
        s'.vortex = [(mkFree a (y - n * (dt * (g / (4 * π * (a - p))))) g true)] := by
    intro n
    induction n with
    | zero => intro s y c _ hv _ _; exact ⟨s, rfl, by simpa using hv⟩
    | succ n ih =>
      intro s y c H hv hw hf
      obtain ⟨s', c', e, H', hv', hw', hf'⟩ := step1 s y c H hv hw hf
      obtain ⟨s2, r, hr⟩ := ih s' _ c' H' hv' hw' hf'
      refine ⟨s2, by rw [Sys.run, e]; exact r, ?_⟩
      rw [hr]
      congr 2
      push_cast
      ring
  have H0 : Holds h ((Sys.new.addVortex (mkFree a b g true)).addWall (.atX p)) _ :=
    (holds_step (holds_step (holds_new h) (.addVortex (mkFree a b g true)) trivial).1 (.addWall (.atX p)) trivial).1
  obtain ⟨s', r, hr⟩ := loop n _ b _ H0 rfl rfl rfl
  exact ⟨s', _, r, hr, rfl, rfl⟩

/-- Two equal free vortices should turn around each other at a constant distance: each evolution takes them further apart. -/
theorem C147_pair_violated (h : Heap) (a g dt : ℝ) (ha : a ≠ 0) (hg : g ≠ 0) (hd : 0 < dt) :
    ∃ s' v1 v2, ((Sys.new.addVortex (mkFree a 0 g true)).addVortex (mkFree (-a) 0 g true)).evolution h dt = .ok s' ∧
      s'.vortex = [v1, v2] ∧ (2 * a) ^ 2 < (v1.x0 - v2.x0) ^ 2 + (v1.y0 - v2.y0) ^ 2 := by
  set s := (Sys.new.addVortex (mkFree a 0 g true)).addVortex (mkFree (-a) 0 g true) with hs
  have H : Holds h s _ :=
    (holds_step (holds_step (holds_new h) (.addVortex (mkFree a 0 g true)) trivial).1 (.addVortex (mkFree (-a) 0 g true)) trivial).1
  have e : s.evolution h dt = .ok (Sys.refreshed { s with vortex := s.vortex.map (moved h s dt) }) := by
    unfold Sys.evolution; rw [if_neg (not_le.mpr hd)]
  refine ⟨_, _, _, e, rfl, ?_⟩
  have hpi := Real.pi_ne_zero
  have vel : ∀ x, (s.vector h x 0 .all .all).2 = (mkFree a 0 g true).vector x 0 + (mkFree (-a) 0 g true).vector x 0 := by
    intro x
    rw [vector_all H]
    unfold Content.velocity
    rw [H.vs, H.walls, H.fields]
    have hw : s.walls = [] := rfl
    have hf : s.cfs = [] := rfl
    rw [hw, hf, induced_none]
    have hv : (s.vortex.map bare).map (fun v => v.vector x 0) = [(mkFree a 0 g true).vector x 0, (mkFree (-a) 0 g true).vector x 0] := rfl
    rw [hv]
    simp
  have c1 := circulation_mkFree a 0 g true
  have c2 := circulation_mkFree (-a) 0 g true
  have v1 : (s.vector h a 0 .all .all).2 = (0, g / (4 * π * a)) := by
    rw [vel, free_vector c1.1, free_vector c2.1, c1.2, c2.2]
    have hx : (mkFree a 0 g true).x0 = a := rfl
    have hx2 : (mkFree (-a) 0 g true).x0 = -a := rfl
    have hy : (mkFree a 0 g true).y0 = 0 := rfl
    have hy2 : (mkFree (-a) 0 g true).y0 = 0 := rfl
    rw [hx, hx2, hy, hy2]
    ext
    · simp
    · simp only [Prod.snd_add]
      have : a - -a = 2 * a := by ring
      rw [this]
      simp
      field_simp
      ring
  have v2 : (s.vector h (-a) 0 .all .all).2 = (0, -(g / (4 * π * a))) := by
    rw [vel, free_vector c1.1, free_vector c2.1, c1.2, c2.2]
    have hx : (mkFree a 0 g true).x0 = a := rfl
    have hx2 : (mkFree (-a) 0 g true).x0 = -a := rfl
    have hy : (mkFree a 0 g true).y0 = 0 := rfl
    have hy2 : (mkFree (-a) 0 g true).y0 = 0 := rfl
    rw [hx, hx2, hy, hy2]
    ext
    · simp
    · simp only [Prod.snd_add]
      have : -a - a = -(2 * a) := by ring
      rw [this]
      simp
      field_simp
      ring
  show (2 * a) ^ 2 < ((moved h s dt (mkFree a 0 g true)).x0 - (moved h s dt { mkFree (-a) 0 g true with id := 1 }).x0) ^ 2 +
    ((moved h s dt (mkFree a 0 g true)).y0 - (moved h s dt { mkFree (-a) 0 g true with id := 1 }).y0) ^ 2
  simp only [moved, mkFree, if_true, v1, v2]
  have hk : 0 < (dt * (g / (4 * π * a))) ^ 2 := by positivity
  nlinarith [hk]

end IMT.Vortex
