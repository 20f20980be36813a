import Verif.Panel.Wall
import Mathlib.Tactic.FinCases

/-!
C156: the velocities asked of a system are those of its present objects.
-/

namespace IMT.Panel

open Classical

/-! ### specification -/

/-- What `np.linalg.solve` returns solves the system. -/
def LinOk (lin : Solver) : Prop := ∀ n A b x, lin n A b = some x → ∀ i, ∑ j, A i j * x j = b i

/-- What may happen to a system. -/
inductive Op where
  | add (dim : Nat) (wall : Bool) (coords : List (ℝ × ℝ)) (res : Nat)
  | solve
  | ask (x y : ℝ)

/-- The system after an operation; one that raises leaves it as it was. -/
noncomputable def step (lin : Solver) (s : Sys) : Op → Sys
  | .add dim wall coords res => match s.add dim wall coords res with | .ok s' => s' | .error _ => s
  | .solve => match s.solve lin with | .ok s' => s' | .error _ => s
  | .ask x y => match s.ask lin x y with | .ok r => r.1 | .error _ => s

/-- The system after a history. -/
noncomputable def run (lin : Solver) (s : Sys) (ops : List Op) : Sys := ops.foldl (step lin) s

/-- The shapes of the panels of a system. -/
def Sys.shapes (s : Sys) : List Seg := s.panels.map (·.seg)

/-! ### solving -/

/-- A value given to a panel. -/
def upd (p : Src) (v : ℝ × ℝ) : Src := ⟨p.seg, v.1, v.2⟩

theorem giveObj_eq : ∀ (ps : List Src) (vals : List (ℝ × ℝ)), ps.length ≤ vals.length →
    giveObj vals ps = (List.zipWith upd ps vals, vals.drop ps.length)
  | [], vals, _ => by simp [giveObj]
  | p :: ps, [], h => by simp at h
  | p :: ps, v :: vals, h => by
    rw [giveObj]
    have := giveObj_eq ps vals (by simpa using h)
    simp only [this]
    simp [upd]

theorem zipWith_split {ps qs : List Src} {vals : List (ℝ × ℝ)} (h : ps.length ≤ vals.length) :
    List.zipWith upd (ps ++ qs) vals = List.zipWith upd ps vals ++ List.zipWith upd qs (vals.drop ps.length) := by
  induction ps generalizing vals with
  | nil => simp
  | cons p ps ih =>
    cases vals with
    | nil => simp at h
    | cons v vals =>
      simp only [List.cons_append, List.zipWith_cons_cons, List.length_cons, List.drop_succ_cons]
      rw [ih (by simpa using h)]

theorem give_eq : ∀ (os : List Obj) (vals : List (ℝ × ℝ)), (wallPanels os).length ≤ vals.length →
    wallPanels (give vals os).1 = List.zipWith upd (wallPanels os) vals ∧ (give vals os).2 = vals.drop (wallPanels os).length
  | [], vals, _ => by simp [give, wallPanels]
  | o :: os, vals, h => by
    rw [give]
    by_cases hw : o.wall
    · rw [if_pos hw]
      have e : wallPanels (o :: os) = o.panels ++ wallPanels os := by
        unfold wallPanels
        rw [List.filter_cons, if_pos (by simpa using hw), List.flatMap_cons]
      rw [e, List.length_append] at h
      have h1 : o.panels.length ≤ vals.length := by omega
      rw [giveObj_eq _ _ h1]
      obtain ⟨i1, i2⟩ := give_eq os (vals.drop o.panels.length) (by rw [List.length_drop]; omega)
      have e2 : ∀ o' : Obj, o'.wall = true → ∀ l, wallPanels (o' :: l) = o'.panels ++ wallPanels l := by
        intro o' h' l
        unfold wallPanels
        rw [List.filter_cons, if_pos (by simpa using h'), List.flatMap_cons]
      simp only
      refine ⟨?_, ?_⟩
      · rw [e2 _ (by simpa using hw), i1, e, zipWith_split h1]
      · rw [i2, e, List.drop_drop, List.length_append]
    · rw [if_neg hw]
      have e2 : ∀ l, wallPanels (o :: l) = wallPanels l := by
        intro l
        unfold wallPanels
        rw [List.filter_cons, if_neg (by simpa using hw)]
      rw [e2] at h
      obtain ⟨i1, i2⟩ := give_eq os vals h
      simp only
      rw [e2, e2]
      exact ⟨i1, i2⟩

theorem zipWith_ofFn (l : List Src) (f : Fin l.length → ℝ × ℝ) : List.zipWith upd l (List.ofFn f) = List.ofFn fun i => upd l[i] (f i) := by
  apply List.ext_getElem
  · simp
  · intro i h1 h2
    simp

theorem solved_of (u alpha : ℝ) (l l' : List Src) (hlen : l'.length = l.length) (σ : Fin l.length → ℝ)
    (hp : ∀ i : Fin l'.length, l'[i] = upd l[Fin.cast hlen i] (σ (Fin.cast hlen i), tang u alpha l σ (Fin.cast hlen i)))
    (h : ∀ i, ∑ j, matA l i j * σ j = rhs u alpha l i) : Solved u alpha l' := by
  have hre : ∀ f : Fin l.length → ℝ, ∑ j : Fin l'.length, f (Fin.cast hlen j) = ∑ j, f j := fun f => Equiv.sum_comp (finCongr hlen) f
  have hij : ∀ i j : Fin l'.length, (Fin.cast hlen i = Fin.cast hlen j) ↔ i = j := fun i j => by simp [Fin.ext_iff]
  constructor
  · intro i
    rw [show rhs u alpha l' i = rhs u alpha l (Fin.cast hlen i) by unfold rhs; rw [hp i]; rfl, ← h, ← hre]
    apply Finset.sum_congr rfl
    intro j _
    unfold matA
    rw [hp i, hp j]
    simp only [hij]
    rfl
  · intro i
    unfold tang
    rw [hp i]
    show tang u alpha l σ (Fin.cast hlen i) = _
    unfold tang
    rw [← hre]
    congr 1
    apply Finset.sum_congr rfl
    intro j _
    unfold matT
    simp only [hij, hp]
    rfl

theorem solved_ofFn (u alpha : ℝ) (l : List Src) (σ : Fin l.length → ℝ) (h : ∀ i, ∑ j, matA l i j * σ j = rhs u alpha l i) :
    Solved u alpha (List.ofFn fun i => upd l[i] (σ i, tang u alpha l σ i)) :=
  solved_of u alpha l _ (by simp) σ (by intro i; simp; rfl) h

theorem panels_solve {lin : Solver} {s s' : Sys} (h : s.solve lin = .ok s') :
    ∃ σ, lin s.panels.length (matA s.panels) (rhs s.uinf s.alpha s.panels) = some σ ∧
      s'.panels = (List.ofFn fun i => upd s.panels[i] (σ i, tang s.uinf s.alpha s.panels σ i)) ∧
      s'.uinf = s.uinf ∧ s'.alpha = s.alpha ∧ s'.toRefresh = false := by
  unfold Sys.solve at h
  simp only at h
  split at h
  · simp at h
  · rename_i σ hσ
    injection h with h
    refine ⟨σ, hσ, ?_, by rw [← h], by rw [← h], by rw [← h]⟩
    have hl : s.panels.length = (wallPanels s.o1).length + (wallPanels s.o2).length := by unfold Sys.panels; simp
    set vals := List.ofFn fun i => (σ i, tang s.uinf s.alpha s.panels σ i) with hvals
    have hv : vals.length = s.panels.length := by rw [hvals]; simp
    obtain ⟨g1, g2⟩ := give_eq s.o1 vals (by omega)
    obtain ⟨g3, _⟩ := give_eq s.o2 (give vals s.o1).2 (by rw [g2, List.length_drop]; omega)
    rw [← zipWith_ofFn]
    have : s'.panels = wallPanels (give vals s.o1).1 ++ wallPanels (give (give vals s.o1).2 s.o2).1 := by rw [← h]; rfl
    rw [this, g1, g3, g2, ← zipWith_split (by omega)]
    rfl

/-- Solving a system makes it solved, and keeps the shapes. -/
theorem C156_solve (lin : Solver) (hlin : LinOk lin) (s s' : Sys) (h : s.solve lin = .ok s') :
    Solved s'.uinf s'.alpha s'.panels ∧ s'.shapes = s.shapes ∧ s'.uinf = s.uinf ∧ s'.alpha = s.alpha := by
  obtain ⟨σ, hσ, hp, hu, ha, _⟩ := panels_solve h
  refine ⟨?_, ?_, hu, ha⟩
  · rw [hp, hu, ha]
    exact solved_ofFn _ _ _ _ (hlin _ _ _ _ hσ)
  · unfold Sys.shapes
    rw [hp]
    apply List.ext_getElem
    · simp
    · intro i h1 h2
      simp [upd]

/-! ### histories -/

/-- Either the system will be solved at the next question, or it is. -/
def Ready (s : Sys) : Prop := s.toRefresh = false → Solved s.uinf s.alpha s.panels

theorem solved_nil (u a : ℝ) : Solved u a [] := ⟨fun i => i.elim0, fun i => i.elim0⟩

theorem ready_step {lin : Solver} (hlin : LinOk lin) {s : Sys} (h : Ready s) (op : Op) : Ready (step lin s op) := by
  cases op with
  | add dim wall coords res =>
    simp only [step]
    cases hc : s.add dim wall coords res with
    | error e => exact h
    | ok s' =>
      intro hr
      exfalso
      unfold Sys.add at hc
      split at hc
      · simp at hc
      · split at hc
        · simp at hc
        · injection hc with hc; rw [← hc] at hr; simp at hr
      · split at hc
        · simp at hc
        · injection hc with hc; rw [← hc] at hr; simp at hr
      · simp at hc
  | solve =>
    simp only [step]
    cases hc : s.solve lin with
    | error e => exact h
    | ok s' => exact fun _ => (C156_solve lin hlin s s' hc).1
  | ask x y =>
    simp only [step, Sys.ask]
    by_cases hr : s.toRefresh
    · rw [if_pos hr]
      cases hc : s.solve lin with
      | error e => exact h
      | ok s' => exact fun _ => (C156_solve lin hlin s s' hc).1
    · rw [if_neg hr]
      exact h

/-- Whatever was added, solved and asked before (also what was refused), the velocity asked now is the one of sources that solve the
problem for the panels now present, and asking changes neither them nor the free stream. -/
theorem C156_asked (lin : Solver) (hlin : LinOk lin) (u a : ℝ) (ops : List Op) (x y : ℝ) (s' : Sys) (v : ℝ × ℝ)
    (h : (run lin (Sys.new u a) ops).ask lin x y = .ok (s', v)) :
    Solved u a s'.panels ∧ s'.shapes = (run lin (Sys.new u a) ops).shapes ∧ v = velocity u a s'.panels x y := by
  have key : ∀ (ops : List Op) (s : Sys), s.uinf = u → s.alpha = a → Ready s →
      Ready (run lin s ops) ∧ (run lin s ops).uinf = u ∧ (run lin s ops).alpha = a := by
    intro ops
    induction ops with
    | nil => intro s h1 h2 h3; exact ⟨h3, h1, h2⟩
    | cons op ops ih =>
      intro s h1 h2 h3
      have hk : (step lin s op).uinf = s.uinf ∧ (step lin s op).alpha = s.alpha := by
        cases op with
        | add dim wall coords res =>
          simp only [step]
          cases hc : s.add dim wall coords res with
          | error e => exact ⟨rfl, rfl⟩
          | ok s' =>
            unfold Sys.add at hc
            split at hc
            · simp at hc
            · split at hc
              · simp at hc
              · injection hc with hc; rw [← hc]; exact ⟨rfl, rfl⟩
            · split at hc
              · simp at hc
              · injection hc with hc; rw [← hc]; exact ⟨rfl, rfl⟩
            · simp at hc
        | solve =>
          simp only [step]
          cases hc : s.solve lin with
          | error e => exact ⟨rfl, rfl⟩
          | ok s' => exact (C156_solve lin hlin s s' hc).2.2
        | ask x y =>
          simp only [step, Sys.ask]
          by_cases hr : s.toRefresh
          · rw [if_pos hr]
            cases hc : s.solve lin with
            | error e => exact ⟨rfl, rfl⟩
            | ok s' => exact (C156_solve lin hlin s s' hc).2.2
          · rw [if_neg hr]
            exact ⟨rfl, rfl⟩
      exact ih (step lin s op) (hk.1.trans h1) (hk.2.trans h2) (ready_step hlin h3 op)
  obtain ⟨hready, hu, ha⟩ := key ops (Sys.new u a) rfl rfl (fun _ => solved_nil u a)
  unfold Sys.ask at h
  by_cases hr : (run lin (Sys.new u a) ops).toRefresh
  · rw [if_pos hr] at h
    split at h
    · simp at h
    · rename_i s1 hs
      injection h with h
      injection h with h1 h2
      subst h1
      obtain ⟨k1, k2, k3, k4⟩ := C156_solve lin hlin _ _ hs
      rw [k3, k4, hu, ha] at h2 k1
      exact ⟨k1, k2, h2.symm⟩
  · rw [if_neg hr] at h
    injection h with h
    injection h with h1 h2
    subst h1
    rw [hu, ha] at h2
    have := hready (by simpa using hr)
    rw [hu, ha] at this
    exact ⟨this, rfl, h2.symm⟩

theorem mkPanels_sigma : ∀ (es : List ((ℝ × ℝ) × (ℝ × ℝ))) (ps : List Src), mkPanels es = .ok ps → ∀ p ∈ ps, p.sigma = 0
  | [], ps, h => by rw [mkPanels] at h; injection h with h; rw [← h]; simp
  | e :: es, ps, h => by
    rw [mkPanels] at h
    split at h
    · rename_i p qs h1 h2
      injection h with h
      rw [← h]
      intro q hq
      rcases List.mem_cons.mp hq with rfl | hq
      · unfold mkPanel at h1
        split at h1
        · simp at h1
        · injection h1 with h1; rw [← h1]
      · exact mkPanels_sigma es qs h2 q hq
    · simp at h
    · simp at h

/-- Turning the normals of the solid of a system that was solved makes it vanish: the sources are gone, and are not computed again,
so that the velocity next to the solid is the free stream. -/
theorem C156_inverse_violated (lin : Solver) (s : Sys) (o o' : Obj) (h1 : s.o1 = []) (h2 : s.o2 = [o]) (hr : s.toRefresh = false)
    (ho : o.inverse = .ok o') (x y : ℝ) (hoff : ∀ p ∈ o'.panels, ¬ p.seg.onPanel x y) (hu : |s.uinf| ≤ 10 ^ 30) :
    ({ s with o2 := [o'] } : Sys).ask lin x y = .ok ({ s with o2 := [o'] }, (s.uinf * Real.cos s.alpha, s.uinf * Real.sin s.alpha)) := by
  have hp : ∀ p ∈ o'.panels, p.sigma = 0 := by
    unfold Obj.inverse at ho
    split at ho
    · simp at ho
    · rename_i ps hps
      injection ho with ho
      rw [← ho]
      exact mkPanels_sigma _ _ hps
  have hpan : ∀ p ∈ ({ s with o2 := [o'] } : Sys).panels, p ∈ o'.panels := by
    intro p hp
    unfold Sys.panels wallPanels at hp
    simp only [h1, List.filter_nil, List.flatMap_nil, List.nil_append] at hp
    obtain ⟨q, hq, hpq⟩ := List.mem_flatMap.mp hp
    have := List.mem_singleton.mp (List.mem_filter.mp hq).1
    rw [this] at hpq
    exact hpq
  have hz : ∀ dx dy : ℝ, (({ s with o2 := [o'] } : Sys).panels.map fun p => p.sigma * integral x y p.seg dx dy).sum = 0 := by
    intro dx dy
    apply List.sum_eq_zero
    intro r hr
    obtain ⟨p, hp', rfl⟩ := List.mem_map.mp hr
    rw [hp p (hpan p hp'), zero_mul]
  have hflow : flow s.uinf s.alpha ({ s with o2 := [o'] } : Sys).panels x y = (s.uinf * Real.cos s.alpha, s.uinf * Real.sin s.alpha) := by
    unfold flow
    rw [hz, hz, mul_zero, add_zero, add_zero]
  unfold Sys.ask
  simp only
  rw [if_neg (by simp [hr]), velocity_off]
  · rw [hflow]
  · intro p hp'; exact hoff p (hpan p hp')
  · rw [hflow, abs_mul]
    calc _ ≤ |s.uinf| * 1 := mul_le_mul_of_nonneg_left (Real.abs_cos_le_one _) (abs_nonneg _)
      _ ≤ _ := by rw [mul_one]; exact hu
  · rw [hflow, abs_mul]
    calc _ ≤ |s.uinf| * 1 := mul_le_mul_of_nonneg_left (Real.abs_sin_le_one _) (abs_nonneg _)
      _ ≤ _ := by rw [mul_one]; exact hu

/-- Changing the free stream of a system that was solved leaves sources that do not solve the problem any more, as soon as one panel
is not along the stream. -/
theorem C156_stream_violated (s : Sys) (S : Solved s.uinf s.alpha s.panels) (u : ℝ) (hu : u ≠ s.uinf) (i : Fin s.panels.length)
    (hi : Real.cos (s.alpha - s.panels[i].seg.beta) ≠ 0) : ¬ Solved u s.alpha ({ s with uinf := u } : Sys).panels := by
  intro S'
  have h1 := S.across i
  have h2 : ∑ j, matA s.panels i j * s.panels[j].sigma = rhs u s.alpha s.panels i := S'.across i
  rw [h1] at h2
  unfold rhs at h2
  have := mul_right_cancel₀ hi h2
  exact hu (by linarith)

/-- A solver that finds a solution whenever there is one. -/
noncomputable def anySolver : Solver := fun n A b => if h : ∃ x : Fin n → ℝ, ∀ i, ∑ j, A i j * x j = b i then some h.choose else none

theorem anySolver_ok : LinOk anySolver := by
  intro n A b x hx
  unfold anySolver at hx
  split at hx
  · rename_i h
    injection hx with hx
    rw [← hx]
    exact h.choose_spec
  · simp at hx

/-- A plate is added, as a solid with two sides: the question is answered. -/
example : ∃ r, (run anySolver (Sys.new 1 0) [.add 2 true [(0, 0), (1, 0)] 1]).ask anySolver 2 1 = .ok r := by
  have hl1 : edgeLen ((0, 0), (1, 0)) = 1 := by unfold edgeLen; norm_num
  have hl2 : edgeLen ((1, 0), (0, 0)) = 1 := by unfold edgeLen; norm_num
  have hrd : roundEven 1 = 1 := by unfold roundEven; norm_num
  have hobj : mkObj2 true [(0, 0), (1, 0)] 1 = .ok ⟨true, [(0, 0), (1, 0), (0, 0)], [⟨⟨0, 0, 1, 0⟩, 0, 0⟩, ⟨⟨1, 0, 0, 0⟩, 0, 0⟩]⟩ := by
    have hclose : close [(0, 0), (1, 0)] = [(0, 0), (1, 0), (0, 0)] := by unfold close; norm_num
    have href : refine 1 [(0, 0), (1, 0), (0, 0)] = .ok [(0, 0), (1, 0), (0, 0)] := by
      unfold refine
      have hp : pairs [((0 : ℝ), (0 : ℝ)), (1, 0), (0, 0)] = [((0, 0), (1, 0)), ((1, 0), (0, 0))] := rfl
      rw [hp]
      have hm : ([((0, 0), (1, 0)), ((1, 0), (0, 0))].map edgeLen).min? = some 1 := by
        simp [hl1, hl2, List.min?]
      rw [hm]
      simp only [List.head?_cons]
      rw [if_neg (by norm_num)]
      simp [cutEdge, hl1, hl2, hrd]
    unfold mkObj2
    rw [if_neg (by simp), hclose, href]
    have hpan : mkPanels (pairs [((0 : ℝ), (0 : ℝ)), (1, 0), (0, 0)]) = .ok [⟨⟨0, 0, 1, 0⟩, 0, 0⟩, ⟨⟨1, 0, 0, 0⟩, 0, 0⟩] := by
      have hp : pairs [((0 : ℝ), (0 : ℝ)), (1, 0), (0, 0)] = [((0, 0), (1, 0)), ((1, 0), (0, 0))] := rfl
      rw [hp]
      simp [mkPanels, mkPanel]
    simp only [hpan]
  have hadd : run anySolver (Sys.new 1 0) [.add 2 true [(0, 0), (1, 0)] 1] =
      ⟨1, 0, [], [⟨true, [(0, 0), (1, 0), (0, 0)], [⟨⟨0, 0, 1, 0⟩, 0, 0⟩, ⟨⟨1, 0, 0, 0⟩, 0, 0⟩]⟩], true⟩ := by
    simp [run, step, Sys.add, hobj, Sys.new]
  rw [hadd]
  have hb1 : Real.cos (⟨0, 0, 1, 0⟩ : Seg).beta = 0 := by
    have := (normal (p := ⟨0, 0, 1, 0⟩) (Or.inl (by norm_num))).1
    rw [show Real.cos (⟨0, 0, 1, 0⟩ : Seg).beta = _ from this]
    simp
  have hb2 : Real.cos (⟨1, 0, 0, 0⟩ : Seg).beta = 0 := by
    have := (normal (p := ⟨1, 0, 0, 0⟩) (Or.inl (by norm_num))).1
    rw [show Real.cos (⟨1, 0, 0, 0⟩ : Seg).beta = _ from this]
    simp
  set s : Sys := ⟨1, 0, [], [⟨true, [(0, 0), (1, 0), (0, 0)], [⟨⟨0, 0, 1, 0⟩, 0, 0⟩, ⟨⟨1, 0, 0, 0⟩, 0, 0⟩]⟩], true⟩ with hs
  have hp : s.panels = [⟨⟨0, 0, 1, 0⟩, 0, 0⟩, ⟨⟨1, 0, 0, 0⟩, 0, 0⟩] := by
    simp [hs, Sys.panels, wallPanels]
  have hx : ∃ x : Fin s.panels.length → ℝ, ∀ i, ∑ j, matA s.panels i j * x j = rhs s.uinf s.alpha s.panels i := by
    rw [hp]
    refine ⟨fun _ => 0, ?_⟩
    intro i
    simp only [mul_zero, Finset.sum_const_zero]
    have : ∀ i : Fin 2, (0 : ℝ) = rhs s.uinf s.alpha [⟨⟨0, 0, 1, 0⟩, 0, 0⟩, ⟨⟨1, 0, 0, 0⟩, 0, 0⟩] i := by
      intro i
      unfold rhs
      fin_cases i
      · show (0 : ℝ) = -1 * Real.cos (0 - (⟨0, 0, 1, 0⟩ : Seg).beta)
        rw [zero_sub, Real.cos_neg, hb1]; simp
      · show (0 : ℝ) = -1 * Real.cos (0 - (⟨1, 0, 0, 0⟩ : Seg).beta)
        rw [zero_sub, Real.cos_neg, hb2]; simp
    exact this i
  have hsolve : ∃ s', s.solve anySolver = .ok s' := by
    unfold Sys.solve anySolver
    simp only
    rw [dif_pos hx]
    exact ⟨_, rfl⟩
  obtain ⟨s', hs'⟩ := hsolve
  unfold Sys.ask
  rw [if_pos (by simp [hs]), hs']
  exact ⟨_, rfl⟩

end IMT.Panel
