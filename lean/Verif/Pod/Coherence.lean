import Verif.Pod.CoherenceModel
import Mathlib.Tactic.Ring
import Mathlib.Tactic.Linarith
import Mathlib.Tactic.FieldSimp
import Mathlib.Algebra.BigOperators.Ring.List
import Mathlib.Algebra.Order.Field.Rat

/-!
C326, C327: the coherence of modes along any history of the object, and what asking for it does to the modes.
-/

namespace IMT.Coherence

variable {E : Type}

/-! ### Removing the mean twice -/

theorem sum_sub_const (l : List Rat) (c : Rat) : (l.map fun v => v - c).sum = l.sum - l.length * c := by
  induction l with
  | nil => simp
  | cons a l ih => simp only [List.map_cons, List.sum_cons, ih, List.length_cons]; push_cast; ring

theorem mean_some (l : List Rat) : mean (l.map some) = some (l.sum / l.length) := by
  unfold mean
  rw [if_pos (by simp)]
  simp [List.map_map, Function.comp_def]

theorem center_some (l : List Rat) : center (l.map some) = (l.map fun v => v - l.sum / l.length).map some := by
  unfold center
  rw [mean_some]
  simp [List.map_map, Function.comp_def, subF]

theorem center_none (l : List F) (h : none ∈ l) : center l = l.map fun _ => none := by
  unfold center
  have : mean l = none := by
    unfold mean
    rw [if_neg]
    intro c
    have := List.all_eq_true.mp c none h
    simp at this
  rw [this]
  refine List.map_congr_left fun v _ => ?_
  cases v <;> rfl

theorem all_some_or (l : List F) : none ∈ l ∨ ∃ r : List Rat, l = r.map some := by
  induction l with
  | nil => exact Or.inr ⟨[], rfl⟩
  | cons a l ih =>
    cases a with
    | none => left; simp
    | some v =>
      rcases ih with h | ⟨r, rfl⟩
      · left; simp [h]
      · exact Or.inr ⟨v :: r, rfl⟩

theorem center_center (l : List F) : center (center l) = center l := by
  rcases all_some_or l with h | ⟨r, rfl⟩
  · rw [center_none l h, center_none]
    · simp
    · exact List.mem_map.mpr ⟨none, h, rfl⟩
  · rw [center_some, center_some]
    congr 1
    rw [List.map_map]
    refine List.map_congr_left fun v hv => ?_
    simp only [Function.comp]
    have hl : (r.length : Rat) ≠ 0 := by
      have := List.length_pos_of_mem hv
      exact_mod_cast this.ne'
    rw [sum_sub_const]
    simp only [List.length_map]
    have : r.sum - (r.length : Rat) * (r.sum / r.length) = 0 := by field_simp; ring
    rw [this]
    simp

theorem centerMode_twice (l : List Mode) : (l.map centerMode).map centerMode = l.map centerMode := by
  rw [List.map_map]
  refine List.map_congr_left fun m _ => ?_
  simp only [Function.comp, centerMode, List.map_map]
  exact List.map_congr_left fun c _ => center_center c

/-! ### C326: the answer is that of the present object -/

/-- The calls that change the temporal evolutions without forgetting the answer: smoothing, and scaling by anything that changes
the coherence. -/
def SafeT (tempOf : List E → List Rat) : Op E → Prop
  | .smoothT _ => False
  | .scale f => ∀ l, tempOf (l.map f) = tempOf l
  | _ => True

/-- The calls that change the modes without forgetting the answer. -/
def SafeS : Op E → Prop
  | .smoothS _ => False
  | .cropS _ => False
  | _ => True

def FreshT (tempOf : List E → List Rat) (s : MS E) : Prop := ∀ a, s.temp = some a → a = tempOf s.evos

def FreshS (spatOf : Nat → List Mode → List Rat) (s : MS E) : Prop :=
  ∀ a, s.spat = some a → ∃ d, a = spatOf d (s.modes.map centerMode)

theorem freshT_step (tempOf : List E → List Rat) (spatOf : Nat → List Mode → List Rat) (s : MS E) (o : Op E)
    (ho : SafeT tempOf o) (h : FreshT tempOf s) : FreshT tempOf (step tempOf spatOf s o) := by
  intro a ha
  cases o with
  | temporal =>
    simp only [step, temporal] at ha ⊢
    split at ha
    · exact h a ha
    · simpa using ha.symm
  | spatial d =>
    simp only [step, spatial] at ha ⊢
    split at ha
    · exact h a ha
    · exact h a ha
  | smoothT f => exact absurd ho (by simp [SafeT])
  | smoothS f => exact h a ha
  | augment f => simp [step, augment] at ha
  | cropT f => simp [step, cropT] at ha
  | cropS g => exact h a ha
  | scale f =>
    simp only [step, scale] at ha ⊢
    rw [ho s.evos]
    exact h a ha
  | keep ks => simp [step, keep] at ha

theorem freshS_step (tempOf : List E → List Rat) (spatOf : Nat → List Mode → List Rat) (s : MS E) (o : Op E)
    (ho : SafeS o) (h : FreshS spatOf s) : FreshS spatOf (step tempOf spatOf s o) := by
  intro a ha
  cases o with
  | temporal =>
    simp only [step, temporal] at ha ⊢
    split at ha
    · exact h a ha
    · exact h a ha
  | spatial d =>
    simp only [step, spatial] at ha ⊢
    split at ha
    · exact h a ha
    · refine ⟨d, ?_⟩
      simp only [centerMode_twice]
      simpa using ha.symm
  | smoothT f => exact h a ha
  | smoothS f => exact absurd ho (by simp [SafeS])
  | augment f => simp [step, augment] at ha
  | cropT f => exact h a ha
  | cropS g => exact absurd ho (by simp [SafeS])
  | scale f => exact h a ha
  | keep ks => simp [step, keep] at ha

/-- C326: along any history of calls, from the decomposition, without a smoothing of the temporal evolutions and with scalings
that do not change the coherence, the temporal coherence that is returned is that of the evolutions the object holds. -/
theorem C326_temporal_partial (tempOf : List E → List Rat) (spatOf : Nat → List Mode → List Rat) (modes : List Mode) (evos : List E)
    (ops : List (Op E)) (h : ∀ o ∈ ops, SafeT tempOf o) :
    (temporal tempOf (run tempOf spatOf (made modes evos) ops)).2 = tempOf (run tempOf spatOf (made modes evos) ops).evos := by
  have inv : ∀ (ops : List (Op E)) (s : MS E), FreshT tempOf s → (∀ o ∈ ops, SafeT tempOf o) →
      FreshT tempOf (run tempOf spatOf s ops) := by
    intro ops
    induction ops with
    | nil => intro s hs _; exact hs
    | cons o ops ih =>
      intro s hs ho
      exact ih _ (freshT_step tempOf spatOf s o (ho o (by simp)) hs) fun o m => ho o (by simp [m])
  have f := inv ops (made modes evos) (by intro a ha; simp [made] at ha) h
  unfold temporal
  split
  · rename_i a ha; exact f a ha
  · rfl

/-- C326: along any history of calls without a smoothing or a spatial crop of the modes, the spatial coherence that is returned is,
for some random draw, that of the modes the object holds. -/
theorem C326_spatial_partial (tempOf : List E → List Rat) (spatOf : Nat → List Mode → List Rat) (modes : List Mode) (evos : List E)
    (ops : List (Op E)) (draw : Nat) (h : ∀ o ∈ ops, SafeS o) :
    ∃ d, (spatial spatOf draw (run tempOf spatOf (made modes evos) ops)).2
      = spatOf d ((run tempOf spatOf (made modes evos) ops).modes.map centerMode) := by
  have inv : ∀ (ops : List (Op E)) (s : MS E), FreshS spatOf s → (∀ o ∈ ops, SafeS o) →
      FreshS spatOf (run tempOf spatOf s ops) := by
    intro ops
    induction ops with
    | nil => intro s hs _; exact hs
    | cons o ops ih =>
      intro s hs ho
      exact ih _ (freshS_step tempOf spatOf s o (ho o (by simp)) hs) fun o m => ho o (by simp [m])
  have f := inv ops (made modes evos) (by intro a ha; simp [made] at ha) h
  unfold spatial
  split
  · rename_i a ha; exact f a ha
  · exact ⟨draw, rfl⟩

/-- C326 fails when the evolutions are smoothed after the coherence has been asked for: the answer remains the former one,
whatever the object is and whatever came before. -/
theorem C326_smooth_violated (tempOf : List E → List Rat) (s : MS E) (f : E → E) (hs : FreshT tempOf s)
    (hf : tempOf (s.evos.map f) ≠ tempOf s.evos) :
    (temporal tempOf (smoothT f (temporal tempOf s).1)).2 ≠ tempOf (smoothT f (temporal tempOf s).1).evos := by
  have e : (temporal tempOf s).1.evos = s.evos ∧ (temporal tempOf s).1.temp = some (tempOf s.evos) := by
    unfold temporal
    split
    · rename_i a ha; exact ⟨rfl, by rw [ha, hs a ha]⟩
    · exact ⟨rfl, rfl⟩
  have : (temporal tempOf (smoothT f (temporal tempOf s).1)).2 = tempOf s.evos := by
    have t : (smoothT f (temporal tempOf s).1).temp = some (tempOf s.evos) := e.2
    unfold temporal at t ⊢
    rw [t]
  rw [this]
  simp only [smoothT, e.1]
  exact fun c => hf c.symm

/-- C326 fails when the modes are cropped in space, or smoothed, after the coherence has been asked for: the answer remains the
former one. -/
theorem C326_space_violated (spatOf : Nat → List Mode → List Rat) (s : MS E) (g : Mode → Mode) (d d' : Nat) :
    (spatial spatOf d' (cropS g (spatial spatOf d s).1)).2 = (spatial spatOf d s).2 ∧
      (spatial spatOf d' (smoothS g (spatial spatOf d s).1)).2 = (spatial spatOf d s).2 := by
  unfold spatial
  cases h : s.spat <;> simp [h, cropS, smoothS]

/-- C326: smoothing the modes of a copy always raises AttributeError, unless there is no mode. -/
theorem C326_copy_violated (f : Mode → Mode) (s : MS E) (h : s.modes ≠ []) : smoothSCopy f s = .error .attributeError := by
  unfold smoothSCopy
  rw [if_neg (by simpa using h)]

/-! ### C327: asking for the coherence does not change the modes -/

/-- C327: the modes are unchanged when the answer is already known, or when each component of each mode has no masked value and
a null mean. -/
theorem C327_modes_partial (spatOf : Nat → List Mode → List Rat) (s : MS E) (d : Nat)
    (h : s.spat ≠ none ∨ ∀ m ∈ s.modes, ∀ c ∈ m, ∃ r : List Rat, c = r.map some ∧ r.sum = 0) :
    (spatial spatOf d s).1.modes = s.modes := by
  unfold spatial
  split
  · rfl
  · rename_i e
    rcases h with h | h
    · exact absurd e h
    · simp only
      conv_rhs => rw [← List.map_id s.modes]
      refine List.map_congr_left fun m hm => ?_
      unfold centerMode
      simp only [id]
      conv_rhs => rw [← List.map_id m]
      refine List.map_congr_left fun c hc => ?_
      obtain ⟨r, rfl, hr⟩ := h m hm c hc
      rw [center_some, hr]
      simp

/-- C327 fails for every mode with a component whose mean is not null: the first request removes that mean from the mode. -/
theorem C327_mean_violated (spatOf : Nat → List Mode → List Rat) (s : MS E) (d : Nat) (hs : s.spat = none) (i j : Nat) (m : Mode) (r : List Rat)
    (hm : s.modes[i]? = some m) (hc : m[j]? = some (r.map some)) (hr : r.sum ≠ 0) :
    ∃ m', (spatial spatOf d s).1.modes[i]? = some m' ∧ m'[j]? = some ((r.map fun v => v - r.sum / r.length).map some) ∧ m' ≠ m := by
  refine ⟨centerMode m, ?_, ?_, ?_⟩
  · unfold spatial
    rw [hs]
    simp [hm]
  · unfold centerMode
    rw [List.getElem?_map, hc, Option.map_some, center_some]
  · intro e
    have k : (centerMode m)[j]? = some ((r.map fun v => v - r.sum / r.length).map some) := by
      unfold centerMode
      rw [List.getElem?_map, hc, Option.map_some, center_some]
    rw [e, hc] at k
    have k' := List.map_injective_iff.mpr (Option.some_injective Rat) (Option.some.inj k)
    have : r.sum = (r.map fun v => v - r.sum / r.length).sum := congrArg List.sum k'
    rw [sum_sub_const] at this
    have hl : (r.length : Rat) ≠ 0 := by
      intro z
      have : r = [] := by simpa using z
      rw [this] at hr
      simp at hr
    have z : (r.length : Rat) * (r.sum / r.length) = r.sum := by field_simp
    rw [z, sub_self] at this
    exact hr this

/-- C327 fails even more for a mode with a masked value: the first request wipes the whole component. -/
theorem C327_masked_violated (spatOf : Nat → List Mode → List Rat) (s : MS E) (d : Nat) (hs : s.spat = none) (i j : Nat) (m : Mode) (c : List F)
    (hm : s.modes[i]? = some m) (hc : m[j]? = some c) (hn : none ∈ c) :
    ∃ m', (spatial spatOf d s).1.modes[i]? = some m' ∧ m'[j]? = some (c.map fun _ => none) := by
  refine ⟨centerMode m, ?_, ?_⟩
  · unfold spatial
    rw [hs]
    simp [hm]
  · unfold centerMode
    rw [List.getElem?_map, hc, Option.map_some, center_none c hn]

theorem recon_some (base : Rat) (coefs vals : List Rat) :
    recon base coefs (vals.map some) = some (base + ((coefs.zip vals).map fun q => q.1 * q.2).sum) := by
  unfold recon
  induction coefs generalizing base vals with
  | nil => simp
  | cons c cs ih =>
    cases vals with
    | nil => simp
    | cons v vs =>
      simp only [List.map_cons, List.zip_cons_cons, List.foldl_cons, List.sum_cons]
      rw [ih]
      congr 1
      ring

/-- C327, what it does to a reconstruction: once the spatial coherence has been asked for, every value of a reconstructed field is
off by the sum, over the modes, of the coefficient times the mean of the mode. -/
theorem C327_reconstruct_violated (base : Rat) (coefs : List Rat) (modes : List (List Rat)) (j : Nat) (hj : ∀ r ∈ modes, j < r.length) :
    recon base coefs (modes.map fun r => ((center (r.map some))[j]?).getD none)
      = (recon base coefs (modes.map fun r => (((r.map some)[j]? : Option F)).getD none)).map
          (· - ((coefs.zip modes).map fun q => q.1 * (q.2.sum / (q.2.length : Rat))).sum) := by
  have e1 : (modes.map fun r => ((center (r.map some))[j]?).getD none)
      = (modes.map fun r => (r[j]?).getD 0 - r.sum / (r.length : Rat)).map some := by
    rw [List.map_map]
    refine List.map_congr_left fun r hr => ?_
    have := hj r hr
    rw [center_some]
    simp [List.getElem?_eq_getElem this]
  have e2 : (modes.map fun r => (((r.map some)[j]? : Option F)).getD none) = (modes.map fun r => (r[j]?).getD 0).map some := by
    rw [List.map_map]
    refine List.map_congr_left fun r hr => ?_
    have := hj r hr
    simp [List.getElem?_eq_getElem this]
  rw [e1, e2, recon_some, recon_some]
  simp only [Option.map_some]
  congr 1
  clear e1 e2 hj
  induction coefs generalizing modes with
  | nil => simp
  | cons c cs ih =>
    cases modes with
    | nil => simp
    | cons r rs =>
      have := ih rs
      simp only [List.map_cons, List.zip_cons_cons, List.sum_cons]
      linarith

example : (spatial (E := Nat) (fun _ _ => [7]) 0 (made [[[some 1, some 3]]] [])).1.modes = [[[some (-1), some 1]]] ∧
    (spatial (E := Nat) (fun _ _ => [7]) 0 (made [[[some 1, none, some 3]]] [])).1.modes = [[[none, none, none]]] := by decide +kernel
example : (temporal (fun l => [(l.sum : Rat)]) (smoothT (fun e : Rat => e / 2) (temporal (fun l => [(l.sum : Rat)]) (made [] [1, 3])).1)).2 = [4] := by
  decide +kernel

end IMT.Coherence
