import Verif.Stab.Model
import Mathlib.Data.List.GetD
import Mathlib.Analysis.SpecialFunctions.Trigonometric.Angle

/-!
C176: the transforms and the trajectory of a `Stabilizer`.  C177: the points it tracks.
-/

namespace IMT.Stab

variable {V U : Type}

/-! ### specification -/

/-- The transform kept from an estimate: its translation and its angle, nothing when there is no estimate. -/
def Kept : Option Mat → Tr → Prop
  | none, t => t.dx = 0 ∧ t.dy = 0 ∧ t.da = 0
  | some m, t => t.dx = m.tx ∧ t.dy = m.ty ∧ -Real.pi < t.da ∧ t.da ≤ Real.pi ∧
      m.c = √(m.c ^ 2 + m.s ^ 2) * Real.cos t.da ∧ m.s = √(m.c ^ 2 + m.s ^ 2) * Real.sin t.da

/-- Where a motion of the picture brings a place, both given as (row, column). -/
def Mat.brings (m : Mat) (p q : ℝ × ℝ) : Prop :=
  q.2 = m.c * p.2 - m.s * p.1 + m.tx ∧ q.1 = m.s * p.2 + m.c * p.1 + m.ty

/-! ### lemmas -/

theorem kept_trOf (o : Option Mat) : Kept o (trOf o) := by
  cases o with
  | none => exact ⟨rfl, rfl, rfl⟩
  | some m =>
    refine ⟨rfl, rfl, Complex.neg_pi_lt_arg _, Complex.arg_le_pi _, ?_, ?_⟩
    · have h := Complex.norm_mul_cos_arg ⟨m.c, m.s⟩
      have hn : ‖(⟨m.c, m.s⟩ : ℂ)‖ = √(m.c ^ 2 + m.s ^ 2) := by
        rw [Complex.norm_def, Complex.normSq_apply]; congr 1; simp only; ring
      rw [hn] at h; exact h.symm
    · have h := Complex.norm_mul_sin_arg ⟨m.c, m.s⟩
      have hn : ‖(⟨m.c, m.s⟩ : ℂ)‖ = √(m.c ^ 2 + m.s ^ 2) := by
        rw [Complex.norm_def, Complex.normSq_apply]; congr 1; simp only; ring
      rw [hn] at h; exact h.symm

theorem moves_ok (w : World V) (mode : Mode) : ∀ (l : List (Im V)) (prev : Im V) (r : List Tr), moves w mode prev l = .ok r →
    r.length = l.length ∧ ∀ k < l.length, r.getD k Tr.zero = trOf (w.estimate
      (if mode = .continuous then (prev :: l).getD k prev else prev) (l.getD k prev))
  | [], prev, r, h => by
    simp only [moves, Except.ok.injEq] at h
    subst h; simp
  | cur :: l, prev, r, h => by
    simp only [moves] at h
    by_cases hf : w.features prev = false
    · rw [if_pos hf] at h; exact absurd h (by simp)
    · rw [if_neg hf] at h
      cases hm : moves w mode (if mode = .continuous then cur else prev) l with
      | error e => rw [hm] at h; exact absurd h (by simp)
      | ok r' =>
        rw [hm] at h
        simp only [Except.ok.injEq] at h
        subst h
        have ih := moves_ok w mode l _ r' hm
        refine ⟨by simp [ih.1], ?_⟩
        intro k hk
        cases k with
        | zero => simp
        | succ k =>
          have hk' : k < l.length := by simpa using hk
          have := ih.2 k hk'
          simp only [List.getD_cons_succ]
          rw [this]
          by_cases hc : mode = .continuous
          · simp only [hc, if_true]
            have e1 : (cur :: l).getD k cur = (cur :: l).getD k prev := by
              rw [List.getD_eq_getElem _ _ (by simp; omega), List.getD_eq_getElem _ _ (by simp; omega)]
            have e2 : l.getD k cur = l.getD k prev := by
              rw [List.getD_eq_getElem _ _ hk', List.getD_eq_getElem _ _ hk']
            rw [e1, e2]
          · simp only [if_neg hc]

theorem moves_isOk (w : World V) (mode : Mode) : ∀ (l : List (Im V)) (prev : Im V),
    (∃ r, moves w mode prev l = .ok r) ↔
      ∀ k < l.length, w.features (if mode = .continuous then (prev :: l).getD k prev else prev) = true
  | [], prev => by simp [moves]
  | cur :: l, prev => by
    have ih := moves_isOk w mode l (if mode = .continuous then cur else prev)
    simp only [moves]
    constructor
    · rintro ⟨r, h⟩
      by_cases hf : w.features prev = false
      · rw [if_pos hf] at h; exact absurd h (by simp)
      · rw [if_neg hf] at h
        cases hm : moves w mode (if mode = .continuous then cur else prev) l with
        | error e => rw [hm] at h; exact absurd h (by simp)
        | ok r' =>
          have := ih.1 ⟨r', hm⟩
          intro k hk
          cases k with
          | zero => simp only [List.getD_cons_zero, ite_self]; simpa using hf
          | succ k =>
            have hk' : k < l.length := by simpa using hk
            have := this k hk'
            by_cases hc : mode = .continuous
            · simp only [hc, if_true] at this ⊢
              have e1 : (cur :: l).getD k cur = (cur :: l).getD k prev := by
                rw [List.getD_eq_getElem _ _ (by simp; omega), List.getD_eq_getElem _ _ (by simp; omega)]
              rw [List.getD_cons_succ, ← e1]; exact this
            · simp only [if_neg hc] at this ⊢; exact this
    · intro h
      have h0 := h 0 (by simp)
      simp only [List.getD_cons_zero, ite_self] at h0
      rw [if_neg (by simp [h0])]
      have : ∃ r, moves w mode (if mode = .continuous then cur else prev) l = .ok r := by
        rw [ih]
        intro k hk
        have := h (k + 1) (by simpa using hk)
        by_cases hc : mode = .continuous
        · simp only [hc, if_true, List.getD_cons_succ] at this ⊢
          have e1 : (cur :: l).getD k cur = (cur :: l).getD k prev := by
            rw [List.getD_eq_getElem _ _ (by simp; omega), List.getD_eq_getElem _ _ (by simp; omega)]
          rw [e1]; exact this
        · simp only [if_neg hc] at this ⊢; exact this
      obtain ⟨r, hr⟩ := this
      exact ⟨_, by rw [hr]⟩

theorem cumsum_get : ∀ (l : List Tr) (a : Tr), (cumsum a l).length = l.length ∧ ∀ k < l.length,
    ((cumsum a l).getD k Tr.zero).dx = a.dx + ((l.take (k + 1)).map Tr.dx).sum ∧
    ((cumsum a l).getD k Tr.zero).dy = a.dy + ((l.take (k + 1)).map Tr.dy).sum ∧
    ((cumsum a l).getD k Tr.zero).da = a.da + ((l.take (k + 1)).map Tr.da).sum
  | [], a => by simp [cumsum]
  | t :: l, a => by
    have ih := cumsum_get l (a.add t)
    refine ⟨by simp [cumsum, ih.1], ?_⟩
    intro k hk
    cases k with
    | zero => simp [cumsum, Tr.add]
    | succ k =>
      have := ih.2 k (by simpa using hk)
      simp only [cumsum, List.getD_cons_succ, List.take_succ_cons, List.map_cons, List.sum_cons]
      rw [this.1, this.2.1, this.2.2]
      simp only [Tr.add]
      exact ⟨by ring, by ring, by ring⟩

theorem diffs_get : ∀ (l : List Tr) (t : Tr) (k : ℕ), k < l.length + 1 →
    ((t :: l).getD k Tr.zero).dx = (((t :: List.zipWith Tr.sub l ((t :: l).take l.length)).take (k + 1)).map Tr.dx).sum ∧
    ((t :: l).getD k Tr.zero).dy = (((t :: List.zipWith Tr.sub l ((t :: l).take l.length)).take (k + 1)).map Tr.dy).sum ∧
    ((t :: l).getD k Tr.zero).da = (((t :: List.zipWith Tr.sub l ((t :: l).take l.length)).take (k + 1)).map Tr.da).sum
  | [], t, k, hk => by
    have : k = 0 := by simpa using hk
    subst this; simp
  | u :: l, t, k, hk => by
    cases k with
    | zero => simp
    | succ k =>
      have ih := diffs_get l u k (by simpa using hk)
      have e : (u :: l).take (l.length + 1) = u :: l := by simp
      simp only [List.length_cons, List.take_succ_cons, List.zipWith_cons_cons, List.getD_cons_succ, List.map_cons, List.sum_cons,
        Tr.sub] at ih ⊢
      rw [ih.1, ih.2.1, ih.2.2]
      exact ⟨by ring, by ring, by ring⟩

theorem computed_ok (w : World V) (mode : Mode) (dense : Bool) (fs : List (Im V)) (r t : List Tr)
    (h : computed w mode dense fs = .ok (r, t)) :
    ∃ f l m, fs = f :: l ∧ moves w mode f l = .ok m ∧ rawOf mode m = .ok (r, t) := by
  cases fs with
  | nil => simp [computed] at h
  | cons f l =>
    simp only [computed] at h
    by_cases hd : dense = true ∧ l ≠ []
    · rw [if_pos hd] at h; exact absurd h (by simp)
    · rw [if_neg hd] at h
      cases hm : moves w mode f l with
      | error e => rw [hm] at h; exact absurd h (by simp)
      | ok m => rw [hm] at h; exact ⟨f, l, m, rfl, hm, h⟩

/-! ### C176 -/

/-- **C176** In both modes the trajectory is the running sum of the frame to frame transforms, one for each frame after the first. -/
theorem C176_running (w : World V) (mode : Mode) (dense : Bool) (fs : List (Im V)) (r t : List Tr)
    (h : computed w mode dense fs = .ok (r, t)) :
    r.length + 1 = fs.length ∧ t.length = r.length ∧ ∀ k < r.length,
      (t.getD k Tr.zero).dx = ((r.take (k + 1)).map Tr.dx).sum ∧
      (t.getD k Tr.zero).dy = ((r.take (k + 1)).map Tr.dy).sum ∧
      (t.getD k Tr.zero).da = ((r.take (k + 1)).map Tr.da).sum := by
  obtain ⟨f, l, m, rfl, hm, hr⟩ := computed_ok w mode dense fs r t h
  have hl := (moves_ok w mode l f m hm).1
  cases mode with
  | continuous =>
    simp only [rawOf, Except.ok.injEq, Prod.mk.injEq] at hr
    obtain ⟨rfl, rfl⟩ := hr
    have hc := cumsum_get m Tr.zero
    refine ⟨by simp [hl], hc.1, fun k hk => ?_⟩
    have := hc.2 k hk
    simpa [Tr.zero] using this
  | fromFirst =>
    cases m with
    | nil => simp [rawOf] at hr
    | cons t0 m =>
      simp only [rawOf, Except.ok.injEq, Prod.mk.injEq] at hr
      obtain ⟨rfl, rfl⟩ := hr
      have hlen : (t0 :: List.zipWith Tr.sub m ((t0 :: m).take m.length)).length = m.length + 1 := by
        simp
      refine ⟨by rw [hlen]; simp at hl ⊢; omega, by rw [hlen]; simp, fun k hk => ?_⟩
      rw [hlen] at hk
      exact diffs_get m t0 k hk
  | other => simp [rawOf] at hr

/-- **C176** In mode 'continuous' each transform is the one estimated from the frame before. -/
theorem C176_continuous (w : World V) (dense : Bool) (fs : List (Im V)) (r t : List Tr) (d : Im V)
    (h : computed w .continuous dense fs = .ok (r, t)) (k : ℕ) (hk : k + 1 < fs.length) :
    Kept (w.estimate (fs.getD k d) (fs.getD (k + 1) d)) (r.getD k Tr.zero) := by
  obtain ⟨f, l, m, rfl, hm, hr⟩ := computed_ok w _ dense fs r t h
  simp only [rawOf, Except.ok.injEq, Prod.mk.injEq] at hr
  obtain ⟨rfl, rfl⟩ := hr
  have hk' : k < l.length := by simpa using hk
  have := (moves_ok w _ l f m hm).2 k hk'
  simp only [if_true] at this
  have e1 : (f :: l).getD k f = (f :: l).getD k d := by
    rw [List.getD_eq_getElem _ _ (by simp; omega), List.getD_eq_getElem _ _ (by simp; omega)]
  have e2 : l.getD k f = l.getD k d := by rw [List.getD_eq_getElem _ _ hk', List.getD_eq_getElem _ _ hk']
  rw [this, e1, e2]
  exact kept_trOf _

/-- **C176** In mode 'from_first' each entry of the trajectory is the transform estimated from the first frame. -/
theorem C176_from_first (w : World V) (dense : Bool) (fs : List (Im V)) (r t : List Tr) (d : Im V)
    (h : computed w .fromFirst dense fs = .ok (r, t)) (k : ℕ) (hk : k + 1 < fs.length) :
    Kept (w.estimate (fs.getD 0 d) (fs.getD (k + 1) d)) (t.getD k Tr.zero) := by
  obtain ⟨f, l, m, rfl, hm, hr⟩ := computed_ok w _ dense fs r t h
  have hk' : k < l.length := by simpa using hk
  have := (moves_ok w _ l f m hm).2 k hk'
  rw [if_neg (by decide)] at this
  have e2 : l.getD k f = l.getD k d := by rw [List.getD_eq_getElem _ _ hk', List.getD_eq_getElem _ _ hk']
  cases m with
  | nil => simp [rawOf] at hr
  | cons t0 m =>
    simp only [rawOf, Except.ok.injEq, Prod.mk.injEq] at hr
    obtain ⟨rfl, rfl⟩ := hr
    rw [this, e2]
    exact kept_trOf _

/-- **C176** The transforms are found exactly when the frames they start from have features: every frame but the last one in
mode 'continuous', the first frame in mode 'from_first' (which needs two frames).  Another mode is refused, and so is `dense`. -/
theorem C176_found (w : World V) (mode : Mode) (dense : Bool) (fs : List (Im V)) (d : Im V) (hn : 2 ≤ fs.length) :
    (∃ q, computed w mode dense fs = .ok q) ↔ dense = false ∧
      (mode = .continuous ∧ (∀ k, k + 1 < fs.length → w.features (fs.getD k d) = true) ∨
        mode = .fromFirst ∧ w.features (fs.getD 0 d) = true) := by
  cases fs with
  | nil => simp at hn
  | cons f l =>
    have hl : l ≠ [] := by rintro rfl; simp at hn
    have hpos : 0 < l.length := List.length_pos_iff.2 hl
    cases dense with
    | true => simp [computed, hl]
    | false =>
      have hmv := moves_isOk w mode l f
      have hgd : ∀ k < l.length, (f :: l).getD k f = (f :: l).getD k d := fun k hk => by
        rw [List.getD_eq_getElem _ _ (by simp; omega), List.getD_eq_getElem _ _ (by simp; omega)]
      have e : computed w mode false (f :: l) = match moves w mode f l with
          | .error e => .error e
          | .ok r => rawOf mode r := by
        simp only [computed]; rw [if_neg (by simp)]; rfl
      rw [e]
      simp only [true_and]
      constructor
      · rintro ⟨q, hq⟩
        cases hm : moves w mode f l with
        | error e => rw [hm] at hq; exact absurd hq (by simp)
        | ok m =>
          rw [hm] at hq
          have := hmv.1 ⟨m, hm⟩
          cases mode with
          | continuous =>
            refine Or.inl ⟨rfl, fun k hk => ?_⟩
            have hk' : k < l.length := by simpa using hk
            have := this k hk'
            rw [if_pos rfl, hgd k hk'] at this
            exact this
          | fromFirst =>
            refine Or.inr ⟨rfl, ?_⟩
            have := this 0 hpos
            rw [if_neg (by decide)] at this
            simpa using this
          | other => simp [rawOf] at hq
      · intro h
        have hok : ∃ r, moves w mode f l = .ok r := by
          rw [hmv]
          intro k hk
          rcases h with ⟨rfl, h⟩ | ⟨rfl, h⟩
          · rw [if_pos rfl, hgd k hk]; exact h k (by simpa using hk)
          · rw [if_neg (by decide)]; simpa using h
        obtain ⟨m, hm⟩ := hok
        rw [hm]
        rcases h with ⟨rfl, h⟩ | ⟨rfl, h⟩
        · exact ⟨_, rfl⟩
        · have hlen := (moves_ok w _ l f m hm).1
          cases m with
          | nil => simp at hlen; omega
          | cons t0 m => exact ⟨_, rfl⟩

/-! ### C177 -/

theorem trackFrom_length : ∀ (l : List Tr) (p : ℝ × ℝ), (trackFrom p l).length = l.length + 1
  | [], p => rfl
  | t :: l, p => by simp [trackFrom, trackFrom_length l]

theorem trackFrom_zero (l : List Tr) (p d : ℝ × ℝ) : (trackFrom p l).getD 0 d = p := by
  cases l <;> simp [trackFrom]

theorem trackFrom_succ : ∀ (l : List Tr) (p d : ℝ × ℝ) (k : ℕ), k < l.length →
    (trackFrom p l).getD (k + 1) d = trackStep (l.getD k Tr.zero) ((trackFrom p l).getD k d)
  | [], p, d, k, hk => by simp at hk
  | t :: l, p, d, 0, hk => by
    simp only [trackFrom, List.getD_cons_succ, List.getD_cons_zero]
    exact trackFrom_zero l _ d
  | t :: l, p, d, k + 1, hk => by
    simp only [trackFrom, List.getD_cons_succ]
    exact trackFrom_succ l _ d k (by simpa using hk)

/-- The squared distance of two places. -/
def dist2 (p q : ℝ × ℝ) : ℝ := (p.1 - q.1) ^ 2 + (p.2 - q.2) ^ 2

theorem trackStep_dist (t : Tr) (p q : ℝ × ℝ) : dist2 (trackStep t p) (trackStep t q) = dist2 p q := by
  simp only [dist2, trackStep]
  have h := Real.sin_sq_add_cos_sq t.da
  have : ((Real.sin t.da * p.2 + Real.cos t.da * p.1 + t.dy - (Real.sin t.da * q.2 + Real.cos t.da * q.1 + t.dy)) ^ 2 +
      (Real.cos t.da * p.2 - Real.sin t.da * p.1 + t.dx - (Real.cos t.da * q.2 - Real.sin t.da * q.1 + t.dx)) ^ 2) =
      (Real.sin t.da ^ 2 + Real.cos t.da ^ 2) * ((p.1 - q.1) ^ 2 + (p.2 - q.2) ^ 2) := by ring
  rw [this, h, one_mul]

theorem trackFrom_sum : ∀ (l : List Tr) (p d : ℝ × ℝ) (k : ℕ), (∀ t ∈ l, t.da = 0) → k ≤ l.length →
    (trackFrom p l).getD k d = (p.1 + ((l.take k).map Tr.dy).sum, p.2 + ((l.take k).map Tr.dx).sum)
  | l, p, d, 0, _, _ => by rw [trackFrom_zero]; simp
  | [], p, d, k + 1, _, hk => by simp at hk
  | t :: l, p, d, k + 1, h, hk => by
    simp only [trackFrom, List.getD_cons_succ]
    rw [trackFrom_sum l _ d k (fun u hu => h u (by simp [hu])) (by simpa using hk)]
    simp only [trackStep, h t (by simp), Real.sin_zero, Real.cos_zero, List.take_succ_cons, List.map_cons, List.sum_cons]
    refine Prod.ext ?_ ?_ <;> simp only <;> ring

theorem Kept.unique {o : Option Mat} {t : Tr} (h : Kept o t) : t.dx = (trOf o).dx ∧ t.dy = (trOf o).dy := by
  cases o with
  | none => exact ⟨h.1, h.2.1⟩
  | some m => exact ⟨h.1, h.2.1⟩

/-- **C177** A stabilizer that has not computed and smoothed its transforms tracks nothing, and tracking starts at the first frame. -/
theorem C177_refused (s : State V U) (pts : List (ℝ × ℝ)) (k : Int) (h : s.raw = none ∨ s.smooth = none ∨ k ≠ 0) :
    track s pts k = .error .exception := by
  unfold track
  rcases h with h | h | h
  · rw [h]; cases s.smooth <;> rfl
  · rw [h]
  · cases s.smooth <;> cases s.raw <;> simp [h]

/-- **C177** Every point is given one place for each frame, the first one being the point itself. -/
theorem C177_places (w : World V) (mode : Mode) (dense : Bool) (fs : List (Im V)) (r t : List Tr)
    (h : computed w mode dense fs = .ok (r, t)) (s : State V U) (hs : s.raw = some r) (pts : List (ℝ × ℝ)) (out : List (List (ℝ × ℝ)))
    (ho : track s pts 0 = .ok out) :
    out.length = pts.length ∧ ∀ i < pts.length, (out.getD i []).length = fs.length ∧ (out.getD i []).getD 0 (0, 0) = pts.getD i (0, 0) := by
  unfold track at ho
  rw [hs] at ho
  cases hsm : s.smooth with
  | none => rw [hsm] at ho; exact absurd ho (by simp)
  | some q =>
    rw [hsm] at ho
    simp only [ne_eq, not_true, if_false, Except.ok.injEq] at ho
    subst ho
    refine ⟨by simp, fun i hi => ?_⟩
    have e : (pts.map fun p => trackFrom p r).getD i [] = trackFrom (pts.getD i (0, 0)) r := by
      rw [List.getD_eq_getElem _ _ (by simpa using hi), List.getD_eq_getElem _ _ hi]; simp
    rw [e, trackFrom_length, trackFrom_zero]
    exact ⟨(C176_running w mode dense fs r t h).1, rfl⟩

theorem track_get (s : State V U) (r : List Tr) (hs : s.raw = some r) (pts : List (ℝ × ℝ)) (out : List (List (ℝ × ℝ)))
    (ho : track s pts 0 = .ok out) (i : ℕ) (hi : i < pts.length) : out.getD i [] = trackFrom (pts.getD i (0, 0)) r := by
  unfold track at ho
  rw [hs] at ho
  cases hsm : s.smooth with
  | none => rw [hsm] at ho; exact absurd ho (by simp)
  | some q =>
    rw [hsm] at ho
    simp only [ne_eq, not_true, if_false, Except.ok.injEq] at ho
    subst ho
    rw [List.getD_eq_getElem _ _ (by simpa using hi), List.getD_eq_getElem _ _ hi]; simp

/-- **C177** Tracking is rigid: the distance of two points is the same on all frames. -/
theorem C177_rigid (s : State V U) (r : List Tr) (hs : s.raw = some r) (pts : List (ℝ × ℝ)) (out : List (List (ℝ × ℝ)))
    (ho : track s pts 0 = .ok out) (i j : ℕ) (hi : i < pts.length) (hj : j < pts.length) :
    ∀ k ≤ r.length, dist2 ((out.getD i []).getD k (0, 0)) ((out.getD j []).getD k (0, 0)) =
      dist2 (pts.getD i (0, 0)) (pts.getD j (0, 0)) := by
  rw [track_get s r hs pts out ho i hi, track_get s r hs pts out ho j hj]
  intro k
  induction k with
  | zero => intro _; rw [trackFrom_zero, trackFrom_zero]
  | succ k ih =>
    intro hk
    rw [trackFrom_succ r _ _ k (by omega), trackFrom_succ r _ _ k (by omega), trackStep_dist]
    exact ih (by omega)

/-- **C177** When the picture does not turn, a tracked point follows the trajectory (whose columns are the second coordinate). -/
theorem C177_translation (w : World V) (mode : Mode) (dense : Bool) (fs : List (Im V)) (r t : List Tr)
    (h : computed w mode dense fs = .ok (r, t)) (h0 : ∀ q ∈ r, q.da = 0) (s : State V U) (hs : s.raw = some r) (pts : List (ℝ × ℝ))
    (out : List (List (ℝ × ℝ))) (ho : track s pts 0 = .ok out) (i : ℕ) (hi : i < pts.length) (k : ℕ) (hk : k < r.length) :
    (out.getD i []).getD (k + 1) (0, 0) =
      ((pts.getD i (0, 0)).1 + (t.getD k Tr.zero).dy, (pts.getD i (0, 0)).2 + (t.getD k Tr.zero).dx) := by
  rw [track_get s r hs pts out ho i hi, trackFrom_sum r _ _ (k + 1) h0 (by omega)]
  have := (C176_running w mode dense fs r t h).2.2 k hk
  rw [this.1, this.2.1]

theorem trackStep_brings (m : Mat) (hm : m.c ^ 2 + m.s ^ 2 = 1) (t : Tr) (ht : Kept (some m) t) (p q : ℝ × ℝ) (h : m.brings p q) :
    trackStep t p = q := by
  obtain ⟨h1, h2, -, -, h3, h4⟩ := ht
  rw [hm, Real.sqrt_one, one_mul] at h3 h4
  obtain ⟨ha, hb⟩ := h
  unfold trackStep
  rw [← h3, ← h4, h1, h2]
  exact Prod.ext (by rw [hb]) (by rw [ha])

/-- **C177** In mode 'continuous', a point that moves with the picture (each estimated motion, a rotation and a translation, brings
it from its place on a frame to its place on the next one) is tracked exactly. -/
theorem C177_follows_partial (w : World V) (dense : Bool) (fs : List (Im V)) (r t : List Tr) (d : Im V)
    (h : computed w .continuous dense fs = .ok (r, t)) (s : State V U) (hs : s.raw = some r) (pts : List (ℝ × ℝ))
    (out : List (List (ℝ × ℝ))) (ho : track s pts 0 = .ok out) (i : ℕ) (hi : i < pts.length) (pos : ℕ → ℝ × ℝ)
    (h0 : pos 0 = pts.getD i (0, 0))
    (hpos : ∀ k, k + 1 < fs.length → ∃ m, w.estimate (fs.getD k d) (fs.getD (k + 1) d) = some m ∧ m.c ^ 2 + m.s ^ 2 = 1 ∧
      m.brings (pos k) (pos (k + 1))) :
    ∀ k < fs.length, (out.getD i []).getD k (0, 0) = pos k := by
  rw [track_get s r hs pts out ho i hi]
  have hlen := (C176_running w _ dense fs r t h).1
  intro k
  induction k with
  | zero => intro _; rw [trackFrom_zero, h0]
  | succ k ih =>
    intro hk
    rw [trackFrom_succ r _ _ k (by omega), ih (by omega)]
    obtain ⟨m, hm, h1, hb⟩ := hpos k hk
    have hkept := C176_continuous w dense fs r t d h k hk
    rw [hm] at hkept
    exact trackStep_brings m h1 _ hkept _ _ hb

/-- **C177** Pictures that grow or shrink are not followed: the scale of an estimate is dropped.  If the picture is only scaled, by any
factor but 1, around its corner, every tracked point except the corner is wrong from the second frame. -/
theorem C177_zoom_violated (w : World V) (mode : Mode) (dense : Bool) (f g : Im V) (r t : List Tr)
    (h : computed w mode dense [f, g] = .ok (r, t)) (z : ℝ) (hz : 0 < z) (hz1 : z ≠ 1) (he : w.estimate f g = some ⟨z, 0, 0, 0⟩)
    (s : State V U) (hs : s.raw = some r) (p q : ℝ × ℝ) (hp : p ≠ (0, 0)) (out : List (List (ℝ × ℝ)))
    (ho : track s [p] 0 = .ok out) (hq : (⟨z, 0, 0, 0⟩ : Mat).brings p q) : (out.getD 0 []).getD 1 (0, 0) ≠ q := by
  rw [track_get s r hs [p] out ho 0 (by simp)]
  obtain ⟨f', l, m, hfl, hm, hr⟩ := computed_ok w mode dense _ r t h
  simp only [List.cons.injEq] at hfl
  obtain ⟨rfl, rfl⟩ := hfl
  have hmv := moves_ok w mode [g] f m hm
  have hm0 : m = [trOf (some ⟨z, 0, 0, 0⟩)] := by
    obtain ⟨hl, hg⟩ := hmv
    match m, hl with
    | [a], _ =>
      have := hg 0 (by simp)
      simp only [List.getD_cons_zero, ite_self] at this
      rw [this, he]
  have hr0 : r = [trOf (some ⟨z, 0, 0, 0⟩)] := by
    subst hm0
    cases mode with
    | continuous => simp only [rawOf, Except.ok.injEq, Prod.mk.injEq] at hr; exact hr.1.symm
    | fromFirst => simp only [rawOf, Except.ok.injEq, Prod.mk.injEq] at hr; exact hr.1.symm.trans (by simp)
    | other => simp [rawOf] at hr
  have ht : trOf (some ⟨z, 0, 0, 0⟩) = Tr.zero := by
    simp only [trOf, Tr.zero]
    have : (⟨z, 0⟩ : ℂ) = (z : ℂ) := rfl
    rw [this, Complex.arg_ofReal_of_nonneg hz.le]
  rw [hr0, ht]
  have : (trackFrom p [Tr.zero]).getD 1 (0, 0) = p := by
    simp [trackFrom, trackStep, Tr.zero]
  simp only [List.getD_cons_zero]
  rw [this]
  rintro rfl
  obtain ⟨h1, h2⟩ := hq
  simp only [zero_mul, sub_zero, add_zero, zero_add] at h1 h2
  apply hp
  have a1 : (z - 1) * p.2 = 0 := by linarith
  have a2 : (z - 1) * p.1 = 0 := by linarith
  have hz' : z - 1 ≠ 0 := sub_ne_zero.2 hz1
  exact Prod.ext ((mul_eq_zero.1 a2).resolve_left hz') ((mul_eq_zero.1 a1).resolve_left hz')

/-- **C177** In mode 'from_first', a point is tracked exactly as long as the picture does not turn. -/
theorem C177_first_partial (w : World V) (dense : Bool) (fs : List (Im V)) (r t : List Tr) (d : Im V)
    (h : computed w .fromFirst dense fs = .ok (r, t)) (s : State V U) (hs : s.raw = some r) (pts : List (ℝ × ℝ))
    (out : List (List (ℝ × ℝ))) (ho : track s pts 0 = .ok out) (i : ℕ) (hi : i < pts.length) (pos : ℕ → ℝ × ℝ)
    (hpos : ∀ k, k + 1 < fs.length → ∃ a b, w.estimate (fs.getD 0 d) (fs.getD (k + 1) d) = some ⟨1, 0, a, b⟩ ∧
      (⟨1, 0, a, b⟩ : Mat).brings (pts.getD i (0, 0)) (pos (k + 1))) :
    ∀ k, k + 1 < fs.length → (out.getD i []).getD (k + 1) (0, 0) = pos (k + 1) := by
  intro k hk
  have hrun := C176_running w _ dense fs r t h
  have hda : ∀ k, k + 1 < fs.length → (t.getD k Tr.zero).da = 0 := by
    intro k hk
    obtain ⟨a, b, he, -⟩ := hpos k hk
    have hkept := C176_from_first w dense fs r t d h k hk
    rw [he] at hkept
    obtain ⟨-, -, h1, h2, h3, h4⟩ := hkept
    simp only [one_pow, ne_eq, OfNat.ofNat_ne_zero, not_false_eq_true, zero_pow, add_zero, Real.sqrt_one, one_mul] at h3 h4
    have := Real.sin_eq_zero_iff_of_lt_of_lt h1 (lt_of_le_of_ne h2 (fun he => by rw [he, Real.cos_pi] at h3; linarith))
    exact this.1 h4.symm
  have h0 : ∀ q ∈ r, q.da = 0 := by
    have hr : ∀ k < r.length, (r.getD k Tr.zero).da = 0 := by
      intro k hk
      have hk1 := (hrun.2.2 k hk).2.2
      rw [hda k (by omega)] at hk1
      cases k with
      | zero =>
        have : (r.take 1) = [r.getD 0 Tr.zero] := by
          cases r with
          | nil => simp at hk
          | cons a r => simp
        rw [this] at hk1; simpa using hk1.symm
      | succ k =>
        have hk2 := (hrun.2.2 k (by omega)).2.2
        rw [hda k (by omega)] at hk2
        rw [List.take_add_one, List.map_append, List.sum_append, ← hk2, zero_add, List.getElem?_eq_getElem hk] at hk1
        rw [List.getD_eq_getElem _ _ hk]
        simpa using hk1.symm
    intro q hq
    obtain ⟨k, hk, rfl⟩ := List.getElem_of_mem hq
    have := hr k hk
    rwa [List.getD_eq_getElem _ _ hk] at this
  rw [C177_translation w _ dense fs r t h h0 s hs pts out ho i hi k (by omega)]
  obtain ⟨a, b, he, hb⟩ := hpos k hk
  have hkept := C176_from_first w dense fs r t d h k hk
  rw [he] at hkept
  obtain ⟨h1, h2, -⟩ := hkept
  obtain ⟨h3, h4⟩ := hb
  refine Prod.ext ?_ ?_
  · simp only [h4, h2]; ring
  · simp only [h3, h1]; ring

/-- **C177** In mode 'from_first', if the picture is first shifted, then turned by any angle, no point is tracked to its place on the
third frame. -/
theorem C177_first_violated (w : World V) (f g k : Im V) (r t : List Tr) (h : computed w .fromFirst false [f, g, k] = .ok (r, t))
    (a b th : ℝ) (hab : (a, b) ≠ (0, 0)) (hth : -Real.pi < th) (hth' : th ≤ Real.pi) (hne : th ≠ 0)
    (hg : w.estimate f g = some ⟨1, 0, a, b⟩) (hk : w.estimate f k = some ⟨Real.cos th, Real.sin th, a, b⟩)
    (s : State V U) (hs : s.raw = some r) (p q : ℝ × ℝ) (out : List (List (ℝ × ℝ))) (ho : track s [p] 0 = .ok out)
    (hq : (⟨Real.cos th, Real.sin th, a, b⟩ : Mat).brings p q) : (out.getD 0 []).getD 2 (0, 0) ≠ q := by
  rw [track_get s r hs [p] out ho 0 (by simp)]
  obtain ⟨f', l, m, hfl, hm, hr⟩ := computed_ok w _ _ _ r t h
  simp only [List.cons.injEq] at hfl
  obtain ⟨rfl, rfl⟩ := hfl
  have hmv := moves_ok w _ [g, k] f m hm
  have hm0 : m = [trOf (some ⟨1, 0, a, b⟩), trOf (some ⟨Real.cos th, Real.sin th, a, b⟩)] := by
    obtain ⟨hl, hgt⟩ := hmv
    match m, hl with
    | [x, y], _ =>
      have h1 := hgt 0 (by simp)
      have h2 := hgt 1 (by simp)
      rw [if_neg (by decide)] at h1 h2
      simp only [List.getD_cons_zero, List.getD_cons_succ] at h1 h2
      rw [h1, h2, hg, hk]
  have t1 : trOf (some ⟨1, 0, a, b⟩) = ⟨a, b, 0⟩ := by
    simp only [trOf]
    have : (⟨1, 0⟩ : ℂ) = ((1 : ℝ) : ℂ) := rfl
    rw [this, Complex.arg_ofReal_of_nonneg zero_le_one]
  have t2 : trOf (some ⟨Real.cos th, Real.sin th, a, b⟩) = ⟨a, b, th⟩ := by
    simp only [trOf]
    have : (⟨Real.cos th, Real.sin th⟩ : ℂ) = Complex.cos th + Complex.sin th * Complex.I := by
      apply Complex.ext
      · simp [Complex.cos_ofReal_re]
      · simp [Complex.sin_ofReal_re]
    rw [this, Complex.arg_cos_add_sin_mul_I ⟨hth, hth'⟩]
  rw [t1, t2] at hm0
  subst hm0
  simp only [rawOf, Except.ok.injEq, Prod.mk.injEq] at hr
  have hr0 : r = [⟨a, b, 0⟩, ⟨0, 0, th⟩] := by
    rw [← hr.1]; simp [Tr.sub]
  rw [hr0]
  have htr : (trackFrom p [⟨a, b, 0⟩, ⟨0, 0, th⟩]).getD 2 (0, 0) =
      (Real.sin th * (p.2 + a) + Real.cos th * (p.1 + b), Real.cos th * (p.2 + a) - Real.sin th * (p.1 + b)) := by
    simp [trackFrom, trackStep]
  simp only [List.getD_cons_zero]
  rw [htr]
  rintro rfl
  obtain ⟨h1, h2⟩ := hq
  simp only at h1 h2
  have e1 : (Real.cos th - 1) * a - Real.sin th * b = 0 := by linarith
  have e2 : Real.sin th * a + (Real.cos th - 1) * b = 0 := by linarith
  have hc : Real.cos th ≠ 1 := by
    intro hc
    have := (Real.cos_eq_one_iff_of_lt_of_lt (by linarith [Real.pi_pos]) (by linarith [Real.pi_pos])).1 hc
    exact hne this
  have hsc := Real.sin_sq_add_cos_sq th
  have hdet : (Real.cos th - 1) ^ 2 + Real.sin th ^ 2 ≠ 0 := by
    have : 0 < (Real.cos th - 1) ^ 2 := by
      have := sub_ne_zero.2 hc
      positivity
    positivity
  have ea : ((Real.cos th - 1) ^ 2 + Real.sin th ^ 2) * a = 0 := by
    linear_combination (Real.cos th - 1) * e1 + Real.sin th * e2
  have eb : ((Real.cos th - 1) ^ 2 + Real.sin th ^ 2) * b = 0 := by
    linear_combination (-Real.sin th) * e1 + (Real.cos th - 1) * e2
  exact hab (Prod.ext ((mul_eq_zero.1 ea).resolve_left hdet) ((mul_eq_zero.1 eb).resolve_left hdet))

end IMT.Stab
