import Verif.Cp.MeanModel
import Verif.Points.Props
import Mathlib.Algebra.Order.BigOperators.Group.List
import Mathlib.Tactic.Linarith
import Mathlib.Tactic.FieldSimp
import Mathlib.Tactic.Positivity

/-!
Property C279: the points of mean trajectories, and what is associated to them.
-/

namespace IMT.Cp.MeanTraj

open IMT.Points

/-! ### lemmas -/

theorem mean_bounds {l : List Rat} (hl : l ≠ []) {a b : Rat} (h : ∀ x ∈ l, a ≤ x ∧ x ≤ b) : a ≤ mean l ∧ mean l ≤ b := by
  have hp : (0 : Rat) < l.length := by exact_mod_cast List.length_pos_of_ne_nil hl
  have h1 : l.length * a ≤ l.sum := by
    have := List.card_nsmul_le_sum l a fun x hx => (h x hx).1
    rwa [nsmul_eq_mul] at this
  have h2 : l.sum ≤ l.length * b := by
    have := List.sum_le_card_nsmul l b fun x hx => (h x hx).2
    rwa [nsmul_eq_mul] at this
  unfold mean
  exact ⟨by rw [le_div_iff₀ hp]; linarith, by rw [div_le_iff₀ hp]; linarith⟩

theorem var_nonneg (l : List Rat) : 0 ≤ var l := by
  unfold var
  by_cases hl : l = []
  · subst hl; simp [mean]
  · unfold mean
    refine div_nonneg (List.sum_nonneg ?_) (by positivity)
    intro x hx
    obtain ⟨y, -, rfl⟩ := List.mem_map.1 hx
    positivity

theorem steps_sorted (d : Int) (l : List Sample) : (steps d l).Pairwise (· < ·) := by
  have h1 : (steps d l).Pairwise (· ≤ ·) := List.pairwise_insertionSort _ _
  have h2 : (steps d l).Nodup := (List.perm_insertionSort _ _).nodup_iff.2 (List.nodup_dedup _)
  exact (h1.and h2).imp fun ⟨a, b⟩ => lt_of_le_of_ne a b

theorem mem_steps {d : Int} {l : List Sample} {t : Rat} : t ∈ steps d l ↔ ∃ s ∈ l, rnd d s.t = t := by
  unfold steps
  rw [(List.perm_insertionSort _ _).mem_iff, List.mem_dedup, List.mem_map]

theorem mem_average {d : Int} {m : Nat} {l : List Sample} {e : Entry} :
    e ∈ average d m l ↔ ∃ t ∈ steps d l, m ≤ (l.filter (near (norm2 l) t)).length ∧ e = entry t (l.filter (near (norm2 l) t)) := by
  unfold average
  rw [List.mem_filterMap]
  constructor
  · rintro ⟨t, ht, h⟩
    split at h
    · cases h
    · next hn => exact ⟨t, ht, not_lt.1 hn, (Option.some.inj h).symm⟩
  · rintro ⟨t, ht, hm, rfl⟩
    exact ⟨t, ht, if_neg (not_lt.2 hm)⟩

/-- The times of the points. -/
theorem average_times (d : Int) (m : Nat) (l : List Sample) :
    (average d m l).map Entry.t = (steps d l).filter fun t => decide (m ≤ (l.filter (near (norm2 l) t)).length) := by
  unfold average
  induction steps d l with
  | nil => rfl
  | cons t ts ih =>
    rw [List.filterMap_cons, List.filter_cons]
    by_cases h : (l.filter (near (norm2 l) t)).length < m
    · rw [if_pos h, ih]
      rw [if_neg (by simpa using h)]
    · rw [if_neg h, List.map_cons, ih]
      rw [if_pos (by simpa using h)]
      rfl

/-! ### C279: the points -/

/-- C279: the times of a mean trajectory are increasing; every point is the mean of samples of the group, at least as many as asked,
between the smallest and the largest of their coordinates, its deviations are theirs from it, and its real times are theirs. -/
theorem C279_points {d : Int} {m : Nat} (hm : 1 ≤ m) (l : List Sample) :
    ((average d m l).map Entry.t).Pairwise (· < ·) ∧
    ∀ e ∈ average d m l, ∃ f : List Sample, f.Sublist l ∧ m ≤ f.length ∧ e.rts = f.map Sample.rt ∧
      e.x * f.length = (f.map Sample.x).sum ∧ e.y * f.length = (f.map Sample.y).sum ∧ 0 ≤ e.vx ∧ 0 ≤ e.vy ∧
      e.vx * f.length = (f.map fun s => (s.x - e.x) ^ 2).sum ∧ e.vy * f.length = (f.map fun s => (s.y - e.y) ^ 2).sum ∧
      ∀ a b : Rat, ((∀ s ∈ f, a ≤ s.x ∧ s.x ≤ b) → a ≤ e.x ∧ e.x ≤ b) ∧ ((∀ s ∈ f, a ≤ s.y ∧ s.y ≤ b) → a ≤ e.y ∧ e.y ≤ b) := by
  refine ⟨by rw [average_times]; exact (steps_sorted d l).filter _, fun e he => ?_⟩
  obtain ⟨t, -, h2, rfl⟩ := mem_average.1 he
  generalize hf : l.filter (near (norm2 l) t) = f at h2
  have hne : f ≠ [] := fun h => by rw [h] at h2; simp at h2; omega
  have hp : (f.length : Rat) ≠ 0 := by have := List.length_pos_of_ne_nil hne; positivity
  refine ⟨f, hf ▸ List.filter_sublist, h2, rfl, ?_, ?_, var_nonneg _, var_nonneg _, ?_, ?_, fun a b => ⟨fun h => ?_, fun h => ?_⟩⟩
  · simp only [entry, mean, List.length_map]; field_simp
  · simp only [entry, mean, List.length_map]; field_simp
  · simp only [entry, var, mean, List.length_map, List.map_map, Function.comp_def]; rw [div_mul_cancel₀ _ hp]
  · simp only [entry, var, mean, List.length_map, List.map_map, Function.comp_def]; rw [div_mul_cancel₀ _ hp]
  · exact mean_bounds (by simpa using hne) fun x hx => by obtain ⟨s, hs, rfl⟩ := List.mem_map.1 hx; exact h s hs
  · exact mean_bounds (by simpa using hne) fun x hx => by obtain ⟨s, hs, rfl⟩ := List.mem_map.1 hx; exact h s hs

/-- C279: when rounding leaves each time within a millionth of the scale and further than that from the other ones, there is a point for each
time step that has enough samples, and for no other: the mean of all the samples of that step.
Partial: rounding can move times further than that, and the steps are lost (`C279_steps_violated`). -/
theorem C279_average_partial {d : Int} {m : Nat} (l : List Sample) (hn : norm2 l ≠ 0)
    (h1 : ∀ s ∈ l, (s.t - rnd d s.t) ^ 2 < norm2 l / 10 ^ 12)
    (h2 : ∀ s ∈ l, ∀ s' ∈ l, rnd d s.t ≠ rnd d s'.t → norm2 l / 10 ^ 12 ≤ (s'.t - rnd d s.t) ^ 2) :
    ∀ e, e ∈ average d m l ↔ ∃ s ∈ l, m ≤ (l.filter fun s' => rnd d s'.t = rnd d s.t).length ∧
      e = entry (rnd d s.t) (l.filter fun s' => rnd d s'.t = rnd d s.t) := by
  have key : ∀ s ∈ l, l.filter (near (norm2 l) (rnd d s.t)) = l.filter fun s' => rnd d s'.t = rnd d s.t := by
    intro s hs
    apply List.filter_congr
    intro s' hs'
    unfold near
    rw [decide_eq_decide]
    constructor
    · rintro ⟨-, h⟩
      by_contra hne
      exact absurd (h2 s hs s' hs' fun h => hne h.symm) (not_le.2 h)
    · intro h
      exact ⟨hn, h ▸ h1 s' hs'⟩
  intro e
  rw [mem_average]
  constructor
  · rintro ⟨t, ht, h3, rfl⟩
    obtain ⟨s, hs, rfl⟩ := mem_steps.1 ht
    rw [key s hs] at h3 ⊢
    exact ⟨s, hs, h3, rfl⟩
  · rintro ⟨s, hs, h3, rfl⟩
    exact ⟨_, mem_steps.2 ⟨s, hs, rfl⟩, by rw [key s hs]; exact h3, by rw [key s hs]⟩

/-- The number of decimals used when the mean square of the times lies between ten and a hundred. -/
theorem decimals_five {n2 : Rat} (h1 : 10 < n2) (h2 : n2 < 1000) {d : Int} (h : IsDecimals n2 d) : d = 5 := by
  obtain ⟨a, b⟩ := h
  have c1 : (10 : Rat) ^ (-2 * d - 1) < (10 : Rat) ^ (-9 : Int) := lt_of_le_of_lt a (by norm_num; linarith)
  have c2 : (10 : Rat) ^ (-11 : Int) < (10 : Rat) ^ (-2 * d + 1) := lt_of_lt_of_le (by norm_num; linarith) b
  rw [zpow_lt_zpow_iff_right₀ (by norm_num)] at c1 c2
  omega

/-- The trajectory of positions `px k`, `py k` at the times `k / 3`, for `k` from 0 to 17. -/
def thirds (px py : Nat → Rat) (t0 : Rat) : List Sample := (List.range 18).map fun k : Nat => ⟨(k : Rat) / 3, px k, py k, t0 + (k : Rat) / 3⟩

theorem thirds_times (px py : Nat → Rat) (t0 : Rat) : (thirds px py t0).map Sample.t = (List.range 18).map fun k : Nat => (k : Rat) / 3 := by
  unfold thirds
  rw [List.map_map]
  rfl

theorem near_length (n2 t : Rat) (l : List Sample) :
    (l.filter (near n2 t)).length = ((l.map Sample.t).filter fun x => decide (n2 ≠ 0 ∧ (x - t) ^ 2 < n2 / 10 ^ 12)).length := by
  rw [List.filter_map, List.length_map]
  rfl

/-- C279 fails: of a trajectory of eighteen points, three per unit of time, whatever the positions, a mean over one trajectory or more keeps
the six points at whole times only: the rounding of the other times is larger than the tolerance with which samples are looked for. -/
theorem C279_steps_violated (px py : Nat → Rat) (t0 : Rat) {d : Int} (hd : IsDecimals (norm2 (thirds px py t0)) d) :
    (average d 1 (thirds px py t0)).map Entry.t = [0, 1, 2, 3, 4, 5] := by
  have hn : norm2 (thirds px py t0) = 595 / 54 := by
    have e : norm2 (thirds px py t0) = (((thirds px py t0).map Sample.t).map fun x => x ^ 2).sum / (thirds px py t0).length := by
      unfold norm2; rw [List.map_map]; rfl
    rw [e, thirds_times]
    have : (thirds px py t0).length = 18 := by simp [thirds]
    rw [this]
    decide +kernel
  have hd5 : d = 5 := decimals_five (by rw [hn]; norm_num) (by rw [hn]; norm_num) hd
  subst hd5
  rw [average_times]
  have hs : steps 5 (thirds px py t0) = (((thirds px py t0).map Sample.t).map (rnd 5)).dedup.insertionSort (· ≤ ·) := by
    unfold steps; rw [List.map_map]; rfl
  simp only [near_length]
  rw [hs, hn, thirds_times]
  decide +kernel

/-! ### C279: the object -/

/-- One time, one list of real times and two standard deviations for each point. -/
def Whole (m : MT) : Prop :=
  m.pts.v.length = m.pts.xy.length ∧ m.times.length = m.pts.xy.length ∧ m.sx.length = m.pts.xy.length ∧ m.sy.length = m.pts.xy.length

/-- The points with their time, their real times and their standard deviations. -/
def MT.rows (m : MT) : List (((F × F) × Option F) × List Rat × Rat × Rat) := (Points.rows m.pts).zip (m.times.zip (m.sx.zip m.sy))

theorem cropWith_rows {m : MT} (h : Whole m) {mask : List Bool} (hm : mask.length = m.pts.xy.length) {last : P × Res PUnit}
    (hl : last = applyMask m.pts mask) :
    (cropWith m mask last).2 = .ok ⟨⟩ ∧ Whole (cropWith m mask last).1 ∧ (cropWith m mask last).1.rows = sel m.rows mask ∧ (cropWith m mask last).1.base = m.base := by
  obtain ⟨hv, ht, hx, hy⟩ := h
  have hal : Aligned m.pts := .inr hv
  obtain ⟨a1, a2, a3, a4⟩ := applyMask_rows hal hm
  unfold cropWith
  rw [if_neg (by omega), if_neg (by omega), if_neg (by omega), hl]
  have lx := sel_length m.pts.xy m.times mask hm.symm (by omega)
  have l1 := sel_length m.pts.xy m.sx mask hm.symm (by omega)
  have l2 := sel_length m.pts.xy m.sy mask hm.symm (by omega)
  have lv := sel_length m.pts.xy m.pts.v mask hm.symm (by omega)
  have hvv : (applyMask m.pts mask).1.v.length = (sel m.pts.xy mask).length := by
    unfold applyMask
    by_cases h0 : m.pts.v = []
    · rw [if_pos h0]
      simp only [h0, List.length_nil]
      rw [lv, h0]
      simp [sel]
    · rw [if_neg h0, if_neg (by omega)]
      exact lv.symm
  refine ⟨a1, ⟨by simp only [a4, hvv], by simp only [a4, lx], by simp only [a4, l1], by simp only [a4, l2]⟩, ?_, rfl⟩
  unfold MT.rows
  simp only [a3]
  have hr := rows_length hal
  rw [sel_zip m.sx m.sy mask (by omega) (by omega), sel_zip m.times (m.sx.zip m.sy) mask (by omega) (by simp only [List.length_zip]; omega),
    sel_zip (rows m.pts) (m.times.zip (m.sx.zip m.sy)) mask (by omega) (by simp only [List.length_zip]; omega)]

theorem sel_fst {α β : Type} (l : List α) (k : List β) (f : α → Bool) (h : l.length = k.length) :
    sel (l.zip k) (l.map f) = (l.zip k).filter fun q => !f q.1 := by
  have : l.map f = (l.zip k).map fun q => f q.1 := by
    have e : l = (l.zip k).map Prod.fst := by rw [List.map_fst_zip (by omega)]
    conv_lhs => rw [e]
    rw [List.map_map]; rfl
  rw [this, sel_map]

/-- C279: cropping a mean trajectory keeps exactly the points that are not outside the windows, each with its time, its real times and its
standard deviations; the base trajectories stay the same.  (As for all points, a NaN is in every window: `C25_nan_violated`.) -/
theorem C279_crop {m : MT} (h : Whole m) (ix iy it : Option (Rat × Rat)) :
    (crop m ix iy it).2 = .ok ⟨⟩ ∧ Whole (crop m ix iy it).1 ∧ (crop m ix iy it).1.base = m.base ∧
    ∃ keep : (F × F) × Option F → Bool, (∀ r, keep r = true ↔ Inside ix iy it r) ∧ (crop m ix iy it).1.rows = m.rows.filter fun q => keep q.1 := by
  have hal : Aligned m.pts := .inr h.1
  have hmask : maskOf m.pts ix iy it = .ok (cropMask m.pts ix iy it) := by
    unfold maskOf
    rw [if_neg]
    rintro ⟨-, h2⟩
    exact h2 h.1
  unfold crop
  rw [hmask]
  dsimp only
  obtain ⟨c1, c2, c3, c4⟩ := cropWith_rows h (cropMask_length hal ix iy it) (crop_aligned_eq hal ix iy it)
  refine ⟨c1, c2, c4, keepRow ix iy it, keepRow_iff ix iy it, ?_⟩
  rw [c3, cropMask_rows]
  unfold MT.rows
  rw [sel_fst]
  · simp
  · rw [rows_length hal]; simp [h.2.1, h.2.2.1, h.2.2.2]

/-- C279: by indices, the points `a`, ..., `b - 1` are kept. -/
theorem C279_crop_ind {m : MT} (h : Whole m) (a b : Nat) :
    (cropInd m a b).2 = .ok ⟨⟩ ∧ Whole (cropInd m a b).1 ∧ (cropInd m a b).1.base = m.base ∧ (cropInd m a b).1.rows = slice m.rows a b := by
  unfold cropInd Points.cropInd
  obtain ⟨c1, c2, c3, c4⟩ := cropWith_rows h (mask := (List.range m.pts.xy.length).map fun k => decide (¬ (a ≤ k ∧ k < b))) (by simp) rfl
  refine ⟨c1, c2, c4, ?_⟩
  have hl : m.rows.length = m.pts.xy.length := by
    unfold MT.rows
    have := rows_length (p := m.pts) (.inr h.1)
    simp [this, h.2.1, h.2.2.1, h.2.2.2]
  rw [c3, ← hl, List.range_eq_range', sel_range]
  have := slice_spec m.rows a b 0
  simp only [Nat.sub_zero] at this
  rw [← this]
  congr 2
  funext q
  simp only [decide_not, Bool.not_not]

/-- The row of a point after a scaling. -/
def scaleRow (sx sy st : Rat) (q : ((F × F) × Option F) × List Rat × Rat × Rat) : ((F × F) × Option F) × List Rat × Rat × Rat :=
  (((q.1.1.1.map (· * sx), q.1.1.2.map (· * sy)), q.1.2.map (Option.map (· * st))), q.2.1.map (· * st), q.2.2.1 * sx, q.2.2.2 * sy)

/-- C279: scaling a mean trajectory scales each point with its times and its standard deviations, and its base trajectories; the standard
deviations stay positive for positive factors.
Partial: for negative factors they become negative (`C279_negative_violated`). -/
theorem C279_scale_partial {m : MT} (h : Whole m) (store : Nat → P) (sx sy st : Rat) :
    Whole (scale store m sx sy st).2 ∧ (scale store m sx sy st).2.rows = m.rows.map (scaleRow sx sy st) ∧
    (m.base.Nodup → ∀ i, (scale store m sx sy st).1 i = if i ∈ m.base then Points.scale (store i) sx sy st else store i) ∧
    (0 ≤ sx → 0 ≤ sy → (∀ s ∈ m.sx ++ m.sy, 0 ≤ s) → ∀ s ∈ (scale store m sx sy st).2.sx ++ (scale store m sx sy st).2.sy, 0 ≤ s) := by
  refine ⟨?_, ?_, ?_, ?_⟩
  · obtain ⟨h1, h2, h3, h4⟩ := h
    simp only [Whole, scale, Points.scale, List.length_map]
    exact ⟨h1, h2, h3, h4⟩
  · unfold MT.rows scale
    have e : Points.rows (Points.scale m.pts sx sy st) = (Points.rows m.pts).map fun r => ((r.1.1.map (· * sx), r.1.2.map (· * sy)), r.2.map (Option.map (· * st))) := by
      unfold Points.rows Points.scale
      by_cases hv : m.pts.v = []
      · simp [hv]
      · rw [if_neg hv, if_neg (by simpa using hv), List.map_zipWith, List.zipWith_map]
        rfl
    simp only [e]
    rw [List.zip_map, List.zip_map, List.zip_map]
    apply List.map_congr_left
    intro q _
    rfl
  · intro hnd i
    have key : ∀ (is : List Nat) (st' : Nat → P), is.Nodup → scaleBase st' sx sy st is i = if i ∈ is then Points.scale (st' i) sx sy st else st' i := by
      intro is
      induction is with
      | nil => intro st' _; simp [scaleBase]
      | cons j is ih =>
        intro st' hn
        rw [List.nodup_cons] at hn
        unfold scaleBase
        rw [ih _ hn.2]
        by_cases hij : i = j
        · subst hij
          rw [if_neg hn.1]
          simp
        · simp [hij]
    exact key m.base store hnd
  · intro hx hy hs s hm
    simp only [scale, List.mem_append, List.mem_map] at hm
    rcases hm with ⟨a, ha, rfl⟩ | ⟨a, ha, rfl⟩
    · exact mul_nonneg (hs a (by simp [ha])) hx
    · exact mul_nonneg (hs a (by simp [ha])) hy

/-- C279 fails for negative factors: every standard deviation that is not null becomes negative. -/
theorem C279_negative_violated (m : MT) (store : Nat → P) {sx : Rat} (sy st : Rat) (hx : sx < 0) (hs : ∀ s ∈ m.sx, 0 < s) :
    ∀ s ∈ (scale store m sx sy st).2.sx, s < 0 := by
  intro s h
  simp only [scale, List.mem_map] at h
  obtain ⟨a, ha, rfl⟩ := h
  exact mul_neg_of_pos_of_neg (hs a ha) hx

/-- C279 fails for the in place scaling: the base trajectories are the objects of the set of critical points, and every one of them that has
a point with an abscissa other than zero changes there too. -/
theorem C279_inplace_violated (m : MT) (store : Nat → P) {sx : Rat} (sy st : Rat) (hx : sx ≠ 1) (hnd : m.base.Nodup) {i : Nat} (hi : i ∈ m.base)
    {x : Rat} {y : F} (hp : (some x, y) ∈ (store i).xy) (hx0 : x ≠ 0) : (scale store m sx sy st).1 i ≠ store i := by
  have e : (scale store m sx sy st).1 i = Points.scale (store i) sx sy st := by
    have key : ∀ (is : List Nat) (st' : Nat → P), i ∉ is → scaleBase st' sx sy st is i = st' i := by
      intro is
      induction is with
      | nil => intro st' _; rfl
      | cons j is ih =>
        intro st' hn
        rw [List.mem_cons, not_or] at hn
        unfold scaleBase
        rw [ih _ hn.2, if_neg hn.1]
    have key2 : ∀ (is : List Nat) (st' : Nat → P), is.Nodup → i ∈ is → scaleBase st' sx sy st is i = Points.scale (st' i) sx sy st := by
      intro is
      induction is with
      | nil => intro st' _ h; cases h
      | cons j is ih =>
        intro st' hn hm
        rw [List.nodup_cons] at hn
        unfold scaleBase
        rcases List.mem_cons.1 hm with rfl | hm
        · rw [key _ _ hn.1, if_pos rfl]
        · have hij : i ≠ j := fun h => hn.1 (h ▸ hm)
          rw [ih _ hn.2 hm, if_neg hij]
    exact key2 m.base store hnd hi
  rw [e]
  intro heq
  have hxy := congrArg P.xy heq
  simp only [Points.scale] at hxy
  have := List.map_eq_iff.1 hxy
  obtain ⟨k, hk, hke⟩ := List.mem_iff_getElem.1 hp
  have hk2 := this k
  rw [List.getElem?_eq_getElem hk, hke] at hk2
  simp only [Option.map_some, Option.some.injEq, Prod.mk.injEq] at hk2
  have h3 : x = x * sx := hk2.1
  have : x * (sx - 1) = 0 := by linarith
  rcases mul_eq_zero.1 this with h | h
  · exact hx0 h
  · exact hx (by linarith)

/-- C279 fails for removed points: the times and the standard deviations of the removed points stay, so that nothing is aligned any more. -/
theorem C279_remove_violated {m : MT} (h : Whole m) {i : Nat} (hi : i < m.pts.xy.length) : ¬ Whole (remove m [(i : Int)]).1 := by
  intro hw
  have h1 := hw.2.1
  have ht : (remove m [(i : Int)]).1.times = m.times := rfl
  have hxy : (remove m [(i : Int)]).1.pts.xy = deleteAll m.pts.xy [(i : Int)] := by
    unfold remove Points.remove
    rw [if_pos (by unfold inRange; simp; omega)]
    dsimp only
    split
    · split
      · next hq =>
        unfold setV at hq
        split at hq
        · cases hq; rfl
        · cases hq
      · rfl
    · rfl
  rw [ht, hxy, h.2.1] at h1
  have hlt : (deleteAll m.pts.xy [(i : Int)]).length < m.pts.xy.length := by
    unfold deleteAll
    rw [List.length_map]
    refine lt_of_lt_of_le (List.length_filter_lt_length_iff_exists.2 ⟨(m.pts.xy[i], i), ?_, by simp⟩) (by simp)
    rw [List.mem_zipIdx_iff_getElem?]
    simp [hi]
  omega

/-- C279 fails for sorted points: a mean trajectory sorted on `x` keeps its real times and standard deviations in the old order.  For two
points, the second further left, the first point gets those of the second one. -/
theorem C279_sort_violated (a b : Rat) (y1 y2 t1 t2 : Rat) (r1 r2 : List Rat) (s1 s2 u1 u2 : Rat) (ux uy ut : Sym) (base : List Nat) (hab : b < a) :
    (sort ⟨⟨[(some a, some y1), (some b, some y2)], [some t1, some t2], ux, uy, ut⟩, [r1, r2], [s1, s2], [u1, u2], base⟩ .x).1.rows =
      [(((some b, some y2), some (some t2)), r1, s1, u1), (((some a, some y1), some (some t1)), r2, s2, u2)] := by
  have hab' : ¬ a ≤ b := not_le.2 hab
  have e : argsort [some a, some b] = [1, 0] := by
    unfold argsort
    simp only [List.length_cons, List.length_nil, List.range_succ, List.range_zero, List.nil_append, List.cons_append, List.insertionSort, List.foldr_cons, List.foldr_nil, List.orderedInsert]
    rw [if_neg]
    simp [leF, hab]
  have e2 : key ⟨[(some a, some y1), (some b, some y2)], [some t1, some t2], ux, uy, ut⟩ .x = [some a, some b] := rfl
  unfold MT.rows sort Points.sort
  rw [e2, e]
  simp [setXY, take, Points.rows]

/-! ### the hypotheses are met -/

/-- Two trajectories with whole times: the hypotheses of `C279_average_partial`, with four decimals less than the exponent of the scale. -/
example : let l : List Sample := [⟨0, 1, 1, 5⟩, ⟨1, 2, 1, 6⟩, ⟨0, 3, 1, 7⟩, ⟨1, 4, 1, 8⟩]
    norm2 l ≠ 0 ∧ IsDecimals (norm2 l) 6 ∧ (∀ s ∈ l, (s.t - rnd 6 s.t) ^ 2 < norm2 l / 10 ^ 12) ∧
      (∀ s ∈ l, ∀ s' ∈ l, rnd 6 s.t ≠ rnd 6 s'.t → norm2 l / 10 ^ 12 ≤ (s'.t - rnd 6 s.t) ^ 2) ∧
      average 6 2 l = [⟨0, 2, 1, 1, 0, [5, 7]⟩, ⟨1, 3, 1, 1, 0, [6, 8]⟩] := by
  refine ⟨by decide +kernel, ⟨by norm_num [norm2], by norm_num [norm2]⟩, by decide +kernel, by decide +kernel, by decide +kernel⟩

/-- The number of decimals in the case of `C279_steps_violated` exists. -/
example : IsDecimals (595 / 54) 5 := by constructor <;> norm_num

/-- A mean trajectory of two points, cropped. -/
example : Whole ⟨⟨[(some 0, some 1), (some 2, some 3)], [some 0, some 1], .one, .one, .one⟩, [[5, 7], [6, 8]], [1, 2], [0, 1], [0, 3]⟩ ∧
    (crop ⟨⟨[(some 0, some 1), (some 2, some 3)], [some 0, some 1], .one, .one, .one⟩, [[5, 7], [6, 8]], [1, 2], [0, 1], [0, 3]⟩ (some (1, 4)) none none).1.rows =
      [(((some 2, some 3), some (some 1)), [6, 8], 2, 1)] := by
  refine ⟨⟨rfl, rfl, rfl, rfl⟩, by decide +kernel⟩

end IMT.Cp.MeanTraj
