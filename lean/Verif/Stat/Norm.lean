import Verif.Stat.Hist
import Verif.Scalar.ArithModel
import Mathlib.Analysis.MeanInequalities

/-! C193: the norm of a scalar field. -/

namespace IMT.Stat

/-! ### specification -/

/-- `a` is the value that the field shows at each grid point, zero where it shows none. -/
def Shown (f : SF) (a : Rat × Rat → ℝ) : Prop := ∀ x y v, f.Reads x y v → a (x, y) = ((v.getD 0 : Rat) : ℝ)

/-- The norm of order `p` of the values `a` at the grid points of the field. -/
noncomputable def size (f : SF) (p : ℝ) (a : Rat × Rat → ℝ) : ℝ :=
  (∑ q ∈ f.ax.toFinset ×ˢ f.ay.toFinset, |a q| ^ p) ^ (1 / p)

/-! ### lemmas -/

theorem sum_positions' (l : List Rat) (hl : Inc l) (g : Nat → ℝ) (h : Rat → ℝ) (hg : ∀ i (hi : i < l.length), g i = h l[i]) :
    ((List.range l.length).map g).sum = ∑ x ∈ l.toFinset, h x := by
  rw [List.sum_toFinset _ (List.Pairwise.imp (fun h => ne_of_lt h) hl)]
  congr 1
  apply List.ext_getElem
  · simp
  · intro k h1 h2
    simp only [List.getElem_map, List.getElem_range]
    exact hg k (by simpa using h2)

theorem sum_filterMap (w : Rat → ℝ) (l : List (Option Rat)) :
    ((l.filterMap id).map w).sum = (l.map fun v => (v.map w).getD 0).sum := by
  induction l with
  | nil => rfl
  | cons v l ih =>
    cases v with
    | none => rw [List.filterMap_cons_none rfl, ih]; simp
    | some v => rw [List.filterMap_cons_some (f := id) (b := v) rfl, List.map_cons, List.sum_cons, ih]; simp

theorem sum_flatMap {α : Type} (g : α → List (Option Rat)) (w : Option Rat → ℝ) (l : List α) :
    ((l.flatMap g).map w).sum = (l.map fun a => ((g a).map w).sum).sum := by
  induction l with
  | nil => rfl
  | cons a l ih => simp [List.flatMap_cons, ih]

theorem sum_seen {f : SF} (hf : f.WF) (w : Rat → ℝ) (b : Rat × Rat → ℝ) (hb : ∀ x y v, f.Reads x y v → b (x, y) = (v.map w).getD 0) :
    ((seen f).map w).sum = ∑ q ∈ f.ax.toFinset ×ˢ f.ay.toFinset, b q := by
  unfold seen flat
  rw [sum_filterMap, sum_flatMap, Finset.sum_product]
  apply sum_positions' _ hf.incx _ (fun x => ∑ y ∈ f.ay.toFinset, b (x, y))
  intro i hi
  rw [List.map_map]
  apply sum_positions' _ hf.incy _ (fun y => b (f.ax[i], y))
  intro j hj
  exact (hb _ _ _ ⟨i, j, List.getElem?_eq_getElem hi, List.getElem?_eq_getElem hj, rfl⟩).symm

theorem sum_nonneg (p : ℝ) (l : List Rat) : 0 ≤ (l.map fun v : Rat => |(v : ℝ)| ^ p).sum :=
  List.sum_nonneg (by
    intro a ha
    obtain ⟨v, -, rfl⟩ := List.mem_map.1 ha
    positivity)

theorem length_seen {f : SF} (hf : f.WF) : (seen f).length = number f (fun _ => True) := by
  rw [← countP_seen hf (fun _ => True) (fun _ => true) (fun _ => by simp)]
  simp

/-! ### C193 -/

/-- **C193** The norm is the norm of order `p` of the unmasked values; divided, on demand, by their number. -/
theorem C193_norm {f : SF} (hf : f.WF) (p : ℝ) (hp : 0 < p) (a : Rat × Rat → ℝ) (ha : Shown f a) :
    norm f p false = size f p a ∧ norm f p true = size f p a / number f (fun _ => True) := by
  have h : ((seen f).map fun v : Rat => |(v : ℝ)| ^ p).sum = ∑ q ∈ f.ax.toFinset ×ˢ f.ay.toFinset, |a q| ^ p := by
    refine sum_seen hf _ (fun q => |a q| ^ p) (fun x y v hv => ?_)
    show |a (x, y)| ^ p = _
    rw [ha x y v hv]
    cases v with
    | none => simp [Real.zero_rpow hp.ne']
    | some v => rfl
  constructor
  · unfold norm size
    rw [if_neg (by simp), h]
  · unfold norm size
    rw [if_pos rfl, h, length_seen hf]

/-- **C193** The norm is not negative, and it is zero only when all the unmasked values are. -/
theorem C193_zero (f : SF) (p : ℝ) (hp : 0 < p) (perPoint : Bool) :
    0 ≤ norm f p perPoint ∧ (norm f p perPoint = 0 ↔ ∀ x y v, f.Reads x y (some v) → v = 0) := by
  have h0 := sum_nonneg p (seen f)
  have hz : (((seen f).map fun v : Rat => |(v : ℝ)| ^ p).sum) ^ (1 / p) = 0 ↔ ∀ v ∈ seen f, v = 0 := by
    rw [Real.rpow_eq_zero h0 (by positivity)]
    constructor
    · intro h v hv
      have := List.single_le_sum (l := (seen f).map fun v : Rat => |(v : ℝ)| ^ p) (by
        intro a ha
        obtain ⟨v, -, rfl⟩ := List.mem_map.1 ha
        positivity) _ (List.mem_map_of_mem hv)
      rw [h] at this
      have h2 : |(v : ℝ)| ^ p = 0 := le_antisymm this (by positivity)
      rw [Real.rpow_eq_zero (abs_nonneg _) hp.ne', abs_eq_zero] at h2
      exact_mod_cast h2
    · intro h
      have : (seen f).map (fun v : Rat => |(v : ℝ)| ^ p) = (seen f).map fun _ => 0 := by
        apply List.map_congr_left
        intro v hv
        rw [h v hv]
        simp [Real.zero_rpow hp.ne']
      rw [this]
      simp
  have hall : (∀ v ∈ seen f, v = 0) ↔ ∀ x y v, f.Reads x y (some v) → v = 0 := by
    constructor
    · intro h x y v hv
      exact h v ((mem_seen v).2 ⟨x, y, hv⟩)
    · intro h v hv
      obtain ⟨x, y, hv⟩ := (mem_seen v).1 hv
      exact h x y v hv
  unfold norm
  cases perPoint with
  | false =>
    rw [if_neg (by simp)]
    exact ⟨Real.rpow_nonneg h0 _, hz.trans hall⟩
  | true =>
    rw [if_pos rfl]
    refine ⟨div_nonneg (Real.rpow_nonneg h0 _) (Nat.cast_nonneg _), ?_⟩
    rw [div_eq_zero_iff, hz, hall]
    constructor
    · rintro (h | h)
      · exact h
      · rw [← hall]
        have : seen f = [] := List.length_eq_zero_iff.1 (by exact_mod_cast h)
        simp [this]
    · exact Or.inl

/-- **C193** No unmasked value is larger than the norm. -/
theorem C193_bound (f : SF) (p : ℝ) (hp : 0 < p) (x y v : Rat) (hv : f.Reads x y (some v)) : |(v : ℝ)| ≤ norm f p false := by
  have := List.single_le_sum (l := (seen f).map fun v : Rat => |(v : ℝ)| ^ p) (by
    intro a ha
    obtain ⟨v, -, rfl⟩ := List.mem_map.1 ha
    positivity) _ (List.mem_map_of_mem ((mem_seen v).2 ⟨x, y, hv⟩))
  unfold norm
  rw [if_neg (by simp)]
  calc |(v : ℝ)| = (|(v : ℝ)| ^ p) ^ (1 / p) := by
        rw [← Real.rpow_mul (abs_nonneg _), mul_one_div_cancel hp.ne', Real.rpow_one]
    _ ≤ _ := Real.rpow_le_rpow (by positivity) this (by positivity)

/-- **C193** Multiplying the field by a number multiplies its norm by its absolute value. -/
theorem C193_scale (f : SF) (p : ℝ) (hp : 0 < p) (perPoint : Bool) (q : Rat) :
    norm (f.mulNum q) p perPoint = |(q : ℝ)| * norm f p perPoint := by
  have hs : seen (f.mulNum q) = (seen f).map (· * q) := by
    have hc : ∀ i j, (f.mulNum q).cell i j = (f.cell i j).map (· * q) := by
      intro i j
      simp only [SF.mulNum, SF.setMask, SF.setValues, SF.cell, SF.values, Grid.map]
      split_ifs <;> rfl
    unfold seen flat
    rw [List.map_filterMap]
    show List.filterMap id ((List.range f.ax.length).flatMap fun i => (List.range f.ay.length).map fun j => (f.mulNum q).cell i j) = _
    simp only [hc]
    rw [show (fun i => (List.range f.ay.length).map fun j => (f.cell i j).map (· * q)) =
      fun i => ((List.range f.ay.length).map fun j => f.cell i j).map (Option.map (· * q)) from by
        funext i; rw [List.map_map]; rfl, ← List.map_flatMap, List.filterMap_map]
    rfl
  have h : ((seen (f.mulNum q)).map fun v : Rat => |(v : ℝ)| ^ p).sum =
      |(q : ℝ)| ^ p * ((seen f).map fun v : Rat => |(v : ℝ)| ^ p).sum := by
    rw [hs, List.map_map, ← List.sum_map_mul_left]
    congr 1
    apply List.map_congr_left
    intro v _
    simp only [Function.comp]
    push_cast
    rw [abs_mul, Real.mul_rpow (abs_nonneg _) (abs_nonneg _), mul_comm]
  have hl : (seen (f.mulNum q)).length = (seen f).length := by rw [hs, List.length_map]
  have hr : (|(q : ℝ)| ^ p * ((seen f).map fun v : Rat => |(v : ℝ)| ^ p).sum) ^ (1 / p) =
      |(q : ℝ)| * (((seen f).map fun v : Rat => |(v : ℝ)| ^ p).sum) ^ (1 / p) := by
    rw [Real.mul_rpow (by positivity) (sum_nonneg p _), ← Real.rpow_mul (abs_nonneg _), mul_one_div_cancel hp.ne', Real.rpow_one]
  unfold norm
  rw [h, hr, hl]
  cases perPoint
  · simp
  · simp only [if_true]; ring

open Classical in
/-- The value shown at a point. -/
noncomputable def look (f : SF) (q : Rat × Rat) : ℝ := if h : ∃ v, f.Reads q.1 q.2 (some v) then ((h.choose : Rat) : ℝ) else 0

theorem look_shown {f : SF} (hf : f.WF) : Shown f (look f) := by
  intro x y v hv
  have uniq : ∀ u, f.Reads x y u → u = v := by
    rintro u ⟨i, j, e1, e2, e3⟩
    obtain ⟨i', j', e1', e2', e3'⟩ := hv
    rw [← e3, ← e3', hf.incx.idx_inj' e1 e1', hf.incy.idx_inj' e2 e2']
  unfold look
  by_cases h : ∃ u, f.Reads x y (some u)
  · rw [dif_pos h, ← uniq _ h.choose_spec]; rfl
  · rw [dif_neg h]
    cases v with
    | none => simp
    | some v => exact absurd ⟨v, hv⟩ h

theorem reads_of_mem {f : SF} {x y : Rat} (hx : x ∈ f.ax) (hy : y ∈ f.ay) : ∃ v, f.Reads x y v := by
  obtain ⟨i, hi⟩ := List.mem_iff_getElem?.1 hx
  obtain ⟨j, hj⟩ := List.mem_iff_getElem?.1 hy
  exact ⟨_, i, j, hi, hj, rfl⟩

/-- **C193** The norm of order at least 1 of a sum of fields is at most the sum of their norms (the sum shows a value where both fields do). -/
theorem C193_triangle {f g h : SF} (hf : f.WF) (hg : g.WF) (hh : h.WF) (hx : g.ax = f.ax ∧ h.ax = f.ax) (hy : g.ay = f.ay ∧ h.ay = f.ay)
    (hsum : ∀ x y a b, f.Reads x y a → g.Reads x y b → h.Reads x y (plus a b)) (p : ℝ) (hp : 1 ≤ p) :
    norm h p false ≤ norm f p false + norm g p false := by
  have hp0 : 0 < p := lt_of_lt_of_le one_pos hp
  rw [(C193_norm hf p hp0 _ (look_shown hf)).1, (C193_norm hg p hp0 _ (look_shown hg)).1, (C193_norm hh p hp0 _ (look_shown hh)).1]
  unfold size
  rw [hx.1, hx.2, hy.1, hy.2]
  refine le_trans (Real.rpow_le_rpow (Finset.sum_nonneg fun q _ => by positivity) (Finset.sum_le_sum fun q hq => ?_) (by positivity))
    (Real.Lp_add_le _ (look f) (look g) hp)
  rw [Finset.mem_product, List.mem_toFinset, List.mem_toFinset] at hq
  obtain ⟨a, ha⟩ := reads_of_mem hq.1 hq.2
  obtain ⟨b, hb⟩ := reads_of_mem (f := g) (x := q.1) (y := q.2) (by rw [hx.1]; exact hq.1) (by rw [hy.1]; exact hq.2)
  refine Real.rpow_le_rpow (abs_nonneg _) ?_ hp0.le
  rw [show look h q = _ from look_shown hh _ _ _ (hsum _ _ a b ha hb), show look f q = _ from look_shown hf _ _ _ ha,
    show look g q = _ from look_shown hg _ _ _ hb]
  cases a with
  | none => simp [plus]
  | some a =>
    cases b with
    | none => simp [plus]
    | some b => simp [plus]

/-- **C193** So it is for the norms per point when the two fields are masked at the same points. -/
theorem C193_triangle_perpoint {f g h : SF} (hf : f.WF) (hg : g.WF) (hh : h.WF) (hx : g.ax = f.ax ∧ h.ax = f.ax)
    (hy : g.ay = f.ay ∧ h.ay = f.ay) (hsum : ∀ x y a b, f.Reads x y a → g.Reads x y b → h.Reads x y (plus a b))
    (hm : ∀ x y, f.Reads x y none ↔ g.Reads x y none) (p : ℝ) (hp : 1 ≤ p) :
    norm h p true ≤ norm f p true + norm g p true := by
  have hp0 : 0 < p := lt_of_lt_of_le one_pos hp
  have ht := C193_triangle hf hg hh hx hy hsum p hp
  have uniq : ∀ {f : SF}, f.WF → ∀ {x y u v}, f.Reads x y u → f.Reads x y v → u = v := by
    rintro f hf x y u v ⟨i, j, e1, e2, e3⟩ ⟨i', j', e1', e2', e3'⟩
    rw [← e3, ← e3', hf.incx.idx_inj' e1 e1', hf.incy.idx_inj' e2 e2']
  have hiff : ∀ x ∈ f.ax, ∀ y ∈ f.ay, ((∃ v, f.Reads x y (some v) ∧ True) ↔ ∃ v, g.Reads x y (some v) ∧ True) ∧
      ((∃ v, f.Reads x y (some v) ∧ True) ↔ ∃ v, h.Reads x y (some v) ∧ True) := by
    intro x hxm y hym
    obtain ⟨a, ha⟩ := reads_of_mem hxm hym
    obtain ⟨b, hb⟩ := reads_of_mem (f := g) (x := x) (y := y) (by rw [hx.1]; exact hxm) (by rw [hy.1]; exact hym)
    have hc := hsum _ _ _ _ ha hb
    cases a with
    | none =>
      have hb2 := (hm x y).1 ha
      rw [uniq hg hb hb2] at hc
      refine ⟨⟨?_, ?_⟩, ⟨?_, ?_⟩⟩
      · rintro ⟨v, h1, -⟩; exact absurd (uniq hf ha h1) (by simp)
      · rintro ⟨v, h1, -⟩; exact absurd (uniq hg hb2 h1) (by simp)
      · rintro ⟨v, h1, -⟩; exact absurd (uniq hf ha h1) (by simp)
      · rintro ⟨v, h1, -⟩; exact absurd (uniq hh hc h1) (by simp [plus])
    | some a =>
      cases b with
      | none => exact absurd (uniq hf ha ((hm x y).2 hb)) (by simp)
      | some b => exact ⟨⟨fun _ => ⟨b, hb, trivial⟩, fun _ => ⟨a, ha, trivial⟩⟩, ⟨fun _ => ⟨_, hc, trivial⟩, fun _ => ⟨a, ha, trivial⟩⟩⟩
  have hn : number g (fun _ => True) = number f (fun _ => True) ∧ number h (fun _ => True) = number f (fun _ => True) := by
    unfold number
    rw [hx.1, hx.2, hy.1, hy.2]
    classical
    constructor
    · refine congrArg Finset.card (Finset.filter_congr fun q hq => ?_)
      rw [Finset.mem_product, List.mem_toFinset, List.mem_toFinset] at hq
      exact (hiff _ hq.1 _ hq.2).1.symm
    · refine congrArg Finset.card (Finset.filter_congr fun q hq => ?_)
      rw [Finset.mem_product, List.mem_toFinset, List.mem_toFinset] at hq
      exact (hiff _ hq.1 _ hq.2).2.symm
  have hpp : ∀ {f : SF}, f.WF → norm f p true = norm f p false / number f (fun _ => True) := fun hf => by
    rw [(C193_norm hf p hp0 _ (look_shown hf)).1, (C193_norm hf p hp0 _ (look_shown hf)).2]
  rw [hpp hf, hpp hg, hpp hh, hn.1, hn.2, ← add_div]
  exact div_le_div_of_nonneg_right ht (Nat.cast_nonneg _)

/-- **C193** But the norm per point of a field depends on how fine its grid is: for a constant field it is not the constant, and it tends to zero
with the number of points. -/
theorem C193_perpoint_violated {f : SF} (hf : f.WF) (p : ℝ) (hp : 0 < p) (c : Rat) (hc : ∀ x y v, f.Reads x y v → v = some c) :
    norm f p true = |(c : ℝ)| * ((f.ax.length * f.ay.length : ℕ) : ℝ) ^ (1 / p - 1) := by
  have hs : seen f = List.replicate (f.ax.length * f.ay.length) c := by
    have hfl : flat f = List.replicate (f.ax.length * f.ay.length) (some c) := by
      rw [List.eq_replicate_iff]
      constructor
      · unfold flat
        rw [List.length_flatMap]
        simp
      · intro v hv
        obtain ⟨x, y, h⟩ := (mem_flat v).1 hv
        exact hc x y v h
    unfold seen
    rw [hfl]
    have : ∀ n : Nat, (List.replicate n (some c)).filterMap id = List.replicate n c := by
      intro n
      induction n with
      | zero => rfl
      | succ n ih => rw [List.replicate_succ, List.filterMap_cons_some (f := id) (b := c) rfl, ih, List.replicate_succ]
    exact this _
  have hn : 0 < ((f.ax.length * f.ay.length : ℕ) : ℝ) := by
    have := List.length_pos_iff.2 hf.nex
    have := List.length_pos_iff.2 hf.ney
    positivity
  unfold norm
  rw [if_pos rfl, hs, List.map_replicate, List.sum_replicate, List.length_replicate, nsmul_eq_mul, Real.mul_rpow hn.le (by positivity),
    ← Real.rpow_mul (abs_nonneg _), mul_one_div_cancel hp.ne', Real.rpow_one, Real.rpow_sub hn, Real.rpow_one]
  ring

/-! ### concrete cases -/

theorem demo_shown : ∃ a, Shown Line.demo a := ⟨_, look_shown Line.demo_WF⟩

-- twice a field is the sum of the field and itself
example (p : ℝ) (hp : 1 ≤ p) : norm (Line.demo.mulNum 2) p true ≤ norm Line.demo p true + norm Line.demo p true :=
  C193_triangle_perpoint (h := Line.demo.mulNum 2) Line.demo_WF Line.demo_WF
    ⟨Line.demo_WF.incx, Line.demo_WF.incy, Line.demo_WF.nex, Line.demo_WF.ney, rfl, rfl, rfl, rfl, by
      intro i j h1 h2 h3
      simp only [SF.mulNum, SF.setMask, SF.setValues, SF.cell, SF.values, Grid.map] at h3 ⊢
      split_ifs at h3 with hm
      · exact hm
      · exact Line.demo_WF.nan i j h1 h2 (by simpa using h3)⟩ ⟨rfl, rfl⟩ ⟨rfl, rfl⟩
    (by
      rintro x y a b ⟨i, j, e1, e2, e3⟩ ⟨i', j', e1', e2', e3'⟩
      refine ⟨i, j, e1, e2, ?_⟩
      rw [← e3, ← e3', Line.demo_WF.incx.idx_inj' e1' e1, Line.demo_WF.incy.idx_inj' e2' e2]
      simp only [SF.mulNum, SF.setMask, SF.setValues, SF.cell, SF.values, Grid.map]
      split_ifs
      · rfl
      · cases Line.demo.val.get i j with
        | none => rfl
        | some v => show some (v * 2) = some (v + v); rw [mul_two])
    (fun _ _ => Iff.rfl) p hp
-- a constant field of six points
example (p : ℝ) (hp : 0 < p) : norm (⟨[0, 1, 2], [0, 2], ⟨3, 2, fun _ _ => some 5⟩, ⟨3, 2, fun _ _ => false⟩, .mm, .mm, .s⟩ : SF) p true =
    |((5 : Rat) : ℝ)| * ((6 : ℕ) : ℝ) ^ (1 / p - 1) :=
  C193_perpoint_violated ⟨by decide, by decide, by decide, by decide, rfl, rfl, rfl, rfl, by simp⟩ p hp 5
    (by rintro x y v ⟨i, j, -, -, e⟩; exact e.symm)

end IMT.Stat
