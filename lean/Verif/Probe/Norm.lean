import Verif.Probe.Value
import Verif.Stat.Norm

/-! C273: the norm of a vector field. -/

namespace IMT.Probe

/-! ### specification -/

/-- `a` is the vector that the field shows at each grid point, zero where it shows none. -/
def Vecs (f : VF) (a : Rat × Rat → Rat × Rat) : Prop := ∀ x y w, f.Reads x y w → a (x, y) = w.getD (0, 0)

/-- The norm of order `p` of the components of the vectors `a` at the grid points of the field. -/
noncomputable def size (f : VF) (p : ℝ) (a : Rat × Rat → Rat × Rat) : ℝ :=
  (∑ q ∈ f.ax.toFinset ×ˢ f.ay.toFinset, (|((a q).1 : ℝ)| ^ p + |((a q).2 : ℝ)| ^ p)) ^ (1 / p)

open Classical in
/-- The number of points where a vector is shown. -/
noncomputable def number (f : VF) : ℕ := ((f.ax.toFinset ×ˢ f.ay.toFinset).filter fun q => ∃ w, f.Reads q.1 q.2 (some w)).card

/-! ### lemmas -/

theorem sum_filterMap (w : Rat × Rat → ℝ) (l : List (Option (Rat × Rat))) :
    ((l.filterMap id).map w).sum = (l.map fun v => (v.map w).getD 0).sum := by
  induction l with
  | nil => rfl
  | cons v l ih =>
    cases v with
    | none => rw [List.filterMap_cons_none rfl, ih]; simp
    | some v => rw [List.filterMap_cons_some (f := id) (b := v) rfl, List.map_cons, List.sum_cons, ih]; simp

theorem sum_flatMap {α β : Type} (g : α → List β) (w : β → ℝ) (l : List α) :
    ((l.flatMap g).map w).sum = (l.map fun a => ((g a).map w).sum).sum := by
  induction l with
  | nil => rfl
  | cons a l ih => simp [List.flatMap_cons, ih]

theorem sum_seen {f : VF} (hf : f.WF) (w : Rat × Rat → ℝ) (b : Rat × Rat → ℝ) (hb : ∀ x y v, f.Reads x y v → b (x, y) = (v.map w).getD 0) :
    ((seen f).map w).sum = ∑ q ∈ f.ax.toFinset ×ˢ f.ay.toFinset, b q := by
  unfold seen
  rw [sum_filterMap, sum_flatMap, Finset.sum_product]
  apply Stat.sum_positions' _ hf.incx _ (fun x => ∑ y ∈ f.ay.toFinset, b (x, y))
  intro i hi
  rw [List.map_map]
  apply Stat.sum_positions' _ hf.incy _ (fun y => b (f.ax[i], y))
  intro j hj
  exact (hb _ _ _ ⟨i, j, List.getElem?_eq_getElem hi, List.getElem?_eq_getElem hj, rfl⟩).symm

theorem mem_seen {f : VF} (w : Rat × Rat) : w ∈ seen f ↔ ∃ x y, f.Reads x y (some w) := by
  unfold seen
  simp only [List.mem_filterMap, List.mem_flatMap, List.mem_map, List.mem_range, id]
  constructor
  · rintro ⟨_, ⟨i, hi, j, hj, rfl⟩, e⟩
    exact ⟨f.ax[i], f.ay[j], i, j, List.getElem?_eq_getElem hi, List.getElem?_eq_getElem hj, e⟩
  · rintro ⟨x, y, i, j, hi, hj, e⟩
    exact ⟨_, ⟨i, getElem?_some_lt hi, j, getElem?_some_lt hj, rfl⟩, e⟩

theorem length_seen {f : VF} (hf : f.WF) : (seen f).length = number f := by
  classical
  have h : (((seen f).map fun _ => (1 : ℝ)).sum) = ∑ q ∈ f.ax.toFinset ×ˢ f.ay.toFinset, if ∃ w, f.Reads q.1 q.2 (some w) then (1 : ℝ) else 0 := by
    refine sum_seen hf _ (fun q => if ∃ w, f.Reads q.1 q.2 (some w) then (1 : ℝ) else 0) fun x y v hv => ?_
    cases v with
    | none =>
      rw [if_neg]
      · rfl
      · rintro ⟨w, hw⟩
        exact absurd (hv.unique hf hw) (by simp)
    | some v => rw [if_pos ⟨v, hv⟩]; rfl
  rw [Finset.sum_boole] at h
  simp only [List.map_const', List.sum_replicate, nsmul_eq_mul, mul_one] at h
  unfold number
  exact_mod_cast h

theorem sum_values (f : VF) (w : Rat → ℝ) : ((values f).map w).sum = ((seen f).map fun v => w v.1 + w v.2).sum := by
  unfold values
  rw [List.map_append, List.sum_append, List.map_map, List.map_map, List.sum_map_add]
  rfl

theorem norm_false (f : VF) (p : ℝ) : norm f p false = (((values f).map fun v : Rat => |(v : ℝ)| ^ p).sum) ^ (1 / p) := by
  unfold norm; rw [if_neg (by simp)]

theorem norm_true (f : VF) (p : ℝ) : norm f p true = norm f p false / (seen f).length := by
  rw [norm_false]; unfold norm; rw [if_pos rfl]

theorem exists_vecs {f : VF} (hf : f.WF) : ∃ a, Vecs f a := by
  classical
  refine ⟨fun q => if h : ∃ w, f.Reads q.1 q.2 (some w) then h.choose else (0, 0), fun x y w hw => ?_⟩
  by_cases h : ∃ u, f.Reads x y (some u)
  · show (if h : ∃ w, f.Reads x y (some w) then h.choose else (0, 0)) = _
    rw [dif_pos h, ← h.choose_spec.unique hf hw]; rfl
  · show (if h : ∃ w, f.Reads x y (some w) then h.choose else (0, 0)) = _
    rw [dif_neg h]
    cases w with
    | none => rfl
    | some w => exact absurd ⟨w, hw⟩ h

/-! ### C273 -/

/-- **C273** The norm is the norm of order `p` of the components of the unmasked vectors; divided, on demand, by the number of these vectors. -/
theorem C273_norm {f : VF} (hf : f.WF) (p : ℝ) (hp : 0 < p) (a : Rat × Rat → Rat × Rat) (ha : Vecs f a) :
    norm f p false = size f p a ∧ norm f p true = size f p a / number f := by
  have h : ((values f).map fun v : Rat => |(v : ℝ)| ^ p).sum =
      ∑ q ∈ f.ax.toFinset ×ˢ f.ay.toFinset, (|((a q).1 : ℝ)| ^ p + |((a q).2 : ℝ)| ^ p) := by
    rw [sum_values]
    refine sum_seen hf _ (fun q => |((a q).1 : ℝ)| ^ p + |((a q).2 : ℝ)| ^ p) fun x y v hv => ?_
    show |((a (x, y)).1 : ℝ)| ^ p + |((a (x, y)).2 : ℝ)| ^ p = _
    rw [ha x y v hv]
    cases v with
    | none => simp [Real.zero_rpow hp.ne']
    | some v => rfl
  have h1 : norm f p false = size f p a := by
    rw [norm_false, h]; rfl
  exact ⟨h1, by rw [norm_true, h1, length_seen hf]⟩

/-- **C273** It is not negative, and it is zero only when all the unmasked vectors are. -/
theorem C273_zero {f : VF} (hf : f.WF) (p : ℝ) (hp : 0 < p) :
    0 ≤ norm f p false ∧ (norm f p false = 0 ↔ ∀ x y w, f.Reads x y (some w) → w = (0, 0)) := by
  obtain ⟨a, ha⟩ := exists_vecs hf
  rw [(C273_norm hf p hp a ha).1]
  have h0 : 0 ≤ ∑ q ∈ f.ax.toFinset ×ˢ f.ay.toFinset, (|((a q).1 : ℝ)| ^ p + |((a q).2 : ℝ)| ^ p) := Finset.sum_nonneg fun q _ => by positivity
  refine ⟨Real.rpow_nonneg h0 _, ?_⟩
  unfold size
  rw [Real.rpow_eq_zero h0 (by positivity), Finset.sum_eq_zero_iff_of_nonneg fun q _ => by positivity]
  have hz : ∀ u v : Rat, |(u : ℝ)| ^ p + |(v : ℝ)| ^ p = 0 ↔ u = 0 ∧ v = 0 := by
    intro u v
    rw [add_eq_zero_iff_of_nonneg (by positivity) (by positivity), Real.rpow_eq_zero (abs_nonneg _) hp.ne', Real.rpow_eq_zero (abs_nonneg _) hp.ne']
    simp
  constructor
  · intro h x y w hw
    obtain ⟨i, j, hi, hj, -⟩ := id hw
    have := h (x, y) (by rw [Finset.mem_product, List.mem_toFinset, List.mem_toFinset]; exact ⟨List.mem_of_getElem? hi, List.mem_of_getElem? hj⟩)
    rw [ha x y _ hw] at this
    obtain ⟨h1, h2⟩ := (hz _ _).1 this
    exact Prod.ext h1 h2
  · rintro h ⟨x, y⟩ hq
    rw [Finset.mem_product, List.mem_toFinset, List.mem_toFinset] at hq
    obtain ⟨i, hi⟩ := List.mem_iff_getElem?.1 hq.1
    obtain ⟨j, hj⟩ := List.mem_iff_getElem?.1 hq.2
    have hw : f.Reads x y (f.cell i j) := ⟨i, j, hi, hj, rfl⟩
    rw [ha x y _ hw]
    cases e : f.cell i j with
    | none => simp [Real.zero_rpow hp.ne']
    | some w =>
      rw [e] at hw
      rw [h x y w hw]
      simp [Real.zero_rpow hp.ne']

/-- **C273** The norm of order 2 depends on the magnitudes of the vectors only: two fields on the same grid whose vectors have the same magnitudes have
the same norm. -/
theorem C273_magnitude {f g : VF} (hf : f.WF) (hg : g.WF) (hx : g.ax = f.ax) (hy : g.ay = f.ay) (a b : Rat × Rat → Rat × Rat) (ha : Vecs f a) (hb : Vecs g b)
    (h : ∀ x ∈ f.ax, ∀ y ∈ f.ay, (a (x, y)).1 ^ 2 + (a (x, y)).2 ^ 2 = (b (x, y)).1 ^ 2 + (b (x, y)).2 ^ 2) : norm f 2 false = norm g 2 false := by
  rw [(C273_norm hf 2 two_pos a ha).1, (C273_norm hg 2 two_pos b hb).1]
  unfold size
  rw [hx, hy]
  congr 1
  refine Finset.sum_congr rfl fun q hq => ?_
  rw [Finset.mem_product, List.mem_toFinset, List.mem_toFinset] at hq
  have := h q.1 hq.1 q.2 hq.2
  simp only [Real.rpow_two, sq_abs]
  exact_mod_cast this

/-- **C273** Multiplying all the vectors by a number multiplies the norm by its absolute value. -/
theorem C273_scale {f g : VF} (hf : f.WF) (hg : g.WF) (hx : g.ax = f.ax) (hy : g.ay = f.ay) (k : Rat)
    (h : ∀ x y w, f.Reads x y w → g.Reads x y (w.map fun v => (k * v.1, k * v.2))) (p : ℝ) (hp : 0 < p) :
    norm g p false = |(k : ℝ)| * norm f p false := by
  obtain ⟨a, ha⟩ := exists_vecs hf
  have hb : Vecs g fun q => if q.1 ∈ f.ax ∧ q.2 ∈ f.ay then (k * (a q).1, k * (a q).2) else (0, 0) := by
    intro x y w hw
    obtain ⟨i, j, hi, hj, -⟩ := id hw
    rw [hx] at hi
    rw [hy] at hj
    have hv : f.Reads x y (f.cell i j) := ⟨i, j, hi, hj, rfl⟩
    rw [← (h x y _ hv).unique hg hw]
    simp only [List.mem_of_getElem? hi, List.mem_of_getElem? hj, and_self, if_true, ha x y _ hv]
    cases f.cell i j <;> simp
  rw [(C273_norm hf p hp a ha).1, (C273_norm hg p hp _ hb).1]
  unfold size
  rw [hx, hy]
  have hs : ∑ q ∈ f.ax.toFinset ×ˢ f.ay.toFinset,
      (|(((if q.1 ∈ f.ax ∧ q.2 ∈ f.ay then (k * (a q).1, k * (a q).2) else (0, 0)).1 : Rat) : ℝ)| ^ p +
        |(((if q.1 ∈ f.ax ∧ q.2 ∈ f.ay then (k * (a q).1, k * (a q).2) else (0, 0)).2 : Rat) : ℝ)| ^ p) =
      |(k : ℝ)| ^ p * ∑ q ∈ f.ax.toFinset ×ˢ f.ay.toFinset, (|((a q).1 : ℝ)| ^ p + |((a q).2 : ℝ)| ^ p) := by
    rw [Finset.mul_sum]
    refine Finset.sum_congr rfl fun q hq => ?_
    rw [Finset.mem_product, List.mem_toFinset, List.mem_toFinset] at hq
    rw [if_pos hq]
    push_cast
    rw [abs_mul, abs_mul, Real.mul_rpow (abs_nonneg _) (abs_nonneg _), Real.mul_rpow (abs_nonneg _) (abs_nonneg _), mul_add]
  rw [hs, Real.mul_rpow (by positivity) (Finset.sum_nonneg fun q _ => by positivity), ← Real.rpow_mul (abs_nonneg _), mul_one_div_cancel hp.ne', Real.rpow_one]

/-- **C273** The norm per point of a uniform flow is not its magnitude, and depends on how fine the grid is: it tends to zero with the number of points. -/
theorem C273_perpoint_violated {f : VF} (hf : f.WF) (p : ℝ) (hp : 0 < p) (u v : Rat) (h : ∀ x y w, f.Reads x y w → w = some (u, v)) :
    norm f p true = (|(u : ℝ)| ^ p + |(v : ℝ)| ^ p) ^ (1 / p) * ((f.ax.length * f.ay.length : ℕ) : ℝ) ^ (1 / p - 1) := by
  classical
  have hcard : (f.ax.toFinset ×ˢ f.ay.toFinset).card = f.ax.length * f.ay.length := by
    rw [Finset.card_product, List.toFinset_card_of_nodup (List.Pairwise.imp (fun h => ne_of_lt h) hf.incx),
      List.toFinset_card_of_nodup (List.Pairwise.imp (fun h => ne_of_lt h) hf.incy)]
  have ha : Vecs f fun _ => (u, v) := fun x y w hw => by rw [h x y w hw]; rfl
  have hnum : number f = f.ax.length * f.ay.length := by
    rw [← hcard]
    unfold number
    congr 1
    rw [Finset.filter_true_of_mem]
    intro q hq
    rw [Finset.mem_product, List.mem_toFinset, List.mem_toFinset] at hq
    obtain ⟨i, hi⟩ := List.mem_iff_getElem?.1 hq.1
    obtain ⟨j, hj⟩ := List.mem_iff_getElem?.1 hq.2
    have hw : f.Reads q.1 q.2 (f.cell i j) := ⟨i, j, hi, hj, rfl⟩
    rw [h _ _ _ hw] at hw
    exact ⟨_, hw⟩
  have hn : 0 < ((f.ax.length * f.ay.length : ℕ) : ℝ) := by
    have := List.length_pos_iff.2 hf.nex
    have := List.length_pos_iff.2 hf.ney
    positivity
  rw [(C273_norm hf p hp _ ha).2, hnum]
  unfold size
  rw [Finset.sum_const, hcard, nsmul_eq_mul, Real.mul_rpow hn.le (by positivity), Real.rpow_sub hn, Real.rpow_one]
  ring

/-! ### concrete cases -/

example : ∃ a, Vecs spin a := exists_vecs spin_wf

-- a uniform flow of six points
example (p : ℝ) (hp : 0 < p) : norm (⟨[0, 1, 2], [0, 2], ⟨3, 2, fun _ _ => some 3⟩, ⟨3, 2, fun _ _ => some 4⟩, ⟨3, 2, fun _ _ => false⟩, .mm, .mm, .s⟩ : VF) p true =
    (|((3 : Rat) : ℝ)| ^ p + |((4 : Rat) : ℝ)| ^ p) ^ (1 / p) * ((6 : ℕ) : ℝ) ^ (1 / p - 1) :=
  C273_perpoint_violated ⟨by decide, by decide, by decide, by decide, rfl, rfl, rfl, rfl, rfl, rfl, by simp, by simp⟩ p hp 3 4
    (by rintro x y v ⟨i, j, -, -, e⟩; exact e.symm)

end IMT.Probe
