import Verif.Pod.SnapModel
import Verif.Vector.Arith

/-! C383: the modes of vector fields. -/

namespace IMT.Snap

/-- Specification: the field is on the grid and shows the vector `w x y` at each of its points. -/
def Shows (ax ay : List Rat) (f : VF) (w : Rat → Rat → Rat × Rat) : Prop :=
  f.WF ∧ f.ax = ax ∧ f.ay = ay ∧ ∀ x ∈ ax, ∀ y ∈ ay, f.Reads x y (some (w x y))

/-- Specification: the sum over the points of the grid of the scalar products of the vectors. -/
def scalar (ax ay : List Rat) (w w' : Rat → Rat → Rat × Rat) : Rat :=
  (ax.map fun x => (ay.map fun y => (w x y).1 * (w' x y).1 + (w x y).2 * (w' x y).2).sum).sum

/-- Specification: the combination of the vectors. -/
def blend (l : List (Rat × (Rat → Rat → Rat × Rat))) (x y : Rat) : Rat × Rat :=
  ((l.map fun q => q.1 * (q.2 x y).1).sum, (l.map fun q => q.1 * (q.2 x y).2).sum)

variable {ax ay : List Rat} {f g : VF} {w w' : Rat → Rat → Rat × Rat}

theorem Shows.comps (h : Shows ax ay f w) {i j : Nat} {x y : Rat} (hi : ax[i]? = some x) (hj : ay[j]? = some y) :
    f.cx.get i j = some (w x y).1 ∧ f.cy.get i j = some (w x y).2 := by
  obtain ⟨wf, h1, h2, h3⟩ := h
  obtain ⟨i', j', hi', hj', hc⟩ := h3 x (List.mem_of_getElem? hi) y (List.mem_of_getElem? hj)
  rw [← h1] at hi
  rw [← h2] at hj
  obtain rfl := wf.incx.idx_inj' hi hi'
  obtain rfl := wf.incy.idx_inj' hj hj'
  unfold VF.cell at hc
  by_cases hm : f.mask.get i j = true
  · simp [hm] at hc
  · simp only [hm, Bool.false_eq_true, if_false] at hc
    cases hu : f.cx.get i j with
    | none => simp [hu] at hc
    | some u => cases hv : f.cy.get i j with
      | none => simp [hu, hv] at hc
      | some v =>
        simp only [hu, hv, Option.some.injEq] at hc
        rw [← hc]
        exact ⟨rfl, rfl⟩

theorem Shows.snap0 (h : Shows ax ay f w) {i j : Nat} {x y : Rat} (hi : ax[i]? = some x) (hj : ay[j]? = some y) : (snap f).get i j 0 = (w x y).1 := by
  simp [snap, turned, both, (h.comps hi hj).1]

theorem Shows.snap1 (h : Shows ax ay f w) {i j : Nat} {x y : Rat} (hi : ax[i]? = some x) (hj : ay[j]? = some y) : (snap f).get i j 1 = (w x y).2 := by
  simp [snap, turned, both, (h.comps hi hj).2]

/-- A sum over the indices of a list is a sum over the list. -/
theorem sum_indices (l : List Rat) (F : Nat → Rat) (G : Rat → Rat) (h : ∀ i x, l[i]? = some x → F i = G x) :
    ((List.range l.length).map F).sum = (l.map G).sum := by
  congr 1
  apply List.ext_getElem
  · simp
  · intro i h1 h2
    simp only [List.getElem_map, List.getElem_range]
    exact h i _ (List.getElem?_eq_getElem _)

/-- C383: the product used by the decomposition is the sum over the points of the scalar products of the vectors. -/
theorem C383_product (hf : Shows ax ay f w) (hg : Shows ax ay g w') : vdot (snap f) (snap g) = scalar ax ay w w' := by
  have e0 : (snap f).n0 = ax.length := by rw [← hf.2.1]; exact hf.1.xx
  have e1 : (snap f).n1 = ay.length := by rw [← hf.2.2.1]; exact hf.1.xy
  have e2 : (snap f).n2 = 2 := rfl
  unfold vdot scalar
  rw [e0, e1, e2]
  refine sum_indices ax _ _ fun i x hi => sum_indices ay _ _ fun j y hj => ?_
  simp only [List.range_succ, List.range_zero, List.nil_append, List.map_append, List.map_cons, List.map_nil, List.sum_append, List.sum_cons, List.sum_nil,
    List.cons_append]
  rw [hf.snap0 hi hj, hg.snap0 hi hj, hf.snap1 hi hj, hg.snap1 hi hj]
  ring

/-- What the decomposition keeps of a record whose points are not masked. -/
def Props.Of (p : Props) (ax ay : List Rat) : Prop :=
  p.ax = ax ∧ p.ay = ay ∧ p.mask.nx = ax.length ∧ p.mask.ny = ay.length ∧ ∀ i j, i < ax.length → j < ay.length → p.mask.get i j = false

theorem combined_sum {l : List (Rat × VF)} {ws : List (Rat × (Rat → Rat → Rat × Rat))}
    (h : List.Forall₂ (fun q r => q.1 = r.1 ∧ Shows ax ay q.2 r.2) l ws) {i j : Nat} {x y : Rat} (hi : ax[i]? = some x) (hj : ay[j]? = some y) :
    ((l.map fun q => q.1 * (snap q.2).get i j 0).sum, (l.map fun q => q.1 * (snap q.2).get i j 1).sum) = blend ws x y := by
  unfold blend
  induction h with
  | nil => rfl
  | cons h1 _ ih =>
    simp only [Prod.mk.injEq] at ih
    simp only [List.map_cons, List.sum_cons, h1.2.snap0 hi hj, h1.2.snap1 hi hj, h1.1, ih.1, ih.2]

/-- One mode made into a field. -/
theorem field_shows {p : Props} (hp : p.Of ax ay) (ix : Inc ax) (iy : Inc ay) (h2x : 2 ≤ ax.length) (h2y : 2 ≤ ay.length)
    {l : List (Rat × VF)} {ws : List (Rat × (Rat → Rat → Rat × Rat))} (h : List.Forall₂ (fun q r => q.1 = r.1 ∧ Shows ax ay q.2 r.2) l ws) :
    ∃ m, field p (combined ax.length ay.length 2 (l.map fun q => (q.1, snap q.2))) = .ok m ∧ Shows ax ay m (blend ws) ∧ m.ux = p.ux ∧ m.uy = p.uy ∧
      m.uv = p.uv := by
  obtain ⟨px, py, m1, m2, mg⟩ := hp
  have hd := VF.import_direct (ax := p.ax) (ay := p.ay) (cx := layer (combined ax.length ay.length 2 (l.map fun q => (q.1, snap q.2))) 0)
    (cy := layer (combined ax.length ay.length 2 (l.map fun q => (q.1, snap q.2))) 1) (m := .array p.mask) (ux := p.ux) (uy := p.uy) (uv := p.uv)
    (by rw [px]; rfl) (by rw [py]; rfl) (by rw [px]; rfl) (by rw [py]; rfl) (by rw [px]; exact h2x) (by rw [py]; exact h2y)
    (by rw [px]; exact m1) (by rw [py]; exact m2)
  obtain ⟨m, e, wf, hr, u1, u2, u3⟩ := VF.C111_import_reads_partial (ax := p.ax) (ay := p.ay)
    (cx := layer (combined ax.length ay.length 2 (l.map fun q => (q.1, snap q.2))) 0)
    (cy := layer (combined ax.length ay.length 2 (l.map fun q => (q.1, snap q.2))) 1) (m := .array p.mask) (ux := p.ux) (uy := p.uy) (uv := p.uv)
    (by rw [px]; rfl) (by rw [py]; rfl) (by rw [px]; rfl) (by rw [py]; rfl) (by rw [px]; exact h2x) (by rw [py]; exact h2y)
    (by rw [px]; exact m1) (by rw [py]; exact m2) (.inl (by rw [px]; exact ix)) (.inl (by rw [py]; exact iy))
    (.inl ⟨by rw [px]; exact ix, by rw [py]; exact iy⟩)
  rw [hd] at e
  have em := Except.ok.inj e
  refine ⟨m, by unfold field; rw [hd, em], ⟨wf, ?_, ?_, ?_⟩, u1, u2, u3⟩
  · rw [← em]
    show (if SF.isRev p.ax = true then p.ax.reverse else p.ax) = ax
    rw [px, SF.rev_false ix]; rfl
  · rw [← em]
    show (if SF.isRev p.ay = true then p.ay.reverse else p.ay) = ay
    rw [py, SF.rev_false iy]; rfl
  · intro x hx y hy
    obtain ⟨i, hi⟩ := List.getElem?_of_mem hx
    obtain ⟨j, hj⟩ := List.getElem?_of_mem hy
    refine (hr x y _).2 ⟨i, j, by rw [px]; exact hi, by rw [py]; exact hj, ?_⟩
    have li : i < ax.length := by
      rcases Nat.lt_or_ge i ax.length with h | h
      · exact h
      · rw [List.getElem?_eq_none h] at hi; cases hi
    have lj : j < ay.length := by
      rcases Nat.lt_or_ge j ay.length with h | h
      · exact h
      · rw [List.getElem?_eq_none h] at hj; cases hj
    have eg : (VF.MaskArg.grid (.array p.mask) ax.length ay.length).get i j = false := mg i j li lj
    have := combined_sum h hi hj
    rw [← this]
    show _ = VF.shown ((VF.MaskArg.grid (.array p.mask) ax.length ay.length).get i j) _ _
    rw [eg]
    simp [VF.shown, layer, combined, List.map_map, Function.comp_def]

/-- C383, for grids of two columns and two rows at least: each mode becomes a field on the grid of the record, with its units, which shows at each
point the combination of the vectors of the fields. -/
theorem C383_modes_partial {p : Props} (hp : p.Of ax ay) (ix : Inc ax) (iy : Inc ay) (h2x : 2 ≤ ax.length) (h2y : 2 ≤ ay.length) :
    ∀ {ls : List (List (Rat × VF))} {wss : List (List (Rat × (Rat → Rat → Rat × Rat)))},
      List.Forall₂ (List.Forall₂ fun q r => q.1 = r.1 ∧ Shows ax ay q.2 r.2) ls wss →
      ∃ ms, toFields p (ls.map fun l => combined ax.length ay.length 2 (l.map fun q => (q.1, snap q.2))) = .ok ms ∧
        List.Forall₂ (fun m ws => Shows ax ay m (blend ws) ∧ m.ux = p.ux ∧ m.uy = p.uy ∧ m.uv = p.uv) ms wss := by
  intro ls wss h
  unfold toFields
  induction h with
  | nil => exact ⟨[], rfl, .nil⟩
  | cons h1 _ ih =>
    obtain ⟨ms, e, hm⟩ := ih
    obtain ⟨m, e1, h2⟩ := field_shows hp ix iy h2x h2y h1
    refine ⟨m :: ms, ?_, .cons h2 hm⟩
    simp only [List.map_cons, Temporal.mapRes, e1, e]

/-- C383: a snapshot that is not combined gives its field back. -/
theorem C383_back_partial {p : Props} (hp : p.Of ax ay) (ix : Inc ax) (iy : Inc ay) (h2x : 2 ≤ ax.length) (h2y : 2 ≤ ay.length)
    (hf : Shows ax ay f w) : ∃ m, field p (combined ax.length ay.length 2 [(1, snap f)]) = .ok m ∧ Shows ax ay m w := by
  obtain ⟨m, e, h, -⟩ := field_shows hp ix iy h2x h2y (l := [(1, f)]) (ws := [(1, w)]) (.cons ⟨rfl, hf⟩ .nil)
  refine ⟨m, e, h.1, h.2.1, h.2.2.1, fun x hx y hy => ?_⟩
  have := h.2.2.2 x hx y hy
  simpa [blend] using this

/-- C383 fails for fields of one column: their modes cannot be made into fields. -/
theorem C383_line_violated {p : Props} (hp : p.Of ax ay) (h1 : ax.length = 1) (a : Arr) (ha : a.n0 = ax.length) (hb : a.n1 = ay.length)
    (as : List Arr) : toFields p (a :: as) = .error .indexError := by
  obtain ⟨px, py, m1, m2, -⟩ := hp
  have e : field p a = .error .indexError := by
    unfold field VF.importArrays
    rw [if_neg, if_pos (.inr (by rw [px]; omega))]
    rintro (h | h | h | h)
    · exact h (by rw [show (layer a 0).nx = ax.length from ha]; exact m1)
    · exact h (by rw [show (layer a 0).ny = ay.length from hb]; exact m2)
    · exact h rfl
    · exact h rfl
  unfold toFields
  simp only [Temporal.mapRes, e]

/-! ### the hypotheses are met -/

/-- Two fields on a grid of three by two points. -/
def spin (c : Rat) : VF := ⟨[0, 1, 2], [0, 1], ⟨3, 2, fun i j => some (c * i + j)⟩, ⟨3, 2, fun i j => some (i - c * j)⟩, Grid.const 3 2 false, .one, .one, .one⟩

theorem spin_shows (c : Rat) : Shows [0, 1, 2] [0, 1] (spin c) fun x y => (c * x + y, x - c * y) := by
  refine ⟨⟨by show Inc [0, 1, 2]; decide +kernel, by show Inc [0, 1]; decide +kernel, by simp [spin], by simp [spin], rfl, rfl, rfl, rfl, rfl, rfl, ?_, ?_⟩, rfl, rfl, ?_⟩
  · intro i j _ _ h; cases h
  · intro i j _ _ h; cases h
  · intro x hx y hy
    simp only [List.mem_cons, List.not_mem_nil, or_false] at hx hy
    rcases hx with rfl | rfl | rfl <;> rcases hy with rfl | rfl
    · exact ⟨0, 0, rfl, rfl, by simp [VF.cell, spin, Grid.const]⟩
    · exact ⟨0, 1, rfl, rfl, by simp [VF.cell, spin, Grid.const]⟩
    · exact ⟨1, 0, rfl, rfl, by simp [VF.cell, spin, Grid.const]⟩
    · exact ⟨1, 1, rfl, rfl, by simp [VF.cell, spin, Grid.const]⟩
    · exact ⟨2, 0, rfl, rfl, by simp [VF.cell, spin, Grid.const]⟩
    · exact ⟨2, 1, rfl, rfl, by simp [VF.cell, spin, Grid.const]⟩

/-- Their grid and units. -/
def kept : Props := ⟨[0, 1, 2], [0, 1], Grid.const 3 2 false, .one, .one, .one⟩

theorem kept_of : kept.Of [0, 1, 2] [0, 1] := ⟨rfl, rfl, rfl, rfl, fun _ _ _ _ => rfl⟩

example : vdot (snap (spin 1)) (snap (spin 2)) = 39 := by
  rw [C383_product (spin_shows 1) (spin_shows 2)]
  norm_num [scalar]

example : ∃ m, toFields kept [combined 3 2 2 [(2, snap (spin 1)), (-1, snap (spin 3))]] = .ok [m] ∧ m.Reads 2 1 (some (-1, 3)) := by
  obtain ⟨ms, e, h⟩ := C383_modes_partial kept_of (by decide +kernel) (by decide +kernel) (by decide) (by decide)
    (ls := [[(2, spin 1), (-1, spin 3)]]) (wss := [[(2, _), (-1, _)]])
    (.cons (.cons ⟨rfl, spin_shows 1⟩ (.cons ⟨rfl, spin_shows 3⟩ .nil)) .nil)
  cases h with
  | cons h1 h2 =>
    cases h2
    refine ⟨_, e, ?_⟩
    have := h1.1.2.2.2 2 (by simp) 1 (by simp)
    norm_num [blend] at this
    exact this

end IMT.Snap
