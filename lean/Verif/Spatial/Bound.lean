import Verif.Spatial.BoundModel
import Verif.Scalar.Geom

/-! C389: extent, iteration and mask of collections of fields in space. -/

namespace IMT.Spatial

theorem ends_ok {pick : SF → Option Rat} : ∀ {fs : List SF}, (∀ f ∈ fs, ∃ x, pick f = some x) →
    ∃ l, ends pick fs = .ok l ∧ (fs ≠ [] → l ≠ []) ∧ ∀ x, x ∈ l ↔ ∃ f ∈ fs, pick f = some x := by
  intro fs
  induction fs with
  | nil => exact fun _ => ⟨[], rfl, fun h => absurd rfl h, fun x => by simp⟩
  | cons f fs ih =>
    intro h
    obtain ⟨x, hx⟩ := h f List.mem_cons_self
    obtain ⟨l, e, -, hm⟩ := ih (fun g hg => h g (List.mem_cons_of_mem _ hg))
    refine ⟨x :: l, by simp only [ends, hx, e], fun _ => by simp, fun y => ?_⟩
    rw [List.mem_cons, hm]
    constructor
    · rintro (rfl | ⟨g, hg, e'⟩)
      · exact ⟨f, List.mem_cons_self, hx⟩
      · exact ⟨g, List.mem_cons_of_mem _ hg, e'⟩
    · rintro ⟨g, hg, e'⟩
      rcases List.mem_cons.1 hg with rfl | hg
      · rw [hx] at e'
        exact .inl (Option.some.inj e').symm
      · exact .inr ⟨g, hg, e'⟩

theorem foldl_min : ∀ (l : List Rat) (x : Rat), l.foldl min x ∈ x :: l ∧ ∀ y ∈ x :: l, l.foldl min x ≤ y := by
  intro l
  induction l with
  | nil => exact fun x => ⟨by simp, fun y hy => by rw [List.mem_singleton.1 hy]; exact le_refl _⟩
  | cons z l ih =>
    intro x
    obtain ⟨h1, h2⟩ := ih (min x z)
    rw [List.foldl_cons]
    refine ⟨?_, fun y hy => ?_⟩
    · rcases List.mem_cons.1 h1 with e | e
      · rw [e]
        rcases min_choice x z with c | c <;> rw [c] <;> simp
      · exact List.mem_cons_of_mem _ (List.mem_cons_of_mem _ e)
    · have h0 := h2 _ List.mem_cons_self
      rcases List.mem_cons.1 hy with rfl | hy
      · exact le_trans h0 (min_le_left _ _)
      · rcases List.mem_cons.1 hy with rfl | hy
        · exact le_trans h0 (min_le_right _ _)
        · exact h2 y (List.mem_cons_of_mem _ hy)

theorem foldl_max : ∀ (l : List Rat) (x : Rat), l.foldl max x ∈ x :: l ∧ ∀ y ∈ x :: l, y ≤ l.foldl max x := by
  intro l
  induction l with
  | nil => exact fun x => ⟨by simp, fun y hy => by rw [List.mem_singleton.1 hy]; exact le_refl _⟩
  | cons z l ih =>
    intro x
    obtain ⟨h1, h2⟩ := ih (max x z)
    rw [List.foldl_cons]
    refine ⟨?_, fun y hy => ?_⟩
    · rcases List.mem_cons.1 h1 with e | e
      · rw [e]
        rcases max_choice x z with c | c <;> rw [c] <;> simp
      · exact List.mem_cons_of_mem _ (List.mem_cons_of_mem _ e)
    · have h0 := h2 _ List.mem_cons_self
      rcases List.mem_cons.1 hy with rfl | hy
      · exact le_trans (le_max_left _ _) h0
      · rcases List.mem_cons.1 hy with rfl | hy
        · exact le_trans (le_max_right _ _) h0
        · exact h2 y (List.mem_cons_of_mem _ hy)

theorem head_le {l : List Rat} (h : Inc l) {a x : Rat} (ha : l.head? = some a) (hx : x ∈ l) : a ≤ x := by
  cases l with
  | nil => cases hx
  | cons y l =>
    cases ha
    rcases List.mem_cons.1 hx with rfl | hx
    · exact le_refl _
    · exact le_of_lt ((List.pairwise_cons.1 h).1 x hx)

theorem le_last {l : List Rat} (h : Inc l) {a x : Rat} (ha : l.getLast? = some a) (hx : x ∈ l) : x ≤ a := by
  have hne : l ≠ [] := List.ne_nil_of_mem hx
  rw [List.getLast?_eq_some_getLast hne] at ha
  cases ha
  have hd := List.dropLast_append_getLast hne
  rw [← hd] at hx h
  rcases List.mem_append.1 hx with hx | hx
  · exact le_of_lt ((List.pairwise_append.1 h).2.2 x hx _ List.mem_cons_self)
  · exact le_of_eq (List.mem_singleton.1 hx)

/-- The smallest first coordinate. -/
theorem bound_min {s : SP} (hne : s.fields ≠ []) (axis : SF → List Rat) (hi : ∀ f ∈ s.fields, Inc (axis f) ∧ axis f ≠ []) :
    ∃ v, bound npMin (fun f => (axis f).head?) s = .ok v ∧ (∃ f ∈ s.fields, v ∈ axis f) ∧ ∀ f ∈ s.fields, ∀ x ∈ axis f, v ≤ x := by
  obtain ⟨l, e, hl, hm⟩ := ends_ok (pick := fun f => (axis f).head?) (fs := s.fields) (fun f hf => ⟨_, List.head?_eq_some_head (hi f hf).2⟩)
  cases l with
  | nil => exact absurd rfl (hl hne)
  | cons a l =>
    obtain ⟨h1, h2⟩ := foldl_min l a
    refine ⟨l.foldl min a, by unfold bound; rw [e]; rfl, ?_, ?_⟩
    · obtain ⟨f, hf, e'⟩ := (hm _).1 h1
      exact ⟨f, hf, List.mem_of_head? e'⟩
    · intro f hf x hx
      have e' := List.head?_eq_some_head (hi f hf).2
      exact le_trans (h2 _ ((hm _).2 ⟨f, hf, e'⟩)) (head_le (hi f hf).1 e' hx)

/-- The largest last coordinate. -/
theorem bound_max {s : SP} (hne : s.fields ≠ []) (axis : SF → List Rat) (hi : ∀ f ∈ s.fields, Inc (axis f) ∧ axis f ≠ []) :
    ∃ v, bound npMax (fun f => (axis f).getLast?) s = .ok v ∧ (∃ f ∈ s.fields, v ∈ axis f) ∧ ∀ f ∈ s.fields, ∀ x ∈ axis f, x ≤ v := by
  obtain ⟨l, e, hl, hm⟩ := ends_ok (pick := fun f => (axis f).getLast?) (fs := s.fields) (fun f hf => ⟨_, List.getLast?_eq_some_getLast (hi f hf).2⟩)
  cases l with
  | nil => exact absurd rfl (hl hne)
  | cons a l =>
    obtain ⟨h1, h2⟩ := foldl_max l a
    refine ⟨l.foldl max a, by unfold bound; rw [e]; rfl, ?_, ?_⟩
    · obtain ⟨f, hf, e'⟩ := (hm _).1 h1
      exact ⟨f, hf, List.mem_of_getLast? e'⟩
    · intro f hf x hx
      have e' := List.getLast?_eq_some_getLast (hi f hf).2
      exact le_trans (le_last (hi f hf).1 e' hx) (h2 _ ((hm _).2 ⟨f, hf, e'⟩))

theorem reads_x {f : SF} (hf : f.WF) {x : Rat} (hx : x ∈ f.ax) : ∃ y r, f.Reads x y r := by
  obtain ⟨i, hi⟩ := List.mem_iff_getElem?.1 hx
  obtain ⟨y, hy⟩ := List.exists_mem_of_ne_nil _ hf.ney
  obtain ⟨j, hj⟩ := List.mem_iff_getElem?.1 hy
  exact ⟨y, _, i, j, hi, hj, rfl⟩

theorem reads_y {f : SF} (hf : f.WF) {y : Rat} (hy : y ∈ f.ay) : ∃ x r, f.Reads x y r := by
  obtain ⟨j, hj⟩ := List.mem_iff_getElem?.1 hy
  obtain ⟨x, hx⟩ := List.exists_mem_of_ne_nil _ hf.nex
  obtain ⟨i, hi⟩ := List.mem_iff_getElem?.1 hx
  exact ⟨x, _, i, j, hi, hj, rfl⟩

/-- C389, for a collection with a field: the four bounds are those of the smallest rectangle that holds every grid point of every field. -/
theorem C389_bounds_partial {s : SP} (hne : s.fields ≠ []) (hw : ∀ f ∈ s.fields, f.WF) :
    ∃ x0 x1 y0 y1, s.xMin = .ok x0 ∧ s.xMax = .ok x1 ∧ s.yMin = .ok y0 ∧ s.yMax = .ok y1 ∧
      (∀ f ∈ s.fields, ∀ x y r, f.Reads x y r → (x0 ≤ x ∧ x ≤ x1) ∧ (y0 ≤ y ∧ y ≤ y1)) ∧
      (∃ f ∈ s.fields, ∃ y r, f.Reads x0 y r) ∧ (∃ f ∈ s.fields, ∃ y r, f.Reads x1 y r) ∧
      (∃ f ∈ s.fields, ∃ x r, f.Reads x y0 r) ∧ (∃ f ∈ s.fields, ∃ x r, f.Reads x y1 r) := by
  have hx : ∀ f ∈ s.fields, Inc f.ax ∧ f.ax ≠ [] := fun f hf => ⟨(hw f hf).incx, (hw f hf).nex⟩
  have hy : ∀ f ∈ s.fields, Inc f.ay ∧ f.ay ≠ [] := fun f hf => ⟨(hw f hf).incy, (hw f hf).ney⟩
  obtain ⟨x0, e1, ⟨f1, m1, a1⟩, b1⟩ := bound_min hne (fun f => f.ax) hx
  obtain ⟨x1, e2, ⟨f2, m2, a2⟩, b2⟩ := bound_max hne (fun f => f.ax) hx
  obtain ⟨y0, e3, ⟨f3, m3, a3⟩, b3⟩ := bound_min hne (fun f => f.ay) hy
  obtain ⟨y1, e4, ⟨f4, m4, a4⟩, b4⟩ := bound_max hne (fun f => f.ay) hy
  refine ⟨x0, x1, y0, y1, e1, e2, e3, e4, ?_, ⟨f1, m1, reads_x (hw _ m1) a1⟩, ⟨f2, m2, reads_x (hw _ m2) a2⟩, ⟨f3, m3, reads_y (hw _ m3) a3⟩,
    ⟨f4, m4, reads_y (hw _ m4) a4⟩⟩
  rintro f hf x y r ⟨i, j, ei, ej, -⟩
  have hxm := List.mem_of_getElem? ei
  have hym := List.mem_of_getElem? ej
  exact ⟨⟨b1 f hf x hxm, b2 f hf x hxm⟩, ⟨b3 f hf y hym, b4 f hf y hym⟩⟩

/-- C389: a collection without field has no extent, ValueError is raised. -/
theorem C389_empty {s : SP} (h : s.fields = []) :
    s.xMin = .error .valueError ∧ s.xMax = .error .valueError ∧ s.yMin = .error .valueError ∧ s.yMax = .error .valueError := by
  unfold SP.xMin SP.xMax SP.yMin SP.yMax bound
  rw [h]
  exact ⟨rfl, rfl, rfl, rfl⟩

/-- C389 fails: no collection with a field can be iterated on. -/
theorem C389_iterate_violated {s : SP} (h : s.fields ≠ []) : s.iterate = .error .attributeError := by
  unfold SP.iterate
  rw [if_neg (fun e => h (List.length_eq_zero_iff.1 e))]

/-- C389 fails: no collection gives its mask. -/
theorem C389_mask_violated (s : SP) : s.mask = .error .attributeError := rfl

/-! ### the hypotheses are met -/

/-- Two fields side by side. -/
def pair : SP := ⟨[SF.sample, SF.sample.setOrigin (some (-5)) none], SF.sample.ux, SF.sample.uy, SF.sample.uv⟩

example : ∃ x0 x1, pair.xMin = .ok x0 ∧ pair.xMax = .ok x1 := by
  obtain ⟨x0, x1, y0, y1, e1, e2, -⟩ := C389_bounds_partial (s := pair) (by decide +kernel) (by
    intro f hf
    simp only [pair, List.mem_cons, List.not_mem_nil, or_false] at hf
    rcases hf with rfl | rfl
    · exact SF.sample_WF
    · exact (SF.C12_setOrigin_shifts SF.sample_WF _ _).1)
  exact ⟨x0, x1, e1, e2⟩

example : pair.xMin = .ok 0 ∧ pair.xMax = .ok 8 := by decide +kernel

example : pair.iterate = .error .attributeError := C389_iterate_violated (by simp [pair])

end IMT.Spatial
