import Verif.Fill.SeriesModel
import Verif.Fill.Smooth
import Verif.Fill.Vec
import Verif.Fill.Examples
import Verif.Mirror.Props

/-! C382: smoothing of collections of fields. -/

namespace IMT.Fill

/-- Specification: `g` is `f` once filled and smoothed: the same axes and units, nothing masked, and the means of the squares around the points. -/
structure Softened (size : Nat) (f g : SF) : Prop where
  wf : g.WF
  ax : g.ax = f.ax
  ay : g.ay = f.ay
  ux : g.ux = f.ux
  uy : g.uy = f.uy
  uv : g.uv = f.uv
  all : ∀ x y, ¬ g.Reads x y none
  mean : ∃ h, Fills f h ∧ Smoothed f.ax.length f.ay.length size (vals h) (vals g)
  bounds : ∀ lo hi, (∀ x y v, f.Reads x y (some v) → lo ≤ v ∧ v ≤ hi) → ∀ x y v, g.Reads x y (some v) → lo ≤ v ∧ v ≤ hi

/-- Specification: the field can be smoothed. -/
def Smoothable (f : SF) : Prop := f.WF ∧ (f.anyMasked = true → Enough f true)

variable {s : Scipy} {w : Gauss}

theorem smoothField_uniform {size : Option Nat} {f g : SF} (h : smooth s (size.getD 3) f = .ok g) :
    smoothField s w (.uniform size) f = (g, .ok ⟨⟩) := by
  unfold smooth at h
  unfold smoothField
  cases e : fill s .linear true f with
  | error e' => simp only [e] at h; cases h
  | ok r =>
    simp only [e, Except.ok.injEq] at h
    simp only [h]

theorem smoothField_softened (hs : s.Ok) {size : Option Nat} (h0 : size ≠ some 0) {f : SF} (hf : Smoothable f) :
    ∃ g, smoothField s w (.uniform size) f = (g, .ok ⟨⟩) ∧ Softened (size.getD 3) f g := by
  have hp : 0 < size.getD 3 := by
    cases size with
    | none => simp
    | some n => simp only [Option.getD_some]; rcases Nat.eq_zero_or_pos n with rfl | h; exacts [absurd rfl h0, h]
  obtain ⟨h, g, -, hh, e, wf, gx, gy, ux, uy, uv, all, sm, -, bd⟩ := C251_smooth_partial hs hp hf.1 hf.2
  exact ⟨g, smoothField_uniform e, wf, gx, gy, ux, uy, uv, all, ⟨h, hh, sm⟩, bd⟩

theorem Softened.smoothable {size : Nat} {f g : SF} (h : Softened size f g) : Smoothable g :=
  ⟨h.wf, fun e => by rw [Mirror.no_masked h.wf h.all] at e; cases e⟩

/-- Specification: the components of `g` are those of `f` once filled and smoothed. -/
structure VSoftened (size : Nat) (f g : VF) : Prop where
  wf : g.WF
  ax : g.ax = f.ax
  ay : g.ay = f.ay
  ux : g.ux = f.ux
  uy : g.uy = f.uy
  uv : g.uv = f.uv
  all : ∀ x y, ¬ g.Reads x y none
  mean : ∃ h, VFills f h ∧ Smoothed f.ax.length f.ay.length size (vals1 h) (vals1 g) ∧ Smoothed f.ax.length f.ay.length size (vals2 h) (vals2 g)

/-- Specification: the vector field can be smoothed. -/
def VSmoothable (f : VF) : Prop :=
  f.WF ∧ 2 ≤ f.ax.length ∧ 2 ≤ f.ay.length ∧ ((∃ x y, f.Reads x y none) → ∀ sx, Mirror.compX f = .ok sx → Enough sx true)

theorem smoothVector_softened (hs : s.Ok) {size : Option Nat} (h0 : size ≠ some 0) {f : VF} (hf : VSmoothable f) :
    ∃ g, smoothVector s w (.uniform size) f = (g, .ok ⟨⟩) ∧ VSoftened (size.getD 3) f g := by
  have hp : 0 < size.getD 3 := by
    cases size with
    | none => simp
    | some n => simp only [Option.getD_some]; rcases Nat.eq_zero_or_pos n with rfl | h; exacts [absurd rfl h0, h]
  obtain ⟨h, g, ef, hh, e, wf, gx, gy, ux, uy, uv, all, s1, s2⟩ := C251_vector_partial hs hp hf.1 hf.2.1 hf.2.2.1 hf.2.2.2
  refine ⟨g, ?_, wf, gx, gy, ux, uy, uv, all, h, hh, s1, s2⟩
  unfold vsmooth at e
  unfold smoothVector
  simp only [ef, Except.ok.injEq] at e
  simp only [ef, e]

variable {α : Type} {step : α → α × Res PUnit} {Fit : α → Prop} {R : α → α → Prop}

theorem lt_of_some {m : List α} {a : Nat} {f : α} (h : m[a]? = some f) : a < m.length := by
  rcases Nat.lt_or_ge a m.length with h' | h'
  · exact h'
  · rw [List.getElem?_eq_none h'] at h; cases h

theorem smoothLoop_nodup (hstep : ∀ f, Fit f → ∃ g, step f = (g, .ok ⟨⟩) ∧ R f g) : ∀ (l : List Nat) (m : List α), l.Nodup →
    (∀ a ∈ l, ∃ f, m[a]? = some f ∧ Fit f) →
    ∃ m', smoothLoop step m l = (m', .ok ⟨⟩) ∧ m'.length = m.length ∧
      (∀ a ∈ l, ∃ f g, m[a]? = some f ∧ m'[a]? = some g ∧ R f g) ∧ ∀ a, a ∉ l → m'[a]? = m[a]? := by
  intro l
  induction l with
  | nil => exact fun m _ _ => ⟨m, rfl, rfl, fun a ha => absurd ha List.not_mem_nil, fun _ _ => rfl⟩
  | cons b l ih =>
    intro m hn hw
    obtain ⟨hb, hn'⟩ := List.nodup_cons.1 hn
    obtain ⟨p, hp, hm⟩ := hw b List.mem_cons_self
    obtain ⟨q, hq, ha⟩ := hstep p hm
    have hset : ∀ a ∈ l, (m.set b q)[a]? = m[a]? := fun a h => List.getElem?_set_ne (fun e : b = a => hb (e ▸ h))
    obtain ⟨m', h1, h2, h3, h4⟩ := ih (m.set b q) hn' (fun a h => by
      obtain ⟨r, hr, hx⟩ := hw a (List.mem_cons_of_mem _ h)
      exact ⟨r, by rw [hset a h]; exact hr, hx⟩)
    refine ⟨m', ?_, by simpa using h2, ?_, ?_⟩
    · rw [smoothLoop]
      simp only [hp, hq]
      exact h1
    · intro a h
      rcases List.mem_cons.1 h with rfl | h
      · exact ⟨p, q, hp, by rw [h4 _ hb, List.getElem?_set_self (lt_of_some hp)], ha⟩
      · obtain ⟨p', q', e1, e2, e3⟩ := h3 a h
        exact ⟨p', q', by rw [← hset a h]; exact e1, e2, e3⟩
    · intro a h
      rw [h4 a (fun h' => h (List.mem_cons_of_mem _ h')), List.getElem?_set_ne (fun e : b = a => h (e ▸ List.mem_cons_self))]

theorem inplace_of (hstep : ∀ f, Fit f → ∃ g, step f = (g, .ok ⟨⟩) ∧ R f g) {m : List α} {c : Coll} (hn : c.at_.Nodup)
    (hw : ∀ a ∈ c.at_, ∃ f, m[a]? = some f ∧ Fit f) :
    ∃ m', smoothColl step m c true = (m', .ok c) ∧
      (∀ a ∈ c.at_, ∃ f g, m[a]? = some f ∧ m'[a]? = some g ∧ R f g) ∧ ∀ a, a ∉ c.at_ → m'[a]? = m[a]? := by
  obtain ⟨m', h1, -, h3, h4⟩ := smoothLoop_nodup hstep c.at_ m hn hw
  refine ⟨m', ?_, h3, h4⟩
  unfold smoothColl
  simp only [if_true, h1]

theorem copy_of (hstep : ∀ f, Fit f → ∃ g, step f = (g, .ok ⟨⟩) ∧ R f g) {m : List α} {c : Coll} (hn : c.at_.Nodup)
    (hw : ∀ a ∈ c.at_, ∃ f, m[a]? = some f ∧ Fit f) :
    ∃ m' r, smoothColl step m c false = (m', .ok r) ∧ (∀ a < m.length, m'[a]? = m[a]?) ∧
      r.times = c.times ∧ r.ut = c.ut ∧ r.at_.length = c.at_.length ∧
      ∀ (k a b : Nat), c.at_[k]? = some a → r.at_[k]? = some b → ∃ f g, m[a]? = some f ∧ m'[b]? = some g ∧ R f g := by
  have hcp : ∀ a, (m ++ m)[a + m.length]? = m[a]? := fun a => by
    rw [List.getElem?_append_right (by omega), Nat.add_sub_cancel]
  obtain ⟨m', h1, -, h3, h4⟩ := smoothLoop_nodup hstep (c.at_.map (· + m.length)) (m ++ m)
    (hn.map fun a b h => Nat.add_right_cancel h) (by
      intro a ha
      obtain ⟨b, hb, rfl⟩ := List.mem_map.1 ha
      obtain ⟨p, hp, hx⟩ := hw b hb
      exact ⟨p, by rw [hcp]; exact hp, hx⟩)
  refine ⟨m', { c with at_ := c.at_.map (· + m.length) }, ?_, ?_, rfl, rfl, by simp, ?_⟩
  · unfold smoothColl copyAll
    simp only [Bool.false_eq_true, if_false, h1]
  · intro a ha
    rw [h4 a (fun h => by obtain ⟨b, -, e⟩ := List.mem_map.1 h; omega), List.getElem?_append_left ha]
  · intro k a b ea eb
    simp only [List.getElem?_map, ea, Option.map_some, Option.some.injEq] at eb
    subst eb
    obtain ⟨p, q, e1, e2, e3⟩ := h3 (a + m.length) (List.mem_map.2 ⟨a, List.mem_of_getElem? ea, rfl⟩)
    exact ⟨p, q, by rw [← hcp]; exact e1, e2, e3⟩

/-- C382, for a collection of distinct scalar fields that can be filled, in place: each field is smoothed once, the other objects and the times are left. -/
theorem C382_inplace_partial (hs : s.Ok) {size : Option Nat} (h0 : size ≠ some 0) {m : List SF} {c : Coll} (hn : c.at_.Nodup)
    (hw : ∀ a ∈ c.at_, ∃ f, m[a]? = some f ∧ Smoothable f) :
    ∃ m', smoothColl (smoothField s w (.uniform size)) m c true = (m', .ok c) ∧
      (∀ a ∈ c.at_, ∃ f g, m[a]? = some f ∧ m'[a]? = some g ∧ Softened (size.getD 3) f g) ∧ ∀ a, a ∉ c.at_ → m'[a]? = m[a]? :=
  inplace_of (fun _ hf => smoothField_softened hs h0 hf) hn hw

/-- C382, for a collection of distinct scalar fields that can be filled, not in place: the objects that there were are left unchanged, and the collection
that is returned has the same times, its `k`-th field being the smoothed `k`-th field. -/
theorem C382_copy_partial (hs : s.Ok) {size : Option Nat} (h0 : size ≠ some 0) {m : List SF} {c : Coll} (hn : c.at_.Nodup)
    (hw : ∀ a ∈ c.at_, ∃ f, m[a]? = some f ∧ Smoothable f) :
    ∃ m' r, smoothColl (smoothField s w (.uniform size)) m c false = (m', .ok r) ∧ (∀ a < m.length, m'[a]? = m[a]?) ∧
      r.times = c.times ∧ r.ut = c.ut ∧ r.at_.length = c.at_.length ∧
      ∀ (k a b : Nat), c.at_[k]? = some a → r.at_[k]? = some b → ∃ f g, m[a]? = some f ∧ m'[b]? = some g ∧ Softened (size.getD 3) f g :=
  copy_of (fun _ hf => smoothField_softened hs h0 hf) hn hw

/-- C382, for a collection of distinct vector fields that can be filled, in place: each field is smoothed once, the other objects and the times are left. -/
theorem C382_vector_inplace_partial (hs : s.Ok) {size : Option Nat} (h0 : size ≠ some 0) {m : List VF} {c : Coll} (hn : c.at_.Nodup)
    (hw : ∀ a ∈ c.at_, ∃ f, m[a]? = some f ∧ VSmoothable f) :
    ∃ m', smoothColl (smoothVector s w (.uniform size)) m c true = (m', .ok c) ∧
      (∀ a ∈ c.at_, ∃ f g, m[a]? = some f ∧ m'[a]? = some g ∧ VSoftened (size.getD 3) f g) ∧ ∀ a, a ∉ c.at_ → m'[a]? = m[a]? :=
  inplace_of (fun _ hf => smoothVector_softened hs h0 hf) hn hw

/-- C382, for a collection of distinct vector fields that can be filled, not in place: the objects that there were are left unchanged, and the collection
that is returned has the same times, its `k`-th field being the smoothed `k`-th field. -/
theorem C382_vector_copy_partial (hs : s.Ok) {size : Option Nat} (h0 : size ≠ some 0) {m : List VF} {c : Coll} (hn : c.at_.Nodup)
    (hw : ∀ a ∈ c.at_, ∃ f, m[a]? = some f ∧ VSmoothable f) :
    ∃ m' r, smoothColl (smoothVector s w (.uniform size)) m c false = (m', .ok r) ∧ (∀ a < m.length, m'[a]? = m[a]?) ∧
      r.times = c.times ∧ r.ut = c.ut ∧ r.at_.length = c.at_.length ∧
      ∀ (k a b : Nat), c.at_[k]? = some a → r.at_[k]? = some b → ∃ f g, m[a]? = some f ∧ m'[b]? = some g ∧ VSoftened (size.getD 3) f g :=
  copy_of (fun _ hf => smoothVector_softened hs h0 hf) hn hw

/-- C382 fails when the same field is held at two times (`add_field(copy=False)`): it is smoothed twice. -/
theorem C382_shared_violated (hs : s.Ok) {size : Option Nat} (h0 : size ≠ some 0) {m : List SF} {c : Coll} {a : Nat} (hc : c.at_ = [a, a]) {f : SF}
    (hf : m[a]? = some f) (hw : Smoothable f) :
    ∃ m' g r, smoothColl (smoothField s w (.uniform size)) m c true = (m', .ok c) ∧ m'[a]? = some r ∧ Softened (size.getD 3) f g ∧ Softened (size.getD 3) g r := by
  have hal := lt_of_some hf
  obtain ⟨g, hg, h1⟩ := smoothField_softened (w := w) hs h0 hw
  obtain ⟨r, hr, h2⟩ := smoothField_softened (w := w) hs h0 h1.smoothable
  refine ⟨(m.set a g).set a r, g, r, ?_, by rw [List.getElem?_set_self (by simpa using hal)], h1, h2⟩
  have e : (m.set a g)[a]? = some g := List.getElem?_set_self hal
  unfold smoothColl
  simp only [if_true, hc, smoothLoop, hf, hg, e, hr]

/-- C382 fails for a collection whose second field is masked beyond some abscissa: an exception, after the first one has been smoothed. -/
theorem C382_halfway_violated (hs : s.Ok) {size : Option Nat} (h0 : size ≠ some 0) {m : List SF} {c : Coll} {a b : Nat} {l : List Nat}
    (hc : c.at_ = a :: b :: l) (hab : a ≠ b) {f f' : SF} (hf : m[a]? = some f) (hw : Smoothable f) (hf' : m[b]? = some f') (hw' : f'.WF) {k : Nat}
    (hk0 : 0 < k) (hk : k < f'.ax.length) (hm : ∀ i j, i < f'.ax.length → j < f'.ay.length → f'.mask.get i j = decide (k ≤ i)) :
    ∃ m' g, smoothColl (smoothField s w (.uniform size)) m c true = (m', .error .exception) ∧ m'[a]? = some g ∧ Softened (size.getD 3) f g := by
  obtain ⟨g, hg, h1⟩ := smoothField_softened (w := w) hs h0 hw
  have e : (m.set a g)[b]? = some f' := by rw [List.getElem?_set_ne hab]; exact hf'
  have e' : smoothField s w (.uniform size) f' = (f', .error .exception) := by
    unfold smoothField
    rw [(C248_wall_violated s hw' hk0 hk hm).1]
  refine ⟨(m.set a g).set b f', g, ?_, ?_, h1⟩
  · unfold smoothColl
    simp only [if_true, hc, smoothLoop, hf, hg, e, e']
  · rw [List.getElem?_set_ne (Ne.symm hab), List.getElem?_set_self (lt_of_some hf)]

/-- C382 fails with an unknown filter: the exception that is raised leaves the first field with its masked points filled. -/
theorem C382_kind_violated (hs : s.Ok) {m : List SF} {c : Coll} {a : Nat} {l : List Nat} (hc : c.at_ = a :: l) {f : SF} (hf : m[a]? = some f)
    (hw : f.WF) (he : Enough f true) {x y : Rat} (hn : f.Reads x y none) :
    ∃ m' g v, smoothColl (smoothField s w .other) m c true = (m', .error .valueError) ∧ m'[a]? = some g ∧ Fills f g ∧ g.Reads x y (some v) := by
  obtain ⟨⟨g, e, hh, -⟩, -⟩ := C248_linear_partial hs true hw fun _ => he
  obtain ⟨i, j, hi, hj, -⟩ := hn
  have hi' : g.ax[i]? = some x := by rw [hh.ax]; exact hi
  have hj' : g.ay[j]? = some y := by rw [hh.ay]; exact hj
  have e' : smoothField s w .other f = (g, .error .valueError) := by
    unfold smoothField
    rw [e]
  cases ec : g.cell i j with
  | none => exact absurd ⟨i, j, hi', hj', ec⟩ (hh.all x y)
  | some v =>
    refine ⟨m.set a g, g, v, ?_, List.getElem?_set_self (lt_of_some hf), hh, i, j, hi', hj', ec⟩
    unfold smoothColl
    simp only [if_true, hc, smoothLoop, hf, e']

/-- C382 fails with an unknown filter, for vector fields too. -/
theorem C382_vector_kind_violated (hs : s.Ok) {m : List VF} {c : Coll} {a : Nat} {l : List Nat} (hc : c.at_ = a :: l) {f : VF} (hf : m[a]? = some f)
    (hw : VSmoothable f) {x y : Rat} (hn : f.Reads x y none) :
    ∃ m' g v, smoothColl (smoothVector s w .other) m c true = (m', .error .valueError) ∧ m'[a]? = some g ∧ VFills f g ∧ g.Reads x y (some v) := by
  obtain ⟨g, e, hh, -⟩ := C250_linear_partial hs true hw.1 hw.2.1 hw.2.2.1 hw.2.2.2
  obtain ⟨i, j, hi, hj, -⟩ := hn
  have hi' : g.ax[i]? = some x := by rw [hh.ax]; exact hi
  have hj' : g.ay[j]? = some y := by rw [hh.ay]; exact hj
  have e' : smoothVector s w .other f = (g, .error .valueError) := by
    unfold smoothVector
    rw [e]
  cases ec : g.cell i j with
  | none => exact absurd ⟨i, j, hi', hj', ec⟩ (hh.all x y)
  | some v =>
    refine ⟨m.set a g, g, v, ?_, List.getElem?_set_self (lt_of_some hf), hh, i, j, hi', hj', ec⟩
    unfold smoothColl
    simp only [if_true, hc, smoothLoop, hf, e']

/-! ### the hypotheses are met -/

theorem hole_smoothable : Smoothable hole := ⟨hole_wf, fun _ => hole_enough⟩

example (w : Gauss) : ∃ m', smoothColl (smoothField aScipy w (.uniform none)) [hole, hole, wall] ⟨[0, 1], .one, [1, 0]⟩ true = (m', .ok ⟨[0, 1], .one, [1, 0]⟩) ∧
    m'[2]? = some wall := by
  obtain ⟨m', h, -, h2⟩ := C382_inplace_partial (w := w) aScipy_ok (size := none) (by simp) (m := [hole, hole, wall]) (c := ⟨[0, 1], .one, [1, 0]⟩)
    (by decide) (by
      intro a ha
      simp only [List.mem_cons, List.not_mem_nil, or_false] at ha
      rcases ha with rfl | rfl <;> exact ⟨hole, rfl, hole_smoothable⟩)
  exact ⟨m', h, h2 2 (by decide)⟩

example (w : Gauss) : ∃ m', smoothColl (smoothField aScipy w (.uniform none)) [hole] ⟨[0, 1], .one, [0, 0]⟩ true = (m', .ok ⟨[0, 1], .one, [0, 0]⟩) := by
  obtain ⟨m', -, -, h, -⟩ := C382_shared_violated (w := w) aScipy_ok (size := none) (by simp) (m := [hole]) (c := ⟨[0, 1], .one, [0, 0]⟩) rfl rfl
    hole_smoothable
  exact ⟨m', h⟩

example (w : Gauss) : ∃ m', smoothColl (smoothField aScipy w (.uniform none)) [hole, wall] ⟨[0, 1], .one, [0, 1]⟩ true = (m', .error .exception) := by
  obtain ⟨m', -, h, -⟩ := C382_halfway_violated (w := w) aScipy_ok (size := none) (by simp) (m := [hole, wall]) (c := ⟨[0, 1], .one, [0, 1]⟩) rfl
    (by decide) rfl hole_smoothable rfl wall_wf (k := 2) (by omega) (by decide) fun _ _ _ _ => rfl
  exact ⟨m', h⟩

example (w : Gauss) : ∃ m' g v, smoothColl (smoothField aScipy w .other) [hole] ⟨[0], .one, [0]⟩ true = (m', .error .valueError) ∧ m'[0]? = some g ∧
    g.Reads 1 1 (some v) := by
  obtain ⟨m', g, v, h1, h2, -, h3⟩ := C382_kind_violated (w := w) aScipy_ok (m := [hole]) (c := ⟨[0], .one, [0]⟩) rfl rfl hole_wf hole_enough
    (x := 1) (y := 1) ⟨1, 1, by simp [hole], by simp [hole], by simp [SF.cell, hole]⟩
  exact ⟨m', g, v, h1, h2, h3⟩

theorem square_smoothable (u : Rat) : VSmoothable (square false u) := by
  refine ⟨square_wf _ _, by simp [square], by simp [square], ?_⟩
  rintro ⟨x, y, i, j, -, -, h⟩
  simp [VF.cell, square] at h

example (w : Gauss) : ∃ m', smoothColl (smoothVector aScipy w (.uniform none)) [square false 1, square false 2] ⟨[0, 1], .one, [1, 0]⟩ true =
    (m', .ok ⟨[0, 1], .one, [1, 0]⟩) := by
  obtain ⟨m', h, -⟩ := C382_vector_inplace_partial (w := w) aScipy_ok (size := none) (by simp) (m := [square false 1, square false 2])
    (c := ⟨[0, 1], .one, [1, 0]⟩) (by decide) (by
      intro a ha
      simp only [List.mem_cons, List.not_mem_nil, or_false] at ha
      rcases ha with rfl | rfl
      · exact ⟨_, rfl, square_smoothable 2⟩
      · exact ⟨_, rfl, square_smoothable 1⟩)
  exact ⟨m', h⟩

/-- A vector field with a masked point in the middle. -/
def vhole : VF := ⟨hole.ax, hole.ay, hole.val, hole.val, hole.mask, .one, .one, .one⟩

theorem vhole_smoothable : VSmoothable vhole := by
  have h := hole_wf
  refine ⟨⟨h.incx, h.incy, h.nex, h.ney, h.vx, h.vy, h.vx, h.vy, h.mx, h.my, h.nan, h.nan⟩, by simp [vhole, hole], by simp [vhole, hole], ?_⟩
  intro _ sx e
  have en : (Mirror.compX vhole).map (fun f => nodes f true) = .ok (nodes hole true) := by decide +kernel
  rw [e] at en
  have en' : nodes sx true = nodes hole true := by simpa [Except.map] using en
  unfold Enough
  rw [en']
  exact hole_enough

example (w : Gauss) : ∃ m' g v, smoothColl (smoothVector aScipy w .other) [vhole] ⟨[0], .one, [0]⟩ true = (m', .error .valueError) ∧ m'[0]? = some g ∧
    g.Reads 1 1 (some v) := by
  obtain ⟨m', g, v, h1, h2, -, h3⟩ := C382_vector_kind_violated (w := w) aScipy_ok (m := [vhole]) (c := ⟨[0], .one, [0]⟩) rfl rfl vhole_smoothable
    (x := 1) (y := 1) ⟨1, 1, by simp [vhole, hole], by simp [vhole, hole], by simp [VF.cell, vhole, hole]⟩
  exact ⟨m', g, v, h1, h2, h3⟩

end IMT.Fill
