import Verif.Mirror.Lemmas

/-!
Property C194: the mirror image of a scalar field.

Specification: `along d (x, y)` is the coordinate across the mirror, `opposite d pos (x, y)` the mirror point, `Kept` the
visible values on the larger side of the mirror.
-/

namespace IMT.Mirror

open Line (Dir axe)

/-! ### specification -/

/-- The coordinate across the mirror. -/
def along : Dir → Rat → Rat → Rat
  | .x, x, _ => x
  | .y, _, y => y

/-- The mirror point. -/
def opposite : Dir → Rat → Rat → Rat → Rat × Rat
  | .x, pos, x, y => (2 * pos - x, y)
  | .y, pos, x, y => (x, 2 * pos - y)

/-- `v` is visible at `(x, y)` in the field, on the larger side of the mirror; the axis goes from `a` to `z`. -/
def Kept (f : SF) (d : Dir) (pos a z x y v : Rat) : Prop :=
  f.Reads x y (some v) ∧ (pos < (a + z) / 2 → pos ≤ along d x y) ∧ (pos > (a + z) / 2 → along d x y ≤ pos)

/-- An axis from `a` to `z` with step `h`. -/
structure EvenAxis (l : List Rat) (a z h : Rat) : Prop where
  pos : 0 < h
  first : l.head? = some a
  last : l.getLast? = some z
  step : ∀ (i : Nat) x, l[i]? = some x → x = a + i * h

/-- How many lines are mirrored: 'all' or too large a number means all lines but one. -/
def Asked (n : Nat) (inds : Option Int) (k : Int) : Prop :=
  (inds = none ∧ k = n - 1) ∨ (inds = some k ∧ k ≤ n) ∨ (∃ q, inds = some q ∧ (n : Int) < q ∧ k = n - 1)

/-! ### helper lemmas -/

theorem along_eq (d : Dir) (x y : Rat) : along d x y = coord d (x, y) := by cases d <;> rfl

theorem opposite_eq (d : Dir) (pos x y : Rat) : opposite d pos x y = image d pos (x, y) := by
  cases d
  · simp only [opposite, image, Prod.mk.injEq, and_true]; ring
  · simp only [opposite, image, Prod.mk.injEq, true_and]; ring

theorem EvenAxis.onGrid {l : List Rat} {a z h : Rat} (e : EvenAxis l a z h) : OnGrid a h l :=
  ⟨0, fun i x hx => by rw [e.step i x hx]; push_cast; ring⟩

theorem Asked.eq {n : Nat} {inds : Option Int} {k : Int} (h : Asked n inds k) : lines n inds = k := by
  rcases h with ⟨rfl, rfl⟩ | ⟨rfl, h⟩ | ⟨q, rfl, h, rfl⟩
  · rfl
  · simp only [lines]; rw [if_neg (by omega)]
  · simp only [lines]; rw [if_pos h]

theorem finish_none (k : SF) : finish k .none = k := rfl

/-! ### C194 -/

/-- C194: whatever the position of the mirror, every visible value on the larger side is still there, and the units are. -/
theorem C194_keeps {main : Bool} {f g : SF} (hf : f.WF) {d : Dir} {pos coef a z : Rat} {inds : Option Int}
    (ha : (axe f d).head? = some a) (hz : (axe f d).getLast? = some z) (h : mirroring main f d pos inds coef .none = .ok g) :
    (∀ x y v, Kept f d pos a z x y v → g.Reads x y (some v)) ∧ g.WF ∧ g.ux = f.ux ∧ g.uy = f.uy ∧ g.uv = f.uv := by
  obtain ⟨t, u, before, border, e, k, h1, h2, h3, h4, h5⟩ := stages h
  rw [finish_none] at h5
  subst h5
  obtain ⟨up, ur⟩ := side_ok hf ha hz h1 h2
  obtain ⟨-, uw, ew, -, -, er, e1, e2, e3⟩ := extended_ok up.loose h3
  obtain ⟨fr, kc⟩ := fillAll_keeps _ _ _ ew (fun q hq => mem_indexPairs.mp hq) h4
  obtain ⟨-, -, -, s1, s2, s3⟩ := up.sub
  refine ⟨fun x y v hk => ?_, fr.wf, by rw [fr.ux, e1, s1], by rw [fr.uy, e2, s2], by rw [fr.uv, e3, s3]⟩
  obtain ⟨hk1, hk2, hk3⟩ := hk
  rw [along_eq] at hk2 hk3
  obtain ⟨i, j, hi, hj, hc⟩ := (er x y v).mpr ((ur x y v).mpr ⟨hk1, hk2, hk3⟩)
  exact ⟨i, j, by rw [fr.ax]; exact hi, by rw [fr.ay]; exact hj, kc i j (getElem?_some_lt hi) (getElem?_some_lt hj) v hc⟩

/-- C194: on an even axis, with the mirror on a line or halfway between two lines, every point of the result shows the kept value if there
is one, else the kept value at the mirror point times the coefficient, else nothing. -/
theorem C194_values {main : Bool} {f g : SF} (hf : f.WF) {d : Dir} {pos coef a z h : Rat} {inds : Option Int} (he : EvenAxis (axe f d) a z h)
    {m : ℤ} (hp : pos = a + m * (h / 2)) (hg : mirroring main f d pos inds coef .none = .ok g) {x y : Rat} {r : Option Rat}
    (hr : g.Reads x y r) :
    (∃ v, Kept f d pos a z x y v ∧ r = some v) ∨
    ((∀ v, ¬ Kept f d pos a z x y v) ∧
      ∃ v, Kept f d pos a z (opposite d pos x y).1 (opposite d pos x y).2 v ∧ r = some (v * coef)) ∨
    ((∀ v, ¬ Kept f d pos a z x y v) ∧ (∀ v, ¬ Kept f d pos a z (opposite d pos x y).1 (opposite d pos x y).2 v) ∧ r = none) := by
  obtain ⟨t, u, before, border, e, k, h1, h2, h3, h4, h5⟩ := stages hg
  rw [finish_none] at h5
  subst h5
  obtain ⟨up, ur⟩ := side_ok hf he.first he.last h1 h2
  obtain ⟨-, uw, ew, l2, ex, er, -⟩ := extended_ok up.loose h3
  have eg : OnGrid a h (axe e d) := OnGrid.extend (axe_inc up.loose d) l2 (up.onGrid he.onGrid) ex
  obtain ⟨mir, M⟩ := mirrors_of_even (pos := pos) (m := m) ew he.pos (by rw [hp]; ring) eg
  obtain ⟨k', hk', fr, kc⟩ := fillAll_from (main := main) (coef := coef) ew M
  rw [h4] at hk'
  cases hk'
  have hkept : ∀ x y v, Kept f d pos a z x y v ↔ e.Reads x y (some v) := by
    intro x y v
    rw [er, ur, ← along_eq]; rfl
  simp only [hkept]
  obtain ⟨i, j, hi, hj, hc⟩ := hr
  rw [fr.ax] at hi
  rw [fr.ay] at hj
  rw [kc i j (getElem?_some_lt hi) (getElem?_some_lt hj)] at hc
  have own : e.Reads x y (e.cell i j) := ⟨i, j, hi, hj, rfl⟩
  rw [opposite_eq]
  cases hce : e.cell i j with
  | some v =>
    rw [target_some hce] at hc
    rw [hce] at own
    exact .inl ⟨v, own, hc.symm⟩
  | none =>
    rw [hce] at own
    have no : ∀ v, ¬ e.Reads x y (some v) := fun v hv => by
      have := own.unique ew hv
      cases this
    right
    cases hp : mir (i, j) with
    | none =>
      right
      refine ⟨no, fun v hv => ?_, by rw [← hc]; simp only [target, hce, hp]⟩
      have ho := M.out i j x y hi hj hp
      obtain ⟨i', j', hi', hj', -⟩ := hv
      obtain ⟨b1, b2⟩ := bounds_mem ew.incx hi'
      obtain ⟨b3, b4⟩ := bounds_mem ew.incy hj'
      rcases ho with h | h | h | h
      · exact b1 h
      · exact b2 h
      · exact b3 h
      · exact b4 h
    | some p =>
      obtain ⟨-, px, py⟩ := M.inn i j x y hi hj p hp
      have opp : e.Reads (image d pos (x, y)).1 (image d pos (x, y)).2 (e.cell p.1 p.2) := ⟨p.1, p.2, px, py, rfl⟩
      simp only [target, hce, hp] at hc
      cases hcp : e.cell p.1 p.2 with
      | some v =>
        rw [hcp] at hc opp
        left
        exact ⟨no, v, opp, hc.symm⟩
      | none =>
        rw [hcp] at hc opp
        right
        refine ⟨no, fun v hv => ?_, hc.symm⟩
        have := opp.unique ew hv
        cases this

/-- C194: with `interp='value'` the points left without a value get the given one. -/
theorem C194_fill {main : Bool} {f g : SF} {d : Dir} {pos coef v : Rat} {inds : Option Int} (hf : f.WF)
    {a z : Rat} (ha : (axe f d).head? = some a) (hz : (axe f d).getLast? = some z)
    (hg : mirroring main f d pos inds coef (.value v) = .ok g) :
    ∃ k, mirroring main f d pos inds coef .none = .ok k ∧ ∀ x y r, g.Reads x y r ↔ ∃ s, k.Reads x y s ∧ r = some (s.getD v) := by
  obtain ⟨t, u, before, border, e, k, h1, h2, h3, h4, h5⟩ := stages hg
  have hk : mirroring main f d pos inds coef .none = .ok k := by
    unfold mirroring
    rw [h1]; simp only
    rw [h2]; simp only
    rw [h3]; simp only
    rw [h4]; rfl
  have kw := (C194_keeps hf ha hz hk).2.1
  refine ⟨k, hk, ?_⟩
  subst h5
  unfold finish
  simp only
  by_cases hm : k.anyMasked = true
  · rw [if_pos hm]
    refine SF.reads_map (f := k) (g := k.fillValue v) rfl rfl (fun s => some (s.getD v)) ?_
    intro i j hi hj
    have hc := SF.Reads.cellMask kw hi hj
    unfold SF.fillValue
    simp only [SF.cell, Grid.const]
    cases hcell : k.cell i j with
    | none => rw [hcell] at hc; unfold SF.cell at hcell; simp [hc]
    | some w => rw [hcell] at hc; unfold SF.cell at hcell; rw [hcell]; simp at hc; simp [hc]
  · rw [if_neg hm]
    intro x y r
    constructor
    · intro hr
      cases r with
      | none => exact absurd hr (SF.no_mask_reads kw.loose (by simpa using hm) x y)
      | some w => exact ⟨some w, hr, rfl⟩
    · rintro ⟨s, hs, rfl⟩
      cases s with
      | none => exact absurd hs (SF.no_mask_reads kw.loose (by simpa using hm) x y)
      | some w => exact hs

/-- C194: a mirror in the exact middle is refused. -/
theorem C194_middle {main : Bool} {f : SF} {d : Dir} {coef a z : Rat} {inds : Option Int} {interp : Interp} (hf : f.WF)
    (ha : (axe f d).head? = some a) (hz : (axe f d).getLast? = some z) :
    ∀ g, mirroring main f d ((a + z) / 2) inds coef interp ≠ .ok g := by
  intro g h
  obtain ⟨t, u, before, border, e, k, -, h2, -⟩ := stages h
  have haz := Axis.head_le_last (axe_inc hf.loose d) ha hz
  rcases side_cases ha hz h2 with ⟨h1, -⟩ | ⟨h1, -⟩ | ⟨-, h1, -⟩ | ⟨-, h1, -⟩ <;> linarith

/-! ### the lines of the result -/

theorem finish_axes (k : SF) (i : Interp) : (finish k i).ax = k.ax ∧ (finish k i).ay = k.ay := by
  cases i with
  | none => exact ⟨rfl, rfl⟩
  | value v =>
    unfold finish
    by_cases h : k.anyMasked = true
    · simp only [if_pos h]; exact ⟨rfl, rfl⟩
    · simp only [if_neg h, and_self]

theorem finish_axe (k : SF) (i : Interp) (d : Dir) : axe (finish k i) d = axe k d := by
  cases d
  · exact (finish_axes k i).1
  · exact (finish_axes k i).2

theorem frame_axe {g f : SF} (h : Frame g f) (d : Dir) : axe g d = axe f d := by
  cases d
  · exact h.ax
  · exact h.ay

theorem lattice_inj {a h : Rat} (hh : 0 < h) {i j : ℤ} (e : a + i * h = a + j * h) : i = j := by
  have : (i : Rat) * h = j * h := by linarith
  have := mul_right_cancel₀ hh.ne' this
  exact_mod_cast this

/-- The new lines before the first one. -/
theorem ext_before {l out : List Rat} (hl : Inc l) (h2 : 2 ≤ l.length) {a h : Rat} (hh : 0 < h) {c : ℤ}
    (H : ∀ (i : Nat) x, l[i]? = some x → x = a + ((c : Rat) + i) * h) {N : Nat} (he : Axis.extend l N 0 = .ok out) {j : ℤ} (hj : j ≤ c) :
    a + j * h ∈ out ↔ c - N ≤ j := by
  obtain ⟨out', e, io, lo, s1, s2, -⟩ := Axis.extend_spec hl h2 N 0
  rw [he] at e
  cases e
  have g0 : l[0]? = some l[0] := List.getElem?_eq_getElem (by omega)
  have g1 : l[1]? = some l[1] := List.getElem?_eq_getElem (by omega)
  have v0 := H _ _ g0
  have v1 := H _ _ g1
  have key : ∀ (k : Nat), k ≤ N → out[k]? = some (a + ((c - N + k : ℤ) : Rat) * h) := by
    intro k hk
    by_cases hlt : k < N
    · rw [s2 _ _ g0 g1 k hlt, v0, v1]; congr 1; push_cast; ring
    · obtain rfl : k = N := by omega
      have := s1 0 (by omega)
      rw [Nat.add_zero] at this
      rw [this, g0, v0]; congr 1; push_cast; ring
  constructor
  · intro hm
    obtain ⟨k, hk⟩ := List.getElem?_of_mem hm
    by_contra hc
    have h0 := key 0 (Nat.zero_le _)
    have hle := io.get_le h0 hk (Nat.zero_le _)
    have h3 : ((j : ℤ) : Rat) < ((c - N + (0 : Nat) : ℤ) : Rat) := by exact_mod_cast (by omega : j < c - N + (0 : Nat))
    have := mul_lt_mul_of_pos_right h3 hh
    linarith
  · intro hge
    have := key (j - (c - N)).toNat (by omega)
    refine List.mem_of_getElem? (i := (j - (c - N)).toNat) ?_
    rw [this]
    congr 3
    have : (c - N + ((j - (c - N)).toNat : ℕ) : ℤ) = j := by omega
    rw [this]

/-- The new lines after the last one, number `w`. -/
theorem ext_after {l out : List Rat} (hl : Inc l) (h2 : 2 ≤ l.length) {a h : Rat} (hh : 0 < h) {c w : ℤ}
    (H : ∀ (i : Nat) x, l[i]? = some x → x = a + ((c : Rat) + i) * h) (hw : w = c + l.length - 1) {N : Nat}
    (he : Axis.extend l 0 N = .ok out) {j : ℤ} (hj : w ≤ j) :
    a + j * h ∈ out ↔ j ≤ w + N := by
  obtain ⟨out', e, io, lo, s1, -, s3⟩ := Axis.extend_spec hl h2 0 N
  rw [he] at e
  cases e
  have gy : l[l.length - 2]? = some l[l.length - 2] := List.getElem?_eq_getElem (by omega)
  have gz : l[l.length - 1]? = some l[l.length - 1] := List.getElem?_eq_getElem (by omega)
  have vy := H _ _ gy
  have vz := H _ _ gz
  rw [Nat.cast_sub (by omega)] at vy vz
  have hwr : (w : Rat) = c + l.length - 1 := by exact_mod_cast hw
  have key : ∀ (k : Nat), k ≤ N → out[l.length - 1 + k]? = some (a + ((w + k : ℤ) : Rat) * h) := by
    intro k hk
    by_cases hlt : k = 0
    · subst hlt
      have := s1 (l.length - 1) (by omega)
      rw [Nat.zero_add] at this
      rw [Nat.add_zero, this, gz, vz]; congr 1; push_cast; rw [hwr]; ring
    · have := s3 _ _ gy gz (k - 1) (by omega)
      rw [show 0 + l.length + (k - 1) = l.length - 1 + k by omega] at this
      rw [this, vy, vz, Nat.cast_sub (by omega)]; congr 1; push_cast; rw [hwr]; ring
  constructor
  · intro hm
    obtain ⟨k, hk⟩ := List.getElem?_of_mem hm
    by_contra hc
    have h0 := key N (le_refl _)
    have := getElem?_some_lt hk
    have hle := io.get_le hk h0 (by omega)
    have h3 : ((w + N : ℤ) : Rat) < ((j : ℤ) : Rat) := by exact_mod_cast (by omega : w + N < j)
    have := mul_lt_mul_of_pos_right h3 hh
    linarith
  · intro hge
    have := key (j - w).toNat (by omega)
    refine List.mem_of_getElem? (i := l.length - 1 + (j - w).toNat) ?_
    rw [this]
    congr 3
    have : (w + ((j - w).toNat : ℕ) : ℤ) = j := by omega
    rw [this]

theorem toAdd_before {k s m : ℤ} {pos border a h : Rat} (hh : 0 < h) (hb : border = a + s * h) (hp : pos = a + m * (h / 2)) :
    toAdd k true pos border h = k + 2 * s - m - 1 := by
  unfold toAdd
  simp only [if_true]
  have : (k : Rat) + 2 * (-(pos - border) / h) = ((k + 2 * s - m : ℤ) : Rat) := by
    rw [hb, hp]; push_cast; field_simp; ring
  rw [this, Int.ceil_intCast]

theorem toAdd_after {k s m : ℤ} {pos border a h : Rat} (hh : 0 < h) (hb : border = a + s * h) (hp : pos = a + m * (h / 2)) :
    toAdd k false pos border h = k + m - 2 * s - 1 := by
  unfold toAdd
  simp only [Bool.false_eq_true, if_false]
  have : (k : Rat) + 2 * ((pos - border) / h) = ((k + m - 2 * s : ℤ) : Rat) := by
    rw [hb, hp]; push_cast; field_simp; ring
  rw [this, Int.ceil_intCast]

theorem EvenAxis.delta {l : List Rat} {a z h : Rat} (e : EvenAxis l a z h) (h2 : 2 ≤ l.length) : l.getD 1 0 - l.getD 0 0 = h := by
  have g0 : l[0]? = some l[0] := List.getElem?_eq_getElem (by omega)
  have g1 : l[1]? = some l[1] := List.getElem?_eq_getElem (by omega)
  rw [List.getD_eq_getElem?_getD, List.getD_eq_getElem?_getD, g0, g1, Option.getD_some, Option.getD_some, e.step _ _ g0, e.step _ _ g1]
  push_cast; ring

theorem part_two {u f : SF} {d : Dir} (h : Part u f d) (h2 : 2 ≤ (axe u d).length) : 2 ≤ (axe f d).length := by
  obtain ⟨lo, hi, e⟩ := h.slice
  rw [e, slice_length] at h2
  omega

/-- Where the lines of the result are, with the mirrored part before: `c` is the number of the first line of the kept part, `s` the number
of the border. -/
theorem lines_before {main : Bool} {f g : SF} (hf : f.WF) {d : Dir} {pos coef a z h : Rat} {inds : Option Int} {interp : Interp}
    (he : EvenAxis (axe f d) a z h) {m : ℤ} (hp : pos = a + m * (h / 2)) (hlt : pos < (a + z) / 2)
    (hg : mirroring main f d pos inds coef interp = .ok g) :
    ∃ t u border, trimmed f = .ok t ∧ side f t d pos = .ok (u, true, border) ∧ u.WF ∧
      ∀ c s : ℤ, (axe u d).head? = some (a + c * h) → border = a + s * h → ∀ j : ℤ, j ≤ c →
        (a + j * h ∈ axe g d ↔ c - (lines (axe f d).length inds + 2 * s - m - 1) ≤ j) := by
  obtain ⟨t, u, before, border, e, k, h1, h2, h3, h4, h5⟩ := stages hg
  obtain ⟨up, ur⟩ := side_ok hf he.first he.last h1 h2
  obtain ⟨hn, uw, ew, l2, ex, er, -⟩ := extended_ok up.loose h3
  have hb : before = true := by
    have haz := Axis.head_le_last (axe_inc hf.loose d) he.first he.last
    rcases side_cases he.first he.last h2 with ⟨-, -, hb, -⟩ | ⟨h1, -⟩ | ⟨-, -, hb, -⟩ | ⟨-, h1, -⟩
    · exact hb
    · linarith
    · exact hb
    · linarith
  subst hb
  refine ⟨t, u, border, h1, h2, uw, fun c s hc hs j hj => ?_⟩
  obtain ⟨fr, -⟩ := fillAll_keeps _ _ _ ew (fun q hq => mem_indexPairs.mp hq) h4
  rw [h5, finish_axe, frame_axe fr]
  rw [he.delta (part_two up l2), toAdd_before he.pos hs hp] at ex hn
  simp only [if_true] at ex
  obtain ⟨c', hc'⟩ := up.onGrid he.onGrid
  have : c' = c := by
    rw [head?_eq_get0] at hc
    have := hc' 0 _ hc
    refine (lattice_inj (a := a) he.pos ?_).symm
    rw [this]; push_cast; ring
  subst this
  rw [ext_before (axe_inc up.loose d) l2 he.pos hc' ex hj]
  omega

/-- Where the lines of the result are, with the mirrored part after: `w` is the number of the last line of the kept part. -/
theorem lines_after {main : Bool} {f g : SF} (hf : f.WF) {d : Dir} {pos coef a z h : Rat} {inds : Option Int} {interp : Interp}
    (he : EvenAxis (axe f d) a z h) {m : ℤ} (hp : pos = a + m * (h / 2)) (hlt : (a + z) / 2 < pos)
    (hg : mirroring main f d pos inds coef interp = .ok g) :
    ∃ t u border, trimmed f = .ok t ∧ side f t d pos = .ok (u, false, border) ∧ u.WF ∧
      ∀ w s : ℤ, (axe u d).getLast? = some (a + w * h) → border = a + s * h → ∀ j : ℤ, w ≤ j →
        (a + j * h ∈ axe g d ↔ j ≤ w + (lines (axe f d).length inds + m - 2 * s - 1)) := by
  obtain ⟨t, u, before, border, e, k, h1, h2, h3, h4, h5⟩ := stages hg
  obtain ⟨up, ur⟩ := side_ok hf he.first he.last h1 h2
  obtain ⟨hn, uw, ew, l2, ex, er, -⟩ := extended_ok up.loose h3
  have hb : before = false := by
    have haz := Axis.head_le_last (axe_inc hf.loose d) he.first he.last
    rcases side_cases he.first he.last h2 with ⟨h1, -⟩ | ⟨-, -, hb, -⟩ | ⟨-, h1, -⟩ | ⟨-, -, hb, -⟩
    · linarith
    · exact hb
    · linarith
    · exact hb
  subst hb
  refine ⟨t, u, border, h1, h2, uw, fun w s hc hs j hj => ?_⟩
  obtain ⟨fr, -⟩ := fillAll_keeps _ _ _ ew (fun q hq => mem_indexPairs.mp hq) h4
  rw [h5, finish_axe, frame_axe fr]
  rw [he.delta (part_two up l2), toAdd_after he.pos hs hp] at ex hn
  simp only [Bool.false_eq_true, if_false] at ex
  obtain ⟨c', hc'⟩ := up.onGrid he.onGrid
  have : w = c' + (axe u d).length - 1 := by
    rw [getLast?_eq_get] at hc
    have := hc' _ _ hc
    refine lattice_inj (a := a) he.pos ?_
    rw [this, Nat.cast_sub (by omega)]; push_cast; ring
  rw [ext_after (axe_inc up.loose d) l2 he.pos hc' this ex hj]
  omega

theorem no_masked {f : SF} (hf : f.WF) (h : ∀ x y, ¬ f.Reads x y none) : f.anyMasked = false := by
  by_contra hc
  obtain ⟨i, j, hi, hj, hm⟩ := (SF.anyMasked_iff f).mp (by simpa using hc)
  rw [hf.mx] at hi
  rw [hf.my] at hj
  refine h f.ax[i] f.ay[j] ⟨i, j, List.getElem?_eq_getElem hi, List.getElem?_eq_getElem hj, ?_⟩
  have := SF.Reads.cellMask hf hi hj
  rw [hm] at this
  exact Option.isNone_iff_eq_none.mp this.symm

theorem trimmed_full {f : SF} (hf : f.WF) (h : ∀ x y, ¬ f.Reads x y none) : trimmed f = .ok f := by
  unfold trimmed
  rw [if_pos (no_masked hf h)]

theorem reads_on {f : SF} (hf : f.WF) {d : Dir} {b : Rat} (hb : b ∈ axe f d) : ∃ x y r, f.Reads x y r ∧ along d x y = b := by
  obtain ⟨i, hi⟩ := List.getElem?_of_mem hb
  obtain ⟨x, hx⟩ := List.exists_mem_of_ne_nil _ hf.nex
  obtain ⟨y, hy⟩ := List.exists_mem_of_ne_nil _ hf.ney
  obtain ⟨k, hk⟩ := List.getElem?_of_mem hx
  obtain ⟨l, hl⟩ := List.getElem?_of_mem hy
  cases d
  · exact ⟨b, y, _, ⟨i, l, hi, hl, rfl⟩, rfl⟩
  · exact ⟨x, b, _, ⟨k, i, hk, hi, rfl⟩, rfl⟩

/-- The border of a field without masked points, mirror before. -/
theorem border_before {f u : SF} (hf : f.WF) (hm : ∀ x y, ¬ f.Reads x y none) {d : Dir} {pos border a z b : Rat}
    (ha : (axe f d).head? = some a) (hz : (axe f d).getLast? = some z) (hs : side f f d pos = .ok (u, true, border)) (uw : u.WF)
    (hlt : pos < (a + z) / 2) (hb : b ∈ axe f d) (hpb : pos ≤ b) (hmin : ∀ x ∈ axe f d, pos ≤ x → b ≤ x) :
    (axe u d).head? = some b ∧ border = b := by
  obtain ⟨up, ur⟩ := side_ok hf ha hz (trimmed_full hf hm) hs
  have inc := axe_inc hf.loose d
  -- the first line of the kept part
  obtain ⟨c, hc⟩ : ∃ c, (axe u d).head? = some c := by
    have : axe u d ≠ [] := by cases d; exacts [uw.nex, uw.ney]
    cases e : axe u d with
    | nil => exact absurd e this
    | cons c _ => exact ⟨c, rfl⟩
  have hcm : c ∈ axe u d := List.mem_of_head? hc
  have full : ∀ x y, ¬ u.Reads x y none := fun x y hr => hm x y ((up.sub.2.2.1 x y _).mp hr).1
  have hcf : c ∈ axe f d ∧ pos ≤ c := by
    obtain ⟨x, y, r, hr, hxy⟩ := reads_on uw hcm
    cases r with
    | none => exact absurd hr (full x y)
    | some v =>
      obtain ⟨k1, k2, -⟩ := (ur x y v).mp hr
      have := coord_mem (d := d) k1
      rw [← along_eq] at this k2
      rw [hxy] at this k2
      exact ⟨this, k2 hlt⟩
  have hbu : b ∈ axe u d := by
    obtain ⟨x, y, r, hr, hxy⟩ := reads_on hf hb
    cases r with
    | none => exact absurd hr (hm x y)
    | some v =>
      have := (ur x y v).mpr ⟨hr, fun _ => by rw [← along_eq, hxy]; exact hpb, fun hgt => by linarith⟩
      have := coord_mem (d := d) this
      rw [← along_eq, hxy] at this
      exact this
  have hcb : c = b := le_antisymm (head_le (axe_inc up.loose d) hc hbu) (hmin c hcf.1 hcf.2)
  refine ⟨by rw [hc, hcb], ?_⟩
  have haz := Axis.head_le_last inc ha hz
  rcases side_cases ha hz hs with ⟨h1, rfl, -, h3⟩ | ⟨h1, -, h, -⟩ | ⟨-, -, -, -, h1⟩ | ⟨-, h1, -⟩
  · rw [h3]
    refine le_antisymm (head_le inc ha hb) (hmin a (List.mem_of_head? ha) h1.le)
  · cases h
  · rw [hc] at h1; cases h1; exact hcb
  · linarith

/-- The border of a field without masked points, mirror after. -/
theorem border_after {f u : SF} (hf : f.WF) (hm : ∀ x y, ¬ f.Reads x y none) {d : Dir} {pos border a z b : Rat}
    (ha : (axe f d).head? = some a) (hz : (axe f d).getLast? = some z) (hs : side f f d pos = .ok (u, false, border)) (uw : u.WF)
    (hlt : (a + z) / 2 < pos) (hb : b ∈ axe f d) (hpb : b ≤ pos) (hmax : ∀ x ∈ axe f d, x ≤ pos → x ≤ b) :
    (axe u d).getLast? = some b ∧ border = b := by
  obtain ⟨up, ur⟩ := side_ok hf ha hz (trimmed_full hf hm) hs
  have inc := axe_inc hf.loose d
  obtain ⟨c, hc⟩ : ∃ c, (axe u d).getLast? = some c := by
    have : axe u d ≠ [] := by cases d; exacts [uw.nex, uw.ney]
    exact ⟨_, List.getLast?_eq_some_getLast this⟩
  have hcm : c ∈ axe u d := List.mem_of_getLast? hc
  have full : ∀ x y, ¬ u.Reads x y none := fun x y hr => hm x y ((up.sub.2.2.1 x y _).mp hr).1
  have hcf : c ∈ axe f d ∧ c ≤ pos := by
    obtain ⟨x, y, r, hr, hxy⟩ := reads_on uw hcm
    cases r with
    | none => exact absurd hr (full x y)
    | some v =>
      obtain ⟨k1, -, k2⟩ := (ur x y v).mp hr
      have := coord_mem (d := d) k1
      rw [← along_eq] at this k2
      rw [hxy] at this k2
      exact ⟨this, k2 hlt⟩
  have hbu : b ∈ axe u d := by
    obtain ⟨x, y, r, hr, hxy⟩ := reads_on hf hb
    cases r with
    | none => exact absurd hr (hm x y)
    | some v =>
      have := (ur x y v).mpr ⟨hr, fun hgt => by linarith, fun _ => by rw [← along_eq, hxy]; exact hpb⟩
      have := coord_mem (d := d) this
      rw [← along_eq, hxy] at this
      exact this
  have hcb : c = b := le_antisymm (hmax c hcf.1 hcf.2) (le_last (axe_inc up.loose d) hc hbu)
  refine ⟨by rw [hc, hcb], ?_⟩
  have haz := Axis.head_le_last inc ha hz
  rcases side_cases ha hz hs with ⟨h1, -, h, -⟩ | ⟨h1, rfl, -, h3⟩ | ⟨-, h1, -⟩ | ⟨-, -, -, -, h1⟩
  · cases h
  · rw [h3]
    exact le_antisymm (hmax z (List.mem_of_getLast? hz) (le_of_lt h1)) (le_last inc hz hb)
  · linarith
  · rw [hc] at h1; cases h1; exact hcb

/-- C194: for a field without masked points and a mirror before its middle, the lines whose images are in the result are the first `k` lines on
the kept side, `k` being the number asked for. -/
theorem C194_lines_before {main : Bool} {f g : SF} (hf : f.WF) (hm : ∀ x y, ¬ f.Reads x y none) {d : Dir} {pos coef a z h b : Rat}
    {inds : Option Int} {interp : Interp} (he : EvenAxis (axe f d) a z h) {m : ℤ} (hp : pos = a + m * (h / 2)) (hlt : pos < (a + z) / 2)
    (hg : mirroring main f d pos inds coef interp = .ok g) (hb : b ∈ axe f d) (hpb : pos ≤ b) (hmin : ∀ x ∈ axe f d, pos ≤ x → b ≤ x)
    {k : Int} (hk : Asked (axe f d).length inds k) (i : Nat) :
    2 * pos - (b + i * h) ∈ axe g d ↔ (i : Int) < k := by
  obtain ⟨t, u, border, h1, h2, uw, H⟩ := lines_before hf he hp hlt hg
  rw [trimmed_full hf hm] at h1
  cases h1
  obtain ⟨e1, e2⟩ := border_before hf hm he.first he.last h2 uw hlt hb hpb hmin
  obtain ⟨n, hn⟩ := List.getElem?_of_mem hb
  have hbn := he.step n b hn
  have hms : m ≤ 2 * n := by
    by_contra hc
    have h3 : ((2 * n : ℤ) : Rat) < (m : Rat) := by exact_mod_cast (by omega : (2 * n : ℤ) < m)
    have := mul_lt_mul_of_pos_right h3 he.pos
    push_cast at this
    rw [hp, hbn] at hpb
    linarith
  have := H n n (by rw [e1, hbn]; push_cast; rfl) (by rw [e2, hbn]; push_cast; rfl) (m - n - i) (by omega)
  rw [hk.eq] at this
  rw [show 2 * pos - (b + i * h) = a + ((m - n - i : ℤ) : Rat) * h by rw [hp, hbn]; push_cast; ring, this]
  omega

/-- C194: the same with a mirror after the middle: the last `k` lines on the kept side. -/
theorem C194_lines_after {main : Bool} {f g : SF} (hf : f.WF) (hm : ∀ x y, ¬ f.Reads x y none) {d : Dir} {pos coef a z h b : Rat}
    {inds : Option Int} {interp : Interp} (he : EvenAxis (axe f d) a z h) {m : ℤ} (hp : pos = a + m * (h / 2)) (hlt : (a + z) / 2 < pos)
    (hg : mirroring main f d pos inds coef interp = .ok g) (hb : b ∈ axe f d) (hpb : b ≤ pos) (hmax : ∀ x ∈ axe f d, x ≤ pos → x ≤ b)
    {k : Int} (hk : Asked (axe f d).length inds k) (i : Nat) :
    2 * pos - (b - i * h) ∈ axe g d ↔ (i : Int) < k := by
  obtain ⟨t, u, border, h1, h2, uw, H⟩ := lines_after hf he hp hlt hg
  rw [trimmed_full hf hm] at h1
  cases h1
  obtain ⟨e1, e2⟩ := border_after hf hm he.first he.last h2 uw hlt hb hpb hmax
  obtain ⟨n, hn⟩ := List.getElem?_of_mem hb
  have hbn := he.step n b hn
  have hms : 2 * n ≤ m := by
    by_contra hc
    have h3 : (m : Rat) < ((2 * n : ℤ) : Rat) := by exact_mod_cast (by omega : m < (2 * n : ℤ))
    have := mul_lt_mul_of_pos_right h3 he.pos
    push_cast at this
    rw [hp, hbn] at hpb
    linarith
  have := H n n (by rw [e1, hbn]; push_cast; rfl) (by rw [e2, hbn]; push_cast; rfl) (m - n + i) (by omega)
  rw [hk.eq] at this
  rw [show 2 * pos - (b - i * h) = a + ((m - n + i : ℤ) : Rat) * h by rw [hp, hbn]; push_cast; ring, this]
  omega

/-- C194 fails for 'all': with a mirror before the field (or on its first line), the image of the last line is never in the result. -/
theorem C194_all_violated {main : Bool} {f g : SF} (hf : f.WF) (hm : ∀ x y, ¬ f.Reads x y none) {d : Dir} {pos coef a z h : Rat}
    {interp : Interp} (he : EvenAxis (axe f d) a z h) {m : ℤ} (hp : pos = a + m * (h / 2)) (hlt : pos ≤ a) (haz : a < z)
    (hg : mirroring main f d pos none coef interp = .ok g) : 2 * pos - z ∉ axe g d := by
  have hz := he.last
  rw [getLast?_eq_get] at hz
  have ez := he.step _ _ hz
  have hlen := getElem?_some_lt hz
  intro hmem
  have := (C194_lines_before hf hm he hp (by linarith) hg (b := a) (List.mem_of_head? he.first) hlt
    (fun x hx _ => head_le (axe_inc hf.loose d) he.first hx) (.inl ⟨rfl, rfl⟩) ((axe f d).length - 1)).mp (by rw [← ez]; exact hmem)
  omega

/-- C194 fails for a field whose first lines are entirely masked: with a mirror before the field, `k` asked lines and `c` masked ones, the image
of the first visible line is not in the result unless `k > 2 c`. -/
theorem C194_masked_violated {main : Bool} {f g : SF} (hf : f.WF) {d : Dir} {pos coef a z h : Rat}
    {inds : Option Int} {interp : Interp} (he : EvenAxis (axe f d) a z h) {m : ℤ} (hp : pos = a + m * (h / 2)) (hlt : pos < a)
    (hg : mirroring main f d pos inds coef interp = .ok g) {c : Nat} (hc : ∀ x y v, f.Reads x y (some v) → a + c * h ≤ along d x y)
    (hv : ∃ x y v, f.Reads x y (some v) ∧ along d x y = a + c * h) (hmask : ∃ x y, f.Reads x y none)
    {k : Int} (hk : Asked (axe f d).length inds k) :
    2 * pos - (a + c * h) ∈ axe g d ↔ 2 * (c : Int) < k := by
  have haz := Axis.head_le_last (axe_inc hf.loose d) he.first he.last
  obtain ⟨t, u, border, h1, h2, uw, H⟩ := lines_before hf he hp (by linarith) hg
  have hut : u = t ∧ border = a := by
    rcases side_cases he.first he.last h2 with ⟨-, h3, -, h4⟩ | ⟨h3, -⟩ | ⟨h3, -⟩ | ⟨h3, h4, -⟩
    · exact ⟨h3, h4⟩
    · linarith
    · linarith
    · linarith
  obtain ⟨rfl, hbo⟩ := hut
  have hm : ¬ f.anyMasked = false := by
    intro hm
    obtain ⟨x, y, hr⟩ := hmask
    exact SF.no_mask_reads hf.loose hm x y hr
  have hcm : f.cropMaskedSoft = .ok (some u) := by
    unfold trimmed at h1
    rw [if_neg hm] at h1
    unfold SF.cropMaskedSoft; rw [if_neg hm, h1]; rfl
  obtain ⟨b1, b2, b3, b4⟩ := SF.C19_soft_bounding_box hf hcm
  have hhead : (axe u d).head? = some (a + c * h) := by
    obtain ⟨x, y, v, hr, hxy⟩ := hv
    have hmem := coord_mem (d := d) (b2 x y v hr)
    rw [← along_eq, hxy] at hmem
    obtain ⟨q, hq⟩ : ∃ q, (axe u d).head? = some q := by
      cases e : axe u d with
      | nil => rw [e] at hmem; cases hmem
      | cons q _ => exact ⟨q, rfl⟩
    have hle := head_le (axe_inc (uw.loose) d) hq hmem
    have hge : a + c * h ≤ q := by
      cases d
      · obtain ⟨y, v, hr⟩ := b3 q (.inl hq)
        exact hc q y v ((b1.2.2.1 _ _ _).mp hr).1
      · obtain ⟨x, v, hr⟩ := b4 q (.inl hq)
        exact hc x q v ((b1.2.2.1 _ _ _).mp hr).1
    rw [hq, le_antisymm hle hge]
  have hm0 : m < 0 := by
    by_contra hc
    have h3 : (0 : Rat) ≤ (m : Rat) := by exact_mod_cast not_lt.mp hc
    have := mul_nonneg h3 (half_pos he.pos).le
    rw [hp] at hlt
    linarith
  have := H c 0 (by rw [hhead]; push_cast; rfl) (by rw [hbo]; push_cast; ring) (m - c) (by omega)
  rw [hk.eq] at this
  rw [show 2 * pos - (a + c * h) = a + ((m - c : ℤ) : Rat) * h by rw [hp]; push_cast; ring, this]
  omega

/-! ### when the mirror image exists -/

theorem two_mem {l : List Rat} {x y : Rat} (hx : x ∈ l) (hy : y ∈ l) (h : x ≠ y) : 2 ≤ l.length := by
  match l, hx, hy with
  | [a], hx, hy => simp only [List.mem_singleton] at hx hy; exact absurd (hx.trans hy.symm) h
  | a :: b :: t, _, _ => simp

theorem cropAlong_some {f : SF} (hf : f.WF) {d : Dir} {a z p q : Rat} (ha : (axe f d).head? = some a) (hz : (axe f d).getLast? = some z)
    (h1 : p ≤ q) (h2 : a ≤ q) (h3 : p ≤ z) : ∃ u, cropAlong f d p q = .ok u := by
  cases d with
  | x =>
    obtain ⟨c, hc⟩ : ∃ c, f.ay.head? = some c := by
      cases e : f.ay with
      | nil => exact absurd e hf.ney
      | cons c _ => exact ⟨c, rfl⟩
    obtain ⟨e, he⟩ : ∃ c, f.ay.getLast? = some c := ⟨_, List.getLast?_eq_some_getLast hf.ney⟩
    have hce := Axis.head_le_last hf.incy hc he
    obtain ⟨x0, x1, e1, -⟩ := Axis.cropInds_ok (l := f.ax) hf.incx ha hz h1 h2 h3
    obtain ⟨y0, y1, e2, -⟩ := Axis.cropInds_ok hf.incy hc he hce hce hce
    exact ⟨f.cut x0 x1 y0 y1, by simp only [cropAlong, SF.crop, hc, he, e1, e2]⟩
  | y =>
    obtain ⟨c, hc⟩ : ∃ c, f.ax.head? = some c := by
      cases e : f.ax with
      | nil => exact absurd e hf.nex
      | cons c _ => exact ⟨c, rfl⟩
    obtain ⟨e, he⟩ : ∃ c, f.ax.getLast? = some c := ⟨_, List.getLast?_eq_some_getLast hf.nex⟩
    have hce := Axis.head_le_last hf.incx hc he
    obtain ⟨x0, x1, e1, -⟩ := Axis.cropInds_ok (l := f.ay) hf.incy ha hz h1 h2 h3
    obtain ⟨y0, y1, e2, -⟩ := Axis.cropInds_ok hf.incx hc he hce hce hce
    exact ⟨f.cut y0 y1 x0 x1, by simp only [cropAlong, SF.crop, hc, he, e1, e2]⟩

theorem extended_some {u : SF} (hu : u.WF) (hx : 2 ≤ u.ax.length) (hy : 2 ≤ u.ay.length) (d : Dir) (before : Bool) {n : Int} (hn : 0 ≤ n) :
    ∃ e, extended u d before n = .ok e := by
  unfold extended
  rw [if_neg (not_lt.mpr hn)]
  have H := fun nl nr nu nd => SF.C14_extend_reads hu hx hy nl nr nu nd none
  cases d <;> cases before
  · obtain ⟨e, he, -⟩ := H 0 n.toNat 0 0; exact ⟨e, by simpa using he⟩
  · obtain ⟨e, he, -⟩ := H n.toNat 0 0 0; exact ⟨e, by simpa using he⟩
  · obtain ⟨e, he, -⟩ := H 0 0 n.toNat 0; exact ⟨e, by simpa using he⟩
  · obtain ⟨e, he, -⟩ := H 0 0 0 n.toNat; exact ⟨e, by simpa using he⟩

/-- A part with two lines in each direction. -/
theorem part_wide {u f : SF} (hf : f.WF) (hx : 2 ≤ f.ax.length) (hy : 2 ≤ f.ay.length) {d : Dir} (up : u.Loose) {p q : Rat} (hpq : p ≠ q)
    (hp : p ∈ axe f d) (hq : q ∈ axe f d)
    (H : ∀ x y, x ∈ f.ax → y ∈ f.ay → (along d x y = p ∨ along d x y = q) → ∃ r, u.Reads x y r) :
    u.WF ∧ 2 ≤ u.ax.length ∧ 2 ≤ u.ay.length := by
  have key : 2 ≤ u.ax.length ∧ 2 ≤ u.ay.length := by
    cases d with
    | x =>
      have m0 : f.ay[0] ∈ f.ay := List.getElem_mem _
      have m1 : f.ay[1] ∈ f.ay := List.getElem_mem _
      have hne : f.ay[0] ≠ f.ay[1] :=
        ne_of_lt (hf.incy.get_lt (List.getElem?_eq_getElem (by omega)) (List.getElem?_eq_getElem (by omega)) (by omega))
      obtain ⟨r1, i1, j1, a1, b1, -⟩ := H p _ hp m0 (.inl rfl)
      obtain ⟨r2, i2, j2, a2, b2, -⟩ := H q _ hq m0 (.inr rfl)
      obtain ⟨r3, i3, j3, a3, b3, -⟩ := H p _ hp m1 (.inl rfl)
      exact ⟨two_mem (List.mem_of_getElem? a1) (List.mem_of_getElem? a2) hpq,
        two_mem (List.mem_of_getElem? b1) (List.mem_of_getElem? b3) hne⟩
    | y =>
      have m0 : f.ax[0] ∈ f.ax := List.getElem_mem _
      have m1 : f.ax[1] ∈ f.ax := List.getElem_mem _
      have hne : f.ax[0] ≠ f.ax[1] :=
        ne_of_lt (hf.incx.get_lt (List.getElem?_eq_getElem (by omega)) (List.getElem?_eq_getElem (by omega)) (by omega))
      obtain ⟨r1, i1, j1, a1, b1, -⟩ := H _ p m0 hp (.inl rfl)
      obtain ⟨r2, i2, j2, a2, b2, -⟩ := H _ q m0 hq (.inr rfl)
      obtain ⟨r3, i3, j3, a3, b3, -⟩ := H _ p m1 hp (.inl rfl)
      exact ⟨two_mem (List.mem_of_getElem? a1) (List.mem_of_getElem? a3) hne,
        two_mem (List.mem_of_getElem? b1) (List.mem_of_getElem? b2) hpq⟩
  refine ⟨⟨up.incx, up.incy, ?_, ?_, up.vx, up.vy, up.mx, up.my, up.nan⟩, key⟩
  · intro e; rw [e] at key; simp at key
  · intro e; rw [e] at key; simp at key

/-- C194: for a field without masked points, a mirror anywhere but in the middle and at least one line asked for, there is a result. -/
theorem C194_defined (main : Bool) {f : SF} (hf : f.WF) (hm : ∀ x y, ¬ f.Reads x y none) (hx : 2 ≤ f.ax.length) (hy : 2 ≤ f.ay.length)
    {d : Dir} {pos a z h : Rat} (coef : Rat) {inds : Option Int} (interp : Interp) (he : EvenAxis (axe f d) a z h) {m : ℤ}
    (hp : pos = a + m * (h / 2)) (hne : pos ≠ (a + z) / 2) {k : Int} (hk : Asked (axe f d).length inds k) (hk1 : 1 ≤ k) :
    ∃ g, mirroring main f d pos inds coef interp = .ok g := by
  have hlen : 2 ≤ (axe f d).length := by cases d; exacts [hx, hy]
  have inc := axe_inc hf.loose d
  have gz := he.last
  rw [getLast?_eq_get] at gz
  have ez := he.step _ _ gz
  rw [Nat.cast_sub (by omega)] at ez
  obtain ⟨p2, g2⟩ : ∃ p, (axe f d)[(axe f d).length - 2]? = some p := ⟨_, List.getElem?_eq_getElem (by omega)⟩
  have e2 := he.step _ _ g2
  rw [Nat.cast_sub (by omega)] at e2
  have g0 : (axe f d)[0]? = some a := by rw [← head?_eq_get0]; exact he.first
  obtain ⟨p1, g1⟩ : ∃ p, (axe f d)[1]? = some p := ⟨_, List.getElem?_eq_getElem (by omega)⟩
  have e1 := he.step _ _ g1
  have haz := Axis.head_le_last inc he.first he.last
  have hh := he.pos
  generalize hn : (axe f d).length = n at *
  have hnr : (2 : Rat) ≤ n := by exact_mod_cast hlen
  -- it is enough to have the side
  have rest : ∀ u before border, side f f d pos = .ok (u, before, border) → u.WF → 2 ≤ u.ax.length → 2 ≤ u.ay.length →
      0 ≤ toAdd k before pos border h → ∃ g, mirroring main f d pos inds coef interp = .ok g := by
    intro u before border hs uw ux uy h0
    obtain ⟨up, -⟩ := side_ok hf he.first he.last (trimmed_full hf hm) hs
    obtain ⟨e, hext⟩ := extended_some uw ux uy d before h0
    obtain ⟨-, -, ew, l2, ex, -⟩ := extended_ok up.loose hext
    have eg : OnGrid a h (axe e d) := OnGrid.extend (axe_inc up.loose d) l2 (up.onGrid he.onGrid) ex
    obtain ⟨mir, M⟩ := mirrors_of_even (pos := pos) (m := m) ew he.pos (by rw [hp]; ring) eg
    obtain ⟨g, hg, -⟩ := fillAll_from (main := main) (coef := coef) ew M
    refine ⟨finish g interp, ?_⟩
    unfold mirroring
    rw [trimmed_full hf hm]; simp only
    rw [hs]; simp only
    rw [hn, hk.eq, he.delta (by omega), hext]; simp only
    rw [hg]
  have side_eq : side f f d pos = if pos < a then .ok (f, true, a) else if pos > z then .ok (f, false, z)
      else if pos < (z + a) / 2 then
        match cropAlong f d pos z with
        | .error e => .error e
        | .ok t => match (axe t d).head? with
          | none => .error .indexError
          | some b => .ok (t, true, b)
      else if pos > (z + a) / 2 then
        match cropAlong f d a pos with
        | .error e => .error e
        | .ok t => match (axe t d).getLast? with
          | none => .error .indexError
          | some b => .ok (t, false, b)
      else .error .valueError := by
    unfold side
    rw [he.first, he.last]
    simp only
    rw [if_neg (by omega)]
    rfl
  by_cases c1 : pos < a
  · refine rest f true a (by rw [side_eq, if_pos c1]) hf hx hy ?_
    have hm0 : m < 0 := by
      by_contra hc
      have h3 : (0 : Rat) ≤ (m : Rat) := by exact_mod_cast not_lt.mp hc
      have := mul_nonneg h3 (half_pos hh).le
      linarith
    rw [toAdd_before (s := 0) (a := a) hh (by push_cast; ring) hp]; omega
  · by_cases c2 : pos > z
    · refine rest f false z (by rw [side_eq, if_neg c1, if_pos c2]) hf hx hy ?_
      rw [toAdd_after (s := (n : ℤ) - 1) (a := a) hh (by rw [ez]; push_cast; ring) hp]
      have : 2 * ((n : ℤ) - 1) < m := by
        by_contra hc
        have h3 : (m : Rat) ≤ ((2 * ((n : ℤ) - 1) : ℤ) : Rat) := by exact_mod_cast not_lt.mp hc
        have := mul_le_mul_of_nonneg_right h3 (half_pos hh).le
        push_cast at this
        push_cast at ez
        linarith
      omega
    · by_cases c3 : pos < (z + a) / 2
      · -- the mirror is before the middle: the last two lines are kept
        obtain ⟨u, hu⟩ := cropAlong_some hf he.first he.last (p := pos) (q := z) (by linarith) haz (by linarith)
        have ur := cropAlong_reads hf hu
        obtain ⟨x0, x1, y0, y1, ecut⟩ := cropAlong_cut hu
        have ul : u.Loose := by rw [ecut]; exact SF.cut_loose hf.loose _ _ _ _
        have hm2 : m ≤ (n : ℤ) - 2 := by
          by_contra hc
          have h3 : (((n : ℤ) - 1 : ℤ) : Rat) ≤ (m : Rat) := by exact_mod_cast (by omega : (n : ℤ) - 1 ≤ m)
          have := mul_le_mul_of_nonneg_right h3 (half_pos hh).le
          push_cast at this ez
          linarith
        have hk2 : pos ≤ p2 := by
          have h3 : (m : Rat) ≤ ((2 * ((n : ℤ) - 2) : ℤ) : Rat) := by exact_mod_cast (by omega : m ≤ 2 * ((n : ℤ) - 2))
          have := mul_le_mul_of_nonneg_right h3 (half_pos hh).le
          push_cast at this e2
          linarith
        have hlt2 : p2 < z := by push_cast at e2 ez; linarith
        obtain ⟨uw, w1, w2⟩ := part_wide hf hx hy ul (ne_of_lt hlt2) (List.mem_of_getElem? g2) (List.mem_of_getElem? gz) (by
          intro x y hx hy hxy
          obtain ⟨i, hi⟩ := List.getElem?_of_mem hx
          obtain ⟨j, hj⟩ := List.getElem?_of_mem hy
          refine ⟨_, (ur x y _).mpr ⟨⟨i, j, hi, hj, rfl⟩, ?_⟩⟩
          rw [← along_eq]
          rcases hxy with e | e <;> rw [e]
          · exact ⟨hk2, hlt2.le⟩
          · exact ⟨by linarith, le_refl _⟩)
        obtain ⟨b, hb⟩ : ∃ b, (axe u d).head? = some b := by
          have : axe u d ≠ [] := by cases d; exacts [uw.nex, uw.ney]
          cases e : axe u d with
          | nil => exact absurd e this
          | cons c _ => exact ⟨c, rfl⟩
        have hs : side f f d pos = .ok (u, true, b) := by
          rw [side_eq, if_neg c1, if_neg c2, if_pos c3, hu]; simp only; rw [hb]
        refine rest u true b hs uw w1 w2 ?_
        obtain ⟨x, y, r, hr, hxy⟩ := reads_on uw (List.mem_of_head? hb)
        have hpb := ((ur x y r).mp hr).2.1
        rw [← along_eq, hxy] at hpb
        have hbf := coord_mem (d := d) ((ur x y r).mp hr).1
        rw [← along_eq, hxy] at hbf
        obtain ⟨s, hsb⟩ := List.getElem?_of_mem hbf
        have hbs := he.step s b hsb
        rw [toAdd_before (s := s) (a := a) hh (by rw [hbs]; push_cast; rfl) hp]
        have : m ≤ 2 * s := by
          by_contra hc
          have h3 : ((2 * s : ℤ) : Rat) < (m : Rat) := by exact_mod_cast not_le.mp hc
          have := mul_lt_mul_of_pos_right h3 hh
          push_cast at this
          linarith
        omega
      · have c4 : pos > (z + a) / 2 := lt_of_le_of_ne (not_lt.mp c3) (fun e => hne (by rw [← e]; ring))
        obtain ⟨u, hu⟩ := cropAlong_some hf he.first he.last (p := a) (q := pos) (by linarith) (by linarith) haz
        have ur := cropAlong_reads hf hu
        obtain ⟨x0, x1, y0, y1, ecut⟩ := cropAlong_cut hu
        have ul : u.Loose := by rw [ecut]; exact SF.cut_loose hf.loose _ _ _ _
        have hm2 : (n : ℤ) ≤ m := by
          by_contra hc
          have h3 : (m : Rat) ≤ (((n : ℤ) - 1 : ℤ) : Rat) := by exact_mod_cast (by omega : m ≤ (n : ℤ) - 1)
          have := mul_le_mul_of_nonneg_right h3 (half_pos hh).le
          push_cast at this ez
          linarith
        have hk2 : p1 ≤ pos := by
          have h3 : ((2 : ℤ) : Rat) ≤ (m : Rat) := by exact_mod_cast (by omega : (2 : ℤ) ≤ m)
          have := mul_le_mul_of_nonneg_right h3 (half_pos hh).le
          push_cast at this e1
          linarith
        have hlt2 : a < p1 := by push_cast at e1; linarith
        obtain ⟨uw, w1, w2⟩ := part_wide hf hx hy ul (ne_of_lt hlt2) (List.mem_of_head? he.first) (List.mem_of_getElem? g1) (by
          intro x y hx hy hxy
          obtain ⟨i, hi⟩ := List.getElem?_of_mem hx
          obtain ⟨j, hj⟩ := List.getElem?_of_mem hy
          refine ⟨_, (ur x y _).mpr ⟨⟨i, j, hi, hj, rfl⟩, ?_⟩⟩
          rw [← along_eq]
          rcases hxy with e | e <;> rw [e]
          · exact ⟨le_refl _, by linarith⟩
          · exact ⟨hlt2.le, hk2⟩)
        obtain ⟨b, hb⟩ : ∃ b, (axe u d).getLast? = some b := by
          have : axe u d ≠ [] := by cases d; exacts [uw.nex, uw.ney]
          exact ⟨_, List.getLast?_eq_some_getLast this⟩
        have hs : side f f d pos = .ok (u, false, b) := by
          rw [side_eq, if_neg c1, if_neg c2, if_neg c3, if_pos c4, hu]; simp only; rw [hb]
        refine rest u false b hs uw w1 w2 ?_
        obtain ⟨x, y, r, hr, hxy⟩ := reads_on uw (List.mem_of_getLast? hb)
        have hpb := ((ur x y r).mp hr).2.2
        rw [← along_eq, hxy] at hpb
        have hbf := coord_mem (d := d) ((ur x y r).mp hr).1
        rw [← along_eq, hxy] at hbf
        obtain ⟨s, hsb⟩ := List.getElem?_of_mem hbf
        have hbs := he.step s b hsb
        rw [toAdd_after (s := s) (a := a) hh (by rw [hbs]; push_cast; rfl) hp]
        have : 2 * s ≤ m := by
          by_contra hc
          have h3 : (m : Rat) < ((2 * s : ℤ) : Rat) := by exact_mod_cast not_le.mp hc
          have := mul_lt_mul_of_pos_right h3 hh
          push_cast at this
          linarith
        omega

/-! ### examples -/

/-- A field of 3 × 2 points, one of them masked. -/
def demo : SF where
  ax := [0, 1, 2]
  ay := [0, 3]
  val := ⟨3, 2, fun i j => some ((i : Rat) + 10 * j + 1)⟩
  mask := ⟨3, 2, fun i j => decide (i = 2 ∧ j = 1)⟩
  ux := Sym.m
  uy := Sym.mm
  uv := Sym.s

/-- The same one without a masked point. -/
def whole : SF := { demo with mask := Grid.const 3 2 false }

/-- A field whose first line is masked. -/
def late : SF where
  ax := [0, 1, 2, 3]
  ay := [0, 3]
  val := ⟨4, 2, fun i j => some ((i : Rat) + 10 * j + 1)⟩
  mask := ⟨4, 2, fun i _ => decide (i = 0)⟩
  ux := Sym.m
  uy := Sym.mm
  uv := Sym.s

def showF (r : Res SF) : Res (List Rat × List Rat × List (List (Option Rat))) := r.map fun g =>
  (g.ax, g.ay, (List.range g.ax.length).map fun i => (List.range g.ay.length).map fun j => g.cell i j)

theorem exists_ok {α : Type} {r : Res α} (h : r.isOk = true) : ∃ g, r = .ok g := by
  cases r with
  | error _ => cases h
  | ok g => exact ⟨g, rfl⟩

theorem demo_wf : demo.WF := by
  refine ⟨by decide +kernel, by decide +kernel, by decide +kernel, by decide +kernel, rfl, rfl, rfl, rfl, ?_⟩
  intro i j _ _ h; simp [demo] at h

theorem whole_wf : whole.WF := by
  refine ⟨by decide +kernel, by decide +kernel, by decide +kernel, by decide +kernel, rfl, rfl, rfl, rfl, ?_⟩
  intro i j _ _ h; simp [whole, demo] at h

theorem late_wf : late.WF := by
  refine ⟨by decide +kernel, by decide +kernel, by decide +kernel, by decide +kernel, rfl, rfl, rfl, rfl, ?_⟩
  intro i j _ _ h; simp [late] at h

theorem whole_unmasked (x y : Rat) : ¬ whole.Reads x y none := by
  rintro ⟨i, j, -, -, h⟩
  simp [SF.cell, whole, demo, Grid.const] at h

theorem demo_even : EvenAxis (axe demo .x) 0 2 1 := by
  refine ⟨by norm_num, rfl, rfl, fun i x hx => ?_⟩
  match i, hx with
  | 0, hx => cases hx; norm_num
  | 1, hx => cases hx; norm_num
  | 2, hx => cases hx; norm_num

theorem late_even : EvenAxis (axe late .x) 0 3 1 := by
  refine ⟨by norm_num, rfl, rfl, fun i x hx => ?_⟩
  match i, hx with
  | 0, hx => cases hx; norm_num
  | 1, hx => cases hx; norm_num
  | 2, hx => cases hx; norm_num
  | 3, hx => cases hx; norm_num

example : showF (mirroring true demo .x (-1/2) none 2 .none) = .ok ([-2, -1, 0, 1, 2], [0, 3],
      [[some 4, some 24], [some 2, some 22], [some 1, some 11], [some 2, some 12], [some 3, none]]) := by
  decide +kernel

example : showF (mirroring true demo .x (3/2) (some 2) 1 (.value 7)) = .ok ([0, 1, 2, 3], [0, 3],
      [[some 1, some 11], [some 2, some 12], [some 2, some 12], [some 1, some 11]]) := by
  decide +kernel

example : showF (mirroring true demo .x 1 none 1 .none) = .error .valueError := by
  decide +kernel

-- the hypotheses of C194_keeps, C194_values and C194_fill
example : demo.WF ∧ EvenAxis (axe demo .x) 0 2 1 ∧ (-1/2 : Rat) = 0 + ((-1 : ℤ) : Rat) * (1 / 2) ∧
    (∃ g, mirroring true demo .x (-1/2) none 2 (.value 7) = .ok g) ∧ (∃ g, mirroring true demo .x (-1/2) none 2 .none = .ok g) :=
  ⟨demo_wf, demo_even, by norm_num, exists_ok (by decide +kernel), exists_ok (by decide +kernel)⟩

-- those of C194_lines_before and C194_all_violated
example : whole.WF ∧ (∀ x y, ¬ whole.Reads x y none) ∧ EvenAxis (axe whole .x) 0 2 1 ∧ (-1/2 : Rat) = 0 + ((-1 : ℤ) : Rat) * (1 / 2) ∧
    (-1/2 : Rat) < (0 + 2) / 2 ∧ Asked (axe whole .x).length none 2 ∧ (∃ g, mirroring true whole .x (-1/2) none 1 .none = .ok g) ∧
    (0 : Rat) ∈ axe whole .x ∧ (∀ x ∈ axe whole .x, -1/2 ≤ x → 0 ≤ x) :=
  ⟨whole_wf, whole_unmasked, demo_even, by norm_num, by norm_num, .inl ⟨rfl, by decide⟩, exists_ok (by decide +kernel), by decide +kernel, by decide +kernel⟩

-- those of C194_lines_after and C194_defined
example : whole.WF ∧ (∀ x y, ¬ whole.Reads x y none) ∧ EvenAxis (axe whole .x) 0 2 1 ∧ (3/2 : Rat) = 0 + ((3 : ℤ) : Rat) * (1 / 2) ∧
    (0 + 2 : Rat) / 2 < 3/2 ∧ Asked (axe whole .x).length (some 2) 2 ∧ (∃ g, mirroring true whole .x (3/2) (some 2) 1 .none = .ok g) ∧
    (1 : Rat) ∈ axe whole .x ∧ (∀ x ∈ axe whole .x, x ≤ 3/2 → x ≤ 1) :=
  ⟨whole_wf, whole_unmasked, demo_even, by norm_num, by norm_num, .inr (.inl ⟨rfl, by decide⟩), exists_ok (by decide +kernel), by decide +kernel,
    by decide +kernel⟩

-- those of C194_masked_violated: the image of the line at 1 is missing when two lines are asked for
example : late.WF ∧ EvenAxis (axe late .x) 0 3 1 ∧ (-1 : Rat) = 0 + ((-2 : ℤ) : Rat) * (1 / 2) ∧
    (∀ x y v, late.Reads x y (some v) → 0 + ((1 : Nat) : Rat) * 1 ≤ along .x x y) ∧
    (∃ x y v, late.Reads x y (some v) ∧ along .x x y = 0 + ((1 : Nat) : Rat) * 1) ∧ (∃ x y, late.Reads x y none) ∧
    showF (mirroring true late .x (-1) (some 2) 1 .none) = .ok ([-2, -1, 0, 1, 2, 3], [0, 3],
      [[none, none], [none, none], [none, none], [some 2, some 12], [some 3, some 13], [some 4, some 14]]) := by
  refine ⟨late_wf, late_even, by norm_num, ?_, ⟨1, 0, 2, ⟨1, 0, by decide +kernel⟩, by norm_num [along]⟩, ⟨0, 0, 0, 0, by decide +kernel⟩,
    by decide +kernel⟩
  rintro x y v ⟨i, j, hi, -, h⟩
  match i, hi with
  | 0, hi => simp [SF.cell, late] at h
  | 1, hi => cases hi; norm_num [along]
  | 2, hi => cases hi; norm_num [along]
  | 3, hi => cases hi; norm_num [along]

end IMT.Mirror
