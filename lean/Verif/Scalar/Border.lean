import Verif.Scalar.BorderModel
import Verif.Scalar.Import

/-!
Properties C19 and C20: cropping the masked borders.
-/

namespace IMT.SF

/-- `g` is a sub-rectangle of `f`: consecutive rows and columns of `f`, with the same readings. -/
def SubRect (g f : SF) : Prop :=
  g.ax <:+: f.ax ∧ g.ay <:+: f.ay ∧
  (∀ x y r, g.Reads x y r ↔ f.Reads x y r ∧ x ∈ g.ax ∧ y ∈ g.ay) ∧ g.ux = f.ux ∧ g.uy = f.uy ∧ g.uv = f.uv

/-! ### helper lemmas -/

/-- Consistency without the non-emptiness of the axes. -/
structure Loose (f : SF) : Prop where
  incx : Inc f.ax
  incy : Inc f.ay
  vx : f.val.nx = f.ax.length
  vy : f.val.ny = f.ay.length
  mx : f.mask.nx = f.ax.length
  my : f.mask.ny = f.ay.length
  nan : ∀ i j, i < f.ax.length → j < f.ay.length → f.val.get i j = none → f.mask.get i j = true

theorem WF.loose {f : SF} (h : f.WF) : f.Loose := ⟨h.incx, h.incy, h.vx, h.vy, h.mx, h.my, h.nan⟩

theorem Loose.cellMask {f : SF} (hf : f.Loose) {i j : Nat} (hi : i < f.ax.length) (hj : j < f.ay.length) :
    f.mask.get i j = (f.cell i j).isNone := by
  unfold cell
  by_cases h : f.mask.get i j = true
  · simp [h]
  · simp only [h, Bool.false_eq_true, if_false]
    cases hv : f.val.get i j with
    | none => exact absurd (hf.nan i j hi hj hv) h
    | some v => rfl

theorem cut_loose {f : SF} (hf : f.Loose) (x0 x1 y0 y1 : Nat) : (f.cut x0 x1 y0 y1).Loose := by
  refine ⟨slice_inc hf.incx _ _, slice_inc hf.incy _ _, ?_, ?_, ?_, ?_, ?_⟩
  · simp [cut, Grid.sub, values, slice_length, hf.vx]
  · simp [cut, Grid.sub, values, slice_length, hf.vy]
  · simp [cut, Grid.sub, slice_length, hf.mx]
  · simp [cut, Grid.sub, slice_length, hf.my]
  · intro i j hi hj h
    simp only [cut, slice_length] at hi hj
    simp only [cut, Grid.sub, values] at *
    rw [hf.cellMask (by omega) (by omega), h]; rfl

theorem slice_infix {α : Type} (l : List α) (lo hi : Nat) : slice l lo hi <:+: l := by
  unfold slice
  exact (List.drop_suffix _ _).isInfix.trans (List.take_prefix _ _).isInfix

theorem mem_slice {l : List Rat} (h : Inc l) {lo hi i : Nat} {x : Rat} (hi' : l[i]? = some x) :
    x ∈ slice l lo hi ↔ lo ≤ i ∧ i < hi := by
  constructor
  · intro hm
    obtain ⟨k, hk⟩ := List.getElem?_of_mem hm
    rw [slice_getElem?] at hk
    by_cases hc : lo + k < hi
    · rw [if_pos hc] at hk
      have := h.idx_inj' hk hi'
      omega
    · rw [if_neg hc] at hk; cases hk
  · rintro ⟨h1, h2⟩
    apply List.mem_of_getElem? (i := i - lo)
    rw [slice_getElem?, if_pos (by omega), show lo + (i - lo) = i by omega, hi']

theorem cut_subRect {f : SF} (hf : f.Loose) (x0 x1 y0 y1 : Nat) : SubRect (f.cut x0 x1 y0 y1) f := by
  refine ⟨slice_infix _ _ _, slice_infix _ _ _, ?_, rfl, rfl, rfl⟩
  intro x y r
  rw [cut_reads]
  constructor
  · rintro ⟨i, j, hi, hj, hr, h1, h2⟩
    exact ⟨⟨i, j, hi, hj, hr⟩, (mem_slice hf.incx hi).mpr h1, (mem_slice hf.incy hj).mpr h2⟩
  · rintro ⟨⟨i, j, hi, hj, hr⟩, h1, h2⟩
    exact ⟨i, j, hi, hj, hr, (mem_slice hf.incx hi).mp h1, (mem_slice hf.incy hj).mp h2⟩

theorem SubRect.refl (f : SF) : SubRect f f := by
  refine ⟨List.infix_rfl, List.infix_rfl, ?_, rfl, rfl, rfl⟩
  intro x y r
  refine ⟨fun h => ⟨h, ?_⟩, fun h => h.1⟩
  obtain ⟨i, j, hi, hj, _⟩ := h
  exact ⟨List.mem_of_getElem? hi, List.mem_of_getElem? hj⟩

theorem SubRect.trans {a b c : SF} (h1 : SubRect a b) (h2 : SubRect b c) : SubRect a c := by
  refine ⟨h1.1.trans h2.1, h1.2.1.trans h2.2.1, ?_, h1.2.2.2.1.trans h2.2.2.2.1,
    h1.2.2.2.2.1.trans h2.2.2.2.2.1, h1.2.2.2.2.2.trans h2.2.2.2.2.2⟩
  intro x y r
  rw [h1.2.2.1, h2.2.2.1]
  constructor
  · rintro ⟨⟨h, _, _⟩, hx, hy⟩; exact ⟨h, hx, hy⟩
  · rintro ⟨h, hx, hy⟩
    exact ⟨⟨h, h1.1.subset hx, h1.2.1.subset hy⟩, hx, hy⟩

theorem anyMasked_iff (f : SF) :
    f.anyMasked = true ↔ ∃ i j, i < f.mask.nx ∧ j < f.mask.ny ∧ f.mask.get i j = true := by
  unfold anyMasked Grid.any
  simp only [List.any_eq_true, List.mem_range, id]
  constructor
  · rintro ⟨i, hi, j, hj, h⟩; exact ⟨i, j, hi, hj, h⟩
  · rintro ⟨i, j, hi, hj, h⟩; exact ⟨i, hi, j, hj, h⟩

theorem no_mask_reads {f : SF} (hf : f.Loose) (h : f.anyMasked = false) (x y : Rat) : ¬ f.Reads x y none := by
  rintro ⟨i, j, hi, hj, hc⟩
  have h1 := getElem?_some_lt hi
  have h2 := getElem?_some_lt hj
  have : f.anyMasked = true := (anyMasked_iff f).mpr ⟨i, j, by rw [hf.mx]; exact h1, by rw [hf.my]; exact h2,
    by rw [hf.cellMask h1 h2, hc]; rfl⟩
  rw [h] at this; cases this

theorem cropInd_ok {f g : SF} {ix iy : Option (Int × Int)} (h : f.cropInd ix iy = .ok g) :
    ∃ x0 x1 y0 y1, g = f.cut x0 x1 y0 y1 ∧
      Axis.cropIndsInd (ix.getD (0, f.ax.length)).1 (ix.getD (0, f.ax.length)).2 = .ok (x0, x1) ∧
      Axis.cropIndsInd (iy.getD (0, f.ay.length)).1 (iy.getD (0, f.ay.length)).2 = .ok (y0, y1) := by
  unfold cropInd at h
  simp only at h
  cases h1 : Axis.cropIndsInd (ix.getD (0, f.ax.length)).1 (ix.getD (0, f.ax.length)).2 with
  | error e => rw [h1] at h; cases h
  | ok p =>
    cases h2 : Axis.cropIndsInd (iy.getD (0, f.ay.length)).1 (iy.getD (0, f.ay.length)).2 with
    | error e => rw [h1, h2] at h; cases h
    | ok q =>
      rw [h1, h2] at h
      obtain ⟨x0, x1⟩ := p
      obtain ⟨y0, y1⟩ := q
      simp only [Except.ok.injEq] at h
      exact ⟨x0, x1, y0, y1, h.symm, rfl, rfl⟩

theorem cropIndsInd_ok {a b : Int} {x0 x1 : Nat} (h : Axis.cropIndsInd a b = .ok (x0, x1)) :
    (x0 : Int) = a ∧ (x1 : Int) = b ∧ a ≤ b ∧ b ≠ 0 ∧ 0 ≤ a := by
  unfold Axis.cropIndsInd at h
  by_cases h1 : a > b
  · rw [if_pos h1] at h; cases h
  · rw [if_neg h1] at h
    by_cases h2 : a < 0 ∨ b = 0
    · rw [if_pos h2] at h; cases h
    · rw [if_neg h2] at h
      simp only [Except.ok.injEq, Prod.mk.injEq] at h
      omega

/-- A turn of the loop cuts a sub-rectangle with one line less. -/
theorem hardStep_spec {f g : SF} (hf : f.Loose) (hm : f.anyMasked = true) (h : f.hardStep = .ok g) :
    g.Loose ∧ SubRect g f ∧ g.ax.length + g.ay.length < f.ax.length + f.ay.length := by
  obtain ⟨i, j, hi, hj, _⟩ := (anyMasked_iff f).mp hm
  rw [hf.mx] at hi
  rw [hf.my] at hj
  have main : ∀ ix iy, f.cropInd ix iy = .ok g →
      ((ix = some (1, (f.ax.length : Int)) ∧ iy = none) ∨ (ix = some (0, (f.ax.length : Int) - 2) ∧ iy = none) ∨
       (ix = none ∧ iy = some (1, (f.ay.length : Int))) ∨ (ix = none ∧ iy = some (0, (f.ay.length : Int) - 2))) →
      g.Loose ∧ SubRect g f ∧ g.ax.length + g.ay.length < f.ax.length + f.ay.length := by
    intro ix iy hc hcase
    obtain ⟨x0, x1, y0, y1, rfl, hx, hy⟩ := cropInd_ok hc
    have hx' := cropIndsInd_ok hx
    have hy' := cropIndsInd_ok hy
    refine ⟨cut_loose hf _ _ _ _, cut_subRect hf _ _ _ _, ?_⟩
    simp only [cut, slice_length]
    rcases hcase with ⟨rfl, rfl⟩ | ⟨rfl, rfl⟩ | ⟨rfl, rfl⟩ | ⟨rfl, rfl⟩ <;>
      simp only [Option.getD_some, Option.getD_none] at hx' hy' <;> omega
  unfold hardStep at h
  by_cases h0 : f.worstBorder = 0
  · rw [if_pos h0] at h; exact main _ _ h (Or.inl ⟨rfl, rfl⟩)
  · rw [if_neg h0] at h
    by_cases h1 : f.worstBorder = 1
    · rw [if_pos h1] at h; exact main _ _ h (Or.inr (Or.inl ⟨rfl, rfl⟩))
    · rw [if_neg h1] at h
      by_cases h2 : f.worstBorder = 2
      · rw [if_pos h2] at h; exact main _ _ h (Or.inr (Or.inr (Or.inl ⟨rfl, rfl⟩)))
      · rw [if_neg h2] at h; exact main _ _ h (Or.inr (Or.inr (Or.inr ⟨rfl, rfl⟩)))

theorem hardLoop_spec (n : Nat) : ∀ f : SF, f.Loose →
    (f.ax.length + f.ay.length ≤ n → hardLoop n f ≠ none) ∧
    (∀ g, hardLoop n f = some (.ok g) → g.Loose ∧ SubRect g f ∧ g.anyMasked = false) := by
  induction n with
  | zero =>
    intro f hf
    unfold hardLoop
    by_cases hm : f.anyMasked = true
    · refine ⟨?_, ?_⟩
      · intro hle
        obtain ⟨i, j, hi, _⟩ := (anyMasked_iff f).mp hm
        rw [hf.mx] at hi; omega
      · rw [if_pos hm]; intro g h; cases h
    · rw [if_neg hm]
      refine ⟨fun _ => by simp, ?_⟩
      intro g h
      simp only [Option.some.injEq, Except.ok.injEq] at h
      subst h
      exact ⟨hf, SubRect.refl _, by simpa using hm⟩
  | succ n ih =>
    intro f hf
    unfold hardLoop
    by_cases hm : f.anyMasked = true
    · rw [if_pos hm]
      cases hs : f.hardStep with
      | error e => exact ⟨fun _ => by simp, by intro g h; simp at h⟩
      | ok g =>
        obtain ⟨hl, hsub, hlt⟩ := hardStep_spec hf hm hs
        obtain ⟨i1, i2⟩ := ih g hl
        refine ⟨fun hle => i1 (by omega), ?_⟩
        intro k hk
        obtain ⟨k1, k2, k3⟩ := i2 k hk
        exact ⟨k1, k2.trans hsub, k3⟩
    · rw [if_neg hm]
      refine ⟨fun _ => by simp, ?_⟩
      intro g h
      simp only [Option.some.injEq, Except.ok.injEq] at h
      subst h
      exact ⟨hf, SubRect.refl _, by simpa using hm⟩

theorem firstLast_ok {l : List Nat} {a b : Nat} (h : firstLast l = .ok (a, b)) :
    l.head? = some a ∧ l.getLast? = some b := by
  unfold firstLast at h
  cases h1 : l.head? with
  | none => rw [h1] at h; cases h
  | some x =>
    cases h2 : l.getLast? with
    | none => rw [h1, h2] at h; cases h
    | some y =>
      rw [h1, h2] at h
      simp only [Except.ok.injEq, Prod.mk.injEq] at h
      rw [h.1, h.2]; exact ⟨rfl, rfl⟩

theorem softCrop_ok {f g : SF} (h : f.softCrop = .ok g) :
    ∃ x0 x1 y0 y1, g = f.cut x0 x1 y0 y1 ∧
      ((List.range f.mask.nx).filter f.rowValid).head? = some x0 ∧
      ((List.range f.mask.nx).filter f.rowValid).getLast? = some x1 ∧
      ((List.range f.mask.ny).filter f.colValid).head? = some y0 ∧
      ((List.range f.mask.ny).filter f.colValid).getLast? = some y1 := by
  unfold softCrop at h
  cases h1 : firstLast ((List.range f.mask.nx).filter f.rowValid) with
  | error e => rw [h1] at h; cases h
  | ok p =>
    cases h2 : firstLast ((List.range f.mask.ny).filter f.colValid) with
    | error e => rw [h1, h2] at h; cases h
    | ok q =>
      rw [h1, h2] at h
      obtain ⟨a, b⟩ := p
      obtain ⟨c, d⟩ := q
      obtain ⟨x0, x1, y0, y1, rfl, hx, hy⟩ := cropInd_ok h
      have hx' := cropIndsInd_ok hx
      have hy' := cropIndsInd_ok hy
      simp only [Option.getD_some] at hx' hy'
      obtain ⟨e1, e2⟩ := firstLast_ok h1
      obtain ⟨e3, e4⟩ := firstLast_ok h2
      have : x0 = a ∧ x1 = b ∧ y0 = c ∧ y1 = d := by omega
      obtain ⟨rfl, rfl, rfl, rfl⟩ := this
      exact ⟨_, _, _, _, rfl, e1, e2, e3, e4⟩

theorem range_filter_head {n : Nat} {p : Nat → Bool} {a : Nat} (h : ((List.range n).filter p).head? = some a) :
    a < n ∧ p a = true ∧ ∀ i, i < n → p i = true → a ≤ i := by
  have hm : a ∈ (List.range n).filter p := List.mem_of_head? h
  rw [List.mem_filter, List.mem_range] at hm
  refine ⟨hm.1, hm.2, ?_⟩
  intro i hi hp
  have hpw : ((List.range n).filter p).Pairwise (· < ·) := List.Pairwise.filter _ List.pairwise_lt_range
  have hmi : i ∈ (List.range n).filter p := by simp [hi, hp]
  cases e : (List.range n).filter p with
  | nil => rw [e] at h; cases h
  | cons c t =>
    rw [e] at h hpw hmi
    simp only [List.head?_cons, Option.some.injEq] at h
    subst h
    rcases List.mem_cons.mp hmi with rfl | hmi
    · exact le_refl _
    · exact le_of_lt ((List.pairwise_cons.mp hpw).1 i hmi)

theorem range_filter_last {n : Nat} {p : Nat → Bool} {a : Nat} (h : ((List.range n).filter p).getLast? = some a) :
    a < n ∧ p a = true ∧ ∀ i, i < n → p i = true → i ≤ a := by
  have hm : a ∈ (List.range n).filter p := List.mem_of_getLast? h
  rw [List.mem_filter, List.mem_range] at hm
  refine ⟨hm.1, hm.2, ?_⟩
  intro i hi hp
  have hpw : ((List.range n).filter p).reverse.Pairwise (· > ·) := by
    rw [List.pairwise_reverse]; exact List.Pairwise.filter _ List.pairwise_lt_range
  have hmi : i ∈ ((List.range n).filter p).reverse := by simp [hi, hp]
  rw [← List.head?_reverse] at h
  cases e : ((List.range n).filter p).reverse with
  | nil => rw [e] at h; cases h
  | cons c t =>
    rw [e] at h hpw hmi
    simp only [List.head?_cons, Option.some.injEq] at h
    subst h
    rcases List.mem_cons.mp hmi with rfl | hmi
    · exact le_refl _
    · exact le_of_lt ((List.pairwise_cons.mp hpw).1 i hmi)

/-! ### C19 -/

/-- C19: whenever the soft variant returns a field, it is a sub-rectangle that holds every unmasked value at its
coordinate, and each of its four border lines holds an unmasked value. -/
theorem C19_soft_bounding_box {f g : SF} (hf : f.WF) (h : f.cropMaskedSoft = .ok (some g)) :
    SubRect g f ∧
    (∀ x y v, f.Reads x y (some v) → g.Reads x y (some v)) ∧
    (∀ x, g.ax.head? = some x ∨ g.ax.getLast? = some x → ∃ y v, g.Reads x y (some v)) ∧
    (∀ y, g.ay.head? = some y ∨ g.ay.getLast? = some y → ∃ x v, g.Reads x y (some v)) := by
  have hs : f.softCrop = .ok g := by
    unfold cropMaskedSoft at h
    by_cases hm : f.anyMasked = false
    · rw [if_pos hm] at h; simp at h
    · rw [if_neg hm] at h
      cases hs : f.softCrop with
      | error e => rw [hs] at h; cases h
      | ok k => rw [hs] at h; simp only [Except.map, Except.ok.injEq, Option.some.injEq] at h; rw [h]
  obtain ⟨x0, x1, y0, y1, rfl, e1, e2, e3, e4⟩ := softCrop_ok hs
  obtain ⟨a1, a2, a3⟩ := range_filter_head e1
  obtain ⟨b1, b2, b3⟩ := range_filter_last e2
  obtain ⟨c1, c2, c3⟩ := range_filter_head e3
  obtain ⟨d1, d2, d3⟩ := range_filter_last e4
  rw [hf.mx] at a1 a3 b1 b3
  rw [hf.my] at c1 c3 d1 d3
  have row : ∀ i j, i < f.ax.length → j < f.ay.length → f.mask.get i j = false → f.rowValid i = true := by
    intro i j _ hj hm
    unfold rowValid
    rw [List.any_eq_true]
    exact ⟨j, by rw [List.mem_range, hf.my]; exact hj, by simp [hm]⟩
  have col : ∀ i j, i < f.ax.length → j < f.ay.length → f.mask.get i j = false → f.colValid j = true := by
    intro i j hi _ hm
    unfold colValid
    rw [List.any_eq_true]
    exact ⟨i, by rw [List.mem_range, hf.mx]; exact hi, by simp [hm]⟩
  have inside : ∀ i j, i < f.ax.length → j < f.ay.length → f.mask.get i j = false →
      (x0 ≤ i ∧ i < x1 + 1) ∧ (y0 ≤ j ∧ j < y1 + 1) := by
    intro i j hi hj hm
    have h1 := row i j hi hj hm
    have h2 := col i j hi hj hm
    have := a3 i hi h1
    have := b3 i hi h1
    have := c3 j hj h2
    have := d3 j hj h2
    omega
  have rowOut : ∀ i, i < f.ax.length → f.rowValid i = true → ∀ x, f.ax[i]? = some x →
      ∃ y v, (f.cut x0 x1 y0 y1).Reads x y (some v) := by
    intro i hi hv x hx
    unfold rowValid at hv
    rw [List.any_eq_true] at hv
    obtain ⟨j, hj, hm⟩ := hv
    rw [List.mem_range, hf.my] at hj
    have hm : f.mask.get i j = false := by simpa using hm
    have hc := Reads.cellMask hf hi hj
    rw [hm] at hc
    obtain ⟨v, hv⟩ : ∃ v, f.cell i j = some v := by
      cases hcc : f.cell i j with
      | none => rw [hcc] at hc; simp at hc
      | some v => exact ⟨v, rfl⟩
    refine ⟨f.ay[j], v, (cut_reads f x0 x1 y0 y1 _ _ _).mpr ⟨i, j, hx, List.getElem?_eq_getElem hj, hv, ?_⟩⟩
    exact inside i j hi hj hm
  have colOut : ∀ j, j < f.ay.length → f.colValid j = true → ∀ y, f.ay[j]? = some y →
      ∃ x v, (f.cut x0 x1 y0 y1).Reads x y (some v) := by
    intro j hj hv y hy
    unfold colValid at hv
    rw [List.any_eq_true] at hv
    obtain ⟨i, hi, hm⟩ := hv
    rw [List.mem_range, hf.mx] at hi
    have hm : f.mask.get i j = false := by simpa using hm
    have hc := Reads.cellMask hf hi hj
    rw [hm] at hc
    obtain ⟨v, hv⟩ : ∃ v, f.cell i j = some v := by
      cases hcc : f.cell i j with
      | none => rw [hcc] at hc; simp at hc
      | some v => exact ⟨v, rfl⟩
    refine ⟨f.ax[i], v, (cut_reads f x0 x1 y0 y1 _ _ _).mpr ⟨i, j, List.getElem?_eq_getElem hi, hy, hv, ?_⟩⟩
    exact inside i j hi hj hm
  have sl : ∀ (l : List Rat) (p q : Nat) (x : Rat), p ≤ q → q < l.length →
      ((slice l p (q + 1)).head? = some x → l[p]? = some x) ∧
      ((slice l p (q + 1)).getLast? = some x → l[q]? = some x) := by
    intro l p q x hpq hq
    constructor
    · intro h
      rw [List.head?_eq_getElem?, slice_getElem?, if_pos (by omega)] at h
      simpa using h
    · intro h
      rw [List.getLast?_eq_getElem?, slice_length, slice_getElem?, if_pos (by omega)] at h
      rw [show p + (min (q + 1) l.length - p - 1) = q by omega] at h
      exact h
  refine ⟨cut_subRect hf.loose _ _ _ _, ?_, ?_, ?_⟩
  · rintro x y v ⟨i, j, hi, hj, hc⟩
    refine (cut_reads f x0 x1 y0 y1 x y _).mpr ⟨i, j, hi, hj, hc, ?_⟩
    apply inside i j (getElem?_some_lt hi) (getElem?_some_lt hj)
    rw [Reads.cellMask hf (getElem?_some_lt hi) (getElem?_some_lt hj), hc]; rfl
  · intro x hx
    have hs := sl f.ax x0 x1 x (a3 x1 b1 b2) b1
    rcases hx with hx | hx
    · exact rowOut x0 a1 a2 x (hs.1 hx)
    · exact rowOut x1 b1 b2 x (hs.2 hx)
  · intro y hy
    have hs := sl f.ay y0 y1 y (c3 y1 d1 d2) d1
    rcases hy with hy | hy
    · exact colOut y0 c1 c2 y (hs.1 hy)
    · exact colOut y1 d1 d2 y (hs.2 hy)

/-- C19: the soft variant does return a field when something is masked and the valid values reach past the
first row and the first column.  Partial: otherwise see the two violations below. -/
theorem C19_soft_returns_partial {f : SF} (hf : f.WF) (hm : ∃ x y, f.Reads x y none)
    (hx : ∃ i j v, f.cell (i + 1) j = some v ∧ i + 1 < f.ax.length ∧ j < f.ay.length)
    (hy : ∃ i j v, f.cell i (j + 1) = some v ∧ i < f.ax.length ∧ j + 1 < f.ay.length) :
    ∃ g, f.cropMaskedSoft = .ok (some g) := by
  have h0 : ¬ f.anyMasked = false := by
    intro h
    obtain ⟨x, y, hr⟩ := hm
    exact no_mask_reads hf.loose h x y hr
  have fl : ∀ (n : Nat) (p : Nat → Bool) (k : Nat), k + 1 < n → p (k + 1) = true →
      ∃ a b, firstLast ((List.range n).filter p) = .ok (a, b) ∧ a ≤ b ∧ 0 < b := by
    intro n p k hk hp
    have hmem : k + 1 ∈ (List.range n).filter p := by simp [hk, hp]
    have hne : (List.range n).filter p ≠ [] := List.ne_nil_of_mem hmem
    refine ⟨((List.range n).filter p).head hne, ((List.range n).filter p).getLast hne, ?_, ?_, ?_⟩
    · unfold firstLast
      rw [List.head?_eq_some_head hne, List.getLast?_eq_some_getLast hne]
    · have h1 := (range_filter_head (List.head?_eq_some_head hne)).2.2
      have h2 := range_filter_last (List.getLast?_eq_some_getLast hne)
      exact h1 _ h2.1 h2.2.1
    · have h2 := range_filter_last (List.getLast?_eq_some_getLast hne)
      have := h2.2.2 (k + 1) hk hp
      omega
  obtain ⟨i, j, v, hc, hi, hj⟩ := hx
  obtain ⟨i', j', v', hc', hi', hj'⟩ := hy
  have m1 : f.mask.get (i + 1) j = false := by rw [Reads.cellMask hf hi hj, hc]; rfl
  have m2 : f.mask.get i' (j' + 1) = false := by rw [Reads.cellMask hf hi' hj', hc']; rfl
  obtain ⟨a, b, e1, hab, hb⟩ := fl f.mask.nx f.rowValid i (by rw [hf.mx]; exact hi) (by
    unfold rowValid; rw [List.any_eq_true]
    exact ⟨j, by rw [List.mem_range, hf.my]; exact hj, by simp [m1]⟩)
  obtain ⟨c, d, e2, hcd, hd⟩ := fl f.mask.ny f.colValid j' (by rw [hf.my]; exact hj') (by
    unfold colValid; rw [List.any_eq_true]
    exact ⟨i', by rw [List.mem_range, hf.mx]; exact hi', by simp [m2]⟩)
  have c1 : Axis.cropIndsInd a b = .ok (a, b) := by
    unfold Axis.cropIndsInd; rw [if_neg (by omega), if_neg (by omega)]; simp
  have c2 : Axis.cropIndsInd c d = .ok (c, d) := by
    unfold Axis.cropIndsInd; rw [if_neg (by omega), if_neg (by omega)]; simp
  refine ⟨f.cut a b c d, ?_⟩
  unfold cropMaskedSoft softCrop
  rw [if_neg h0, e1, e2]
  simp only [cropInd, Option.getD_some, c1, c2, Except.map]

/-- C19 fails when nothing is masked: no field is returned at all (core/scalarfield.py:1745-1746). -/
theorem C19_soft_none_violated :
    ∃ f : SF, f.WF ∧ f.cropMaskedSoft = .ok none := by
  refine ⟨{ sample with val := ⟨3, 2, fun _ _ => some 1⟩, mask := ⟨3, 2, fun _ _ => false⟩ }, ?_, ?_⟩
  · exact ⟨sample_WF.incx, sample_WF.incy, sample_WF.nex, sample_WF.ney, rfl, rfl, rfl, rfl, by intro i j _ _ h; cases h⟩
  · have : ({ sample with val := ⟨3, 2, fun _ _ => some 1⟩, mask := ⟨3, 2, fun _ _ => false⟩ } : SF).anyMasked = false := by
      decide +kernel
    unfold cropMaskedSoft; rw [if_pos this]

/-- C19 fails when only the first row holds valid values: ValueError (the upper index 0 is refused,
core/field.py:541-553). -/
theorem C19_soft_first_row_violated :
    ∃ f : SF, f.WF ∧ f.Reads 0 (-1) (some 5) ∧ f.cropMaskedSoft = .error .valueError := by
  refine ⟨{ sample with val := ⟨3, 2, fun i _ => if i = 0 then some 5 else none⟩, mask := ⟨3, 2, fun i _ => i != 0⟩ },
    ?_, ⟨0, 0, rfl, rfl, rfl⟩, ?_⟩
  · refine ⟨sample_WF.incx, sample_WF.incy, sample_WF.nex, sample_WF.ney, rfl, rfl, rfl, rfl, ?_⟩
    intro i j _ _ h
    simp only at h ⊢
    by_cases hi : i = 0
    · simp [hi] at h
    · simp [hi]
  · rfl

/-- A field whose first and last columns are masked. -/
def bordered : SF where
  ax := [0, 1, 3, 4]
  ay := [-1, 1/2, 2]
  val := ⟨4, 3, fun i j => if i = 0 ∨ j = 2 ∨ (i = 1 ∧ j = 0) then none else some (10 * i + j)⟩
  mask := ⟨4, 3, fun i j => i == 0 || j == 2 || (i == 1 && j == 0)⟩
  ux := Sym.mm
  uy := Sym.m
  uv := Sym.s

theorem bordered_WF : bordered.WF := by
  refine ⟨by decide +kernel, by decide +kernel, by decide, by decide, rfl, rfl, rfl, rfl, ?_⟩
  intro i j _ _ h
  by_cases hc : i = 0 ∨ j = 2 ∨ (i = 1 ∧ j = 0)
  · simp [bordered]; tauto
  · simp only [bordered, if_neg hc] at h; cases h

example : bordered.cropMaskedSoft.map (fun o => o.map (fun g => (g.ax, g.ay, [g.cell 0 0, g.cell 0 1])))
    = .ok (some ([1, 3, 4], [-1, 1/2], [none, some 11])) := by decide +kernel

/-! ### C20 -/

/-- C20: the hard variant terminates, for every field: after at most as many turns as there are rows and
columns it has returned or raised. -/
theorem C20_hard_terminates {f : SF} (hf : f.WF) :
    ∀ n, f.ax.length + f.ay.length ≤ n → cropMaskedHard n f ≠ none := by
  intro n hn
  unfold cropMaskedHard
  by_cases hm : f.anyMasked = false
  · rw [if_pos hm]; simp
  · rw [if_neg hm]
    cases hs : f.softCrop with
    | error e => simp
    | ok g =>
      obtain ⟨x0, x1, y0, y1, rfl, _⟩ := softCrop_ok hs
      simp only [ne_eq, Option.map_eq_none_iff]
      refine (hardLoop_spec n _ (cut_loose hf.loose _ _ _ _)).1 ?_
      simp only [cut, slice_length]; omega

/-- C20: whenever the hard variant returns a field, this field is a sub-rectangle of the original without any
masked point.  Partial: the returned rectangle may be empty and an exception may be raised instead
(`C20_hard_error_violated`, `C20_hard_empty_violated`). -/
theorem C20_hard_mask_free_partial {f g : SF} (hf : f.WF) {n : Nat} (h : cropMaskedHard n f = some (.ok (some g))) :
    SubRect g f ∧ ∀ x y, ¬ g.Reads x y none := by
  unfold cropMaskedHard at h
  by_cases hm : f.anyMasked = false
  · rw [if_pos hm] at h; simp at h
  · rw [if_neg hm] at h
    cases hs : f.softCrop with
    | error e => rw [hs] at h; simp at h
    | ok k =>
      rw [hs] at h
      obtain ⟨x0, x1, y0, y1, rfl, _⟩ := softCrop_ok hs
      cases hl : hardLoop n (f.cut x0 x1 y0 y1) with
      | none => simp only [hl, Option.map_none] at h; cases h
      | some r =>
        simp only [hl, Option.map_some, Option.some.injEq] at h
        cases r with
        | error e => cases h
        | ok k =>
          simp only [Except.map, Except.ok.injEq, Option.some.injEq] at h
          subst h
          obtain ⟨k1, k2, k3⟩ := (hardLoop_spec n _ (cut_loose hf.loose _ _ _ _)).2 _ hl
          exact ⟨k2.trans (cut_subRect hf.loose _ _ _ _), no_mask_reads k1 k3⟩

/-- C20: when nothing is masked, nothing is cropped (and nothing returned). -/
theorem C20_hard_nothing_to_do {f : SF} (hf : f.WF) (h : ∀ x y, ¬ f.Reads x y none) (n : Nat) :
    cropMaskedHard n f = some (.ok none) := by
  unfold cropMaskedHard
  rw [if_pos]
  by_contra hm
  have hm : f.anyMasked = true := by simpa using hm
  obtain ⟨i, j, hi, hj, hmm⟩ := (anyMasked_iff f).mp hm
  rw [hf.mx] at hi
  rw [hf.my] at hj
  refine h f.ax[i] f.ay[j] ⟨i, j, List.getElem?_eq_getElem hi, List.getElem?_eq_getElem hj, ?_⟩
  unfold cell; rw [if_pos hmm]

/-- A 2 × 3 field with the masked points `m`. -/
def two (m : Nat → Nat → Bool) : SF where
  ax := [0, 1]
  ay := [0, 1, 2]
  val := ⟨2, 3, fun i j => if m i j then none else some 7⟩
  mask := ⟨2, 3, m⟩
  ux := Sym.mm
  uy := Sym.mm
  uv := Sym.one

theorem two_WF (m : Nat → Nat → Bool) : (two m).WF := by
  refine ⟨show Inc [0, 1] by decide +kernel, show Inc [0, 1, 2] by decide +kernel, show ([0, 1] : List Rat) ≠ [] by simp,
    show ([0, 1, 2] : List Rat) ≠ [] by simp, rfl, rfl, rfl, rfl, ?_⟩
  intro i j _ _ h
  simp only [two] at *
  by_cases hc : m i j = true
  · exact hc
  · rw [if_neg hc] at h; cases h

/-- C20 fails on a 2 × 3 field with one masked point on its last row: ValueError instead of a sub-rectangle. -/
theorem C20_hard_error_violated :
    (two (fun i j => i == 1 && j == 1)).WF ∧
      cropMaskedHard 5 (two (fun i j => i == 1 && j == 1)) = some (.error .valueError) := ⟨two_WF _, rfl⟩

/-- C20 fails on a checkerboard of masked points: the returned field is empty although three points are valid. -/
theorem C20_hard_empty_violated :
    (two (fun i j => (i + j) % 2 == 0)).WF ∧ (two (fun i j => (i + j) % 2 == 0)).Reads 0 1 (some 7) ∧
      ∃ g, cropMaskedHard 6 (two (fun i j => (i + j) % 2 == 0)) = some (.ok (some g)) ∧ g.ax = [] := by
  refine ⟨two_WF _, ⟨0, 1, rfl, rfl, rfl⟩, _, rfl, rfl⟩

example : ((cropMaskedHard 7 bordered).getD (.error .exception)).map (fun o => o.map (fun g => (g.ax, g.ay, [g.cell 0 0, g.cell 1 1])))
    = (.ok (some ([3, 4], [-1, 1/2], [some 20, some 31]))) := by decide +kernel

/-! ### C82 -/

/-- C82: filling in place with a value gives that value to the masked points, leaves every other reading alone,
and masks nothing. -/
theorem C82_fill_value {f : SF} (hf : f.WF) (v : Rat) :
    (f.fillValue v).WF ∧
    (∀ x y r, (f.fillValue v).Reads x y r ↔ ∃ s, f.Reads x y s ∧ r = some (s.getD v)) ∧
    (f.fillValue v).ux = f.ux ∧ (f.fillValue v).uy = f.uy ∧ (f.fillValue v).uv = f.uv := by
  have hc : ∀ i j, i < f.ax.length → j < f.ay.length → (f.fillValue v).cell i j = some ((f.cell i j).getD v) := by
    intro i j hi hj
    show (if f.mask.get i j then some v else f.cell i j) = _
    rw [Reads.cellMask hf hi hj]
    cases f.cell i j <;> simp
  refine ⟨⟨hf.incx, hf.incy, hf.nex, hf.ney, hf.vx, hf.vy, hf.vx, hf.vy, ?_⟩, ?_, rfl, rfl, rfl⟩
  · intro i j hi hj h
    have := hc i j hi hj
    change (if f.mask.get i j = true then some v else f.cell i j) = _ at this
    rw [show (if f.mask.get i j = true then some v else f.cell i j) = none from h] at this
    cases this
  · exact reads_map (f := f) (g := f.fillValue v) rfl rfl (fun s => some (s.getD v)) hc

/-- C82: filling without `inplace` returns the same readings, and the source keeps its own (no crop). -/
theorem C82_fill_copy_partial {f : SF} (hf : f.WF) (h2x : 2 ≤ f.ax.length) (h2y : 2 ≤ f.ay.length) (v : Rat) :
    ∃ src g, f.fillValueCopy v false = .ok (src, g) ∧ src.Equal f ∧ g.WF ∧
      (∀ x y r, g.Reads x y r ↔ ∃ s, f.Reads x y s ∧ r = some (s.getD v)) ∧
      g.ux = f.ux ∧ g.uy = f.uy ∧ g.uv = f.uv := by
  obtain ⟨g, e, w, hr, u⟩ := C15_import_reads_partial (ux := f.ux) (uy := f.uy) (uv := f.uv) (ax := f.ax) (ay := f.ay)
    (v := ⟨f.val.nx, f.val.ny, fun i j => if f.mask.get i j then some v else f.cell i j⟩) (m := .bool false)
    hf.vx hf.vy h2x h2y trivial (Or.inl hf.incx) (Or.inl hf.incy) (Or.inl ⟨hf.incx, hf.incy⟩)
  refine ⟨{ f with val := ⟨f.val.nx, f.val.ny, fun i j => if f.mask.get i j then some v else f.cell i j⟩ }, g,
    ?_, ?_, w, ?_, u⟩
  · unfold fillValueCopy
    simp only [Bool.false_eq_true, if_false, e]
  · refine ⟨rfl, rfl, rfl, rfl, rfl, ?_, fun _ _ _ _ => rfl⟩
    intro i j hi hj
    show (if f.mask.get i j then none else if f.mask.get i j then some v else f.cell i j) = f.cell i j
    by_cases hm : f.mask.get i j = true
    · rw [if_pos hm]; unfold cell; rw [if_pos hm]
    · rw [if_neg hm, if_neg hm]
  · intro x y r
    rw [hr]
    have key : ∀ i j, i < f.ax.length → j < f.ay.length →
        (if f.mask.get i j then some v else f.cell i j) = some ((f.cell i j).getD v) := by
      intro i j hi hj
      rw [Reads.cellMask hf hi hj]
      cases f.cell i j <;> simp
    constructor
    · rintro ⟨i, j, hi, hj, rfl⟩
      refine ⟨_, ⟨i, j, hi, hj, rfl⟩, ?_⟩
      show (if false = true then none else if f.mask.get i j then some v else f.cell i j) = _
      rw [if_neg (by simp), key i j (getElem?_some_lt hi) (getElem?_some_lt hj)]
    · rintro ⟨s, ⟨i, j, hi, hj, rfl⟩, rfl⟩
      refine ⟨i, j, hi, hj, ?_⟩
      show _ = (if false = true then none else if f.mask.get i j then some v else f.cell i j)
      rw [if_neg (by simp), key i j (getElem?_some_lt hi) (getElem?_some_lt hj)]

/-- C82 fails with `crop=True`: asking for a filled copy crops the source. -/
theorem C82_fill_crop_violated :
    ∃ src g, bordered.fillValueCopy 0 true = .ok (src, g) ∧ src.ax ≠ bordered.ax := by
  refine ⟨_, _, rfl, by decide +kernel⟩

example : [(bordered.fillValue 9).cell 0 0, (bordered.fillValue 9).cell 1 0, (bordered.fillValue 9).cell 1 1]
    = [some 9, some 9, some 11] := by decide +kernel

end IMT.SF
