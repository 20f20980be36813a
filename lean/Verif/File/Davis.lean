import Verif.File.Props

/-!
Properties C68 (DaVis pictures), C117 (DaVis vector files), C69 (videos).
-/

namespace IMT.File

/-! ### C68 -/

theorem davisAxis_get (rev : Bool) (x0 dx : Rat) (n i : Nat) (x : Rat) :
    (davisAxis rev x0 dx n)[i]? = some x ↔ i < n ∧ x = x0 + ((if rev then n - 1 - i else i : Nat) : Rat) * dx := by
  unfold davisAxis
  by_cases h : i < n
  · cases rev <;> simp [h, eq_comm]
  · cases rev <;> simp [h]

theorem davisAxis_length (rev : Bool) (x0 dx : Rat) (n : Nat) : (davisAxis rev x0 dx n).length = n := by
  unfold davisAxis; cases rev <;> simp

theorem davisAxis_inc {x0 dx : Rat} (h : dx ≠ 0) (n : Nat) : Inc (davisAxis (decide (dx < 0)) x0 dx n) := by
  rcases lt_or_gt_of_ne h with h | h
  · have hd : decide (dx < 0) = true := by simpa using h
    unfold davisAxis
    rw [hd, if_pos rfl]
    unfold Inc
    rw [List.pairwise_map]
    have := List.pairwise_lt_range (n := n)
    refine List.Pairwise.imp_of_mem ?_ this
    intro i j hi hj hij
    simp only [List.mem_range] at hi hj
    have : ((n - 1 - j : Nat) : Rat) < ((n - 1 - i : Nat) : Rat) := by exact_mod_cast (by omega)
    nlinarith
  · have hd : decide (dx < 0) = false := by simpa using h.le
    unfold davisAxis
    rw [hd, if_neg (by decide)]
    refine Inc.range_map fun i j hij => ?_
    have : (i : Rat) < j := by exact_mod_cast hij
    nlinarith

theorem davisAxis_dec {x0 dx : Rat} (h : 0 < dx) (n : Nat) : Inc (davisAxis true x0 dx n).reverse := by
  unfold davisAxis
  rw [if_pos rfl]
  unfold Inc
  rw [List.pairwise_reverse, List.pairwise_map]
  have := List.pairwise_lt_range (n := n)
  refine List.Pairwise.imp_of_mem ?_ this
  intro i j hi hj hij
  simp only [List.mem_range] at hi hj
  have : ((n - 1 - j : Nat) : Rat) < ((n - 1 - i : Nat) : Rat) := by exact_mod_cast (by omega)
  nlinarith

theorem turned_get {α : Type} (rx ry : Bool) (g : Grid α) (i j : Nat) :
    (turned rx ry g).get i j = g.get (if rx then g.nx - 1 - i else i) (if ry then g.ny - 1 - j else j) := by
  cases rx <;> cases ry <;> simp [turned, Grid.flipX, Grid.flipY]

theorem turned_shape {α : Type} (rx ry : Bool) (g : Grid α) : (turned rx ry g).nx = g.nx ∧ (turned rx ry g).ny = g.ny := by
  cases rx <;> cases ry <;> simp [turned, Grid.flipX, Grid.flipY]

theorem mirror_iff {n m : Nat} (rx ry : Bool) (P : Nat → Nat → Nat → Nat → Prop) :
    (∃ i j, i < n ∧ j < m ∧ P (if rx then n - 1 - i else i) (if ry then m - 1 - j else j) i j) ↔
      ∃ i j, i < n ∧ j < m ∧ P i j (if rx then n - 1 - i else i) (if ry then m - 1 - j else j) := by
  have e : ∀ (b : Bool) (n i : Nat), i < n → (if b then n - 1 - i else i) < n ∧
      (if b then n - 1 - (if b then n - 1 - i else i) else (if b then n - 1 - i else i)) = i := by
    intro b n i h; cases b
    · simp [h]
    · simp; omega
  constructor
  · rintro ⟨i, j, hi, hj, h⟩
    refine ⟨_, _, (e rx n i hi).1, (e ry m j hj).1, ?_⟩
    rw [(e rx n i hi).2, (e ry m j hj).2]; exact h
  · rintro ⟨i, j, hi, hj, h⟩
    refine ⟨_, _, (e rx n i hi).1, (e ry m j hj).1, ?_⟩
    rw [(e rx n i hi).2, (e ry m j hj).2]; exact h

/-- C68: importing a DaVis picture gives a consistent field (increasing axes) which shows the value of pixel `(i, j)`, scaled, at
`(x0 + i dx, y0 + j dy)`, masked exactly where the file says so or holds no value, whatever the signs of the steps. -/
theorem C68_im7 {v : Grid (Option Rat)} {m : Grid Bool} (hm1 : m.nx = v.nx) (hm2 : m.ny = v.ny) (h2x : 2 ≤ v.nx) (h2y : 2 ≤ v.ny)
    (a b x0 y0 : Rat) {dx dy : Rat} (hdx : dx ≠ 0) (hdy : dy ≠ 0) (ux uy uv : Sym) :
    ∃ g, importIM7 v m a b x0 dx y0 dy ux uy uv = .ok g ∧ g.WF ∧
      (∀ x y r, g.Reads x y r ↔ ∃ i j : Nat, i < v.nx ∧ j < v.ny ∧ x = x0 + i * dx ∧ y = y0 + j * dy ∧
        r = if m.get i j then none else (v.get i j).map fun q => q * a + b) ∧
      g.ux = ux ∧ g.uy = uy ∧ g.uv = uv := by
  have hA1 : (affine a b v).nx = v.nx := rfl
  have hA2 : (affine a b v).ny = v.ny := rfl
  obtain ⟨g, e, w, hr, hu⟩ := SF.C15_import_reads_partial (ux := ux) (uy := uy) (uv := uv)
    (ax := davisAxis (decide (dx < 0)) x0 dx v.nx) (ay := davisAxis (decide (dy < 0)) y0 dy v.ny)
    (v := turned (decide (dx < 0)) (decide (dy < 0)) (affine a b v)) (m := .array (turned (decide (dx < 0)) (decide (dy < 0)) m))
    (by rw [(turned_shape _ _ _).1, davisAxis_length, hA1]) (by rw [(turned_shape _ _ _).2, davisAxis_length, hA2])
    (by rw [davisAxis_length]; exact h2x) (by rw [davisAxis_length]; exact h2y)
    (by unfold SF.MaskArg.shape; simp only [(turned_shape _ _ _).1, (turned_shape _ _ _).2]; exact ⟨hm1, hm2⟩)
    (Or.inl (davisAxis_inc hdx _)) (Or.inl (davisAxis_inc hdy _)) (Or.inl ⟨davisAxis_inc hdx _, davisAxis_inc hdy _⟩)
  refine ⟨g, e, w, ?_, hu⟩
  intro x y r
  rw [hr, ← mirror_iff (decide (dx < 0)) (decide (dy < 0)) (fun i j _ _ => x = x0 + i * dx ∧ y = y0 + j * dy ∧
        r = if m.get i j then none else (v.get i j).map fun q => q * a + b)]
  simp only [davisAxis_get, SF.MaskArg.get, turned_get, hm1, hm2]
  constructor
  · rintro ⟨i, j, ⟨h1, h2⟩, ⟨h3, h4⟩, h5⟩
    exact ⟨i, j, h1, h3, h2, h4, h5⟩
  · rintro ⟨i, j, h1, h3, h2, h4, h5⟩
    exact ⟨i, j, ⟨h1, h2⟩, ⟨h3, h4⟩, h5⟩

example : (match importIM7 ⟨3, 2, fun i j => some (10 * i + j)⟩ ⟨3, 2, fun i _ => decide (i = 0)⟩ 2 1 5 (-1) 0 1 Sym.mm Sym.mm Sym.one with
    | .ok g => (g.ax, g.ay, g.cell 0 0, g.cell 2 1)
    | .error _ => ([], [], none, none)) = (([3, 4, 5], [0, 1], some 41, none) : List Rat × List Rat × Option Rat × Option Rat) := by
  decide +kernel

/-! ### C117 -/

/-- What the file says of the vector of rank `(i, j)`: nothing where the file masks it or it is null, otherwise its scaled
components, each one counted along its axis (opposite when the axis is reversed). -/
def davisVector (vx vy : Grid (Option Rat)) (m : Grid Bool) (a b : Rat) (sx sy : Bool) (i j : Nat) : Option (Rat × Rat) :=
  match m.get i j, vx.get i j, vy.get i j with
  | false, some p, some q =>
    if p = 0 ∧ q = 0 then none else some (if sx then -(p * a + b) else p * a + b, if sy then -(q * a + b) else q * a + b)
  | _, _, _ => none

theorem opp_get (s : Bool) (g : Grid (Option Rat)) (i j : Nat) :
    (opp s g).get i j = (g.get i j).map fun q => if s then -q else q := by
  cases s
  · simp [opp]
  · simp [opp, Grid.map]

theorem opp_shape (s : Bool) (g : Grid (Option Rat)) : (opp s g).nx = g.nx ∧ (opp s g).ny = g.ny := by
  cases s <;> simp [opp, Grid.map]

theorem davisVector_shown (vx vy : Grid (Option Rat)) (m : Grid Bool) (a b : Rat) (sx sy : Bool) (i j : Nat) :
    VF.shown ((vc7Mask m vx vy).get i j) (((affine a b vx).get i j).map fun q => if sx then -q else q)
      (((affine a b vy).get i j).map fun q => if sy then -q else q) = davisVector vx vy m a b sx sy i j := by
  unfold davisVector vc7Mask affine Grid.map
  simp only
  cases m.get i j <;> cases hx : vx.get i j <;> cases hy : vy.get i j <;> simp [VF.shown]

/-- C117: importing a DaVis vector file gives a consistent field which shows at `(x0 + i dx, y0 + j dy)` the vector of rank
`(i, j)`, whatever the signs of the steps.
Partial: when the y axis is in pixels with a positive step, no vector is masked, null or missing (see
`C117_pixel_violated`). -/
theorem C117_vc7_partial {vx vy : Grid (Option Rat)} {m : Grid Bool} (hy1 : vy.nx = vx.nx)
    (hy2 : vy.ny = vx.ny) (h2x : 2 ≤ vx.nx) (h2y : 2 ≤ vx.ny) (a b x0 y0 : Rat) {dx dy : Rat} (hdx : dx ≠ 0) (hdy : dy ≠ 0)
    (pix : Bool) (ux uy uv : Sym)
    (hpix : pix = true → 0 < dy → ∀ i j, i < vx.nx → j < vx.ny → davisVector vx vy m a b false false i j ≠ none) :
    ∃ g, importVC7 vx vy m a b x0 dx y0 dy pix ux uy uv = .ok g ∧ g.WF ∧
      (∀ x y r, g.Reads x y r ↔ ∃ i j : Nat, i < vx.nx ∧ j < vx.ny ∧ x = x0 + i * dx ∧ y = y0 + j * dy ∧
        r = davisVector vx vy m a b (decide (dx < 0)) (decide (dy < 0) || pix) i j) ∧
      g.ux = ux ∧ g.uy = uy ∧ g.uv = uv := by
  have hvm1 : (vc7Mask m vx vy).nx = vx.nx := rfl
  have hvm2 : (vc7Mask m vx vy).ny = vx.ny := rfl
  have hA : ∀ v : Grid (Option Rat), (affine a b v).nx = v.nx ∧ (affine a b v).ny = v.ny := fun _ => ⟨rfl, rfl⟩
  have iy : Inc (davisAxis (decide (dy < 0) || pix) y0 dy vx.ny) ∨
      (Inc (davisAxis (decide (dy < 0) || pix) y0 dy vx.ny).reverse ∧ pix = true ∧ 0 < dy) := by
    rcases lt_or_gt_of_ne hdy with h | h
    · left
      have := davisAxis_inc (x0 := y0) hdy vx.ny
      simpa [h] using this
    · cases pix
      · left
        have := davisAxis_inc (x0 := y0) hdy vx.ny
        simpa using this
      · right
        refine ⟨?_, rfl, h⟩
        simpa using davisAxis_dec (x0 := y0) h vx.ny
  have hgx : ∀ i j, (opp (decide (dx < 0)) (turned (decide (dx < 0)) (decide (dy < 0) || pix) (affine a b vx))).get i j =
      ((affine a b vx).get (if decide (dx < 0) then vx.nx - 1 - i else i) (if decide (dy < 0) || pix then vx.ny - 1 - j else j)).map
        fun q => if decide (dx < 0) then -q else q := by
    intro i j
    rw [opp_get, turned_get, (hA vx).1, (hA vx).2]
  have hgy : ∀ i j, (opp (decide (dy < 0) || pix) (turned (decide (dx < 0)) (decide (dy < 0) || pix) (affine a b vy))).get i j =
      ((affine a b vy).get (if decide (dx < 0) then vx.nx - 1 - i else i) (if decide (dy < 0) || pix then vx.ny - 1 - j else j)).map
        fun q => if decide (dy < 0) || pix then -q else q := by
    intro i j
    rw [opp_get, turned_get, (hA vy).1, (hA vy).2, hy1, hy2]
  have hcell : ∀ i j, VF.shown ((turned (decide (dx < 0)) (decide (dy < 0) || pix) (vc7Mask m vx vy)).get i j)
      ((opp (decide (dx < 0)) (turned (decide (dx < 0)) (decide (dy < 0) || pix) (affine a b vx))).get i j)
      ((opp (decide (dy < 0) || pix) (turned (decide (dx < 0)) (decide (dy < 0) || pix) (affine a b vy))).get i j) =
      davisVector vx vy m a b (decide (dx < 0)) (decide (dy < 0) || pix)
        (if decide (dx < 0) then vx.nx - 1 - i else i) (if decide (dy < 0) || pix then vx.ny - 1 - j else j) := by
    intro i j
    rw [hgx, hgy, turned_get, hvm1, hvm2]
    exact davisVector_shown _ _ _ _ _ _ _ _ _
  have e1 := (turned_shape (decide (dx < 0)) (decide (dy < 0) || pix) (affine a b vx))
  have e2 := (turned_shape (decide (dx < 0)) (decide (dy < 0) || pix) (affine a b vy))
  have e3 := (turned_shape (decide (dx < 0)) (decide (dy < 0) || pix) (vc7Mask m vx vy))
  obtain ⟨g, e, w, hr, hu⟩ := VF.C111_import_reads_partial (ux := ux) (uy := uy) (uv := uv)
    (ax := davisAxis (decide (dx < 0)) x0 dx vx.nx) (ay := davisAxis (decide (dy < 0) || pix) y0 dy vx.ny)
    (cx := opp (decide (dx < 0)) (turned (decide (dx < 0)) (decide (dy < 0) || pix) (affine a b vx)))
    (cy := opp (decide (dy < 0) || pix) (turned (decide (dx < 0)) (decide (dy < 0) || pix) (affine a b vy)))
    (m := .array (turned (decide (dx < 0)) (decide (dy < 0) || pix) (vc7Mask m vx vy)))
    (by rw [(opp_shape _ _).1, e1.1, davisAxis_length, (hA vx).1]) (by rw [(opp_shape _ _).2, e1.2, davisAxis_length, (hA vx).2])
    (by rw [(opp_shape _ _).1, e2.1, davisAxis_length, (hA vy).1, hy1]) (by rw [(opp_shape _ _).2, e2.2, davisAxis_length, (hA vy).2, hy2])
    (by rw [davisAxis_length]; exact h2x) (by rw [davisAxis_length]; exact h2y)
    (by show (turned _ _ (vc7Mask m vx vy)).nx = _; rw [e3.1, davisAxis_length, hvm1])
    (by show (turned _ _ (vc7Mask m vx vy)).ny = _; rw [e3.2, davisAxis_length, hvm2])
    (Or.inl (davisAxis_inc hdx _)) (iy.imp id fun h => h.1)
    (by
      rcases iy with iy | ⟨-, hp, hpos⟩
      · exact Or.inl ⟨davisAxis_inc hdx _, iy⟩
      · right
        intro i j hi hj
        rw [davisAxis_length] at hi hj
        have hk := hpix hp hpos (if decide (dx < 0) then vx.nx - 1 - i else i) (if decide (dy < 0) || pix then vx.ny - 1 - j else j)
          (by split <;> omega) (by split <;> omega)
        rw [hgx, hgy]
        show (turned _ _ (vc7Mask m vx vy)).get i j = false ∧ _
        rw [turned_get, hvm1, hvm2]
        generalize (if decide (dx < 0) then vx.nx - 1 - i else i) = i' at hk
        generalize (if decide (dy < 0) || pix then vx.ny - 1 - j else j) = j' at hk
        unfold davisVector at hk
        unfold vc7Mask affine Grid.map
        simp only
        cases h1 : m.get i' j' <;> cases h2 : vx.get i' j' <;> cases h3 : vy.get i' j' <;> simp [h1, h2, h3] at hk ⊢
        exact fun h => hk h)
  refine ⟨g, e, w, ?_, hu⟩
  intro x y r
  rw [hr, ← mirror_iff (decide (dx < 0)) (decide (dy < 0) || pix) (fun i j _ _ => x = x0 + i * dx ∧ y = y0 + j * dy ∧
        r = davisVector vx vy m a b (decide (dx < 0)) (decide (dy < 0) || pix) i j)]
  simp only [davisAxis_get]
  constructor
  · rintro ⟨i, j, ⟨h1, h2⟩, ⟨h3, h4⟩, h5⟩
    exact ⟨i, j, h1, h3, h2, h4, h5.trans (hcell i j)⟩
  · rintro ⟨i, j, h1, h3, h2, h4, h5⟩
    exact ⟨i, j, ⟨h1, h2⟩, ⟨h3, h4⟩, h5.trans (hcell i j).symm⟩

example : (match importVC7 ⟨3, 2, fun i j => some (10 * i + j)⟩ ⟨3, 2, fun _ j => some j⟩ (Grid.const 3 2 false) 1 0 5 (-1) 0 1 false
      Sym.mm Sym.mm Sym.one with
    | .ok g => (g.ax, g.ay, g.cell 0 0, g.cell 2 0)
    | .error _ => ([], [], none, none)) = (([3, 4, 5], [0, 1], some (-20, 0), none) : List Rat × List Rat × Option (Rat × Rat) × Option (Rat × Rat)) := by
  decide +kernel

/-- C117 fails when the y axis is in pixels with a positive step: for every file, a valid vector is reported masked as soon as
the one of symmetric rank in its column is masked or null. -/
theorem C117_pixel_violated {vx vy : Grid (Option Rat)} {m : Grid Bool} (hy1 : vy.nx = vx.nx)
    (hy2 : vy.ny = vx.ny) (h2x : 2 ≤ vx.nx) (h2y : 2 ≤ vx.ny) (a b x0 y0 : Rat) {dx dy : Rat} (hdx : 0 < dx) (hdy : 0 < dy)
    (ux uy uv : Sym) {i j : Nat} (hi : i < vx.nx) (hj : j < vx.ny) (hval : davisVector vx vy m a b false true i j ≠ none)
    (hmir : m.get i (vx.ny - 1 - j) = true ∨ (vx.get i (vx.ny - 1 - j) = some 0 ∧ vy.get i (vx.ny - 1 - j) = some 0)) :
    ∃ g, importVC7 vx vy m a b x0 dx y0 dy true ux uy uv = .ok g ∧ g.Reads (x0 + i * dx) (y0 + j * dy) none ∧
      davisVector vx vy m a b false true i j ≠ none := by
  have d1 : decide (dx < 0) = false := by simpa using hdx.le
  have d2 : decide (dy < 0) = false := by simpa using hdy.le
  have hA : ∀ v : Grid (Option Rat), (affine a b v).nx = v.nx ∧ (affine a b v).ny = v.ny := fun _ => ⟨rfl, rfl⟩
  have e1 := (turned_shape false true (affine a b vx))
  have e2 := (turned_shape false true (affine a b vy))
  have e3 := (turned_shape false true (vc7Mask m vx vy))
  have l1 := davisAxis_length false x0 dx vx.nx
  have l2 := davisAxis_length true y0 dy vx.ny
  have ix : Inc (davisAxis false x0 dx vx.nx) := by have := davisAxis_inc (x0 := x0) hdx.ne' vx.nx; rwa [d1] at this
  have r1 : SF.isRev (davisAxis false x0 dx vx.nx) = false := SF.rev_false ix
  have r2 : SF.isRev (davisAxis true y0 dy vx.ny) = true := SF.rev_true (davisAxis_dec hdy _) (by rw [l2]; exact h2y)
  have e0 : importVC7 vx vy m a b x0 dx y0 dy true ux uy uv = VF.importArrays (davisAxis false x0 dx vx.nx) (davisAxis true y0 dy vx.ny)
      (opp false (turned false true (affine a b vx))) (opp true (turned false true (affine a b vy)))
      (.array (turned false true (vc7Mask m vx vy))) ux uy uv := by
    unfold importVC7
    rw [d1, d2]
    rfl
  have e := e0.trans (VF.import_direct (by rw [(opp_shape _ _).1, e1.1, l1, (hA vx).1]) (by rw [(opp_shape _ _).2, e1.2, l2, (hA vx).2])
      (by rw [(opp_shape _ _).1, e2.1, l1, (hA vy).1, hy1]) (by rw [(opp_shape _ _).2, e2.2, l2, (hA vy).2, hy2])
      (by rw [l1]; exact h2x) (by rw [l2]; exact h2y)
      (by show (turned _ _ (vc7Mask m vx vy)).nx = _; rw [e3.1, l1]; rfl)
      (by show (turned _ _ (vc7Mask m vx vy)).ny = _; rw [e3.2, l2]; rfl))
  refine ⟨_, e, ⟨i, j, ?_, ?_, ?_⟩, hval⟩
  · simp only [VF.setMask, r1, Bool.false_eq_true, if_false]
    rw [davisAxis_get]; exact ⟨hi, by simp⟩
  · simp only [VF.setMask, r2, if_true]
    rw [List.getElem?_reverse (by rw [l2]; exact hj), l2, davisAxis_get]
    refine ⟨by omega, ?_⟩
    rw [if_pos rfl, show vx.ny - 1 - (vx.ny - 1 - j) = j by omega]
  · apply VF.cell_masked
    have : (turned false true (vc7Mask m vx vy)).get i j = true := by
      rw [turned_get]
      simp only [Bool.false_eq_true, if_false, if_true, vc7Mask]
      rcases hmir with h | h
      · simp [h]
      · simp [h.1, h.2]
    simp [VF.setMask, VF.nanMask, VF.MaskArg.grid, this]

example : ∃ g, importVC7 ⟨2, 3, fun i j => some (10 * i + j)⟩ ⟨2, 3, fun _ j => some j⟩ (Grid.const 2 3 false) 1 0 0 1 0 1 true
      Sym.one Sym.one Sym.one = .ok g ∧ g.Reads (0 + (0 : Nat) * 1) (0 + (2 : Nat) * 1) none ∧
        davisVector ⟨2, 3, fun i j => some (10 * i + j)⟩ ⟨2, 3, fun _ j => some j⟩ (Grid.const 2 3 false) 1 0 false true 0 2 ≠ none :=
  C117_pixel_violated (vx := ⟨2, 3, fun i j => some (10 * i + j)⟩) (vy := ⟨2, 3, fun _ j => some j⟩) (m := Grid.const 2 3 false)
    (dx := 1) (dy := 1) rfl rfl (by decide) (by decide) 1 0 0 0 (by decide +kernel) (by decide +kernel) _ _ _ (i := 0) (j := 2) (by decide)
    (by decide) (by decide +kernel) (Or.inr ⟨by decide +kernel, by decide +kernel⟩)

/-! ### C69 -/

/-- The frames asked for: from `first`, one out of `incr`. -/
def Asked (first : Int) (incr k : Nat) : Prop := first ≤ k ∧ incr ∣ k

theorem videoLoop_mem {Fr : Type} (decode : Nat → Option Fr) (first : Int) (incr : Nat) (dt : Rat) (B : Nat) (n : Nat) :
    ∀ i : Nat, i ≤ B → B ≤ i + n → (∀ k, i ≤ k → k < B → Asked first incr k → decode k ≠ none) →
      (B = i + n ∨ (Asked first incr B ∧ decode B = none)) →
      (∀ k fr t, (k, fr, t) ∈ videoLoop decode first incr dt n i (i * dt) ↔
        i ≤ k ∧ k < B ∧ Asked first incr k ∧ decode k = some fr ∧ t = k * dt) ∧
      (videoLoop decode first incr dt n i (i * dt)).Pairwise fun a b => a.1 < b.1 := by
  induction n with
  | zero =>
    intro i h1 h2 h3 h4
    simp only [videoLoop]
    refine ⟨?_, List.Pairwise.nil⟩
    intro k fr t
    simp only [List.not_mem_nil, false_iff]
    rintro ⟨a, b, -⟩
    omega
  | succ n ih =>
    intro i h1 h2 h3 h4
    have ht : (i : Rat) * dt + dt = ((i + 1 : Nat) : Rat) * dt := by push_cast; ring
    have hask : ¬ ((i : Int) < first ∨ i % incr ≠ 0) ↔ Asked first incr i := by
      unfold Asked
      rw [Nat.dvd_iff_mod_eq_zero]
      push Not
      rfl
    unfold videoLoop
    by_cases hs : (i : Int) < first ∨ i % incr ≠ 0
    · rw [if_pos hs, ht]
      have hna : ¬ Asked first incr i := fun h => (hask.2 h) hs
      have hiB : i + 1 ≤ B := by
        rcases h4 with h4 | h4
        · omega
        · rcases Nat.lt_or_ge i B with h | h
          · exact h
          · have : i = B := by omega
            subst this; exact absurd h4.1 hna
      obtain ⟨p, q⟩ := ih (i + 1) hiB (by omega) (fun k hk => h3 k (by omega)) (by rcases h4 with h4 | h4; exact Or.inl (by omega); exact Or.inr h4)
      refine ⟨?_, q⟩
      intro k fr t
      rw [p]
      constructor
      · rintro ⟨a, b⟩; exact ⟨by omega, b⟩
      · rintro ⟨a, b, c, d⟩
        refine ⟨?_, b, c, d⟩
        rcases Nat.lt_or_ge i k with h | h
        · exact h
        · have : k = i := by omega
          subst this; exact absurd c hna
    · rw [if_neg hs]
      have ha := hask.1 hs
      cases hd : decode i with
      | none =>
        have hB : B = i := by
          rcases Nat.lt_or_ge i B with h | h
          · exact absurd hd (h3 i (le_refl _) h ha)
          · omega
        refine ⟨?_, List.Pairwise.nil⟩
        intro k fr t
        simp only [List.not_mem_nil, false_iff]
        rintro ⟨a, b, -⟩
        omega
      | some fr0 =>
        have hiB : i + 1 ≤ B := by
          rcases h4 with h4 | h4
          · omega
          · rcases Nat.lt_or_ge i B with h | h
            · exact h
            · have : i = B := by omega
              subst this; rw [hd] at h4; exact absurd h4.2 (by simp)
        obtain ⟨p, q⟩ := ih (i + 1) hiB (by omega) (fun k hk => h3 k (by omega)) (by rcases h4 with h4 | h4; exact Or.inl (by omega); exact Or.inr h4)
        simp only [ht]
        refine ⟨?_, ?_⟩
        · intro k fr t
          rw [List.mem_cons, p]
          constructor
          · rintro (h | ⟨a, b⟩)
            · simp only [Prod.mk.injEq] at h
              obtain ⟨rfl, rfl, rfl⟩ := h
              exact ⟨le_refl _, hiB, ha, hd, rfl⟩
            · exact ⟨by omega, b⟩
          · rintro ⟨a, b, c, d, e⟩
            rcases Nat.lt_or_ge i k with h | h
            · exact Or.inr ⟨h, b, c, d, e⟩
            · have : k = i := by omega
              subst this
              left
              rw [hd] at d
              simp only [Option.some.injEq] at d
              simp [d, e]
        · refine List.pairwise_cons.2 ⟨?_, q⟩
          rintro ⟨k, fr, t⟩ hk
          rw [p] at hk
          show i < k
          omega

/-- C69: the imported frames are exactly the frames of numbers in `[first, last)` that are multiples of the increment, in order,
each at the time number × dt. -/
theorem C69_frames {Fr : Type} (decode : Nat → Option Fr) (count : Nat) (first last : Int) (incr : Nat) (dt : Rat)
    (hd : ∀ k, k < count → decode k ≠ none) :
    (∀ k fr t, (k, fr, t) ∈ video decode count first last incr dt ↔
      k < count ∧ first ≤ k ∧ (k : Int) < last ∧ incr ∣ k ∧ decode k = some fr ∧ t = k * dt) ∧
    (video decode count first last incr dt).Pairwise fun a b => a.1 < b.1 := by
  have h := videoLoop_mem decode first incr dt (min last count).toNat (min last count).toNat 0 (by omega) (by omega)
    (fun k _ hk _ => hd k (by omega)) (Or.inl (by omega))
  unfold video
  rw [show ((0 : Nat) : Rat) * dt = 0 by simp] at h
  refine ⟨?_, h.2⟩
  intro k fr t
  rw [h.1]
  unfold Asked
  constructor
  · rintro ⟨-, a, ⟨b, c⟩, d, e⟩; exact ⟨by omega, b, by omega, c, d, e⟩
  · rintro ⟨a, b, c, d, e⟩; exact ⟨by omega, by omega, ⟨b, d⟩, e⟩

/-- C69: when a frame asked for cannot be decoded, the import stops there, with the frames asked for before it. -/
theorem C69_undecodable {Fr : Type} (decode : Nat → Option Fr) (count : Nat) (first last : Int) (incr : Nat) (dt : Rat)
    {B : Nat} (hB : B < count) (hl : (B : Int) < last) (ha : first ≤ B ∧ incr ∣ B) (hn : decode B = none)
    (hd : ∀ k, k < B → decode k ≠ none) :
    ∀ k fr t, (k, fr, t) ∈ video decode count first last incr dt ↔
      k < B ∧ first ≤ k ∧ incr ∣ k ∧ decode k = some fr ∧ t = k * dt := by
  have h := videoLoop_mem decode first incr dt B (min last count).toNat 0 (by omega) (by omega)
    (fun k _ hk _ => hd k hk) (Or.inr ⟨ha, hn⟩)
  unfold video
  rw [show ((0 : Nat) : Rat) * dt = 0 by simp] at h
  intro k fr t
  rw [h.1]
  unfold Asked
  constructor
  · rintro ⟨-, a, ⟨b, c⟩, d⟩; exact ⟨a, b, c, d⟩
  · rintro ⟨a, b, c, d⟩; exact ⟨by omega, a, ⟨b, c⟩, d⟩

example : (video (fun k => some k) 10 3 9 2 (1 / 2)).map (fun e => (e.1, e.2.2)) = ([(4, 2), (6, 3), (8, 4)] : List (Nat × Rat)) := by
  decide +kernel

theorem frameAxis_eq (n : Nat) {dx : Rat} (h : 0 < dx) : frameAxis n dx = davisAxis false 0 dx n := by
  have e : ((n : Rat) * dx - 1 / 10 * dx) / dx = n - 1 / 10 := by field_simp
  have c : ⌈(n : Rat) - 1 / 10⌉ = n := by
    rw [Int.ceil_eq_iff]
    push_cast
    constructor <;> linarith
  unfold frameAxis davisAxis
  rw [e, c]
  simp

/-- C69: the field of a frame shows the pixel of column `c` and of line `l` from the bottom at `(c dx, l dy)`. -/
theorem C69_frame_field {p : Grid (Option Rat)} (h2x : 2 ≤ p.ny) (h2y : 2 ≤ p.nx) {dx dy : Rat} (hdx : 0 < dx) (hdy : 0 < dy)
    (ux uy uv : Sym) :
    ∃ g, frameField p dx dy ux uy uv = .ok g ∧ g.WF ∧
      (∀ x y r, g.Reads x y r ↔ ∃ c l : Nat, c < p.ny ∧ l < p.nx ∧ x = c * dx ∧ y = l * dy ∧ r = p.get (p.nx - 1 - l) c) ∧
      g.ux = ux ∧ g.uy = uy := by
  have ix := davisAxis_inc (x0 := 0) hdx.ne' p.ny
  have iy := davisAxis_inc (x0 := 0) hdy.ne' p.nx
  rw [show decide (dx < 0) = false by simpa using hdx.le] at ix
  rw [show decide (dy < 0) = false by simpa using hdy.le] at iy
  obtain ⟨g, e, w, hr, hux, huy, -⟩ := SF.C15_import_reads_partial (ux := ux) (uy := uy) (uv := Sym.one)
    (ax := davisAxis false 0 dx p.ny) (ay := davisAxis false 0 dy p.nx)
    (v := unpicture p) (m := .bool false)
    (by rw [davisAxis_length]; rfl) (by rw [davisAxis_length]; rfl)
    (by rw [davisAxis_length]; exact h2x) (by rw [davisAxis_length]; exact h2y) trivial
    (Or.inl ix) (Or.inl iy) (Or.inl ⟨ix, iy⟩)
  refine ⟨g, ?_, w, ?_, hux, huy⟩
  · unfold frameField
    rw [frameAxis_eq _ hdx, frameAxis_eq _ hdy]
    exact e
  · intro x y r
    rw [hr]
    simp only [davisAxis_get]
    constructor
    · rintro ⟨i, j, ⟨h1, h2⟩, ⟨h3, h4⟩, h5⟩
      exact ⟨i, j, h1, h3, by simpa using h2, by simpa using h4, h5⟩
    · rintro ⟨i, j, h1, h3, h2, h4, h5⟩
      exact ⟨i, j, ⟨h1, by simpa using h2⟩, ⟨h3, by simpa using h4⟩, h5⟩

/-- C69 fails for the unit of the values: the given one is dropped, for every frame. -/
theorem C69_unit_violated {p : Grid (Option Rat)} (h2x : 2 ≤ p.ny) (h2y : 2 ≤ p.nx) {dx dy : Rat} (hdx : 0 < dx) (hdy : 0 < dy)
    {ux uy uv : Sym} (hu : uv ≠ Sym.one) : ∃ g, frameField p dx dy ux uy uv = .ok g ∧ g.uv ≠ uv := by
  have ix := davisAxis_inc (x0 := 0) hdx.ne' p.ny
  have iy := davisAxis_inc (x0 := 0) hdy.ne' p.nx
  rw [show decide (dx < 0) = false by simpa using hdx.le] at ix
  rw [show decide (dy < 0) = false by simpa using hdy.le] at iy
  obtain ⟨g, e, -, -, -, -, huv⟩ := SF.C15_import_reads_partial (ux := ux) (uy := uy) (uv := Sym.one)
    (ax := davisAxis false 0 dx p.ny) (ay := davisAxis false 0 dy p.nx)
    (v := unpicture p) (m := .bool false)
    (by rw [davisAxis_length]; rfl) (by rw [davisAxis_length]; rfl)
    (by rw [davisAxis_length]; exact h2x) (by rw [davisAxis_length]; exact h2y) trivial
    (Or.inl ix) (Or.inl iy) (Or.inl ⟨ix, iy⟩)
  refine ⟨g, ?_, by rw [huv]; exact fun h => hu h.symm⟩
  unfold frameField
  rw [frameAxis_eq _ hdx, frameAxis_eq _ hdy]
  exact e

end IMT.File
