import Verif.Vector.Crop
import Verif.Scalar.Arith

/-! Properties C111 (import from arrays), C112, C113 (addition) and C114 (products) of vector fields. -/

namespace IMT.VF
open SF (AxMap isRev rev_false rev_true ratio_pure inc_ext)

/-- The vector given by two components and a mask. -/
def shown (m : Bool) (u v : Option Rat) : Option (Rat × Rat) :=
  if m then none else match u, v with
    | some u, some v => some (u, v)
    | _, _ => none

/-- Sum of two readings, the second one times `c`: masked if one of them is. -/
def sumVec (c : Rat) : Option (Rat × Rat) → Option (Rat × Rat) → Option (Rat × Rat)
  | some a, some b => some (a.1 + b.1 * c, a.2 + b.2 * c)
  | _, _ => none

variable {f g : VF}

theorem shown_mask (m : Bool) (u v : Option Rat) :
    (if (m || u.isNone || v.isNone) = true then none
      else match (if (m || u.isNone || v.isNone) = true then none else u), (if (m || u.isNone || v.isNone) = true then none else v) with
        | some u, some v => some (u, v)
        | _, _ => none) = shown m u v := by
  unfold shown
  cases m <;> cases u <;> cases v <;> simp

/-! ### C111 -/

theorem import_direct {ax ay : List Rat} {cx cy : Grid (Option Rat)} {m : MaskArg} {ux uy uv : Sym}
    (h1 : cx.nx = ax.length) (h2 : cx.ny = ay.length) (h3 : cy.nx = ax.length) (h4 : cy.ny = ay.length)
    (h2x : 2 ≤ ax.length) (h2y : 2 ≤ ay.length) (hm1 : (m.grid cx.nx cx.ny).nx = ax.length) (hm2 : (m.grid cx.nx cx.ny).ny = ay.length) :
    importArrays ax ay cx cy m ux uy uv = .ok
      (({ ax := if isRev ax then ax.reverse else ax, ay := if isRev ay then ay.reverse else ay,
          cx := flips (isRev ax) (isRev ay) cx, cy := flips (isRev ax) (isRev ay) cy,
          mask := nanMask (m.grid cx.nx cx.ny) cx cy, ux := ux, uy := uy, uv := uv } : VF).setMask
            (nanMask (m.grid cx.nx cx.ny) cx cy)) := by
  unfold importArrays
  rw [if_neg (by omega), if_neg (by omega)]
  have hs : isSwapped ax ay cx = false := by
    unfold isSwapped
    simp only [decide_eq_false_iff_not]
    omega
  rw [hs]
  simp only [Bool.false_eq_true, if_false]
  unfold store
  rw [if_neg (by omega)]

theorem flips_get {cx : Grid (Option Rat)} {nx ny : Nat} (h1 : cx.nx = nx) (h2 : cx.ny = ny) (rx ry : Bool) (i j : Nat) :
    (flips rx ry cx).get i j = cx.get (if rx then nx - 1 - i else i) (if ry then ny - 1 - j else j) := by
  cases rx <;> cases ry <;> simp [flips, Grid.flipX, Grid.flipY, h1, h2]

theorem flips_shape (cx : Grid (Option Rat)) (rx ry : Bool) : (flips rx ry cx).nx = cx.nx ∧ (flips rx ry cx).ny = cx.ny := by
  cases rx <;> cases ry <;> simp [flips, Grid.flipX, Grid.flipY]

/-- C111: importing two component arrays of the shape given by the axes, the axes being strictly monotone, gives a
consistent field which shows at `(ax[i], ay[j])` the vector `(cx[i, j], cy[i, j])`, or a masked point where the mask is set or
a component is NaN.
Partial: an axis may be decreasing only if no point is masked (see `C111_import_mask_violated`). -/
theorem C111_import_reads_partial {ax ay : List Rat} {cx cy : Grid (Option Rat)} {m : MaskArg} {ux uy uv : Sym}
    (h1 : cx.nx = ax.length) (h2 : cx.ny = ay.length) (h3 : cy.nx = ax.length) (h4 : cy.ny = ay.length)
    (h2x : 2 ≤ ax.length) (h2y : 2 ≤ ay.length) (hm1 : (m.grid cx.nx cx.ny).nx = ax.length) (hm2 : (m.grid cx.nx cx.ny).ny = ay.length)
    (mx : Inc ax ∨ Inc ax.reverse) (my : Inc ay ∨ Inc ay.reverse)
    (hmask : (Inc ax ∧ Inc ay) ∨ ∀ i j, i < ax.length → j < ay.length →
      (m.grid cx.nx cx.ny).get i j = false ∧ cx.get i j ≠ none ∧ cy.get i j ≠ none) :
    ∃ g, importArrays ax ay cx cy m ux uy uv = .ok g ∧ g.WF ∧
      (∀ x y r, g.Reads x y r ↔ ∃ i j, ax[i]? = some x ∧ ay[j]? = some y ∧
        r = shown ((m.grid cx.nx cx.ny).get i j) (cx.get i j) (cy.get i j)) ∧
      g.ux = ux ∧ g.uy = uy ∧ g.uv = uv := by
  refine ⟨_, import_direct h1 h2 h3 h4 h2x h2y hm1 hm2, ?_⟩
  generalize m.grid cx.nx cx.ny = mg at hm1 hm2 hmask
  have axm : ∀ l : List Rat, 2 ≤ l.length → (Inc l ∨ Inc l.reverse) →
      Inc (if isRev l then l.reverse else l) ∧
      AxMap l (if isRev l then l.reverse else l) (fun x => x) (fun i => if isRev l then l.length - 1 - i else i) := by
    intro l h2 h
    rcases h with h | h
    · have : isRev l = false := rev_false h
      simp only [this, Bool.false_eq_true, if_false]
      exact ⟨h, AxMap.id l⟩
    · have : isRev l = true := rev_true h h2
      simp only [this, if_true]
      have hmr := AxMap.mapRev l (fun x => x)
      simp only [List.map_id_fun', id] at hmr
      exact ⟨h, hmr⟩
  obtain ⟨ix, amx⟩ := axm ax h2x mx
  obtain ⟨iy, amy⟩ := axm ay h2y my
  have hrev : (Inc ax ∧ Inc ay) → isRev ax = false ∧ isRev ay = false :=
    fun h => ⟨rev_false h.1, rev_false h.2⟩
  -- the mask seen through the reversals
  have hmm : ∀ i j, i < ax.length → j < ay.length → (nanMask mg cx cy).get i j =
      (nanMask mg cx cy).get (if isRev ax then ax.length - 1 - i else i) (if isRev ay then ay.length - 1 - j else j) := by
    intro i j hi hj
    rcases hmask with h | h
    · obtain ⟨r1, r2⟩ := hrev h
      simp [r1, r2]
    · have key : ∀ i j, i < ax.length → j < ay.length → (nanMask mg cx cy).get i j = false := by
        intro i j hi hj
        obtain ⟨p, q, r⟩ := h i j hi hj
        cases hu : cx.get i j with
        | none => exact absurd hu q
        | some u => cases hv : cy.get i j with
          | none => exact absurd hv r
          | some v => simp [nanMask, p, hu, hv]
      rw [key i j hi hj, key _ _ (amx.lt i hi) (amy.lt j hj)]
  have hcell : ∀ i j, i < ax.length → j < ay.length →
      (({ ax := if isRev ax then ax.reverse else ax, ay := if isRev ay then ay.reverse else ay,
          cx := flips (isRev ax) (isRev ay) cx, cy := flips (isRev ax) (isRev ay) cy,
          mask := nanMask mg cx cy, ux := ux, uy := uy, uv := uv } : VF).setMask (nanMask mg cx cy)).cell i j =
      shown (mg.get (if isRev ax then ax.length - 1 - i else i) (if isRev ay then ay.length - 1 - j else j))
        (cx.get (if isRev ax then ax.length - 1 - i else i) (if isRev ay then ay.length - 1 - j else j))
        (cy.get (if isRev ax then ax.length - 1 - i else i) (if isRev ay then ay.length - 1 - j else j)) := by
    intro i j hi hj
    simp only [cell, setMask, nanify, flips_get h1 h2, flips_get h3 h4, hmm i j hi hj]
    generalize (if isRev ax then ax.length - 1 - i else i) = a
    generalize (if isRev ay then ay.length - 1 - j else j) = b
    exact shown_mask _ _ _
  refine ⟨⟨ix, iy, ?_, ?_, ?_, ?_, ?_, ?_, ?_, ?_, ?_, ?_⟩, ?_, rfl, rfl, rfl⟩
  · intro h; have := amx.len; simp only [setMask] at h; rw [h] at this; simp at this; omega
  · intro h; have := amy.len; simp only [setMask] at h; rw [h] at this; simp at this; omega
  · simp only [setMask, nanify]; rw [(flips_shape _ _ _).1, h1]; exact amx.len.symm
  · simp only [setMask, nanify]; rw [(flips_shape _ _ _).2, h2]; exact amy.len.symm
  · simp only [setMask, nanify]; rw [(flips_shape _ _ _).1, h3]; exact amx.len.symm
  · simp only [setMask, nanify]; rw [(flips_shape _ _ _).2, h4]; exact amy.len.symm
  · simp only [setMask, nanMask]; rw [h1]; exact amx.len.symm
  · simp only [setMask, nanMask]; rw [h2]; exact amy.len.symm
  · intro i j hi hj hv
    simp only [setMask] at hi hj
    rw [amx.len] at hi
    rw [amy.len] at hj
    simp only [setMask, nanify, flips_get h1 h2] at hv ⊢
    by_contra hc
    rw [if_neg hc] at hv
    rw [hmm i j hi hj] at hc
    apply hc
    simp [nanMask, hv]
  · intro i j hi hj hv
    simp only [setMask] at hi hj
    rw [amx.len] at hi
    rw [amy.len] at hj
    simp only [setMask, nanify, flips_get h3 h4] at hv ⊢
    by_contra hc
    rw [if_neg hc] at hv
    rw [hmm i j hi hj] at hc
    apply hc
    simp [nanMask, hv]
  · intro x y r
    constructor
    · rintro ⟨i, j, hi, hj, hr⟩
      obtain ⟨x', k1, rfl⟩ := amx.to hi
      obtain ⟨y', k2, rfl⟩ := amy.to hj
      refine ⟨_, _, k1, k2, ?_⟩
      rw [← hr, hcell i j (amx.len ▸ getElem?_some_lt hi) (amy.len ▸ getElem?_some_lt hj)]
    · rintro ⟨i, j, hi, hj, rfl⟩
      have li := getElem?_some_lt hi
      have lj := getElem?_some_lt hj
      refine ⟨_, _, amx.from hi, amy.from hj, ?_⟩
      rw [hcell _ _ (amx.lt i li) (amy.lt j lj)]
      have e1 := amx.inv i li
      have e2 := amy.inv j lj
      rw [e1, e2]

/-- C111 fails on a decreasing x axis: for every pair of arrays of the right shape, a valid vector given at `ax[i]` is
reported masked as soon as the point of symmetric rank was given masked, and the field is inconsistent when the latter was
NaN. -/
theorem C111_import_mask_violated {ax ay : List Rat} {cx cy : Grid (Option Rat)} {m : MaskArg} {ux uy uv : Sym}
    (h1 : cx.nx = ax.length) (h2 : cx.ny = ay.length) (h3 : cy.nx = ax.length) (h4 : cy.ny = ay.length)
    (h2x : 2 ≤ ax.length) (h2y : 2 ≤ ay.length) (hm1 : (m.grid cx.nx cx.ny).nx = ax.length) (hm2 : (m.grid cx.nx cx.ny).ny = ay.length)
    (mx : Inc ax.reverse) (my : Inc ay) {i j : Nat} {x y : Rat} (hx : ax[i]? = some x) (hy : ay[j]? = some y)
    {u v : Rat} (hu : (m.grid cx.nx cx.ny).get i j = false ∧ cx.get i j = some u ∧ cy.get i j = some v)
    (hmir : cx.get (ax.length - 1 - i) j = none) :
    ∃ g, importArrays ax ay cx cy m ux uy uv = .ok g ∧ g.Reads x y none ∧ ¬ g.WF := by
  have hi := getElem?_some_lt hx
  have hj := getElem?_some_lt hy
  have r1 : isRev ax = true := rev_true mx h2x
  have r2 : isRev ay = false := rev_false my
  refine ⟨_, import_direct h1 h2 h3 h4 h2x h2y hm1 hm2, ?_, ?_⟩
  · refine ⟨ax.length - 1 - i, j, ?_, ?_, ?_⟩
    · simp only [setMask, r1, if_true]
      rw [List.getElem?_reverse (by omega), show ax.length - 1 - (ax.length - 1 - i) = i by omega, hx]
    · simp only [setMask, r2, Bool.false_eq_true, if_false]; exact hy
    · apply cell_masked
      simp [setMask, nanMask, hmir]
  · intro w
    have := w.nanx i j (by simp [setMask, r1, hi]) (by simp [setMask, r2, hj]) (by
      simp only [setMask, nanify, flips_get h1 h2, r1, r2, if_true, Bool.false_eq_true, if_false, hmir, ite_self])
    simp [setMask, nanMask, hu] at this

example : ∃ g, importArrays [2, 1, 0] [0, 1] ⟨3, 2, fun i j => if i = 0 ∧ j = 0 then none else some (10 * i + j)⟩
      ⟨3, 2, fun _ _ => some 1⟩ (.bool false) Sym.mm Sym.mm Sym.one = .ok g ∧ g.Reads 0 0 none ∧ ¬ g.WF :=
  C111_import_mask_violated (i := 2) (j := 0) (u := 20) (v := 1) rfl rfl rfl rfl (by decide) (by decide) rfl rfl (by decide +kernel)
    (by decide +kernel) rfl rfl ⟨rfl, by decide +kernel, rfl⟩ rfl

/-- C111: arrays in the transposed layout are accepted when the two lengths differ, and mean the same. -/
theorem C111_import_transposed {ax ay : List Rat} {cx cy : Grid (Option Rat)} {m : Grid Bool} {ux uy uv : Sym}
    (h1 : cx.nx = ay.length) (h2 : cx.ny = ax.length) (h3 : cy.nx = ay.length) (h4 : cy.ny = ax.length)
    (hm1 : m.nx = ay.length) (hm2 : m.ny = ax.length) (hne : ax.length ≠ ay.length) :
    importArrays ax ay cx cy (.array m) ux uy uv =
      importArrays ax ay ⟨cx.ny, cx.nx, fun i j => cx.get j i⟩ ⟨cy.ny, cy.nx, fun i j => cy.get j i⟩
        (.array ⟨m.ny, m.nx, fun i j => m.get j i⟩) ux uy uv := by
  have hn1 : ¬ (((MaskArg.array m).grid cx.nx cx.ny).nx ≠ cx.nx ∨ ((MaskArg.array m).grid cx.nx cx.ny).ny ≠ cx.ny ∨
      cy.nx ≠ cx.nx ∨ cy.ny ≠ cx.ny) := by
    simp only [MaskArg.grid]; omega
  have hn2 : ¬ (m.ny ≠ cx.ny ∨ m.nx ≠ cx.nx ∨ cy.ny ≠ cx.ny ∨ cy.nx ≠ cx.nx) := by omega
  unfold importArrays
  rw [if_neg hn1]
  refine Eq.trans ?_ (if_neg hn2).symm
  by_cases h : ay.length < 2 ∨ ax.length < 2
  · rw [if_pos h, if_pos h]
  · rw [if_neg h, if_neg h]
    have hs1 : isSwapped ax ay cx = true := by unfold isSwapped; simp only [decide_eq_true_eq]; omega
    have hs2 : isSwapped ax ay ⟨cx.ny, cx.nx, fun i j => cx.get j i⟩ = false := by
      unfold isSwapped; simp only [decide_eq_false_iff_not]; omega
    rw [hs1, hs2]
    rfl

/-- C111: an axis with fewer than two points is refused. -/
theorem C111_import_single_point {ax ay : List Rat} {cx cy : Grid (Option Rat)} {m : MaskArg} {ux uy uv : Sym}
    (h : ax.length < 2 ∨ ay.length < 2) : ¬ ∃ g, importArrays ax ay cx cy m ux uy uv = .ok g := by
  rintro ⟨g, hg⟩
  unfold importArrays at hg
  split at hg
  · cases hg
  · rw [if_pos (by omega)] at hg; cases hg

example : (match importArrays [0, 1, 3] [1, 0] ⟨3, 2, fun i j => some (10 * i + j)⟩ ⟨3, 2, fun i _ => some i⟩ (.bool false)
      Sym.mm Sym.mm Sym.one with
    | .ok g => (g.ay, g.cell 0 0, g.cell 2 1)
    | .error _ => ([], none, none)) = (([0, 1], some (1, 0), some (20, 2)) : List Rat × Option (Rat × Rat) × Option (Rat × Rat)) := by
  decide +kernel

/-! ### C112 -/

theorem unitsMatch_true (hv : f.uv.Compat g.uv) (hux : f.ux = g.ux) (huy : f.uy = g.uy) : f.unitsMatch g = true := by
  unfold unitsMatch
  rw [← hux, ← huy, decide_eq_true hv, decide_eq_true (show f.ux.Compat f.ux from ⟨rfl, rfl, rfl⟩),
    decide_eq_true (show f.uy.Compat f.uy from ⟨rfl, rfl, rfl⟩)]
  rfl

/-- C112: on one grid, the sum is masked exactly where one of the fields is, and holds elsewhere the sum of the vectors,
expressed in the unit of the first field. -/
theorem C112_add_pointwise (hf : f.WF) (hg : g.WF) (hx : f.ax = g.ax) (hy : f.ay = g.ay)
    (hv : f.uv.Compat g.uv) (hux : f.ux = g.ux) (huy : f.uy = g.uy) :
    ∃ h, f.add g = .ok h ∧ h.WF ∧
      (∀ x y r, h.Reads x y r ↔ ∃ a b, f.Reads x y a ∧ g.Reads x y b ∧ r = sumVec (g.uv.size / f.uv.size) a b) ∧
      h.ux = f.ux ∧ h.uy = f.uy ∧ h.uv = f.uv := by
  have e : f.add g = .ok (f.addSame g) := by
    unfold add
    rw [if_neg (by rw [unitsMatch_true hv hux huy]; simp), if_pos ⟨hx, hy⟩]
  refine ⟨_, e, ⟨hf.incx, hf.incy, hf.nex, hf.ney, hf.xx, hf.xy, hf.yx, hf.yy, hf.mx, hf.my, ?_, ?_⟩, ?_, rfl, rfl, rfl⟩
  · intro i j hi hj h
    have hi : i < f.ax.length := hi
    have hj : j < f.ay.length := hj
    simp only [addSame, setMask, nanify, lin] at h ⊢
    rcases hf.cell_cases hi hj with ⟨h1, -⟩ | ⟨h1, u, v, h3, h4, -⟩
    · simp [h1]
    · rcases hg.cell_cases (hx ▸ hi) (hy ▸ hj) with ⟨k1, -⟩ | ⟨k1, u', v', k3, k4, -⟩
      · simp [k1]
      · simp [h1, k1, h3, k3, nanOp] at h
  · intro i j hi hj h
    have hi : i < f.ax.length := hi
    have hj : j < f.ay.length := hj
    simp only [addSame, setMask, nanify, lin] at h ⊢
    rcases hf.cell_cases hi hj with ⟨h1, -⟩ | ⟨h1, u, v, h3, h4, -⟩
    · simp [h1]
    · rcases hg.cell_cases (hx ▸ hi) (hy ▸ hj) with ⟨k1, -⟩ | ⟨k1, u', v', k3, k4, -⟩
      · simp [k1]
      · simp [h1, k1, h4, k4, nanOp] at h
  · refine reads_pointwise (h := f.addSame g) hf hx hy rfl rfl (sumVec (g.uv.size / f.uv.size)) ?_
    intro i j hi hj
    have ef : f.addFact g = g.uv.size / f.uv.size := ratio_pure _ _
    rcases hf.cell_cases hi hj with ⟨h1, h2⟩ | ⟨h1, u, v, h3, h4, h5⟩
    · rw [h2, cell_masked]
      · rfl
      · simp [addSame, setMask, h1]
    · rcases hg.cell_cases (hx ▸ hi) (hy ▸ hj) with ⟨k1, k2⟩ | ⟨k1, u', v', k3, k4, k5⟩
      · rw [h5, k2, cell_masked]
        · rfl
        · simp [addSame, setMask, k1]
      · rw [h5, k5, cell_some (u := u + u' * (g.uv.size / f.uv.size)) (v := v + v' * (g.uv.size / f.uv.size))]
        · rfl
        · simp [addSame, setMask, h1, k1]
        · simp [addSame, setMask, nanify, lin, h1, k1, h3, k3, nanOp, ef]; ring
        · simp [addSame, setMask, nanify, lin, h1, k1, h4, k4, nanOp, ef]; ring

theorem neg_WF (hg : g.WF) : g.neg.WF :=
  ⟨hg.incx, hg.incy, hg.nex, hg.ney, hg.xx, hg.xy, hg.yx, hg.yy, hg.mx, hg.my,
    fun i j hi hj h => hg.nanx i j hi hj (by simpa [neg, Grid.map] using h),
    fun i j hi hj h => hg.nany i j hi hj (by simpa [neg, Grid.map] using h)⟩

theorem neg_cell (g : VF) (i j : Nat) : g.neg.cell i j = (g.cell i j).map (smul (-1)) := by
  unfold cell
  simp only [neg, Grid.map]
  by_cases h : g.mask.get i j = true
  · simp [h]
  · simp only [h, Bool.false_eq_true, if_false]
    cases g.cx.get i j <;> cases g.cy.get i j <;> simp [smul]

/-- C112: the opposite of a field has the opposite vectors. -/
theorem C112_neg (hg : g.WF) : g.neg.WF ∧ (∀ x y r, g.neg.Reads x y r ↔ ∃ s, g.Reads x y s ∧ r = s.map (smul (-1))) :=
  ⟨neg_WF hg, reads_map (f := g) (g := g.neg) rfl rfl _ fun i j _ _ => neg_cell g i j⟩

/-- C112: on one grid, the difference is masked exactly where one of the fields is, and holds elsewhere the difference of
the vectors, in the unit of the first field. -/
theorem C112_sub_pointwise (hf : f.WF) (hg : g.WF) (hx : f.ax = g.ax) (hy : f.ay = g.ay)
    (hv : f.uv.Compat g.uv) (hux : f.ux = g.ux) (huy : f.uy = g.uy) :
    ∃ h, f.sub g = .ok h ∧ h.WF ∧
      (∀ x y r, h.Reads x y r ↔ ∃ a b, f.Reads x y a ∧ g.Reads x y b ∧ r = sumVec (-(g.uv.size / f.uv.size)) a b) := by
  obtain ⟨h, e, w, hr, _⟩ := C112_add_pointwise (g := g.neg) hf (neg_WF hg) hx hy hv hux huy
  refine ⟨h, e, w, ?_⟩
  intro x y r
  rw [hr]
  have hs : ∀ a b, sumVec (g.uv.size / f.uv.size) a (b.map (smul (-1))) = sumVec (-(g.uv.size / f.uv.size)) a b := by
    intro a b; cases a <;> cases b <;> simp [sumVec, smul]
  constructor
  · rintro ⟨a, b, ha, hb, rfl⟩
    obtain ⟨s, hs', rfl⟩ := ((C112_neg hg).2 x y b).mp hb
    exact ⟨a, s, ha, hs', hs a s⟩
  · rintro ⟨a, b, ha, hb, rfl⟩
    exact ⟨a, b.map (smul (-1)), ha, ((C112_neg hg).2 x y _).mpr ⟨b, hb, rfl⟩, (hs a b).symm⟩

/-- C112: physically the sum does not depend on the order. -/
theorem C112_add_comm {h k : VF} (hf : f.WF) (hg : g.WF) (hx : f.ax = g.ax) (hy : f.ay = g.ay)
    (hv : f.uv.Compat g.uv) (hux : f.ux = g.ux) (huy : f.uy = g.uy) (pf : 0 < f.uv.size) (pg : 0 < g.uv.size)
    (h1 : f.add g = .ok h) (h2 : g.add f = .ok k) (x y : Rat) (r s : Option (Rat × Rat))
    (hr : h.Reads x y r) (hs : k.Reads x y s) : r.map (smul f.uv.size) = s.map (smul g.uv.size) := by
  obtain ⟨h', e1, _, r1, _⟩ := C112_add_pointwise hf hg hx hy hv hux huy
  obtain ⟨k', e2, _, r2, _⟩ := C112_add_pointwise hg hf hx.symm hy.symm ⟨hv.1.symm, hv.2.1.symm, hv.2.2.symm⟩
    hux.symm huy.symm
  rw [h1] at e1; cases e1
  rw [h2] at e2; cases e2
  obtain ⟨a, b, ha, hb, rfl⟩ := (r1 x y r).mp hr
  obtain ⟨b', a', hb', ha', rfl⟩ := (r2 x y s).mp hs
  obtain rfl := ha.unique hf ha'
  obtain rfl := hb.unique hg hb'
  have n1 := ne_of_gt pf
  have n2 := ne_of_gt pg
  cases a <;> cases b <;> simp [sumVec, smul]
  constructor <;> field_simp <;> ring

/-- C112: quantities of different dimensions are refused. -/
theorem C112_add_refused (h : ¬ f.uv.Compat g.uv ∨ ¬ f.ux.Compat g.ux ∨ ¬ f.uy.Compat g.uy) : f.add g = .error .valueError := by
  unfold add unitsMatch
  rcases h with h | h | h <;> simp [h]

example : (match sample.sub sample with
    | .ok g => [g.cell 0 0, g.cell 0 1, g.cell 2 1]
    | .error _ => []) = [some (0, 0), none, some (0, 0)] := by decide +kernel

/-! ### C113 -/

/-- Two axes are matched exactly: coordinates the code takes for one (relative distance below 1e-4) are equal. -/
def Exact (l m : List Rat) : Prop :=
  ∀ x ∈ l, ∀ o ∈ m, (|x - o| < |x| * (1 / 10000) ∨ |x - o| < |o| * (1 / 10000)) → x = o

theorem near_iff {l m : List Rat} (h : Exact l m) {x : Rat} (hx : x ∈ l) : near m x = true ↔ x ∈ m ∧ x ≠ 0 := by
  unfold near
  simp only [List.any_eq_true, decide_eq_true_eq]
  constructor
  · rintro ⟨o, ho, hn⟩
    obtain rfl := h x hx o ho (Or.inl hn)
    refine ⟨ho, ?_⟩
    rintro rfl
    simp at hn
  · rintro ⟨hm, h0⟩
    refine ⟨x, hm, ?_⟩
    rw [sub_self, abs_zero]
    have := abs_pos.mpr h0
    positivity

theorem Exact.symm {l m : List Rat} (h : Exact l m) : Exact m l := by
  intro x hx o ho hn
  rw [abs_sub_comm] at hn
  exact (h o ho x hx hn.symm).symm

theorem mem_nearAx {l m : List Rat} (h : Exact l m) (x : Rat) : x ∈ nearAx l m ↔ x ∈ l ∧ x ∈ m ∧ x ≠ 0 := by
  unfold nearAx
  rw [List.mem_filter]
  constructor
  · rintro ⟨h1, h2⟩; exact ⟨h1, (near_iff h h1).mp h2⟩
  · rintro ⟨h1, h2⟩; exact ⟨h1, (near_iff h h1).mpr h2⟩

theorem nearAx_symm {l m : List Rat} (hl : Inc l) (hm : Inc m) (h : Exact l m) : nearAx l m = nearAx m l := by
  apply inc_ext (hl.filter _) (hm.filter _)
  intro x
  have h1 := mem_nearAx h x
  have h2 := mem_nearAx h.symm x
  unfold nearAx at h1 h2
  rw [h1, h2]
  exact ⟨fun ⟨a, b, c⟩ => ⟨b, a, c⟩, fun ⟨a, b, c⟩ => ⟨b, a, c⟩⟩

theorem nearIdx_map (l m : List Rat) : (nearIdx l m).map (fun i : Nat => l[i]?) = (nearAx l m).map some := by
  have e : (List.range l.length).map (fun i : Nat => l[i]?) = l.map some := by
    apply List.ext_getElem?
    intro i
    simp only [List.getElem?_map]
    by_cases hi : i < l.length
    · rw [List.getElem?_range hi, List.getElem?_eq_getElem hi]; simp [hi]
    · rw [List.getElem?_eq_none (by simpa using hi), List.getElem?_eq_none (by simpa using hi)]; rfl
  have e2 : (nearAx l m).map some = (l.map some).filter
      (fun o => match o with | some x => near m x | none => false) := by
    rw [List.filter_map]; rfl
  rw [e2, ← e, List.filter_map]
  rfl

theorem nearIdx_length (l m : List Rat) : (nearIdx l m).length = (nearAx l m).length := by
  have := congrArg List.length (nearIdx_map l m)
  simpa using this

theorem nearIdx_getElem (l m : List Rat) (k : Nat) (x : Rat) (hk : (nearAx l m)[k]? = some x) :
    ∃ i : Nat, (nearIdx l m)[k]? = some i ∧ l[i]? = some x := by
  have h1 : ((nearIdx l m).map (fun i : Nat => l[i]?))[k]? = some (some x) := by
    rw [nearIdx_map, List.getElem?_map, hk]; rfl
  rw [List.getElem?_map] at h1
  obtain ⟨i, hi, hx⟩ := Option.map_eq_some_iff.mp h1
  exact ⟨i, hi, hx⟩

theorem near_cell (hf : f.WF) (hg : g.WF) (hex : Exact f.ax g.ax) (hey : Exact f.ay g.ay) {i j : Nat} {x y : Rat}
    (hi : (nearAx f.ax g.ax)[i]? = some x) (hj : (nearAx f.ay g.ay)[j]? = some y) :
    ∃ a b, f.Reads x y a ∧ g.Reads x y b ∧
      shown ((nearMask f g).get i j) ((nearVals f g f.cx g.cx).get i j) ((nearVals f g f.cy g.cy).get i j)
        = sumVec (g.uv.size / f.uv.size) a b := by
  obtain ⟨p, hp, hpx⟩ := nearIdx_getElem _ _ i x hi
  obtain ⟨q, hq, hqy⟩ := nearIdx_getElem _ _ j y hj
  rw [nearAx_symm hf.incx hg.incx hex] at hi
  rw [nearAx_symm hf.incy hg.incy hey] at hj
  obtain ⟨p', hp', hpx'⟩ := nearIdx_getElem _ _ i x hi
  obtain ⟨q', hq', hqy'⟩ := nearIdx_getElem _ _ j y hj
  refine ⟨_, _, ⟨p, q, hpx, hqy, rfl⟩, ⟨p', q', hpx', hqy', rfl⟩, ?_⟩
  simp only [nearMask, nearVals, addFact, List.getD_eq_getElem?_getD, hp, hq, hp', hq', Option.getD_some, ratio_pure]
  rcases hf.cell_cases (getElem?_some_lt hpx) (getElem?_some_lt hqy) with ⟨h1, h2⟩ | ⟨h1, u, v, h3, h4, h5⟩
  · rw [h2, h1]; simp [shown, sumVec]
  · rcases hg.cell_cases (getElem?_some_lt hpx') (getElem?_some_lt hqy') with ⟨k1, k2⟩ | ⟨k1, u', v', k3, k4, k5⟩
    · rw [k2, k1, h5]; simp [shown, sumVec]
    · rw [h5, k5, h1, k1, h3, h4, k3, k4]; rfl

theorem two_near {l m : List Rat} (he : Exact l m)
    (h : ∃ x x', x ≠ x' ∧ (x ∈ l ∧ x ∈ m ∧ x ≠ 0) ∧ (x' ∈ l ∧ x' ∈ m ∧ x' ≠ 0)) : 2 ≤ (nearAx l m).length := by
  obtain ⟨x, x', hne, h1, h2⟩ := h
  have m1 := (mem_nearAx he x).mpr h1
  have m2 := (mem_nearAx he x').mpr h2
  match hs : nearAx l m with
  | [] => rw [hs] at m1; simp at m1
  | [a] => rw [hs] at m1 m2; simp at m1 m2; exact absurd (m1.trans m2.symm) hne
  | _ :: _ :: _ => simp

/-- C113: fields on different grids are added on the shared coordinates other than 0, with the sum of the vectors and the
union of the masks.
Partial: shared points on the lines `x = 0` and `y = 0` are lost (`C113_zero_violated`); two shared non-zero coordinates on each axis;
coordinates within 1e-4 of each other are equal. -/
theorem C113_add_shared_partial (hf : f.WF) (hg : g.WF) (hd : ¬ (f.ax = g.ax ∧ f.ay = g.ay))
    (hv : f.uv.Compat g.uv) (hux : f.ux = g.ux) (huy : f.uy = g.uy) (hex : Exact f.ax g.ax) (hey : Exact f.ay g.ay)
    (hsx : ∃ x x', x ≠ x' ∧ (x ∈ f.ax ∧ x ∈ g.ax ∧ x ≠ 0) ∧ (x' ∈ f.ax ∧ x' ∈ g.ax ∧ x' ≠ 0))
    (hsy : ∃ y y', y ≠ y' ∧ (y ∈ f.ay ∧ y ∈ g.ay ∧ y ≠ 0) ∧ (y' ∈ f.ay ∧ y' ∈ g.ay ∧ y' ≠ 0)) :
    ∃ h, f.add g = .ok h ∧ h.WF ∧
      (∀ x y r, h.Reads x y r ↔ x ≠ 0 ∧ y ≠ 0 ∧
        ∃ a b, f.Reads x y a ∧ g.Reads x y b ∧ r = sumVec (g.uv.size / f.uv.size) a b) ∧
      h.ux = f.ux ∧ h.uy = f.uy ∧ h.uv = f.uv := by
  have h2x := two_near hex hsx
  have h2y := two_near hey hsy
  have sx := nearAx_symm hf.incx hg.incx hex
  have sy := nearAx_symm hf.incy hg.incy hey
  have e0 : f.add g = f.addShared g := by
    unfold add; rw [if_neg (by rw [unitsMatch_true hv hux huy]; simp), if_neg hd]
  have e1 : f.addShared g = importArrays (nearAx f.ax g.ax) (nearAx f.ay g.ay) (nearVals f g f.cx g.cx) (nearVals f g f.cy g.cy)
      (.array (nearMask f g)) f.ux f.uy f.uv := by
    unfold addShared
    rw [if_neg, if_neg]
    · rw [nearIdx_length, nearIdx_length, nearIdx_length, nearIdx_length, sx, sy]; simp
    · rintro (h | h)
      · have := nearIdx_length f.ax g.ax; rw [h] at this; simp at this; omega
      · have := nearIdx_length f.ay g.ay; rw [h] at this; simp at this; omega
  obtain ⟨h, e, w, hr, u⟩ := C111_import_reads_partial (ux := f.ux) (uy := f.uy) (uv := f.uv)
    (ax := nearAx f.ax g.ax) (ay := nearAx f.ay g.ay) (cx := nearVals f g f.cx g.cx) (cy := nearVals f g f.cy g.cy)
    (m := .array (nearMask f g)) rfl rfl rfl rfl h2x h2y rfl rfl (Or.inl (hf.incx.filter _)) (Or.inl (hf.incy.filter _))
    (Or.inl ⟨hf.incx.filter _, hf.incy.filter _⟩)
  refine ⟨h, by rw [e0, e1, e], w, ?_, u⟩
  intro x y r
  rw [hr]
  constructor
  · rintro ⟨i, j, hi, hj, rfl⟩
    refine ⟨((mem_nearAx hex x).mp (List.mem_of_getElem? hi)).2.2, ((mem_nearAx hey y).mp (List.mem_of_getElem? hj)).2.2, ?_⟩
    exact near_cell hf hg hex hey hi hj
  · rintro ⟨hx0, hy0, a, b, ha, hb, rfl⟩
    have hx : x ∈ nearAx f.ax g.ax := by
      obtain ⟨i, _, hi, _⟩ := ha
      obtain ⟨i', _, hi', _⟩ := hb
      exact (mem_nearAx hex x).mpr ⟨List.mem_of_getElem? hi, List.mem_of_getElem? hi', hx0⟩
    have hy : y ∈ nearAx f.ay g.ay := by
      obtain ⟨_, j, _, hj, _⟩ := ha
      obtain ⟨_, j', _, hj', _⟩ := hb
      exact (mem_nearAx hey y).mpr ⟨List.mem_of_getElem? hj, List.mem_of_getElem? hj', hy0⟩
    obtain ⟨i, hi⟩ := List.getElem?_of_mem hx
    obtain ⟨j, hj⟩ := List.getElem?_of_mem hy
    obtain ⟨a', b', ha', hb', e⟩ := near_cell hf hg hex hey hi hj
    obtain rfl := ha.unique hf ha'
    obtain rfl := hb.unique hg hb'
    exact ⟨i, j, hi, hj, e.symm⟩

/-- C113 fails on the coordinate 0, for every two fields on different grids: whatever the result, it has no point on the lines
`x = 0` and `y = 0`, even where both fields have one. -/
theorem C113_zero_violated {h : VF} (hd : ¬ (f.ax = g.ax ∧ f.ay = g.ay)) (e : f.add g = .ok h) (x y : Rat) (r : Option (Rat × Rat))
    (hr : h.Reads x y r) : x ≠ 0 ∧ y ≠ 0 := by
  have key : ∀ l m : List Rat, (0 : Rat) ∉ nearAx l m := by
    intro l m hm
    unfold nearAx at hm
    rw [List.mem_filter] at hm
    obtain ⟨-, hm⟩ := hm
    unfold near at hm
    simp only [List.any_eq_true, decide_eq_true_eq] at hm
    obtain ⟨o, -, ho⟩ := hm
    simp only [abs_zero, zero_mul] at ho
    exact absurd (abs_nonneg _) (not_le.mpr ho)
  have hax : ∀ ax ay cx cy m ux uy uv, importArrays ax ay cx cy m ux uy uv = .ok h →
      (∀ x ∈ h.ax, x ∈ ax) ∧ (∀ y ∈ h.ay, y ∈ ay) := by
    intro ax ay cx cy m ux uy uv hi
    have hst : ∀ cx cy m, store ax ay cx cy m ux uy uv = .ok h → (∀ x ∈ h.ax, x ∈ ax) ∧ (∀ y ∈ h.ay, y ∈ ay) := by
      intro cx cy m hs
      unfold store at hs
      split at hs
      · cases hs
      · cases hs
        constructor
        · intro x hx
          simp only [setMask] at hx
          split at hx
          · simpa using hx
          · exact hx
        · intro y hy
          simp only [setMask] at hy
          split at hy
          · simpa using hy
          · exact hy
    unfold importArrays at hi
    split at hi
    · cases hi
    · split at hi
      · cases hi
      · split at hi <;> exact hst _ _ _ hi
  unfold add at e
  rw [if_neg hd] at e
  split at e
  · cases e
  · unfold addShared at e
    split at e
    · cases e
    · split at e
      · cases e
      · obtain ⟨h1, h2⟩ := hax _ _ _ _ _ _ _ _ e
        obtain ⟨i, j, hi, hj, -⟩ := hr
        constructor
        · rintro rfl; exact key _ _ (h1 _ (List.mem_of_getElem? hi))
        · rintro rfl; exact key _ _ (h2 _ (List.mem_of_getElem? hj))

/-- The sample on one more column and one more row. -/
def wider : VF where
  ax := [0, 1, 3, 5]
  ay := [-1, 1/2]
  cx := ⟨4, 2, fun i j => some (i + j)⟩
  cy := ⟨4, 2, fun _ _ => some 1⟩
  mask := ⟨4, 2, fun _ _ => false⟩
  ux := Sym.mm
  uy := Sym.m
  uv := Sym.cm.div Sym.s

theorem wider_WF : wider.WF := by
  refine ⟨by decide +kernel, by decide +kernel, by decide, by decide, rfl, rfl, rfl, rfl, rfl, rfl, ?_, ?_⟩
  all_goals
    intro i j _ _ h
    simp only [wider] at h
    cases h

example : Exact sample.ax wider.ax ∧ Exact sample.ay wider.ay ∧ sample.uv.Compat wider.uv := by
  refine ⟨?_, ?_, by decide +kernel⟩
  · intro x hx o ho; revert x o; decide +kernel
  · intro x hx o ho; revert x o; decide +kernel

example : (match sample.add wider with
    | .ok g => (g.ax, g.ay, [g.cell 0 0, g.cell 0 1, g.cell 1 1])
    | .error _ => ([], [], [])) =
    (([1, 3], [-1, 1/2], [some (10 + 1/100, 1 + 1/100), some (11 + 2/100, 1 + 1/100), some (21 + 3/100, 1/100)]) :
      List Rat × List Rat × List (Option (Rat × Rat))) := by
  decide +kernel

/-! ### C114 -/

/-- C114: a field times a number: every vector times the number, same masked points, same units. -/
theorem C114_mulNum (hf : f.WF) (q : Rat) :
    (f.mulNum q).WF ∧ (∀ x y r, (f.mulNum q).Reads x y r ↔ ∃ s, f.Reads x y s ∧ r = s.map (smul q)) ∧
    (f.mulNum q).ux = f.ux ∧ (f.mulNum q).uy = f.uy ∧ (f.mulNum q).uv = f.uv := by
  refine ⟨⟨hf.incx, hf.incy, hf.nex, hf.ney, hf.xx, hf.xy, hf.yx, hf.yy, hf.mx, hf.my, ?_, ?_⟩, ?_, rfl, rfl, rfl⟩
  · intro i j hi hj h
    by_contra hc
    simp only [mulNum, setMask, nanify, Grid.map] at h hc
    rw [if_neg hc] at h
    exact hc (hf.nanx i j hi hj (by simpa using h))
  · intro i j hi hj h
    by_contra hc
    simp only [mulNum, setMask, nanify, Grid.map] at h hc
    rw [if_neg hc] at h
    exact hc (hf.nany i j hi hj (by simpa using h))
  · refine reads_map (f := f) (g := f.mulNum q) rfl rfl _ ?_
    intro i j hi hj
    rcases hf.cell_cases hi hj with ⟨h1, h2⟩ | ⟨h1, u, v, h3, h4, h5⟩
    · rw [h2]; exact cell_masked h1
    · rw [h5]
      refine cell_some (u := u * q) (v := v * q) h1 ?_ ?_
      · simp [mulNum, setMask, nanify, Grid.map, h1, h3]
      · simp [mulNum, setMask, nanify, Grid.map, h1, h4]

/-- The product of a scalar reading and a vector reading. -/
def timesReading : Option (Rat × Rat) → Option Rat → Option (Rat × Rat)
  | some w, some q => some (w.1 * q, w.2 * q)
  | _, _ => none

/-- C114: a vector field times a scalar field on the same grid: every vector times the number of the scalar field, masked
where one of them is.
Partial: the unit of the result is the one of the vector field alone (`C114_unit_violated`). -/
theorem C114_mulSF_partial (hf : f.WF) {s : SF} (hs : s.WF) (hx : f.ax = s.ax) (hy : f.ay = s.ay) :
    ∃ h, f.mulSF s = .ok h ∧ h.WF ∧
      (∀ x y r, h.Reads x y r ↔ ∃ a b, f.Reads x y a ∧ s.Reads x y b ∧ r = timesReading a b) ∧
      h.ux = f.ux ∧ h.uy = f.uy := by
  have e : f.mulSF s = .ok
      (({ f with cx := ⟨f.cx.nx, f.cx.ny, fun i j => nanOp (· * ·) (f.cx.get i j) (s.cell i j)⟩
                 cy := ⟨f.cy.nx, f.cy.ny, fun i j => nanOp (· * ·) (f.cy.get i j) (s.cell i j)⟩ } : VF).setMask
        ⟨f.mask.nx, f.mask.ny, fun i j => s.mask.get i j || f.mask.get i j⟩) := by
    unfold mulSF; rw [if_neg (by rw [hx, hy]; simp)]
  refine ⟨_, e,
    ⟨hf.incx, hf.incy, hf.nex, hf.ney, hf.xx, hf.xy, hf.yx, hf.yy, hf.mx, hf.my, ?_, ?_⟩, ?_, rfl, rfl⟩
  · intro i j hi hj h
    by_contra hc
    simp only [setMask, nanify] at h hc
    rw [if_neg hc] at h
    rw [SF.Reads.cellMask hs (hx ▸ hi) (hy ▸ hj)] at hc
    cases h1 : f.cx.get i j with
    | none => rw [hf.nanx i j hi hj h1] at hc; simp at hc
    | some u => cases h2 : s.cell i j with
      | none => rw [h2] at hc; simp at hc
      | some q => rw [h1, h2] at h; simp [nanOp] at h
  · intro i j hi hj h
    by_contra hc
    simp only [setMask, nanify] at h hc
    rw [if_neg hc] at h
    rw [SF.Reads.cellMask hs (hx ▸ hi) (hy ▸ hj)] at hc
    cases h1 : f.cy.get i j with
    | none => rw [hf.nany i j hi hj h1] at hc; simp at hc
    | some u => cases h2 : s.cell i j with
      | none => rw [h2] at hc; simp at hc
      | some q => rw [h1, h2] at h; simp [nanOp] at h
  · have hcell : ∀ i j, i < f.ax.length → j < f.ay.length →
        (({ f with cx := ⟨f.cx.nx, f.cx.ny, fun i j => nanOp (· * ·) (f.cx.get i j) (s.cell i j)⟩
                   cy := ⟨f.cy.nx, f.cy.ny, fun i j => nanOp (· * ·) (f.cy.get i j) (s.cell i j)⟩ } : VF).setMask
            ⟨f.mask.nx, f.mask.ny, fun i j => s.mask.get i j || f.mask.get i j⟩).cell i j =
          timesReading (f.cell i j) (s.cell i j) := by
      intro i j hi hj
      have hm := SF.Reads.cellMask hs (i := i) (j := j) (hx ▸ hi) (hy ▸ hj)
      rcases hf.cell_cases hi hj with ⟨h1, h2⟩ | ⟨h1, u, v, h3, h4, h5⟩
      · rw [h2, cell_masked]
        · rfl
        · simp [setMask, h1]
      · cases hc : s.cell i j with
        | none =>
          rw [hc] at hm
          rw [h5, cell_masked]
          · rfl
          · simp [setMask, hm]
        | some q =>
          rw [hc] at hm
          rw [h5, cell_some (u := u * q) (v := v * q)]
          · rfl
          · simp [setMask, hm, h1]
          · simp [setMask, nanify, hm, h1, h3, hc, nanOp]
          · simp [setMask, nanify, hm, h1, h4, hc, nanOp]
    intro x y r
    constructor
    · rintro ⟨i, j, hi, hj, rfl⟩
      exact ⟨_, _, ⟨i, j, hi, hj, rfl⟩, ⟨i, j, hx ▸ hi, hy ▸ hj, rfl⟩, hcell i j (getElem?_some_lt hi) (getElem?_some_lt hj)⟩
    · rintro ⟨a, b, ⟨i, j, hi, hj, rfl⟩, ⟨i', j', hi', hj', rfl⟩, rfl⟩
      rw [← hx] at hi'
      rw [← hy] at hj'
      obtain rfl := hf.incx.idx_inj' hi hi'
      obtain rfl := hf.incy.idx_inj' hj hj'
      exact ⟨i, j, hi, hj, hcell i j (getElem?_some_lt hi) (getElem?_some_lt hj)⟩

/-- C114 fails for the unit: the product with any scalar field has the unit of the vector field, whatever the unit of the
scalar field. -/
theorem C114_unit_violated {s : SF} {h : VF} (e : f.mulSF s = .ok h) : h.uv = f.uv := by
  unfold mulSF at e
  split at e
  · cases e
  · cases e; rfl

/-- C114 fails for the grid: a scalar field of the same shape on any other grid is accepted. -/
theorem C114_grid_violated (f : VF) (s : SF) (hx : f.ax.length = s.ax.length) (hy : f.ay.length = s.ay.length) :
    ∃ h, f.mulSF s = .ok h ∧ h.ax = f.ax ∧ h.ay = f.ay :=
  ⟨_, if_neg (by rw [hx, hy]; simp), rfl, rfl⟩

example : sample.ax = SF.sample.ax ∧ sample.ay = SF.sample.ay := by decide +kernel

example : (match sample.mulSF SF.sample with
    | .ok h => [h.cell 0 0, h.cell 0 1, h.cell 1 1, h.cell 2 1]
    | .error _ => []) = [some (0, 0), none, none, some (441, 0)] := by decide +kernel

end IMT.VF
