import Verif.Scalar.ImportLemmas
import Verif.Scalar.Geom

/-!
Properties C14 (extend), C15 (import from arrays), C22 (iteration).
-/

namespace IMT.SF

/-- C15: importing arrays of the shape given by the axes, the axes being strictly monotone (increasing or
decreasing), gives a consistent field which shows at `(ax[i], ay[j])` the value `v[i, j]`, or a masked point where
the mask is set or the value is NaN.
Partial: an axis may be decreasing only if no point is masked (see `C15_import_mask_violated`); both axes have at
least two points (shorter axes are refused, `C15_import_single_point`). -/
theorem C15_import_reads_partial {ax ay : List Rat} {v : Grid (Option Rat)} {m : MaskArg} {ux uy uv : Sym}
    (hx : v.nx = ax.length) (hy : v.ny = ay.length) (h2x : 2 ≤ ax.length) (h2y : 2 ≤ ay.length)
    (hm : m.shape v) (mx : Inc ax ∨ Inc ax.reverse) (my : Inc ay ∨ Inc ay.reverse)
    (hmask : (Inc ax ∧ Inc ay) ∨ ∀ i j, i < ax.length → j < ay.length → m.get i j = false ∧ v.get i j ≠ none) :
    ∃ g, importArrays ax ay v m ux uy uv = .ok g ∧ g.WF ∧
      (∀ x y r, g.Reads x y r ↔ ∃ i j, ax[i]? = some x ∧ ay[j]? = some y ∧
        r = if m.get i j then none else v.get i j) ∧
      g.ux = ux ∧ g.uy = uy ∧ g.uv = uv := by
  obtain ⟨g, e, gx, gy, s1, s2, s3, s4, gv, gm, u1, u2, u3⟩ :=
    import_direct (ux := ux) (uy := uy) (uv := uv) hx hy h2x h2y hm
  have axm : ∀ l : List Rat, 2 ≤ l.length → (Inc l ∨ Inc l.reverse) →
      Inc (if isRev l then l.reverse else l) ∧
      AxMap l (if isRev l then l.reverse else l) (fun x => x) (fun i => if isRev l then l.length - 1 - i else i) := by
    intro l h2 h
    rcases h with h | h
    · have : isRev l = false := rev_false h
      simp only [this, Bool.false_eq_true, if_false]
      exact ⟨h, AxMap.id l⟩
    · have : isRev l = true := rev_true h h2
      simp only [this, if_true]
      have hmr := AxMap.mapRev l (fun x => x)
      simp only [List.map_id_fun', id] at hmr
      exact ⟨h, hmr⟩
  obtain ⟨ix, amx⟩ := axm ax h2x mx
  obtain ⟨iy, amy⟩ := axm ay h2y my
  rw [← gx] at ix amx
  rw [← gy] at iy amy
  have hrev : (Inc ax ∧ Inc ay) → isRev ax = false ∧ isRev ay = false :=
    fun h => ⟨rev_false h.1, rev_false h.2⟩
  have hcell : ∀ i j, i < ax.length → j < ay.length → g.cell i j =
      (if m.get (if isRev ax then ax.length - 1 - i else i) (if isRev ay then ay.length - 1 - j else j) then none
        else v.get (if isRev ax then ax.length - 1 - i else i) (if isRev ay then ay.length - 1 - j else j)) := by
    intro i j hi hj
    unfold cell
    rw [gv, gm]
    rcases hmask with h | h
    · obtain ⟨r1, r2⟩ := hrev h
      simp only [r1, r2, Bool.false_eq_true, if_false]
      cases m.get i j <;> cases v.get i j <;> simp
    · obtain ⟨h1, h2⟩ := h i j hi hj
      have hi' := amx.lt i hi
      have hj' := amy.lt j hj
      obtain ⟨h3, h4⟩ := h _ _ hi' hj'
      rw [h1, h3]
      cases hv : v.get i j with
      | none => exact absurd hv h2
      | some _ => simp
  refine ⟨g, e, ⟨ix, iy, ?_, ?_, ?_, ?_, ?_, ?_, ?_⟩, ?_, u1, u2, u3⟩
  · intro h; have := amx.len; rw [h] at this; simp at this; omega
  · intro h; have := amy.len; rw [h] at this; simp at this; omega
  · rw [s1, amx.len]
  · rw [s2, amy.len]
  · rw [s3, amx.len]
  · rw [s4, amy.len]
  · intro i j hi hj hv
    rw [amx.len] at hi
    rw [amy.len] at hj
    rw [gv] at hv
    rw [gm]
    rcases hmask with h | h
    · obtain ⟨r1, r2⟩ := hrev h
      simp only [r1, r2, Bool.false_eq_true, if_false] at hv
      rw [hv]; simp
    · exact absurd hv (h _ _ (amx.lt i hi) (amy.lt j hj)).2
  · intro x y r
    constructor
    · rintro ⟨i, j, hi, hj, hr⟩
      obtain ⟨x', h1, rfl⟩ := amx.to hi
      obtain ⟨y', h2, rfl⟩ := amy.to hj
      refine ⟨_, _, h1, h2, ?_⟩
      rw [← hr, hcell i j (amx.len ▸ getElem?_some_lt hi) (amy.len ▸ getElem?_some_lt hj)]
    · rintro ⟨i, j, hi, hj, rfl⟩
      have li := getElem?_some_lt hi
      have lj := getElem?_some_lt hj
      refine ⟨_, _, amx.from hi, amy.from hj, ?_⟩
      rw [hcell _ _ (amx.lt i li) (amy.lt j lj)]
      have e1 := amx.inv i li
      have e2 := amy.inv j lj
      rw [e1, e2]

/-- C15: arrays given in the transposed layout (`v[j, i]` at `(ax[i], ay[j])`) are accepted when the two lengths
differ, and mean the same. -/
theorem C15_import_transposed {ax ay : List Rat} {v : Grid (Option Rat)} {m : Grid Bool} {ux uy uv : Sym}
    (hx : v.nx = ay.length) (hy : v.ny = ax.length) (hne : ax.length ≠ ay.length)
    (hm : m.nx = v.nx ∧ m.ny = v.ny) :
    importArrays ax ay v (.array m) ux uy uv
      = importArrays ax ay ⟨v.ny, v.nx, fun i j => v.get j i⟩ (.array ⟨m.ny, m.nx, fun i j => m.get j i⟩) ux uy uv :=
  import_transposed (m := .array m) hx hy hne hm

/-- C15: an axis with fewer than two points is refused. -/
theorem C15_import_single_point (ax ay : List Rat) (v : Grid (Option Rat)) (m : MaskArg) (ux uy uv : Sym)
    (h : ax.length < 2 ∨ ay.length < 2) : importArrays ax ay v m ux uy uv = .error .indexError := by
  unfold importArrays; rw [if_pos (by omega)]

/-- C15 fails for masked points on a decreasing axis: the value at the coordinate 0, which is valid, is reported
masked, and the NaN given at the coordinate 2 is reported unmasked. -/
theorem C15_import_mask_violated :
    ∃ g, importArrays [2, 1, 0] [0, 1]
        ⟨3, 2, fun i j => if i = 0 ∧ j = 0 then none else some (10 * i + j)⟩ .none Sym.mm Sym.mm Sym.one = .ok g ∧
      g.ax = [0, 1, 2] ∧ g.cell 0 0 = none ∧ g.mask.get 0 0 = true ∧ g.cell 2 0 = none ∧ g.mask.get 2 0 = false ∧
      ¬ g.WF := by
  refine ⟨_, rfl, by decide +kernel, by decide +kernel, by decide +kernel, by decide +kernel, by decide +kernel, ?_⟩
  intro h
  have := h.nan 2 0 (by decide +kernel) (by decide +kernel) (by decide +kernel)
  revert this
  decide +kernel

example : (importArrays [2, 1, 0] [0, 1] ⟨3, 2, fun i j => some (10 * i + j)⟩ .none Sym.mm Sym.mm Sym.one).map
    (fun g => (g.ax, g.cell 0 0, g.cell 2 1)) = .ok ([0, 1, 2], some 20, some 1) := by decide +kernel

/-- C14: an in-place extension keeps every old reading at its coordinates; the new points carry the given value,
or are masked if none is given. -/
theorem C14_extend_reads {f : SF} (hf : f.WF) (h2x : 2 ≤ f.ax.length) (h2y : 2 ≤ f.ay.length)
    (nl nr nu nd : Nat) (value : Option Rat) :
    ∃ g, f.extendInplace nl nr nu nd value = .ok g ∧ g.WF ∧
      (∀ x y r, x ∈ f.ax → y ∈ f.ay → (g.Reads x y r ↔ f.Reads x y r)) ∧
      (∀ x y r, g.Reads x y r → ¬ (x ∈ f.ax ∧ y ∈ f.ay) → r = value) ∧
      g.ax.length = nl + f.ax.length + nr ∧ g.ay.length = nd + f.ay.length + nu ∧
      g.ux = f.ux ∧ g.uy = f.uy ∧ g.uv = f.uv := by
  obtain ⟨ax, ex, ix, lx, ox, _⟩ := Axis.extend_spec hf.incx h2x nl nr
  obtain ⟨ay, ey, iy, ly, oy, _⟩ := Axis.extend_spec hf.incy h2y nd nu
  -- the arrays handed to the import
  let v : Grid (Option Rat) := padGrid f.values nl nr nd nu (some (value.getD 0))
  let m : Grid Bool := padGrid f.mask nl nr nd nu value.isNone
  have hvm : f.extendInplace nl nr nu nd value = importArrays ax ay v (.array m) f.ux f.uy f.uv := by
    unfold extendInplace
    rw [ex, ey]
    cases value <;> rfl
  have hvx : v.nx = ax.length := by simp [v, padGrid, values, hf.vx, lx]
  have hvy : v.ny = ay.length := by simp [v, padGrid, values, hf.vy, ly]
  obtain ⟨g, e, w, hr, u1, u2, u3⟩ := C15_import_reads_partial (ux := f.ux) (uy := f.uy) (uv := f.uv)
    (m := .array m) hvx hvy (by omega) (by omega)
    (by refine ⟨?_, ?_⟩ <;> simp [m, v, padGrid, values, hf.mx, hf.my, hf.vx, hf.vy])
    (Or.inl ix) (Or.inl iy) (Or.inl ⟨ix, iy⟩)
  rw [← hvm] at e
  -- shown value of the padded arrays
  have hin : ∀ i j, i < f.ax.length → j < f.ay.length →
      (if (MaskArg.array m).get (nl + i) (nd + j) then none else v.get (nl + i) (nd + j)) = f.cell i j := by
    intro i j hi hj
    have hc : nl ≤ nl + i ∧ nl + i < nl + f.ax.length ∧ nd ≤ nd + j ∧ nd + j < nd + f.ay.length := by omega
    simp only [MaskArg.get, m, v, padGrid, values, hf.mx, hf.my, hf.vx, hf.vy, if_pos hc]
    rw [Nat.add_sub_cancel_left, Nat.add_sub_cancel_left]
    unfold cell
    by_cases h : f.mask.get i j = true <;> simp [h]
  have hout : ∀ i j, ¬ (nl ≤ i ∧ i < nl + f.ax.length ∧ nd ≤ j ∧ j < nd + f.ay.length) →
      (if (MaskArg.array m).get i j then none else v.get i j) = value := by
    intro i j hc
    simp only [MaskArg.get, m, v, padGrid, values, hf.mx, hf.my, hf.vx, hf.vy, if_neg hc]
    cases value <;> simp
  -- indices of the old coordinates
  have idxx : ∀ i x, ax[i]? = some x → x ∈ f.ax → nl ≤ i ∧ i < nl + f.ax.length ∧ f.ax[i - nl]? = some x := by
    intro i x hi hx
    obtain ⟨k, hk⟩ := List.getElem?_of_mem hx
    have lk := getElem?_some_lt hk
    have h1 := ox k lk
    rw [hk] at h1
    have := ix.idx_inj hi h1
    subst this
    exact ⟨by omega, by omega, by rw [Nat.add_sub_cancel_left]; exact hk⟩
  have idxy : ∀ i x, ay[i]? = some x → x ∈ f.ay → nd ≤ i ∧ i < nd + f.ay.length ∧ f.ay[i - nd]? = some x := by
    intro i x hi hx
    obtain ⟨k, hk⟩ := List.getElem?_of_mem hx
    have lk := getElem?_some_lt hk
    have h1 := oy k lk
    rw [hk] at h1
    have := iy.idx_inj hi h1
    subst this
    exact ⟨by omega, by omega, by rw [Nat.add_sub_cancel_left]; exact hk⟩
  have hga : g.ax.length = nl + f.ax.length + nr ∧ g.ay.length = nd + f.ay.length + nu := by
    obtain ⟨g', e', gx, gy, s1, s2, s3, s4, gv, gm, _⟩ :=
      import_direct (ux := f.ux) (uy := f.uy) (uv := f.uv) (m := .array m) hvx hvy (by omega) (by omega)
        (by refine ⟨?_, ?_⟩ <;> simp [m, v, padGrid, values, hf.mx, hf.my, hf.vx, hf.vy])
    rw [← hvm, e] at e'
    cases e'
    rw [← w.vx, ← w.vy, s1, s2]
    exact ⟨lx, ly⟩
  refine ⟨g, e, w, ?_, ?_, hga.1, hga.2, u1, u2, u3⟩
  · intro x y r hx hy
    rw [hr]
    constructor
    · rintro ⟨i, j, hi, hj, rfl⟩
      obtain ⟨a1, a2, a3⟩ := idxx i x hi hx
      obtain ⟨b1, b2, b3⟩ := idxy j y hj hy
      refine ⟨i - nl, j - nd, a3, b3, ?_⟩
      rw [← hin (i - nl) (j - nd) (by omega) (by omega), show nl + (i - nl) = i by omega,
        show nd + (j - nd) = j by omega]
    · rintro ⟨i, j, hi, hj, rfl⟩
      have li := getElem?_some_lt hi
      have lj := getElem?_some_lt hj
      exact ⟨nl + i, nd + j, by rw [ox i li, hi], by rw [oy j lj, hj], (hin i j li lj).symm⟩
  · intro x y r h hn
    obtain ⟨i, j, hi, hj, rfl⟩ := (hr x y r).mp h
    apply hout
    rintro ⟨a1, a2, a3, a4⟩
    apply hn
    constructor
    · have := ox (i - nl) (by omega)
      rw [show nl + (i - nl) = i by omega, hi] at this
      exact List.mem_of_getElem? this.symm
    · have := oy (j - nd) (by omega)
      rw [show nd + (j - nd) = j by omega, hj] at this
      exact List.mem_of_getElem? this.symm

/-- C14: the new coordinates continue the axis with its first and last spacing. -/
theorem C14_extend_axis {l : List Rat} (h : Inc l) (h2 : 2 ≤ l.length) (nl nr : Nat) :
    ∃ out, Axis.extend l nl nr = .ok out ∧ Inc out ∧ out.length = nl + l.length + nr ∧
      (∀ i, i < l.length → out[nl + i]? = l[i]?) ∧
      (∀ a b, l[0]? = some a → l[1]? = some b → ∀ k : Nat, k < nl →
        out[k]? = some (a - ((nl : Rat) - k) * (b - a))) ∧
      (∀ y z, l[l.length - 2]? = some y → l[l.length - 1]? = some z → ∀ k : Nat, k < nr →
        out[nl + l.length + k]? = some (z + ((k : Rat) + 1) * (z - y))) :=
  Axis.extend_spec h h2 nl nr

/-- C14 fails for the default call (not in place): it always raises. -/
theorem C14_extend_copy_violated (f : SF) (nl nr nu nd : Nat) (value : Option Rat) :
    ¬ ∃ g, f.extendCopy nl nr nu nd value = .ok g := by
  rintro ⟨g, h⟩
  unfold extendCopy at h
  split at h <;> cases h

example : (sample.extendInplace 1 2 0 1 none).map (fun g => (g.ax, g.ay, [g.cell 0 0, g.cell 1 1, g.cell 2 2, g.cell 3 2]))
    = .ok ([-1, 0, 1, 3, 5, 7], [-5/2, -1, 1/2], [none, some 0, none, some 21]) := by decide +kernel

theorem mem_indexPairs (f : SF) (i j : Nat) : (i, j) ∈ f.indexPairs ↔ i < f.ax.length ∧ j < f.ay.length := by
  unfold indexPairs
  simp only [List.mem_flatMap, List.mem_range, List.mem_map, Prod.mk.injEq]
  constructor
  · rintro ⟨a, ha, b, hb, rfl, rfl⟩; exact ⟨ha, hb⟩
  · rintro ⟨hi, hj⟩; exact ⟨i, hi, j, hj, rfl, rfl⟩

/-- C22: iterating over a field yields exactly the unmasked points, each with its indices, its coordinates and
its value. -/
theorem C22_iter_complete {f : SF} (hf : f.WF) (i j : Nat) (x y : Rat) (v : Option Rat) :
    ((i, j), (x, y), v) ∈ f.iter ↔
      f.ax[i]? = some x ∧ f.ay[j]? = some y ∧ f.cell i j = v ∧ v ≠ none := by
  unfold iter
  simp only [List.mem_filterMap, Prod.exists]
  constructor
  · rintro ⟨a, b, hm, h⟩
    obtain ⟨ha, hb⟩ := (mem_indexPairs f a b).mp hm
    rw [List.getElem?_eq_getElem ha, List.getElem?_eq_getElem hb] at h
    simp only at h
    split at h
    · cases h
    · rename_i hmask
      simp only [Option.some.injEq, Prod.mk.injEq] at h
      obtain ⟨⟨rfl, rfl⟩, ⟨rfl, rfl⟩, rfl⟩ := h
      refine ⟨List.getElem?_eq_getElem ha, List.getElem?_eq_getElem hb, rfl, ?_⟩
      intro hc
      rw [Reads.cellMask hf ha hb, hc] at hmask
      exact hmask rfl
  · rintro ⟨hi, hj, hv, hn⟩
    have li := getElem?_some_lt hi
    have lj := getElem?_some_lt hj
    refine ⟨i, j, (mem_indexPairs f i j).mpr ⟨li, lj⟩, ?_⟩
    rw [hi, hj]
    have : f.mask.get i j = false := by
      rw [Reads.cellMask hf li lj, hv]; cases v <;> simp_all
    simp [this, hv]

/-- C22: no point is yielded twice, and points come in increasing order of `(i, j)`, x first. -/
theorem C22_iter_order (f : SF) :
    (f.iter.map (·.1)).Pairwise (fun p q => p.1 < q.1 ∨ (p.1 = q.1 ∧ p.2 < q.2)) := by
  have hp : f.indexPairs.Pairwise (fun p q => p.1 < q.1 ∨ (p.1 = q.1 ∧ p.2 < q.2)) := by
    unfold indexPairs
    rw [List.pairwise_flatMap]
    constructor
    · intro a _
      rw [List.pairwise_map]
      exact List.pairwise_lt_range.imp fun h => Or.inr ⟨rfl, h⟩
    · refine List.pairwise_lt_range.imp fun {a b} hab => ?_
      intro p hp q hq
      simp only [List.mem_map, List.mem_range] at hp hq
      obtain ⟨_, _, rfl⟩ := hp
      obtain ⟨_, _, rfl⟩ := hq
      exact Or.inl hab
  have hs : (f.iter.map (·.1)).Sublist f.indexPairs := by
    unfold iter
    generalize f.indexPairs = l
    induction l with
    | nil => simp
    | cons p t ih =>
      obtain ⟨i, j⟩ := p
      rw [List.filterMap_cons]
      split
      · exact ih.cons _
      · rename_i b hb
        have : b.1 = (i, j) := by
          simp only at hb
          split at hb
          · by_cases hmk : f.mask.get i j = true
            · rw [if_pos hmk] at hb; cases hb
            · rw [if_neg hmk] at hb; cases hb; rfl
          · cases hb
        rw [List.map_cons, this]
        exact ih.cons_cons _
  exact hp.sublist hs

example : sample.iter.map (fun p => (p.1, p.2.2)) =
    [((0, 0), some 0), ((0, 1), some 1), ((1, 0), some 10), ((2, 0), some 20), ((2, 1), some 21)] := by decide +kernel

end IMT.SF
