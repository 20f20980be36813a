import Verif.Vector.Arith

/-! Property C115: cropping the masked borders of vector fields. -/

namespace IMT.VF

variable {f g : VF}

theorem Loose.valid (hf : f.Loose) (x y : Rat) : (∃ v, f.maskF.Reads x y (some v)) ↔ ∃ v, f.Reads x y (some v) := by
  have hcm : ∀ i j, i < f.ax.length → j < f.ay.length →
      ((∃ v, f.maskF.cell i j = some v) ↔ ∃ v, f.cell i j = some v) := by
    intro i j hi hj
    unfold SF.cell cell
    simp only [maskF]
    by_cases h : f.mask.get i j = true
    · simp [h]
    · simp only [h, Bool.false_eq_true, if_false]
      cases hu : f.cx.get i j with
      | none => exact absurd (hf.nanx i j hi hj hu) h
      | some u => cases hv : f.cy.get i j with
        | none => exact absurd (hf.nany i j hi hj hv) h
        | some v => simp
  constructor
  · rintro ⟨v, i, j, hi, hj, hr⟩
    obtain ⟨w, hw⟩ := (hcm i j (getElem?_some_lt hi) (getElem?_some_lt hj)).mp ⟨v, hr⟩
    exact ⟨w, i, j, hi, hj, hw⟩
  · rintro ⟨v, i, j, hi, hj, hr⟩
    obtain ⟨w, hw⟩ := (hcm i j (getElem?_some_lt hi) (getElem?_some_lt hj)).mpr ⟨v, hr⟩
    exact ⟨w, i, j, hi, hj, hw⟩

theorem soft_maskF (f : VF) : f.cropMaskedSoft.map (Option.map maskF) = f.maskF.cropMaskedSoft := by
  unfold cropMaskedSoft SF.cropMaskedSoft
  by_cases h : f.maskF.anyMasked = false
  · rw [if_pos h, if_pos h]; rfl
  · rw [if_neg h, if_neg h, ← softCrop_maskF]
    cases f.softCrop <;> rfl

theorem softMasked_ok (h : f.cropMaskedSoft = .ok (some g)) : f.softCrop = .ok g := by
  unfold cropMaskedSoft at h
  by_cases hm : f.maskF.anyMasked = false
  · rw [if_pos hm] at h; simp at h
  · rw [if_neg hm] at h
    cases hs : f.softCrop with
    | error e => rw [hs] at h; cases h
    | ok k => rw [hs] at h; simp only [Except.map, Except.ok.injEq, Option.some.injEq] at h; rw [h]

/-- C115: whatever field the soft variant returns is the bounding rectangle of the valid vectors: a sub-rectangle which
keeps every valid vector, and whose four border lines hold one each. -/
theorem C115_soft_bounding_box (hf : f.WF) (h : f.cropMaskedSoft = .ok (some g)) :
    SubRect g f ∧
    (∀ x y v, f.Reads x y (some v) → g.Reads x y (some v)) ∧
    (∀ x, g.ax.head? = some x ∨ g.ax.getLast? = some x → ∃ y v, g.Reads x y (some v)) ∧
    (∀ y, g.ay.head? = some y ∨ g.ay.getLast? = some y → ∃ x v, g.Reads x y (some v)) := by
  have hm : f.maskF.cropMaskedSoft = .ok (some g.maskF) := by rw [← soft_maskF, h]; rfl
  obtain ⟨x0, x1, y0, y1, rfl⟩ := softCrop_ok (softMasked_ok h)
  obtain ⟨-, h2, h3, h4⟩ := SF.C19_soft_bounding_box (maskF_WF hf) hm
  have hl := cut_loose hf.loose x0 x1 y0 y1
  have hsub := cut_subRect hf.loose x0 x1 y0 y1
  refine ⟨hsub, ?_, ?_, ?_⟩
  · intro x y v hr
    obtain ⟨w, hw⟩ := (hf.loose.valid x y).mpr ⟨v, hr⟩
    obtain ⟨v', hv'⟩ := (hl.valid x y).mp ⟨w, h2 x y w hw⟩
    have := (hsub.2.2.1 x y _).mp hv'
    rw [hr.unique hf this.1]
    exact hv'
  · intro x hx
    obtain ⟨y, v, hr⟩ := h3 x hx
    obtain ⟨v', hv'⟩ := (hl.valid x y).mp ⟨v, hr⟩
    exact ⟨y, v', hv'⟩
  · intro y hy
    obtain ⟨x, v, hr⟩ := h4 y hy
    obtain ⟨v', hv'⟩ := (hl.valid x y).mp ⟨v, hr⟩
    exact ⟨x, v', hv'⟩

/-- C115: the soft variant does return a field when something is masked and the valid vectors reach past the first row and
the first column. -/
theorem C115_soft_returns_partial (hf : f.WF) (hm : ∃ x y, f.Reads x y none)
    (hx : ∃ i j v, f.cell (i + 1) j = some v ∧ i + 1 < f.ax.length ∧ j < f.ay.length)
    (hy : ∃ i j v, f.cell i (j + 1) = some v ∧ i < f.ax.length ∧ j + 1 < f.ay.length) :
    ∃ g, f.cropMaskedSoft = .ok (some g) := by
  have mc : ∀ i j v, f.cell i j = some v → f.maskF.cell i j = some 0 := by
    intro i j v h
    unfold cell at h
    by_cases hm : f.mask.get i j = true
    · rw [if_pos hm] at h; cases h
    · simp [SF.cell, maskF, hm]
  obtain ⟨x, y, hr⟩ := hm
  obtain ⟨i, j, v, h1, h2, h3⟩ := hx
  obtain ⟨i', j', v', h1', h2', h3'⟩ := hy
  obtain ⟨g, hg⟩ := SF.C19_soft_returns_partial (maskF_WF hf) ⟨x, y, (maskF_reads hf.loose x y).mpr hr⟩
    ⟨i, j, 0, mc _ _ _ h1, h2, h3⟩ ⟨i', j', 0, mc _ _ _ h1', h2', h3'⟩
  rw [← soft_maskF] at hg
  cases hc : f.cropMaskedSoft with
  | error e => rw [hc] at hg; cases hg
  | ok o => cases o with
    | none => rw [hc] at hg; cases hg
    | some k => exact ⟨k, rfl⟩

/-- C115: when nothing is masked nothing is cropped, and nothing is returned. -/
theorem C115_nothing_returned_violated (hf : f.WF) (h : ∀ x y, ¬ f.Reads x y none) (n : Nat) :
    f.cropMaskedSoft = .ok none ∧ cropMaskedHard n f = some (.ok none) := by
  have ha : f.maskF.anyMasked = false := by
    by_contra hm
    have hm : f.maskF.anyMasked = true := by simpa using hm
    obtain ⟨i, j, hi, hj, hmm⟩ := (SF.anyMasked_iff f.maskF).mp hm
    have hi : i < f.ax.length := by rw [← hf.mx]; exact hi
    have hj : j < f.ay.length := by rw [← hf.my]; exact hj
    exact h f.ax[i] f.ay[j] ⟨i, j, List.getElem?_eq_getElem hi, List.getElem?_eq_getElem hj, cell_masked hmm⟩
  unfold cropMaskedSoft cropMaskedHard
  rw [if_pos ha, if_pos ha]
  exact ⟨rfl, rfl⟩

theorem SubRect.refl (f : VF) : SubRect f f := by
  refine ⟨List.infix_rfl, List.infix_rfl, ?_, rfl, rfl, rfl⟩
  intro x y r
  refine ⟨fun h => ⟨h, ?_⟩, fun h => h.1⟩
  obtain ⟨i, j, hi, hj, _⟩ := h
  exact ⟨List.mem_of_getElem? hi, List.mem_of_getElem? hj⟩

theorem cropInd_ok' {ix iy : Option (Int × Int)} (h : f.cropInd ix iy = .ok g) :
    ∃ x0 x1 y0 y1, g = f.cut x0 x1 y0 y1 ∧
      Axis.cropIndsInd (ix.getD (0, f.ax.length)).1 (ix.getD (0, f.ax.length)).2 = .ok (x0, x1) ∧
      Axis.cropIndsInd (iy.getD (0, f.ay.length)).1 (iy.getD (0, f.ay.length)).2 = .ok (y0, y1) := by
  unfold cropInd at h
  cases h1 : Axis.cropIndsInd (ix.getD (0, f.ax.length)).1 (ix.getD (0, f.ax.length)).2 with
  | error e => rw [h1] at h; cases h
  | ok p => cases h2 : Axis.cropIndsInd (iy.getD (0, f.ay.length)).1 (iy.getD (0, f.ay.length)).2 with
    | error e => rw [h1, h2] at h; cases h
    | ok q => rw [h1, h2] at h; cases h; exact ⟨_, _, _, _, rfl, rfl, rfl⟩

theorem hardStep_spec {ly : Nat} (hf : f.Loose) (hm : f.maskF.anyMasked = true) (h : f.hardStep ly = .ok g) :
    g.Loose ∧ SubRect g f ∧ g.ax.length + g.ay.length < f.ax.length + f.ay.length := by
  obtain ⟨i, j, hi, hj, _⟩ := (SF.anyMasked_iff f.maskF).mp hm
  have hi : i < f.ax.length := by rw [← hf.mx]; exact hi
  have hj : j < f.ay.length := by rw [← hf.my]; exact hj
  have main : ∀ ix iy, f.cropInd ix iy = .ok g →
      ((ix = some (1, (f.ax.length : Int)) ∧ iy = none) ∨ (ix = some (0, (f.ax.length : Int) - 2) ∧ iy = none) ∨
       (ix = none ∧ iy = some (1, (ly : Int))) ∨ (ix = none ∧ iy = some (0, (f.ay.length : Int) - 2))) →
      g.Loose ∧ SubRect g f ∧ g.ax.length + g.ay.length < f.ax.length + f.ay.length := by
    intro ix iy hc hcase
    obtain ⟨x0, x1, y0, y1, rfl, hx, hy⟩ := cropInd_ok' hc
    have hx' := SF.cropIndsInd_ok hx
    have hy' := SF.cropIndsInd_ok hy
    refine ⟨cut_loose hf _ _ _ _, cut_subRect hf _ _ _ _, ?_⟩
    simp only [cut, slice_length]
    rcases hcase with ⟨rfl, rfl⟩ | ⟨rfl, rfl⟩ | ⟨rfl, rfl⟩ | ⟨rfl, rfl⟩ <;>
      simp only [Option.getD_some, Option.getD_none] at hx' hy' <;> omega
  unfold hardStep at h
  split at h
  · exact main _ _ h (Or.inl ⟨rfl, rfl⟩)
  · split at h
    · exact main _ _ h (Or.inr (Or.inl ⟨rfl, rfl⟩))
    · split at h
      · exact main _ _ h (Or.inr (Or.inr (Or.inl ⟨rfl, rfl⟩)))
      · exact main _ _ h (Or.inr (Or.inr (Or.inr ⟨rfl, rfl⟩)))

theorem hardLoop_spec (ly n : Nat) : ∀ f : VF, f.Loose →
    (f.ax.length + f.ay.length ≤ n → hardLoop ly n f ≠ none) ∧
    (∀ g, hardLoop ly n f = some (.ok g) → g.Loose ∧ SubRect g f ∧ g.maskF.anyMasked = false) := by
  induction n with
  | zero =>
    intro f hf
    unfold hardLoop
    by_cases hm : f.maskF.anyMasked = true
    · refine ⟨?_, ?_⟩
      · intro hle
        obtain ⟨i, j, hi, _⟩ := (SF.anyMasked_iff f.maskF).mp hm
        have hi : i < f.ax.length := by rw [← hf.mx]; exact hi
        omega
      · rw [if_pos hm]; intro g h; cases h
    · rw [if_neg hm]
      refine ⟨fun _ => by simp, ?_⟩
      intro g h
      simp only [Option.some.injEq, Except.ok.injEq] at h
      subst h
      exact ⟨hf, SubRect.refl _, by simpa using hm⟩
  | succ n ih =>
    intro f hf
    unfold hardLoop
    by_cases hm : f.maskF.anyMasked = true
    · rw [if_pos hm]
      cases hs : f.hardStep ly with
      | error e => exact ⟨fun _ => by simp, by intro g h; simp at h⟩
      | ok g =>
        obtain ⟨hl, hsub, hlt⟩ := hardStep_spec hf hm hs
        obtain ⟨i1, i2⟩ := ih g hl
        refine ⟨fun hle => i1 (by omega), ?_⟩
        intro k hk
        obtain ⟨k1, k2, k3⟩ := i2 k hk
        exact ⟨k1, k2.trans hsub, k3⟩
    · rw [if_neg hm]
      refine ⟨fun _ => by simp, ?_⟩
      intro g h
      simp only [Option.some.injEq, Except.ok.injEq] at h
      subst h
      exact ⟨hf, SubRect.refl _, by simpa using hm⟩

/-- C115: the hard variant terminates for every field. -/
theorem C115_hard_terminates (hf : f.WF) : ∀ n, f.ax.length + f.ay.length ≤ n → cropMaskedHard n f ≠ none := by
  intro n hn
  unfold cropMaskedHard
  by_cases hm : f.maskF.anyMasked = false
  · rw [if_pos hm]; simp
  · rw [if_neg hm]
    cases hs : f.softCrop with
    | error e => simp
    | ok g =>
      obtain ⟨x0, x1, y0, y1, rfl⟩ := softCrop_ok hs
      simp only [ne_eq, Option.map_eq_none_iff]
      refine (hardLoop_spec _ n _ (cut_loose hf.loose _ _ _ _)).1 ?_
      simp only [cut, slice_length]; omega

/-- C115: whenever the hard variant returns a field, this field is a sub-rectangle of the original without any masked
point.  Partial: the rectangle may be empty and an exception may be raised instead, as for scalar fields. -/
theorem C115_hard_mask_free_partial (hf : f.WF) {n : Nat} (h : cropMaskedHard n f = some (.ok (some g))) :
    SubRect g f ∧ ∀ x y, ¬ g.Reads x y none := by
  unfold cropMaskedHard at h
  by_cases hm : f.maskF.anyMasked = false
  · rw [if_pos hm] at h; simp at h
  · rw [if_neg hm] at h
    cases hs : f.softCrop with
    | error e => rw [hs] at h; simp at h
    | ok k =>
      rw [hs] at h
      obtain ⟨x0, x1, y0, y1, rfl⟩ := softCrop_ok hs
      cases hl : hardLoop f.ay.length n (f.cut x0 x1 y0 y1) with
      | none => simp only [hl, Option.map_none] at h; cases h
      | some r =>
        simp only [hl, Option.map_some, Option.some.injEq] at h
        cases r with
        | error e => cases h
        | ok k =>
          simp only [Except.map, Except.ok.injEq, Option.some.injEq] at h
          subst h
          obtain ⟨k1, k2, k3⟩ := (hardLoop_spec _ n _ (cut_loose hf.loose _ _ _ _)).2 _ hl
          refine ⟨k2.trans (cut_subRect hf.loose _ _ _ _), ?_⟩
          intro x y hr
          exact SF.no_mask_reads (maskF_loose k1) k3 x y ((maskF_reads k1 x y).mpr hr)

/-- A field whose first and last columns are masked. -/
def bordered : VF where
  ax := [0, 1, 3, 4]
  ay := [-1, 1/2, 2]
  cx := ⟨4, 3, fun i j => if i = 0 ∨ j = 2 ∨ (i = 1 ∧ j = 0) then none else some (10 * i + j)⟩
  cy := ⟨4, 3, fun _ _ => some 1⟩
  mask := ⟨4, 3, fun i j => i == 0 || j == 2 || (i == 1 && j == 0)⟩
  ux := Sym.mm
  uy := Sym.m
  uv := Sym.s

theorem bordered_WF : bordered.WF := by
  refine ⟨by decide +kernel, by decide +kernel, by decide, by decide, rfl, rfl, rfl, rfl, rfl, rfl, ?_, ?_⟩
  · intro i j _ _ h
    by_cases hc : i = 0 ∨ j = 2 ∨ (i = 1 ∧ j = 0)
    · simp [bordered]; tauto
    · simp only [bordered, if_neg hc] at h; cases h
  · intro i j _ _ h
    simp only [bordered] at h; cases h

example : (match bordered.cropMaskedSoft with
    | .ok (some g) => (g.ax, g.ay, [g.cell 0 0, g.cell 0 1])
    | _ => ([], [], [])) = (([1, 3, 4], [-1, 1/2], [none, some (11, 1)]) : List Rat × List Rat × List (Option (Rat × Rat))) := by
  decide +kernel

example : (match cropMaskedHard 7 bordered with
    | some (.ok (some g)) => (g.ax, g.ay, [g.cell 0 0, g.cell 1 1])
    | _ => ([], [], [])) = (([3, 4], [-1, 1/2], [some (20, 1), some (31, 1)]) : List Rat × List Rat × List (Option (Rat × Rat))) := by
  decide +kernel

/-- C115 fails on a 2 × 3 field with one masked point on its last row: ValueError instead of a sub-rectangle. -/
theorem C115_hard_error_violated :
    ∃ f : VF, f.WF ∧ f.Reads 0 0 (some (7, 7)) ∧ cropMaskedHard 5 f = some (.error .valueError) := by
  refine ⟨⟨[0, 1], [0, 1, 2], ⟨2, 3, fun i j => if i == 1 && j == 1 then none else some 7⟩,
    ⟨2, 3, fun i j => if i == 1 && j == 1 then none else some 7⟩, ⟨2, 3, fun i j => i == 1 && j == 1⟩, Sym.mm, Sym.mm, Sym.one⟩,
    ?_, ⟨0, 0, rfl, rfl, rfl⟩, rfl⟩
  refine ⟨by decide +kernel, by decide +kernel, by decide, by decide, rfl, rfl, rfl, rfl, rfl, rfl, ?_, ?_⟩
  all_goals
    intro i j _ _ h
    simp only at h ⊢
    by_cases hc : (i == 1 && j == 1) = true
    · exact hc
    · rw [if_neg hc] at h; cases h

end IMT.VF
