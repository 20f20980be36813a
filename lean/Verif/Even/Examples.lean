import Verif.Even.Reduce

/-! Concrete cases for C256 to C260. -/

namespace IMT.Even

open Turb (TVF)
open Temporal (TF mapRes)

/-- Linear interpolation along one axis. -/
def lin1 : List Rat → (Nat → Rat) → Rat → Rat
  | a :: b :: l, v, x => if x ≤ b then v 0 + (v 1 - v 0) / (b - a) * (x - a) else lin1 (b :: l) (fun n => v (n + 1)) x
  | _, _, _ => 0

theorem lin1_spec : ∀ (l : List Rat) (v : Nat → Rat) (i : Nat) (a b x : Rat), Inc l → l[i]? = some a → l[i + 1]? = some b → a ≤ x → x ≤ b →
    lin1 l v x = v i + (v (i + 1) - v i) / (b - a) * (x - a)
  | [], _, _, _, _, _, _, h, _, _, _ => by simp at h
  | [_], _, i, _, _, _, _, _, h, _, _ => by simp at h
  | a :: b :: l, v, 0, _, _, x, _, h1, h2, _, hx => by
    simp at h1 h2
    subst h1 h2
    unfold lin1
    rw [if_pos hx]
  | a :: b :: l, v, i + 1, p, q, x, hi, h1, h2, hp, hq => by
    have hab : a < b := hi.get_lt (i := 0) (j := 1) rfl rfl (by omega)
    have hbp : b ≤ p := hi.get_le (i := 1) (j := i + 1) rfl h1 (by omega)
    unfold lin1
    by_cases hx : x ≤ b
    · rw [if_pos hx]
      have e1 : x = b := by linarith
      have e2 : p = b := by linarith
      have : i = 0 := by
        by_contra h0
        have : b < p := hi.get_lt (i := 1) (j := i + 1) rfl h1 (by omega)
        linarith
      subst this
      rw [e1, e2]
      have : b - a ≠ 0 := by linarith
      field_simp
      ring
    · rw [if_neg hx]
      have hi' : Inc (b :: l) := (List.pairwise_cons.1 hi).2
      exact lin1_spec (b :: l) (fun n => v (n + 1)) i p q x hi' (by simpa using h1) (by simpa using h2) hp hq

/-- Bilinear interpolation: along x, then along y. -/
def lin2 : Lin2 := fun ax ay v x y => lin1 ay (fun j => lin1 ax (fun i => v i j) x) y

/-- There is such an interpolator. -/
theorem lin2_is : IsLin2 lin2 := by
  intro ax ay v i j a b c d x y hx hy h1 h2 h3 h4 x1 x2 y1 y2
  unfold lin2
  rw [lin1_spec ay _ j c d y hy h3 h4 y1 y2]
  rw [lin1_spec ax _ i a b x hx h1 h2 x1 x2, lin1_spec ax _ i a b x hx h1 h2 x1 x2]
  have e1 : b - a ≠ 0 := by have := hx.get_lt h1 h2 (by omega); linarith
  have e2 : d - c ≠ 0 := by have := hy.get_lt h3 h4 (by omega); linarith
  unfold blend
  field_simp
  ring

/-- An uneven field of 4 by 3 points. -/
def aField : SF where
  ax := [0, 1, 2, 4]
  ay := [0, 2, 6]
  val := ⟨4, 3, fun i j => some ((i : Rat) * i - 3 * j)⟩
  mask := ⟨4, 3, fun _ _ => false⟩
  ux := Sym.mm
  uy := Sym.m
  uv := Sym.s

theorem aField_wf : aField.WF where
  incx := by unfold Inc aField; decide +kernel
  incy := by unfold Inc aField; decide +kernel
  nex := by simp [aField]
  ney := by simp [aField]
  vx := rfl
  vy := rfl
  mx := rfl
  my := rfl
  nan := by intro i j _ _ h; simp [aField] at h

theorem aField_clear : Clear aField := by
  rintro x y ⟨i, j, -, -, h⟩
  simp [SF.cell, aField] at h

theorem aField_x : Extent aField.ax 0 4 1 :=
  ⟨rfl, rfl, ⟨0, 0, 1, rfl, rfl, by norm_num⟩, by
    intro i a b h1 h2
    match i with
    | 0 => simp [aField] at h1 h2; subst h1 h2; norm_num
    | 1 => simp [aField] at h1 h2; subst h1 h2; norm_num
    | 2 => simp [aField] at h1 h2; subst h1 h2; norm_num
    | i + 3 => simp [aField] at h2⟩

theorem aField_y : Extent aField.ay 0 6 2 :=
  ⟨rfl, rfl, ⟨0, 0, 2, rfl, rfl, by norm_num⟩, by
    intro i a b h1 h2
    match i with
    | 0 => simp [aField] at h1 h2; subst h1 h2; norm_num
    | 1 => simp [aField] at h1 h2; subst h1 h2; norm_num
    | i + 2 => simp [aField] at h2⟩

/-- The field is resampled. -/
example : ∃ g n m, evenly lin2 1 aField = .ok g ∧ Spaced g.ax 0 4 n ∧ Spaced g.ay 0 6 m := by
  obtain ⟨g, n, m, h1, -, -, h2, h3, -⟩ := C256_resample_partial lin2_is aField_wf aField_clear (res := 1) (by norm_num) aField_x aField_y
    (by norm_num) (by norm_num)
  exact ⟨g, n, m, h1, h2, h3⟩

/-- Four points along x and three along y, at 4/3 and 3 from each other: one of them is between two values. -/
example : (evenly lin2 1 aField).toOption.map (fun g => (g.ax, g.ay, g.cell 1 1)) = some ([0, 4/3, 8/3, 4], [0, 3, 6], some (2 - 3 * (5/4))) := by
  decide +kernel

/-- A vector field on the same points. -/
def aVec : VF where
  ax := [0, 1, 2, 4]
  ay := [0, 2, 6, 7]
  cx := ⟨4, 4, fun i j => some ((i : Rat) + j)⟩
  cy := ⟨4, 4, fun i j => some ((i : Rat) * j)⟩
  mask := ⟨4, 4, fun i j => decide (i < 2 ∧ j = 0)⟩
  ux := Sym.mm
  uy := Sym.m
  uv := Sym.s

theorem aVec_wf : aVec.WF where
  incx := by unfold Inc aVec; decide +kernel
  incy := by unfold Inc aVec; decide +kernel
  nex := by simp [aVec]
  ney := by simp [aVec]
  xx := rfl
  xy := rfl
  yx := rfl
  yy := rfl
  mx := rfl
  my := rfl
  nanx := by intro i j _ _ h; simp [aVec] at h
  nany := by intro i j _ _ h; simp [aVec] at h

/-- The block of the lowest corner has two visible vectors, (1, 0) and (2, 1). -/
example : ∃ g, reduceV aVec 2 false = .ok g ∧ g.cell 0 0 = some (3/2, 1/2) ∧ g.uv = Sym.s := by
  obtain ⟨g, e, -, lx, ly, -, -, c, u⟩ := C259_blocks_partial aVec_wf (h := 1) (by omega) (by decide) (by decide) false
  refine ⟨g, e, ?_, (u rfl).2.2⟩
  rw [c 0 0 (by rw [lx]; decide) (by rw [ly]; decide)]
  decide +kernel

/-- The same vectors without mask. -/
def clearVec : VF := { aVec with mask := ⟨4, 4, fun _ _ => false⟩ }

theorem clearVec_wf : clearVec.WF :=
  { aVec_wf with
    mx := rfl
    my := rfl
    nanx := by intro i j _ _ h; simp [clearVec, aVec] at h
    nany := by intro i j _ _ h; simp [clearVec, aVec] at h }

theorem clearVec_clear : ClearV clearVec := by
  rintro x y ⟨i, j, -, -, h⟩
  simp [VF.cell, clearVec, aVec] at h

theorem clearVec_y : Extent clearVec.ay 0 7 1 :=
  ⟨rfl, rfl, ⟨2, 6, 7, rfl, rfl, by norm_num⟩, by
    intro i a b h1 h2
    match i with
    | 0 => simp [clearVec, aVec] at h1 h2; subst h1 h2; norm_num
    | 1 => simp [clearVec, aVec] at h1 h2; subst h1 h2; norm_num
    | 2 => simp [clearVec, aVec] at h1 h2; subst h1 h2; norm_num
    | i + 3 => simp [clearVec, aVec] at h2⟩

/-- The vector field is resampled. -/
example : ∃ g n m, evenlyV lin2 1 clearVec = .ok g ∧ Spaced g.ax 0 4 n ∧ Spaced g.ay 0 7 m := by
  obtain ⟨g, n, m, h1, -, -, h2, h3, -⟩ := C257_vector_partial lin2_is clearVec_wf clearVec_clear (res := 1) (by norm_num) aField_x clearVec_y
    (by norm_num) (by norm_num)
  exact ⟨g, n, m, h1, h2, h3⟩

/-- A record of two fields of 4 by 4 points. -/
def aRec : TF where
  ax := [0, 1, 2, 4]
  ay := [0, 2, 3, 4]
  ux := Sym.mm
  uy := Sym.m
  times := [0, 1]
  ut := Sym.s
  fields := [SF.four, SF.four]
  nd := false

theorem aRec_ok : Temporal.Consistent aRec where
  paired := rfl
  wf := by intro f hf; simp [aRec] at hf; subst hf; exact SF.four_WF
  ax := by intro f hf; simp [aRec] at hf; subst hf; rfl
  ay := by intro f hf; simp [aRec] at hf; subst hf; rfl
  ux := by intro f hf; simp [aRec] at hf; subst hf; rfl
  uy := by intro f hf; simp [aRec] at hf; subst hf; rfl

/-- The record is reduced; its fields lose their units. -/
example : aRec.ux = Sym.mm ∧ ∃ s r, reduceT aRec 2 true = .ok (s, r) ∧ ∀ g ∈ r.fields, g.ux = Sym.one := by
  obtain ⟨s, r, e, -, -, h⟩ := C260_units_violated aRec_ok (by simp [aRec]) (h := 1) (by omega) (by decide) (by decide) true
  exact ⟨rfl, s, r, e, fun g hg => (h g hg).1⟩

/-- A record of two vector fields. -/
def vRec : TVF where
  ax := aVec.ax
  ay := aVec.ay
  ux := Sym.mm
  uy := Sym.m
  times := [0, 1]
  ut := Sym.s
  fields := [clearVec, clearVec]

theorem vRec_ok : Turb.Record vRec Sym.s where
  paired := rfl
  inc := by unfold Inc vRec; decide +kernel
  ne := by simp [vRec]
  wf := by intro f hf; simp [vRec] at hf; subst hf; exact clearVec_wf
  ax := by intro f hf; simp [vRec] at hf; subst hf; rfl
  ay := by intro f hf; simp [vRec] at hf; subst hf; rfl
  ux := by intro f hf; simp [vRec] at hf; subst hf; rfl
  uy := by intro f hf; simp [vRec] at hf; subst hf; rfl
  uv := by intro f hf; simp [vRec] at hf; subst hf; rfl
  size := by decide +kernel
  tsize := by decide +kernel
  lx := by decide
  ly := by decide

/-- The record is resampled. -/
example : ∃ r, evenlyTV lin2 1 vRec = .ok r ∧ r.fields.length = 2 := by
  obtain ⟨r, n, m, h, -, -, -, -, -, hl, -⟩ := C258_vectors_partial lin2_is vRec_ok (fun f hf => by simp [vRec] at hf; subst hf; exact clearVec_clear) (res := 1)
    (by norm_num) aField_x clearVec_y (by norm_num) (by norm_num)
  exact ⟨r, h, hl⟩

/-- And reduced. -/
example : ∃ r, reduceTV vRec 2 true = .ok (r, r) ∧ r.ax.length = 2 := by
  obtain ⟨r, e, -, -, -, -, -, h, -⟩ := C260_vectors_partial vRec_ok (h := 1) (by omega) (by decide) (by decide)
  exact ⟨r, e, by rw [h.1]; decide⟩

end IMT.Even
