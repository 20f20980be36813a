import Verif.Fill.Smooth
import Verif.Fill.TProps

/-! Concrete cases of the properties on filling. -/

namespace IMT.Fill

open Turb (TVF Record)

theorem exists_min : ∀ (ps : List (Rat × Rat)) (x y : Rat), ps ≠ [] →
    ∃ k, k < ps.length ∧ ∀ p, ps[k]? = some p → ∀ q ∈ ps, dist2 x y p.1 p.2 ≤ dist2 x y q.1 q.2
  | [], _, _, h => absurd rfl h
  | [p], x, y, _ => ⟨0, by simp, by simp⟩
  | p :: q :: l, x, y, _ => by
    obtain ⟨k, hk, h⟩ := exists_min (q :: l) x y (by simp)
    have hm := h _ (List.getElem?_eq_getElem hk)
    by_cases hc : dist2 x y p.1 p.2 ≤ dist2 x y (q :: l)[k].1 (q :: l)[k].2
    · refine ⟨0, by simp, ?_⟩
      intro p' hp' r hr
      simp only [List.getElem?_cons_zero, Option.some.injEq] at hp'
      subst hp'
      rcases List.mem_cons.1 hr with rfl | hr
      · exact le_refl _
      · exact le_trans hc (hm r hr)
    · refine ⟨k + 1, by simpa using hk, ?_⟩
      intro p' hp' r hr
      rw [List.getElem?_cons_succ] at hp'
      rcases List.mem_cons.1 hr with rfl | hr
      · have := hp'
        rw [List.getElem?_eq_getElem hk] at this
        cases this
        exact le_of_lt (not_le.1 hc)
      · exact h p' hp' r hr

open Classical in
/-- Interpolators as assumed. -/
noncomputable def aScipy : Scipy where
  near ps x y := if h : ps ≠ [] then (exists_min ps x y h).choose else 0
  lin ns x y := if h : ∃ w, Bary w ns x y then some ((ns.map fun n => h.choose n * n.v).sum) else none
  cub _ _ _ := none

open Classical in
/-- The assumptions on the interpolators can be met. -/
theorem aScipy_ok : aScipy.Ok where
  near_lt ps h x y := by
    show (if h : ps ≠ [] then (exists_min ps x y h).choose else 0) < _
    rw [dif_pos h]
    exact (exists_min ps x y h).choose_spec.1
  near_min ps x y p hp q hq := by
    have h : ps ≠ [] := List.ne_nil_of_mem hq
    replace hp : ps[if h : ps ≠ [] then (exists_min ps x y h).choose else 0]? = some p := hp
    rw [dif_pos h] at hp
    exact (exists_min ps x y h).choose_spec.2 p hp q hq
  lin_some ns x y v _ h := by
    by_cases hw : ∃ w, Bary w ns x y
    · replace h : (if h : ∃ w, Bary w ns x y then some ((ns.map fun n => h.choose n * n.v).sum) else none) = some v := h
      rw [dif_pos hw] at h
      exact ⟨_, hw.choose_spec, (Option.some.inj h).symm⟩
    · replace h : (if h : ∃ w, Bary w ns x y then some ((ns.map fun n => h.choose n * n.v).sum) else none) = some v := h
      rw [dif_neg hw] at h
      cases h
  lin_none ns x y _ h := by
    intro hw
    replace h : (if h : ∃ w, Bary w ns x y then some ((ns.map fun n => h.choose n * n.v).sum) else none) = none := h
    rw [dif_pos hw] at h
    cases h

/-- A field with one masked point in its middle. -/
def hole : SF where
  ax := [0, 1, 2]
  ay := [0, 1, 2]
  val := ⟨3, 3, fun i j => if i = 1 ∧ j = 1 then none else some (2 * i + 3 * j + 1)⟩
  mask := ⟨3, 3, fun i j => decide (i = 1 ∧ j = 1)⟩
  ux := Sym.one
  uy := Sym.one
  uv := Sym.one

theorem hole_wf : hole.WF := by
  refine ⟨by decide +kernel, by decide +kernel, by decide, by decide, rfl, rfl, rfl, rfl, ?_⟩
  intro i j hi hj h
  simp only [hole] at h ⊢
  by_cases e : i = 1 ∧ j = 1
  · simp [e]
  · rw [if_neg e] at h; cases h

theorem hole_nodes : nodes hole true = [⟨0, 1, 4⟩, ⟨0, 2, 7⟩, ⟨1, 0, 3⟩, ⟨1, 2, 9⟩, ⟨2, 0, 5⟩, ⟨2, 1, 8⟩, ⟨2, 2, 11⟩] := by decide +kernel

theorem hole_enough : Enough hole true := by
  rintro ⟨a, b, c, h0, h⟩
  rw [hole_nodes] at h
  have h1 := h ⟨0, 1, 4⟩ (by simp)
  have h2 := h ⟨0, 2, 7⟩ (by simp)
  have h3 := h ⟨1, 2, 9⟩ (by simp)
  simp only at h1 h2 h3
  rcases h0 with h0 | h0
  · exact h0 (by linarith)
  · exact h0 (by linarith)

theorem hole_affine {x y v : Rat} (h : hole.Reads x y (some v)) : v = 2 * x + 3 * y + 1 := by
  obtain ⟨i, j, hi, hj, hc⟩ := h
  have li : i < 3 := getElem?_some_lt hi
  have lj : j < 3 := getElem?_some_lt hj
  have hx : x = i := by
    have : hole.ax[i]? = some (i : Rat) := by
      rcases (by omega : i = 0 ∨ i = 1 ∨ i = 2) with rfl | rfl | rfl <;> simp [hole]
    rw [this] at hi; exact (Option.some.inj hi).symm
  have hy : y = j := by
    have : hole.ay[j]? = some (j : Rat) := by
      rcases (by omega : j = 0 ∨ j = 1 ∨ j = 2) with rfl | rfl | rfl <;> simp [hole]
    rw [this] at hj; exact (Option.some.inj hj).symm
  subst hx; subst hy
  by_cases e : i = 1 ∧ j = 1
  · simp [SF.cell, hole, e] at hc
  · simp [SF.cell, hole, e] at hc
    exact hc.symm

/-- The middle is filled with the value 6 of the affine function. -/
example : ∃ g, fill aScipy .linear true hole = .ok g ∧ g.Reads 1 1 (some 6) := by
  obtain ⟨⟨g, e, -, -, h, -⟩, -⟩ := C248_linear_partial aScipy_ok true hole_wf fun _ => hole_enough
  refine ⟨g, e, ?_⟩
  have := h 2 3 1 (fun x y v hv => hole_affine hv) 1 1 ⟨1, 1, by simp [hole], by simp [hole], by simp [SF.cell, hole]⟩
    (.inl ⟨0, 2, 4, 8, by norm_num, by norm_num, ⟨0, 1, by simp [hole], by simp [hole], by simp [SF.cell, hole]; norm_num⟩,
      ⟨2, 1, by simp [hole], by simp [hole], by simp [SF.cell, hole]; norm_num⟩⟩)
  norm_num at this
  exact this

/-- With the nearest point, one of the four neighbours. -/
example : ∃ g, fill aScipy .nearest true hole = .ok g ∧ Fills hole g := by
  obtain ⟨⟨g, e, h, -⟩, -⟩ := C247_nearest aScipy_ok true hole_wf (a := 0) (b := 1) (c := 4) ⟨0, 1, by simp [hole], by simp [hole], by simp [SF.cell, hole]; norm_num⟩
  exact ⟨g, e, h⟩

/-- Smoothed, its sum is that of the filled field. -/
example : ∃ h g, fill aScipy .linear true hole = .ok h ∧ smooth aScipy 3 hole = .ok g ∧ total 3 3 (vals g) = total 3 3 (vals h) := by
  obtain ⟨h, g, e1, -, e2, -, -, -, -, -, -, -, sm, -⟩ := C251_smooth_partial aScipy_ok (size := 3) (by omega) hole_wf fun _ => hole_enough
  exact ⟨h, g, e1, e2, sm.total rfl⟩

/-- A field whose last line is masked. -/
def wall : SF where
  ax := [0, 1, 2]
  ay := [0, 1]
  val := ⟨3, 2, fun i j => if 2 ≤ i then none else some (i + j)⟩
  mask := ⟨3, 2, fun i _ => decide (2 ≤ i)⟩
  ux := Sym.one
  uy := Sym.one
  uv := Sym.one

theorem wall_wf : wall.WF := by
  refine ⟨by decide +kernel, by decide +kernel, by decide, by decide, rfl, rfl, rfl, rfl, ?_⟩
  intro i j hi hj h
  simp only [wall] at h ⊢
  by_cases e : 2 ≤ i
  · simp [e]
  · rw [if_neg e] at h; cases h

example : fill aScipy .linear true wall = .error .exception :=
  (C248_wall_violated aScipy wall_wf (k := 2) (by omega) (by decide) fun _ _ _ _ => rfl).1

example : smooth aScipy 3 wall = .error .exception := C251_wall_violated aScipy 3 wall_wf (k := 2) (by omega) (by decide) fun _ _ _ _ => rfl

/-- A square of four vectors, the first one masked or not. -/
def square (m : Bool) (u : Rat) : VF where
  ax := [0, 1]
  ay := [0, 1]
  cx := ⟨2, 2, fun i j => if m = true ∧ i = 0 ∧ j = 0 then none else some u⟩
  cy := ⟨2, 2, fun i j => if m = true ∧ i = 0 ∧ j = 0 then none else some (2 * u)⟩
  mask := ⟨2, 2, fun i j => m && decide (i = 0) && decide (j = 0)⟩
  ux := Sym.one
  uy := Sym.one
  uv := Sym.one

theorem square_wf (m : Bool) (u : Rat) : (square m u).WF := by
  refine ⟨show Inc [0, 1] by decide +kernel, show Inc [0, 1] by decide +kernel, by simp [square], by simp [square], rfl, rfl, rfl, rfl, rfl, rfl, ?_, ?_⟩ <;>
  · intro i j hi hj h
    simp only [square] at h ⊢
    by_cases e : m = true ∧ i = 0 ∧ j = 0
    · simp [e]
    · rw [if_neg e] at h; cases h

/-- The masked vector gets the vector of its nearest neighbour. -/
example : ∃ g, vfill aScipy .nearest .nearest true (square true 5) = .ok g ∧ VFills (square true 5) g := by
  obtain ⟨g, e, h, -⟩ := C250_nearest aScipy_ok true (square_wf true 5) (by decide) (by decide) (a := 1) (b := 1) (c := (5, 10))
    ⟨1, 1, by simp [square], by simp [square], by simp [VF.cell, square]; norm_num⟩
  exact ⟨g, e, h⟩

/-- A record of four fields, the second one having a masked point. -/
def film : TVF where
  ax := [0, 1]
  ay := [0, 1]
  ux := Sym.one
  uy := Sym.one
  times := [0, 1, 2, 4]
  ut := Sym.one
  fields := [square false 0, square true 0, square false 6, square false 8]

theorem film_record : Record film Sym.one := by
  refine ⟨rfl, by decide +kernel, by simp [film], ?_, ?_, ?_, ?_, ?_, ?_, by decide +kernel, by decide +kernel, by decide, by decide⟩
  · intro f hf
    simp only [film, List.mem_cons, List.not_mem_nil, or_false] at hf
    rcases hf with rfl | rfl | rfl | rfl <;> exact square_wf _ _
  all_goals
    intro f hf
    simp only [film, List.mem_cons, List.not_mem_nil, or_false] at hf
    rcases hf with rfl | rfl | rfl | rfl <;> rfl

theorem film_fillable : Fillable film 0 0 := ⟨by decide, by decide, by decide +kernel, by decide +kernel⟩

/-- The point is filled, in the record too. -/
example : ∃ src r, tfill .linear film = .ok (src, r) ∧ ∃ w, Seen src 0 0 1 w :=
  C252_source_violated film_record (k := 1) (x := 1) (f := square true 0) film_fillable rfl rfl rfl
    ⟨0, (0, 0), 2, (6, 12), ⟨0, square false 0, rfl, rfl, by decide +kernel⟩, ⟨2, square false 6, rfl, rfl, by decide +kernel⟩, by norm_num, by norm_num⟩

/-- The vector is the one halfway. -/
example : (match tfill .linear film with | .ok (_, r) => r.fields.map fun f => f.cell 0 0 | .error _ => []) =
    [some (0, 0), some (3, 6), some (6, 12), some (8, 16)] := by decide +kernel

end IMT.Fill
