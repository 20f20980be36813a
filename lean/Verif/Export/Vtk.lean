import Verif.Export.VtkModel
import Verif.Vector.Lemmas
import Verif.Scalar.Border

/-!
Properties C289 and C290: exports to VTK.
-/

namespace IMT.Vtk

/-! ### helper lemmas -/

theorem flat_length {α : Type} (g : Grid α) : (flat g).length = g.nx * g.ny := by
  unfold flat
  rw [List.length_flatMap]
  simp

theorem flatMap_range_get {α : Type} (n m : Nat) (F : Nat → Nat → α) (i j : Nat) (hi : i < n) (hj : j < m) :
    ((List.range n).flatMap fun i => (List.range m).map fun j => F i j)[i * m + j]? = some (F i j) := by
  induction n with
  | zero => omega
  | succ n ih =>
    rw [List.range_succ, List.flatMap_append]
    have hl : ((List.range n).flatMap fun i => (List.range m).map fun j => F i j).length = n * m := by
      rw [List.length_flatMap]; simp
    by_cases h : i < n
    · rw [List.getElem?_append_left]
      · exact ih h
      · rw [hl]
        have : (i + 1) * m ≤ n * m := Nat.mul_le_mul_right m h
        rw [Nat.add_mul] at this
        omega
    · have : i = n := by omega
      subst this
      rw [List.getElem?_append_right (by rw [hl]; omega), hl]
      simp [hj]

theorem flat_get {α : Type} (g : Grid α) (i j : Nat) (hi : i < g.nx) (hj : j < g.ny) : (flat g)[i * g.ny + j]? = some (g.get i j) :=
  flatMap_range_get _ _ _ i j hi hj

theorem checks_ok {there : File.Path → Bool} {p : File.Path} {a b : Ax} (h : checks there p a b = .ok ⟨⟩) : there (dirname p) = true ∧ a ≠ b := by
  unfold checks at h
  split at h
  · cases h
  · rename_i h1
    split at h
    · cases h
    · rename_i h2
      exact ⟨by simpa using h1, h2⟩

/-- The order of the file when the first axis of the field comes after the second one. -/
theorem shows_later {α : Type} {a b : Ax} (h : Later a b) (ax ay : List Rat) (d : List α) (x y : Rat) (v : α) :
    Shows ⟨along a b ax ay .x, along a b ax ay .y, along a b ax ay .z, d⟩ (place a b x y) v ↔
      ∃ i j : Nat, ax[i]? = some x ∧ ay[j]? = some y ∧ d[i * ay.length + j]? = some v := by
  unfold Shows
  cases a <;> cases b <;> try exact absurd h id
  · simp only [along, place, reduceCtorEq, if_true, if_false]
    constructor
    · rintro ⟨i, j, k, h1, h2, h3, h4⟩
      have hk : k = 0 := by simpa using getElem?_some_lt h3
      subst hk
      exact ⟨j, i, h2, h1, by rw [← h4]; congr 1; ring⟩
    · rintro ⟨i, j, h1, h2, h3⟩
      exact ⟨j, i, 0, h2, h1, rfl, by rw [← h3]; congr 1; ring⟩
  · simp only [along, place, reduceCtorEq, if_true, if_false]
    constructor
    · rintro ⟨i, j, k, h1, h2, h3, h4⟩
      have hk : j = 0 := by simpa using getElem?_some_lt h2
      subst hk
      exact ⟨k, i, h3, h1, by rw [← h4]; congr 1; simp; ring⟩
    · rintro ⟨i, j, h1, h2, h3⟩
      exact ⟨j, 0, i, h2, rfl, h1, by rw [← h3]; congr 1; simp; ring⟩
  · simp only [along, place, reduceCtorEq, if_true, if_false]
    constructor
    · rintro ⟨i, j, k, h1, h2, h3, h4⟩
      have hk : i = 0 := by simpa using getElem?_some_lt h1
      subst hk
      exact ⟨k, j, h3, h2, by rw [← h4]; congr 1; simp; ring⟩
    · rintro ⟨i, j, h1, h2, h3⟩
      exact ⟨0, j, i, rfl, h2, h1, by rw [← h3]; congr 1; simp; ring⟩

/-- The order of the file otherwise. -/
theorem shows_sooner {α : Type} {a b : Ax} (h : Later b a) (ax ay : List Rat) (d : List α) (x y : Rat) (v : α) :
    Shows ⟨along a b ax ay .x, along a b ax ay .y, along a b ax ay .z, d⟩ (place a b x y) v ↔
      ∃ i j : Nat, ax[i]? = some x ∧ ay[j]? = some y ∧ d[i + ax.length * j]? = some v := by
  unfold Shows
  cases a <;> cases b <;> try exact absurd h id
  · simp only [along, place, reduceCtorEq, if_true, if_false]
    constructor
    · rintro ⟨i, j, k, h1, h2, h3, h4⟩
      have hk : k = 0 := by simpa using getElem?_some_lt h3
      subst hk
      exact ⟨i, j, h1, h2, by rw [← h4]; congr 1⟩
    · rintro ⟨i, j, h1, h2, h3⟩
      exact ⟨i, j, 0, h1, h2, rfl, by rw [← h3]; congr 1⟩
  · simp only [along, place, reduceCtorEq, if_true, if_false]
    constructor
    · rintro ⟨i, j, k, h1, h2, h3, h4⟩
      have hk : j = 0 := by simpa using getElem?_some_lt h2
      subst hk
      exact ⟨i, k, h1, h3, by rw [← h4]; congr 1; simp⟩
    · rintro ⟨i, j, h1, h2, h3⟩
      exact ⟨i, 0, j, h1, rfl, h2, by rw [← h3]; congr 1; simp⟩
  · simp only [along, place, reduceCtorEq, if_true, if_false]
    constructor
    · rintro ⟨i, j, k, h1, h2, h3, h4⟩
      have hk : i = 0 := by simpa using getElem?_some_lt h1
      subst hk
      exact ⟨j, k, h2, h3, by rw [← h4]; congr 1; simp⟩
    · rintro ⟨i, j, h1, h2, h3⟩
      exact ⟨0, i, j, rfl, h1, h2, by rw [← h3]; congr 1; simp⟩

/-! ### C289: fields -/

/-- C289 for the scalar fields whose first axis is put along an axis that comes after that of the second one in the file: the file shows at each
position what the field reads there, NaN for the masked points, and nothing else. -/
theorem C289_scalar_partial (there : File.Path → Bool) (p : File.Path) (f : SF) (hf : f.WF) (a b : Ax) (hab : Later a b) (r : File (Option Rat))
    (h : exportSF there p f a b = .ok r) (x y : Rat) (v : Option Rat) : Shows r (place a b x y) v ↔ f.Reads x y v := by
  unfold exportSF at h
  split at h
  · cases h
  · cases h
    rw [shows_later hab]
    unfold SF.Reads
    refine exists_congr fun i => exists_congr fun j => and_congr_right fun h1 => and_congr_right fun h2 => ?_
    have e := flat_get f.values i j (by rw [show f.values.nx = f.val.nx from rfl, hf.vx]; exact getElem?_some_lt h1)
      (by rw [show f.values.ny = f.val.ny from rfl, hf.vy]; exact getElem?_some_lt h2)
    rw [show f.values.ny = f.ay.length from hf.vy] at e
    rw [e]
    exact Option.some_inj

/-- C289 is violated by the default axes (x, y), and whenever the axes are in the order of the file: at the second abscissa and the first
ordinate the file shows the value of the first abscissa and the second ordinate. -/
theorem C289_order_violated (there : File.Path → Bool) (p : File.Path) (f : SF) (hf : f.WF) (a b : Ax) (hab : Later b a) (r : File (Option Rat))
    (h : exportSF there p f a b = .ok r) (x0 x1 y0 y1 : Rat) (hx0 : f.ax[0]? = some x0) (hx1 : f.ax[1]? = some x1) (hy0 : f.ay[0]? = some y0)
    (hy1 : f.ay[1]? = some y1) (v : Option Rat) :
    Shows r (place a b x1 y0) v ↔ f.Reads x0 y1 v := by
  have l1 := getElem?_some_lt hx1
  have l2 := getElem?_some_lt hy1
  unfold exportSF at h
  split at h
  · cases h
  · cases h
    rw [shows_sooner hab]
    have e := flat_get f.values 0 1 (by rw [show f.values.nx = f.val.nx from rfl, hf.vx]; omega)
      (by rw [show f.values.ny = f.val.ny from rfl, hf.vy]; omega)
    constructor
    · rintro ⟨i, j, h1, h2, h3⟩
      have ei := hf.incx.idx_inj' h1 hx1
      have ej := hf.incy.idx_inj' h2 hy0
      subst ei ej
      simp only [Nat.mul_zero, Nat.add_zero] at h3
      simp only [Nat.zero_mul, Nat.zero_add] at e
      rw [e] at h3
      exact ⟨0, 1, hx0, hy1, by simpa [SF.values] using h3⟩
    · rintro ⟨i, j, h1, h2, h3⟩
      have ei := hf.incx.idx_inj' h1 hx0
      have ej := hf.incy.idx_inj' h2 hy1
      subst ei ej
      refine ⟨1, 0, hx1, hy0, ?_⟩
      simp only [Nat.zero_mul, Nat.zero_add] at e
      simp only [Nat.mul_zero, Nat.add_zero, e]
      rw [← h3]; rfl

/-- C289 for the vectors: under the same condition, the file shows each visible vector at its position, with its components along the
axes. -/
theorem C289_vector_partial (there : File.Path → Bool) (p : File.Path) (f : VF) (hf : f.WF) (a b : Ax) (hab : Later a b)
    (r : File (Option Rat × Option Rat × Option Rat)) (h : exportVF there p f a b = .ok r) (x y u v : Rat)
    (hr : f.Reads x y (some (u, v))) (w : Option Rat × Option Rat × Option Rat) :
    Shows r (place a b x y) w ↔ w = (some (place a b u v).1, some (place a b u v).2.1, some (place a b u v).2.2) := by
  unfold exportVF at h
  split at h
  · cases h
  · cases h
    rw [shows_later hab]
    obtain ⟨i, j, h1, h2, h3⟩ := hr
    have l1 := getElem?_some_lt h1
    have l2 := getElem?_some_lt h2
    have ex := flat_get f.cx i j (by rw [hf.xx]; exact l1) (by rw [hf.xy]; exact l2)
    have ey := flat_get f.cy i j (by rw [hf.yx]; exact l1) (by rw [hf.yy]; exact l2)
    rw [hf.xy] at ex
    rw [hf.yy] at ey
    have hc : f.cx.get i j = some u ∧ f.cy.get i j = some v := by
      unfold VF.cell at h3
      split at h3
      · cases h3
      · split at h3
        · rename_i e1 e2
          cases h3
          exact ⟨e1, e2⟩
        · cases h3
    have e : (((flat f.cx).zip (flat f.cy)).map fun q => (comp a b q.1 q.2 .x, comp a b q.1 q.2 .y, comp a b q.1 q.2 .z))[i * f.ay.length + j]? =
        some (some (place a b u v).1, some (place a b u v).2.1, some (place a b u v).2.2) := by
      rw [List.getElem?_map, List.getElem?_zip_eq_some (z := (f.cx.get i j, f.cy.get i j)) |>.mpr ⟨ex, ey⟩]
      rw [hc.1, hc.2]
      cases a <;> cases b <;> first | exact absurd hab id | rfl
    constructor
    · rintro ⟨i', j', k1, k2, k3⟩
      have ei := hf.incx.idx_inj' k1 h1
      have ej := hf.incy.idx_inj' k2 h2
      subst ei ej
      rw [e] at k3
      exact (Option.some_inj.mp k3).symm
    · rintro rfl
      exact ⟨i, j, h1, h2, e⟩

/-- C289 is violated for masked vectors: the file shows the hidden components of a masked point, like those of any other point. -/
theorem C289_mask_violated (there : File.Path → Bool) (p : File.Path) (f : VF) (hf : f.WF) (a b : Ax) (hab : Later a b)
    (r : File (Option Rat × Option Rat × Option Rat)) (h : exportVF there p f a b = .ok r) (i j : Nat) (x y : Rat) (hx : f.ax[i]? = some x)
    (hy : f.ay[j]? = some y) (u v : Rat) (hu : f.cx.get i j = some u) (hv : f.cy.get i j = some v) (_hm : f.mask.get i j = true) :
    f.Reads x y none ∧ Shows r (place a b x y) (some (place a b u v).1, some (place a b u v).2.1, some (place a b u v).2.2) := by
  refine ⟨⟨i, j, hx, hy, by simp [VF.cell, _hm]⟩, ?_⟩
  unfold exportVF at h
  split at h
  · cases h
  · cases h
    rw [shows_later hab]
    have l1 := getElem?_some_lt hx
    have l2 := getElem?_some_lt hy
    have ex := flat_get f.cx i j (by rw [hf.xx]; exact l1) (by rw [hf.xy]; exact l2)
    have ey := flat_get f.cy i j (by rw [hf.yx]; exact l1) (by rw [hf.yy]; exact l2)
    rw [hf.xy] at ex
    rw [hf.yy] at ey
    refine ⟨i, j, hx, hy, ?_⟩
    rw [List.getElem?_map, List.getElem?_zip_eq_some (z := (f.cx.get i j, f.cy.get i j)) |>.mpr ⟨ex, ey⟩, hu, hv]
    cases a <;> cases b <;> first | exact absurd hab id | rfl

/-- C289: the same axis twice is refused, as is a folder that does not exist, for every field. -/
theorem C289_refused (there : File.Path → Bool) (p : File.Path) (f : SF) (g : VF) (a b : Ax) (h : a = b ∨ there (dirname p) = false) :
    exportSF there p f a b = .error .valueError ∧ exportVF there p g a b = .error .valueError := by
  have : checks there p a b = .error .valueError := by
    unfold checks
    rcases h with h | h
    · subst h; by_cases h2 : there (dirname p) = false <;> simp [h2]
    · simp [h]
  unfold exportSF exportVF
  rw [this]
  exact ⟨rfl, rfl⟩

/-- C289: with different axes and an existing folder, every field is written. -/
theorem C289_accepted (there : File.Path → Bool) (p : File.Path) (f : SF) (g : VF) (a b : Ax) (h : a ≠ b) (hp : there (dirname p) = true) :
    (∃ r, exportSF there p f a b = .ok r) ∧ ∃ r, exportVF there p g a b = .ok r := by
  have : checks there p a b = .ok ⟨⟩ := by unfold checks; rw [if_neg (by simp [hp]), if_neg h]
  unfold exportSF exportVF
  rw [this]
  exact ⟨⟨_, rfl⟩, ⟨_, rfl⟩⟩

theorem dirname_bare {p : File.Path} (h : '/' ∉ p) : dirname p = [] := by
  unfold dirname
  have : p.reverse.dropWhile (· != '/') = [] := by
    have key : ∀ l : List Char, '/' ∉ l → l.dropWhile (· != '/') = [] := by
      intro l
      induction l with
      | nil => intro _; rfl
      | cons c l ih =>
        intro hl
        simp only [List.mem_cons, not_or] at hl
        rw [List.dropWhile_cons_of_pos (by simpa using fun e => hl.1 e.symm)]
        exact ih hl.2
    exact key _ (by simpa using h)
  rw [this]; rfl

/-- C289 is violated for bare file names: no field can be written in the current folder under a name without a separator (the empty path does not
exist for `path.exists`). -/
theorem C289_bare_violated (there : File.Path → Bool) (ht : there [] = false) (p : File.Path) (hp : '/' ∉ p) (f : SF) (g : VF) (a b : Ax) :
    exportSF there p f a b = .error .valueError ∧ exportVF there p g a b = .error .valueError :=
  C289_refused there p f g a b (.inr (by rw [dirname_bare hp, ht]))

/-! ### C290: points -/

/-- C290 for the default axes: the file holds the points in their order, with the third coordinate null, and their values. -/
theorem C290_points_partial (there : File.Path → Bool) (p : File.Path) (s : Points.P) (line : Bool) (hp : there (dirname p) = true) :
    ∃ r, exportPts there p s .x .y line = .ok r ∧ r.pts = s.xy.map (fun q => (q.1, q.2, some 0)) ∧ r.vals = s.v ∧ r.line = line := by
  refine ⟨⟨s.xy.map (fun q => (q.1, q.2, some 0)), s.v, line⟩, ?_, rfl, rfl, rfl⟩
  unfold exportPts ptsFile
  have : checks there p .x .y = .ok ⟨⟩ := by unfold checks; rw [if_neg (by simp [hp]), if_neg (by simp)]
  rw [this]
  rfl

/-- C290 is violated for every other choice of axes: it is ignored, the coordinates are put along x and y. -/
theorem C290_axis_violated (there : File.Path → Bool) (p : File.Path) (s : Points.P) (a b : Ax) (line : Bool) :
    exportPts there p s a b line = exportPts there p s .x .y line := rfl

/-- C290 is violated for points without values: the file has fewer values (none) than points. -/
theorem C290_values_violated (there : File.Path → Bool) (p : File.Path) (s : Points.P) (a b : Ax) (line : Bool) (r : PFile)
    (h : exportPts there p s a b line = .ok r) (hv : s.v = []) (hs : s.xy ≠ []) : r.vals.length ≠ r.pts.length := by
  unfold exportPts ptsFile at h
  split at h
  · cases h
  · cases h
    simp only [hv, List.length_nil, List.length_map]
    intro e
    exact hs (List.length_eq_zero_iff.mp e.symm)

/-! ### examples -/

/-- A field of two by three points. -/
def small : SF where
  ax := [0, 1]
  ay := [10, 20, 30]
  val := ⟨2, 3, fun i j => some (10 * i + j)⟩
  mask := ⟨2, 3, fun i j => decide (i = 1 ∧ j = 2)⟩
  ux := .m
  uy := .m
  uv := .one

example : small.WF := by
  refine ⟨by decide, by decide, by decide, by decide, rfl, rfl, rfl, rfl, ?_⟩
  intro i j _ _ h
  cases h

example : (match exportSF (fun p => decide (p = ['d'])) ['d', '/', 'f'] small .y .x with
    | .ok r => decide (r.gx = [10, 20, 30] ∧ r.gy = [0, 1] ∧ r.gz = [0] ∧ r.data = [some 0, some 1, some 2, some 10, some 11, none])
    | .error _ => false) = true := by decide +kernel

example : (match exportSF (fun p => decide (p = ['d'])) ['d', '/', 'f'] small .x .y with
    | .ok r => decide (r.gx = [0, 1] ∧ r.gy = [10, 20, 30] ∧ r.gz = [0] ∧ r.data = [some 0, some 1, some 2, some 10, some 11, none])
    | .error _ => false) = true := by decide +kernel

example : '/' ∉ ['f', '.', 'v', 't', 'k'] := by decide

end IMT.Vtk
