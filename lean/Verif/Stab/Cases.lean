import Verif.Stab.Film

/-!
Concrete cases of the theorems of C176-C181.
-/

namespace IMT.Stab

/-- A small world: borders continue the picture, every estimate is a shift of one column, smoothing flattens. -/
noncomputable def demo (m : Mat) : World Int where
  features _ := true
  estimate _ _ := some m
  pad _ im k := ⟨im.nx + 2 * k, im.ny + 2 * k, fun i j => im.px (i - k) (j - k)⟩
  sample _ im q := im.px ⌊q.2⌋ ⌊q.1⌋
  smooth _ l := l.map fun _ => 0

theorem demo_lawful (m : Mat) : (demo m).Lawful where
  padX _ _ _ := rfl
  padY _ _ _ := rfl
  padPx _ _ _ i j _ := by simp [demo]
  samplePx _ _ i j _ := by simp [demo]
  smoothLen _ l := by simp [demo]

/-- A film of `n + 1` frames of 3 x 3 pixels in which the picture moves by one column at each frame. -/
def demoFilm (dx dy : Rat) (n : ℕ) : Film Int Unit where
  axeX := [0, dx, 2 * dx]
  axeY := [0, dy, 2 * dy]
  units := ()
  frames := (List.range (n + 1)).map fun k : ℕ => ((k : Rat), ⟨3, 3, fun i j => 10 * i + (j - k)⟩)

theorem demo_even (dx dy : Rat) (hx : 0 < dx) (hy : 0 < dy) (n : ℕ) : (demoFilm dx dy n).Even 0 dx 3 0 dy 3 where
  x := ⟨hx, by norm_num, by simp [demoFilm, List.range_succ_eq_map]⟩
  y := ⟨hy, by norm_num, by simp [demoFilm, List.range_succ_eq_map]⟩
  shape f hf := by
    simp only [demoFilm, List.mem_map] at hf
    obtain ⟨k, -, rfl⟩ := hf
    exact ⟨rfl, rfl⟩

theorem arg_one : Complex.arg ⟨1, 0⟩ = 0 := by
  have : (⟨1, 0⟩ : ℂ) = ((1 : ℝ) : ℂ) := rfl
  rw [this, Complex.arg_ofReal_of_nonneg zero_le_one]

theorem demo_computed (dx dy : Rat) : computed (demo ⟨1, 0, 1, 0⟩) .continuous false ((demoFilm dx dy 1).frames.map Prod.snd) =
    .ok ([⟨1, 0, 0⟩], [⟨1, 0, 0⟩]) := by
  simp [demoFilm, List.range_succ_eq_map, computed, moves, rawOf, cumsum, demo, trOf, Tr.add, Tr.zero, arg_one]

theorem demo_get (dx dy : Rat) (b : ℕ) : ∃ s' out, get (demo ⟨1, 0, 1, 0⟩) .continuous (demoFilm dx dy 1) false 30 .black b fresh =
    (s', .ok (some out)) ∧ s'.raw = some [⟨1, 0, 0⟩] ∧ s'.traj = [⟨1, 0, 0⟩] ∧ s'.smoothTraj = [⟨0, 0, 0⟩] ∧
      s'.smooth = some [⟨0, 0, 0⟩] := by
  have := get_eq (demo ⟨1, 0, 1, 0⟩) .continuous (demoFilm dx dy 1) false 30 .black b fresh _ _ (demo_computed dx dy) (by simp)
  refine ⟨_, _, this, rfl, rfl, ?_, ?_⟩
  · simp [smoothed, demo]
  · simp [smoothed, demo, Tr.sub, Tr.add]

-- C176: transforms found in both modes
example : ∃ q, computed (demo ⟨1, 0, 1, 0⟩) .fromFirst false ((demoFilm 1 1 3).frames.map Prod.snd) = .ok q :=
  (C176_found _ _ _ _ ⟨0, 0, fun _ _ => 0⟩ (by simp [demoFilm])).2 ⟨rfl, Or.inr ⟨rfl, rfl⟩⟩
example : ∃ q, computed (demo ⟨1, 0, 1, 0⟩) .continuous false ((demoFilm 1 1 3).frames.map Prod.snd) = .ok q :=
  (C176_found _ _ _ _ ⟨0, 0, fun _ _ => 0⟩ (by simp [demoFilm])).2 ⟨rfl, Or.inl ⟨rfl, fun _ _ => rfl⟩⟩
-- C177: a state with tracked points, a picture that is scaled, one that is shifted then turned
example : ∃ (s : State Int Unit) (out : _), s.raw = some [⟨1, 0, 0⟩] ∧ track s [(0, 0), (2, 1)] 0 = .ok out :=
  ⟨⟨some [⟨1, 0, 0⟩], [], [], some [], none⟩, _, rfl, by simp only [track]; rw [if_neg (by simp)]⟩
example : (⟨1, 0, 1, 0⟩ : Mat).brings (2, 1) (2, 2) ∧ (1 : ℝ) ^ 2 + 0 ^ 2 = 1 := ⟨⟨by norm_num, by norm_num⟩, by norm_num⟩
example : (⟨2, 0, 0, 0⟩ : Mat).brings (2, 1) (4, 2) := ⟨by norm_num, by norm_num⟩
example : ∃ q, computed (demo ⟨2, 0, 0, 0⟩) .continuous false [⟨1, 1, fun _ _ => 0⟩, ⟨1, 1, fun _ _ => 0⟩] = .ok q :=
  (C176_found _ _ _ _ ⟨0, 0, fun _ _ => 0⟩ (by simp)).2 ⟨rfl, Or.inl ⟨rfl, fun _ _ => rfl⟩⟩
open Classical in
example : ∃ (w : World Int) (f g k : Im Int), w.estimate f g = some ⟨1, 0, 1, 0⟩ ∧
    w.estimate f k = some ⟨Real.cos 1, Real.sin 1, 1, 0⟩ ∧ w.features f = true :=
  ⟨{ demo ⟨1, 0, 1, 0⟩ with estimate := fun _ y => if y.nx = 1 then some ⟨1, 0, 1, 0⟩ else some ⟨Real.cos 1, Real.sin 1, 1, 0⟩ },
    ⟨1, 1, fun _ _ => 0⟩, ⟨1, 1, fun _ _ => 0⟩, ⟨2, 1, fun _ _ => 0⟩, by simp, by simp, rfl⟩
-- C178: the film is stabilised, with a good y axis or a bad one
example : (demoFilm 1 1 1).Even 0 1 3 0 1 3 := demo_even 1 1 (by norm_num) (by norm_num) 1
example : (demoFilm 2 1 1).Even 0 2 3 0 1 3 := demo_even 2 1 (by norm_num) (by norm_num) 1
example : ∃ s' out, get (demo ⟨1, 0, 1, 0⟩) .continuous (demoFilm 2 1 1) false 30 .black 2 fresh = (s', .ok (some out)) := by
  obtain ⟨s', out, h, -⟩ := demo_get 2 1 2
  exact ⟨s', out, h⟩

/-- C179: the picture moves by one column, the smoothed trajectory is flat, and the stabilised film still moves by one column. -/
theorem C179_example (b : ℕ) : ∃ s' out, get (demo ⟨1, 0, 1, 0⟩) .continuous (demoFilm 1 1 1) false 30 .black b fresh =
    (s', .ok (some out)) ∧ s'.smoothTraj = [⟨0, 0, 0⟩] ∧
      (out.frames.getD 1 (0, ⟨0, 0, fun _ _ => 0⟩)).2.px (1 + b) (1 + 1 + b) =
        (out.frames.getD 0 (0, ⟨0, 0, fun _ _ => 0⟩)).2.px (1 + b) (1 + b) := by
  obtain ⟨s', out, h, hr, ht, hs, -⟩ := demo_get 1 1 b
  refine ⟨s', out, h, hs, ?_⟩
  rw [C178_first (demo_lawful _) _ _ _ _ _ _ _ _ _ _ h 1 1 (by simp [demoFilm, Im.Has, List.range_succ_eq_map])]
  refine C179_residual_partial (demo_lawful _) _ _ _ _ _ _ _ _ _ _ h _ _ hr ht 0 (by simp) (by simp) (by simp) (by simp [hs]) 1 1 0 1 1
    (1 + 1) (by simp) (by simp) ?_ ?_ ?_ ?_
  · simp [demoFilm, Im.Has, List.range_succ_eq_map]
  · simp [demoFilm, List.range_succ_eq_map]
  · simp [hs]
  · simp [hs]; norm_num

-- C180: a frame that turns
example : Real.cos (⟨0, 0, Real.pi⟩ : Tr).da ≠ 1 := by norm_num

end IMT.Stab
