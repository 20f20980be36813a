import Verif.Stab.Motion
import Mathlib.Algebra.Order.Floor.Ring
import Mathlib.Data.Rat.Floor
import Mathlib.Tactic.NormNum

/-!
C178: the stabilised film.  C179: what is left of the motion.  C180: the border.  C181: histories of a `Stabilizer`.
-/

namespace IMT.Stab

variable {V U : Type}

/-! ### specification -/

/-- What opencv and scipy do: a border keeps the picture in its middle, the interpolation is exact on the pixels, smoothing keeps the
number of values. -/
structure World.Lawful (w : World V) : Prop where
  padX : ∀ bt im k, (w.pad bt im k).nx = im.nx + 2 * k
  padY : ∀ bt im k, (w.pad bt im k).ny = im.ny + 2 * k
  padPx : ∀ bt im k i j, im.Has i j → (w.pad bt im k).px (i + k) (j + k) = im.px i j
  samplePx : ∀ bt im (i j : Int), im.Has i j → w.sample bt im ((j : ℝ), (i : ℝ)) = im.px i j
  smoothLen : ∀ size l, (w.smooth size l).length = l.length

/-- An evenly spaced axis. -/
def Even (l : List Rat) (x0 h : Rat) (n : ℕ) : Prop := 0 < h ∧ 2 ≤ n ∧ l = (List.range n).map fun k : ℕ => x0 + k * h

/-- A film of evenly spaced fields, all frames having the shape of the axes. -/
structure Film.Even (film : Film V U) (x0 dx : Rat) (nx : ℕ) (y0 dy : Rat) (ny : ℕ) : Prop where
  x : Stab.Even film.axeX x0 dx nx
  y : Stab.Even film.axeY y0 dy ny
  shape : ∀ f ∈ film.frames, f.2.nx = nx ∧ f.2.ny = ny

/-- The place, as (row, column), where a pixel of a frame is shown on a film stabilised without border. -/
noncomputable def shown (t : Tr) (p : ℝ × ℝ) : ℝ × ℝ :=
  (Real.sin t.da * p.2 + Real.cos t.da * p.1 + t.dy, Real.cos t.da * p.2 - Real.sin t.da * p.1 + t.dx)

/-! ### lemmas -/

theorem get_ok (w : World V) (mode : Mode) (film : Film V U) (dense : Bool) (size : ℝ) (bt : Border) (b : ℕ) (s s' : State V U)
    (o : Option (Film V U)) (h : get w mode film dense size bt b s = (s', .ok o)) :
    ∃ r t, computed w mode dense (film.frames.map Prod.snd) = .ok (r, t) ∧ t ≠ [] ∧
      s' = ⟨some r, t, smoothed w size t, some (List.zipWith Tr.add r (List.zipWith Tr.sub (smoothed w size t) t)),
        some (applied w bt b film (List.zipWith Tr.add r (List.zipWith Tr.sub (smoothed w size t) t)))⟩ ∧
      o = some (applied w bt b film (List.zipWith Tr.add r (List.zipWith Tr.sub (smoothed w size t) t))) := by
  unfold get compute at h
  cases hc : computed w mode dense (film.frames.map Prod.snd) with
  | error e => rw [hc] at h; simp at h
  | ok q =>
    obtain ⟨r, t⟩ := q
    rw [hc] at h
    simp only [smoothStep] at h
    by_cases ht : t = []
    · simp [ht] at h
    · simp only [if_neg ht, apply, Prod.mk.injEq, Except.ok.injEq] at h
      exact ⟨r, t, rfl, ht, h.1.symm, h.2.symm⟩

theorem get_eq (w : World V) (mode : Mode) (film : Film V U) (dense : Bool) (size : ℝ) (bt : Border) (b : ℕ) (s : State V U)
    (r t : List Tr) (hc : computed w mode dense (film.frames.map Prod.snd) = .ok (r, t)) (ht : t ≠ []) :
    get w mode film dense size bt b s =
      (⟨some r, t, smoothed w size t, some (List.zipWith Tr.add r (List.zipWith Tr.sub (smoothed w size t) t)),
        some (applied w bt b film (List.zipWith Tr.add r (List.zipWith Tr.sub (smoothed w size t) t)))⟩,
      .ok (some (applied w bt b film (List.zipWith Tr.add r (List.zipWith Tr.sub (smoothed w size t) t))))) := by
  unfold get compute
  rw [hc]
  simp only [smoothStep, if_neg ht, apply]

theorem Even.step {l : List Rat} {x0 h : Rat} {n : ℕ} (e : Even l x0 h n) : step l = h := by
  obtain ⟨-, h2, rfl⟩ := e
  obtain ⟨m, rfl⟩ : ∃ m, n = m + 2 := ⟨n - 2, by omega⟩
  unfold Stab.step
  rw [List.getD_eq_getElem _ _ (by simp)]
  simp [List.range_succ_eq_map]

theorem Even.head {l : List Rat} {x0 h : Rat} {n : ℕ} (e : Even l x0 h n) : l.headD 0 = x0 := by
  obtain ⟨-, h2, rfl⟩ := e
  obtain ⟨m, rfl⟩ : ∃ m, n = m + 1 := ⟨n - 1, by omega⟩
  simp [List.range_succ_eq_map]

theorem Even.last {l : List Rat} {x0 h : Rat} {n : ℕ} (e : Even l x0 h n) : l.getLastD 0 = x0 + ((n - 1 : ℕ) : Rat) * h := by
  obtain ⟨-, h2, rfl⟩ := e
  obtain ⟨m, rfl⟩ : ∃ m, n = m + 1 := ⟨n - 1, by omega⟩
  rw [List.range_succ, List.map_append]
  simp

theorem Even.length {l : List Rat} {x0 h : Rat} {n : ℕ} (e : Even l x0 h n) : l.length = n := by
  obtain ⟨-, -, rfl⟩ := e; simp

theorem arange_even (x0 h : Rat) (n b : ℕ) (hh : 0 < h) (hn : 2 ≤ n) (c : Rat) (m : ℕ) (hm : ⌈c / h⌉ = m) :
    arange (x0 - b * h) (x0 + ((n - 1 : ℕ) : Rat) * h + b * h + c) h =
      (List.range (n - 1 + 2 * b + m)).map fun k : ℕ => x0 - b * h + k * h := by
  unfold arange
  have e : (x0 + ((n - 1 : ℕ) : Rat) * h + b * h + c - (x0 - b * h)) / h = c / h + ((n - 1 + 2 * b : ℕ) : Rat) := by
    push_cast
    field_simp
    ring
  rw [e, Int.ceil_add_natCast, hm]
  congr 2
  omega

theorem newX_even {film : Film V U} {x0 dx y0 dy : Rat} {nx ny : ℕ} (e : film.Even x0 dx nx y0 dy ny) (b : ℕ) :
    newX film b = (List.range (nx + 2 * b)).map fun k : ℕ => x0 - b * dx + k * dx := by
  unfold newX
  rw [e.x.step, e.x.head, e.x.last]
  have h2 := e.x.2.1
  rw [arange_even x0 dx nx b e.x.1 e.x.2.1 dx 1 (by rw [div_self e.x.1.ne']; simp)]
  congr 2
  omega

theorem newY_even {film : Film V U} {x0 dx y0 dy : Rat} {nx ny : ℕ} (e : film.Even x0 dx nx y0 dy ny) (b : ℕ) :
    newY film b = (List.range (ny - 1 + 2 * b + ⌈dx / dy⌉.toNat)).map fun k : ℕ => y0 - b * dy + k * dy := by
  unfold newY
  rw [e.x.step, e.y.step, e.y.head, e.y.last]
  refine arange_even y0 dy ny b e.y.1 e.y.2.1 dx _ ?_
  rw [Int.toNat_of_nonneg]
  exact Int.ceil_nonneg (div_nonneg e.x.1.le e.y.1.le)

theorem moved_px {w : World V} (hw : w.Lawful) (bt : Border) (b : ℕ) (film : Film V U) (t : Tr) (im : Im V) (i j i' j' : Int)
    (hh : im.Has i j)
    (hp : shown t (((i + 2 * b : Int) : ℝ), ((j + 2 * b : Int) : ℝ)) = (((i' + b : Int) : ℝ), ((j' + b : Int) : ℝ))) :
    (moved w bt b film t im).px i' j' = im.px i j := by
  simp only [moved, cropIm, warp]
  have hsc := Real.sin_sq_add_cos_sq t.da
  simp only [shown, Prod.mk.injEq] at hp
  obtain ⟨h1, h2⟩ := hp
  have hin : (w.pad bt im (b * 2)).Has (i + (b * 2 : ℕ)) (j + (b * 2 : ℕ)) := by
    obtain ⟨a1, a2, a3, a4⟩ := hh
    refine ⟨by positivity, ?_, by positivity, ?_⟩
    · rw [hw.padX]; push_cast; omega
    · rw [hw.padY]; push_cast; omega
  have e1 : Real.cos t.da * (((j' + b : Int) : ℝ) - t.dx) + Real.sin t.da * (((i' + b : Int) : ℝ) - t.dy) =
      (((j + (b * 2 : ℕ) : Int)) : ℝ) := by
    rw [← h1, ← h2]
    push_cast
    linear_combination ((j : ℝ) + b * 2) * hsc
  have e2 : -Real.sin t.da * (((j' + b : Int) : ℝ) - t.dx) + Real.cos t.da * (((i' + b : Int) : ℝ) - t.dy) =
      (((i + (b * 2 : ℕ) : Int)) : ℝ) := by
    rw [← h1, ← h2]
    push_cast
    linear_combination ((i : ℝ) + b * 2) * hsc
  rw [e1, e2, hw.samplePx _ _ _ _ hin, hw.padPx _ _ _ _ _ hh]

theorem smoothed_length {w : World V} (hw : w.Lawful) (size : ℝ) (t : List Tr) : (smoothed w size t).length = t.length := by
  simp [smoothed, hw.smoothLen]

theorem smoothed_get {w : World V} (hw : w.Lawful) (size : ℝ) (t : List Tr) (k : ℕ) (hk : k < t.length) :
    (smoothed w size t).getD k Tr.zero = ⟨(w.smooth size (t.map Tr.dx)).getD k 0, (w.smooth size (t.map Tr.dy)).getD k 0,
      (w.smooth size (t.map Tr.da)).getD k 0⟩ := by
  rw [List.getD_eq_getElem _ _ (by rw [smoothed_length hw]; exact hk),
    List.getD_eq_getElem _ _ (by rw [hw.smoothLen]; simpa using hk), List.getD_eq_getElem _ _ (by rw [hw.smoothLen]; simpa using hk),
    List.getD_eq_getElem _ _ (by rw [hw.smoothLen]; simpa using hk)]
  simp [smoothed]

/-- The transform applied to the frame `k + 1`. -/
theorem applied_tr {w : World V} (hw : w.Lawful) (size : ℝ) (r t : List Tr) (hl : t.length = r.length) (k : ℕ) (hk : k < r.length) :
    (List.zipWith Tr.add r (List.zipWith Tr.sub (smoothed w size t) t)).getD k Tr.zero =
      (r.getD k Tr.zero).add (((smoothed w size t).getD k Tr.zero).sub (t.getD k Tr.zero)) := by
  have hs := smoothed_length hw size t
  rw [List.getD_eq_getElem _ _ (by simp [hs, hl]; exact hk), List.getD_eq_getElem _ _ hk,
    List.getD_eq_getElem _ _ (by omega), List.getD_eq_getElem _ _ (by omega)]
  simp

theorem applied_frame {w : World V} (bt : Border) (b : ℕ) (film : Film V U) (trs : List Tr) (d : Rat × Im V) (k : ℕ)
    (hk : k < film.frames.length) (hl : trs.length + 1 = film.frames.length) :
    (applied w bt b film trs).frames.getD k d = ((film.frames.getD k d).1,
      moved w bt b film ((Tr.zero :: trs).getD k Tr.zero) (film.frames.getD k d).2) := by
  simp only [applied]
  rw [List.getD_eq_getElem _ _ (by simp; omega), List.getD_eq_getElem _ _ hk, List.getD_eq_getElem _ _ (by simp; omega)]
  simp

/-! ### C178 -/

/-- **C178** The stabilised film has the times, the units and the number of frames of the film; each frame has `b` more pixels on each
side; the x axis is the one of the film, continued by `b` points on each side.  When the x step is not larger than the y step, so is
the y axis. -/
theorem C178_film_partial {w : World V} (hw : w.Lawful) (mode : Mode) (film : Film V U) (dense : Bool) (size : ℝ) (bt : Border) (b : ℕ)
    (s s' : State V U) (out : Film V U) (x0 dx y0 dy : Rat) (nx ny : ℕ) (he : film.Even x0 dx nx y0 dy ny)
    (h : get w mode film dense size bt b s = (s', .ok (some out))) :
    out.frames.map Prod.fst = film.frames.map Prod.fst ∧ out.units = film.units ∧
      (∀ f ∈ out.frames, f.2.nx = nx + 2 * b ∧ f.2.ny = ny + 2 * b) ∧
      out.axeX = ((List.range (nx + 2 * b)).map fun k : ℕ => x0 + ((k : Rat) - b) * dx) ∧
      (dx ≤ dy → out.axeY = (List.range (ny + 2 * b)).map fun k : ℕ => y0 + ((k : Rat) - b) * dy) := by
  obtain ⟨r, t, hc, ht, -, ho⟩ := get_ok w mode film dense size bt b s s' _ h
  simp only [Option.some.injEq] at ho
  subst ho
  have hrun := C176_running w mode dense _ r t hc
  have hlen : (List.zipWith Tr.add r (List.zipWith Tr.sub (smoothed w size t) t)).length + 1 = film.frames.length := by
    have := hrun.1
    simp only [List.length_map] at this
    simp [smoothed_length hw, hrun.2.1, this]
  generalize hT : List.zipWith Tr.add r (List.zipWith Tr.sub (smoothed w size t) t) = trs at hlen ⊢
  refine ⟨?_, rfl, ?_, ?_, ?_⟩
  · simp only [applied]
    apply List.ext_getElem
    · simp; omega
    · intro i h1 h2
      simp
  · intro f hf
    simp only [applied] at hf
    obtain ⟨k, hk, rfl⟩ := List.getElem_of_mem hf
    simp only [List.getElem_zipWith, moved, cropIm, warp]
    rw [he.x.length, he.y.length]
    exact ⟨by omega, by omega⟩
  · simp only [applied, newX_even he]
    apply List.map_congr_left
    intro k _
    ring
  · intro hle
    simp only [applied, newY_even he]
    have hc : ⌈dx / dy⌉ = 1 := by
      rw [Int.ceil_eq_iff]
      have h1 := he.x.1
      have h2 := he.y.1
      refine ⟨by push_cast; simp; positivity, ?_⟩
      push_cast
      exact (div_le_one h2).2 hle
    have h2 := he.y.2.1
    have hn : ny - 1 + 2 * b + ⌈dx / dy⌉.toNat = ny + 2 * b := by rw [hc]; simp; omega
    rw [hn]
    apply List.map_congr_left
    intro k _
    ring

/-- **C178** When the x step is larger than the y step, the y axis of every stabilised film has too many points: it does not have the
length of the pictures. -/
theorem C178_axis_violated {w : World V} (hw : w.Lawful) (mode : Mode) (film : Film V U) (dense : Bool) (size : ℝ) (bt : Border) (b : ℕ)
    (s s' : State V U) (out : Film V U) (x0 dx y0 dy : Rat) (nx ny : ℕ) (he : film.Even x0 dx nx y0 dy ny) (hd : dy < dx)
    (h : get w mode film dense size bt b s = (s', .ok (some out))) :
    ∀ f ∈ out.frames, f.2.ny < out.axeY.length := by
  have hfilm := C178_film_partial hw mode film dense size bt b s s' out x0 dx y0 dy nx ny he h
  intro f hf
  rw [(hfilm.2.2.1 f hf).2]
  obtain ⟨r, t, hc, ht, -, ho⟩ := get_ok w mode film dense size bt b s s' _ h
  simp only [Option.some.injEq] at ho
  subst ho
  simp only [applied, newY_even he, List.length_map, List.length_range]
  have hc : 2 ≤ ⌈dx / dy⌉ := by
    have : (1 : Int) < ⌈dx / dy⌉ := by
      rw [Int.lt_ceil]
      push_cast
      exact (one_lt_div he.y.1).2 hd
    omega
  have h2 := he.y.2.1
  omega

/-- **C178** The first frame is shown as it is, at its own coordinates: the pixel `i, j` of the film is the pixel `i + b, j + b`. -/
theorem C178_first {w : World V} (hw : w.Lawful) (mode : Mode) (film : Film V U) (dense : Bool) (size : ℝ) (bt : Border) (b : ℕ)
    (s s' : State V U) (out : Film V U) (d : Rat × Im V) (h : get w mode film dense size bt b s = (s', .ok (some out))) (i j : Int)
    (hij : (film.frames.getD 0 d).2.Has i j) :
    (out.frames.getD 0 d).2.px (i + b) (j + b) = (film.frames.getD 0 d).2.px i j := by
  obtain ⟨r, t, hc, ht, -, ho⟩ := get_ok w mode film dense size bt b s s' _ h
  simp only [Option.some.injEq] at ho
  subst ho
  have hrun := C176_running w mode dense _ r t hc
  have hlen : (List.zipWith Tr.add r (List.zipWith Tr.sub (smoothed w size t) t)).length + 1 = film.frames.length := by
    have := hrun.1
    simp only [List.length_map] at this
    simp [smoothed_length hw, hrun.2.1, this]
  rw [applied_frame bt b film _ d 0 (by omega) hlen]
  simp only [List.getD_cons_zero]
  apply moved_px hw bt b film _ _ _ _ _ _ hij
  simp only [shown, Tr.zero, Real.sin_zero, Real.cos_zero, zero_mul, one_mul, zero_add, add_zero, sub_zero, Prod.mk.injEq]
  push_cast
  exact ⟨by ring, by ring⟩

/-! ### C179 -/

/-- **C179** On a film whose picture does not turn, a pixel of the first frame found at the place the trajectory says on a later frame
is shown there at the place the **smoothed** trajectory says, plus the last frame to frame displacement. -/
theorem C179_residual_partial {w : World V} (hw : w.Lawful) (mode : Mode) (film : Film V U) (dense : Bool) (size : ℝ) (bt : Border) (b : ℕ)
    (s s' : State V U) (out : Film V U) (d : Rat × Im V) (h : get w mode film dense size bt b s = (s', .ok (some out)))
    (r t : List Tr) (hr : s'.raw = some r) (ht : s'.traj = t) (k : ℕ) (hk : k < r.length)
    (h0 : (r.getD k Tr.zero).da = 0) (h1 : (t.getD k Tr.zero).da = 0) (h2 : (s'.smoothTraj.getD k Tr.zero).da = 0)
    (i j a c : Int) (i' j' : Int)
    (hta : (t.getD k Tr.zero).dy = a) (htc : (t.getD k Tr.zero).dx = c)
    (hij : (film.frames.getD (k + 1) d).2.Has (i + a) (j + c))
    (hpos : (film.frames.getD (k + 1) d).2.px (i + a) (j + c) = (film.frames.getD 0 d).2.px i j)
    (hi : (i' : ℝ) = i + ((s'.smoothTraj.getD k Tr.zero).dy + (r.getD k Tr.zero).dy))
    (hj : (j' : ℝ) = j + ((s'.smoothTraj.getD k Tr.zero).dx + (r.getD k Tr.zero).dx)) :
    (out.frames.getD (k + 1) d).2.px (i' + b) (j' + b) = (film.frames.getD 0 d).2.px i j := by
  obtain ⟨r0, t0, hc, hne, rfl, ho⟩ := get_ok w mode film dense size bt b s s' _ h
  simp only [Option.some.injEq] at ho hr ht
  subst ho hr ht
  have hrun := C176_running w mode dense _ r0 t0 hc
  have hlen : (List.zipWith Tr.add r0 (List.zipWith Tr.sub (smoothed w size t0) t0)).length + 1 = film.frames.length := by
    have := hrun.1
    simp only [List.length_map] at this
    simp [smoothed_length hw, hrun.2.1, this]
  have hfl : film.frames.length = r0.length + 1 := by
    have := hrun.1
    simp only [List.length_map] at this
    omega
  rw [applied_frame bt b film _ d (k + 1) (by omega) hlen, ← hpos]
  simp only [List.getD_cons_succ]
  rw [applied_tr hw size r0 t0 hrun.2.1 k hk]
  apply moved_px hw bt b film _ _ _ _ _ _ hij
  simp only at hi hj h2
  simp only [shown, Tr.add, Tr.sub, h0, h1, h2, hta, htc, sub_zero, add_zero, Real.sin_zero, Real.cos_zero, zero_mul, one_mul, zero_add,
    Prod.mk.injEq]
  push_cast
  exact ⟨by rw [hi]; ring, by rw [hj]; ring⟩

/-- **C179** So the picture follows the smoothed trajectory on the frames where nothing moved, and on these frames only. -/
theorem C179_residual_violated {w : World V} (hw : w.Lawful) (mode : Mode) (film : Film V U) (dense : Bool) (size : ℝ) (bt : Border)
    (b : ℕ) (s s' : State V U) (out : Film V U) (h : get w mode film dense size bt b s = (s', .ok (some out)))
    (r t trs : List Tr) (hr : s'.raw = some r) (ht : s'.traj = t) (hs : s'.smooth = some trs) (k : ℕ) (hk : k < r.length)
    (h0 : (r.getD k Tr.zero).da = 0) (h1 : (t.getD k Tr.zero).da = 0) (h2 : (s'.smoothTraj.getD k Tr.zero).da = 0) (p : ℝ × ℝ) :
    shown (trs.getD k Tr.zero) (p.1 + (t.getD k Tr.zero).dy, p.2 + (t.getD k Tr.zero).dx) =
        (p.1 + (s'.smoothTraj.getD k Tr.zero).dy, p.2 + (s'.smoothTraj.getD k Tr.zero).dx) ↔
      (r.getD k Tr.zero).dx = 0 ∧ (r.getD k Tr.zero).dy = 0 := by
  obtain ⟨r0, t0, hc, hne, rfl, ho⟩ := get_ok w mode film dense size bt b s s' _ h
  simp only [Option.some.injEq] at hr ht hs
  subst hr ht hs
  have hrun := C176_running w mode dense _ r0 t0 hc
  rw [applied_tr hw size r0 t0 hrun.2.1 k hk]
  simp only at h2
  simp only [shown, Tr.add, Tr.sub, h0, h1, h2]
  norm_num
  constructor
  · rintro ⟨a1, a2⟩
    exact ⟨by linarith, by linarith⟩
  · rintro ⟨a1, a2⟩
    rw [a1, a2]
    exact ⟨by ring, by ring⟩

/-! ### C180 -/

/-- **C180** When the picture does not turn, a border of `b` pixels changes nothing to what is shown at a given place: a pixel brought
from `p` to `q` by the transform of its frame is shown at `q`, counted from the corner of the film. -/
theorem C180_border_partial {w : World V} (hw : w.Lawful) (mode : Mode) (film : Film V U) (dense : Bool) (size : ℝ) (bt : Border) (b : ℕ)
    (s s' : State V U) (out : Film V U) (d : Rat × Im V) (h : get w mode film dense size bt b s = (s', .ok (some out)))
    (trs : List Tr) (hs : s'.smooth = some trs) (k : ℕ) (hk : k + 1 < film.frames.length) (h0 : (trs.getD k Tr.zero).da = 0)
    (i j i' j' : Int) (hij : (film.frames.getD (k + 1) d).2.Has i j)
    (hp : shown (trs.getD k Tr.zero) ((i : ℝ), (j : ℝ)) = ((i' : ℝ), (j' : ℝ))) :
    (out.frames.getD (k + 1) d).2.px (i' + b) (j' + b) = (film.frames.getD (k + 1) d).2.px i j := by
  obtain ⟨r0, t0, hc, hne, rfl, ho⟩ := get_ok w mode film dense size bt b s s' _ h
  simp only [Option.some.injEq] at ho hs
  subst ho
  rw [hs]
  have hrun := C176_running w mode dense _ r0 t0 hc
  have hlen : trs.length + 1 = film.frames.length := by
    have := hrun.1
    simp only [List.length_map] at this
    rw [← hs]
    simp [smoothed_length hw, hrun.2.1, this]
  rw [applied_frame bt b film _ d (k + 1) (by omega) hlen]
  simp only [List.getD_cons_succ]
  apply moved_px hw bt b film _ _ _ _ _ _ hij
  simp only [shown, h0, Real.sin_zero, Real.cos_zero, zero_mul, one_mul, zero_add, sub_zero, Prod.mk.injEq] at hp ⊢
  push_cast
  exact ⟨by linarith [hp.1], by linarith [hp.2]⟩

/-- **C180** In general, with a border of `b` pixels, the pixel of a frame is shown at the place the transform gives to the pixel moved by
`2 b`, counted from the corner of the widened picture. -/
theorem C180_place {w : World V} (hw : w.Lawful) (mode : Mode) (film : Film V U) (dense : Bool) (size : ℝ) (bt : Border) (b : ℕ)
    (s s' : State V U) (out : Film V U) (d : Rat × Im V) (h : get w mode film dense size bt b s = (s', .ok (some out)))
    (trs : List Tr) (hs : s'.smooth = some trs) (k : ℕ) (hk : k + 1 < film.frames.length)
    (i j i' j' : Int) (hij : (film.frames.getD (k + 1) d).2.Has i j)
    (hp : shown (trs.getD k Tr.zero) ((i : ℝ) + 2 * b, (j : ℝ) + 2 * b) = ((i' : ℝ) + 2 * b, (j' : ℝ) + 2 * b)) :
    (out.frames.getD (k + 1) d).2.px (i' + b) (j' + b) = (film.frames.getD (k + 1) d).2.px i j := by
  obtain ⟨r0, t0, hc, hne, rfl, ho⟩ := get_ok w mode film dense size bt b s s' _ h
  simp only [Option.some.injEq] at ho hs
  subst ho
  rw [hs]
  have hrun := C176_running w mode dense _ r0 t0 hc
  have hlen : trs.length + 1 = film.frames.length := by
    have := hrun.1
    simp only [List.length_map] at this
    rw [← hs]
    simp [smoothed_length hw, hrun.2.1, this]
  rw [applied_frame bt b film _ d (k + 1) (by omega) hlen]
  simp only [List.getD_cons_succ]
  apply moved_px hw bt b film _ _ _ _ _ _ hij
  push_cast
  rw [hp]
  exact Prod.ext (by simp only; ring) (by simp only; ring)

/-- **C180** When the picture turns, a border changes what is shown: the transform is applied around the corner of the widened picture.
For a frame turned by an angle that is no multiple of `2π`, with a border, no pixel is shown at its place. -/
theorem C180_border_violated (t : Tr) (b : ℕ) (hb : 0 < b) (hc : Real.cos t.da ≠ 1) (p : ℝ × ℝ) :
    shown t (p.1 + 2 * b, p.2 + 2 * b) ≠ ((shown t p).1 + 2 * b, (shown t p).2 + 2 * b) := by
  intro h
  simp only [shown, Prod.mk.injEq] at h
  obtain ⟨h1, h2⟩ := h
  have hb' : (0 : ℝ) < b := by exact_mod_cast hb
  have e1 : Real.sin t.da + Real.cos t.da = 1 := by
    have : (2 * (b : ℝ)) * (Real.sin t.da + Real.cos t.da - 1) = 0 := by linarith
    rcases mul_eq_zero.1 this with h | h
    · linarith
    · linarith
  have e2 : Real.cos t.da - Real.sin t.da = 1 := by
    have : (2 * (b : ℝ)) * (Real.cos t.da - Real.sin t.da - 1) = 0 := by linarith
    rcases mul_eq_zero.1 this with h | h
    · linarith
    · linarith
  exact hc (by linarith)

/-! ### C181 -/

/-- What a user can do with a stabilizer. -/
inductive Op where
  | compute (dense : Bool) | smooth (size : ℝ) | apply (bt : Border) (b : ℕ) | get (dense : Bool) (size : ℝ) (bt : Border) (b : ℕ)

/-- One call. -/
noncomputable def Op.run (w : World V) (mode : Mode) (film : Film V U) : Op → State V U → State V U
  | .compute dense, s => (Stab.compute w mode film dense s).1
  | .smooth size, s => (smoothStep w size s).1
  | .apply bt b, s => (Stab.apply w film bt b s).1
  | .get dense size bt b, s => (Stab.get w mode film dense size bt b s).1

/-- **C181** Whatever was done with a stabilizer before, `get_stabilized_obj` gives what a new one would give. -/
theorem C181_history (w : World V) (mode : Mode) (film : Film V U) (ops : List Op) (dense : Bool) (size : ℝ) (bt : Border) (b : ℕ) :
    (get w mode film dense size bt b (ops.foldl (fun s o => o.run w mode film s) fresh)).2 =
      (get w mode film dense size bt b fresh).2 := by
  generalize ops.foldl (fun s o => o.run w mode film s) fresh = s
  unfold get compute
  cases hc : computed w mode dense (film.frames.map Prod.snd) with
  | error e => rfl
  | ok q =>
    obtain ⟨r, t⟩ := q
    simp only [smoothStep, fresh]
    by_cases ht : t = []
    · simp [ht]
    · simp only [if_neg ht, apply]

/-- **C181** The steps made by hand are refused until the steps before them have been made, whatever the other calls. -/
theorem C181_order (w : World V) (mode : Mode) (film : Film V U) (ops : List Op) :
    ((∀ o ∈ ops, (∃ size, o = .smooth size) ∨ ∃ bt b, o = .apply bt b) →
      (∀ size, (smoothStep w size (ops.foldl (fun s o => o.run w mode film s) fresh)).2 = .error .exception) ∧
      (∀ bt b, (apply w film bt b (ops.foldl (fun s o => o.run w mode film s) fresh)).2 = .error .exception)) ∧
    ((∀ o ∈ ops, (∃ dense, o = .compute dense) ∨ ∃ bt b, o = .apply bt b) →
      ∀ bt b, (apply w film bt b (ops.foldl (fun s o => o.run w mode film s) fresh)).2 = .error .exception) := by
  constructor
  · intro h
    have key : ∀ (ops : List Op) (s : State V U), (∀ o ∈ ops, (∃ size, o = .smooth size) ∨ ∃ bt b, o = .apply bt b) →
        s.raw = none → s.smooth = none → (ops.foldl (fun s o => o.run w mode film s) s).raw = none ∧
          (ops.foldl (fun s o => o.run w mode film s) s).smooth = none := by
      intro ops
      induction ops with
      | nil => intro s _ h1 h2; exact ⟨h1, h2⟩
      | cons o ops ih =>
        intro s ho h1 h2
        simp only [List.foldl_cons]
        apply ih _ (fun o' ho' => ho o' (by simp [ho']))
        · rcases ho o (by simp) with ⟨size, rfl⟩ | ⟨bt, b, rfl⟩
          · simp [Op.run, smoothStep, h1]
          · simp [Op.run, apply, h1, h2]
        · rcases ho o (by simp) with ⟨size, rfl⟩ | ⟨bt, b, rfl⟩
          · simp [Op.run, smoothStep, h1, h2]
          · simp [Op.run, apply, h2]
    obtain ⟨k1, k2⟩ := key ops fresh h rfl rfl
    exact ⟨fun size => by simp [smoothStep, k1], fun bt b => by simp [apply, k2]⟩
  · intro h bt b
    have key : ∀ (ops : List Op) (s : State V U), (∀ o ∈ ops, (∃ dense, o = .compute dense) ∨ ∃ bt b, o = .apply bt b) →
        s.smooth = none → (ops.foldl (fun s o => o.run w mode film s) s).smooth = none := by
      intro ops
      induction ops with
      | nil => intro s _ h1; exact h1
      | cons o ops ih =>
        intro s ho h2
        simp only [List.foldl_cons]
        apply ih _ (fun o' ho' => ho o' (by simp [ho']))
        rcases ho o (by simp) with ⟨dense, rfl⟩ | ⟨bt, b, rfl⟩
        · simp only [Op.run, compute]
          cases computed w mode dense (film.frames.map Prod.snd) <;> simp [h2]
        · simp [Op.run, apply, h2]
    have k := key ops fresh h rfl
    simp [apply, k]

/-- **C181** A step that is refused changes neither the transforms, raw or smoothed, nor the stabilised film that was there: only the
smoothing of a film of one frame forgets the smoothed trajectory. -/
theorem C181_unchanged (w : World V) (mode : Mode) (film : Film V U) (s : State V U) (dense : Bool) (size : ℝ) (bt : Border) (b : ℕ)
    (e : Err) :
    ((apply w film bt b s).2 = .error e → (apply w film bt b s).1 = s) ∧
      ((compute w mode film dense s).2 = .error e → (compute w mode film dense s).1 = s) ∧
      ((smoothStep w size s).2 = .error e → (smoothStep w size s).1.raw = s.raw ∧ (smoothStep w size s).1.traj = s.traj ∧
        (smoothStep w size s).1.smooth = s.smooth ∧ (smoothStep w size s).1.result = s.result) := by
  refine ⟨?_, ?_, ?_⟩
  · unfold apply
    cases s.smooth with
    | none => exact fun _ => rfl
    | some t => intro h; cases h
  · unfold compute
    cases computed w mode dense (film.frames.map Prod.snd) with
    | error e' => exact fun _ => rfl
    | ok r => intro h; cases h
  · obtain ⟨raw, traj, st, sm, res⟩ := s
    cases raw with
    | none => exact fun _ => ⟨rfl, rfl, rfl, rfl⟩
    | some r =>
      simp only [smoothStep]
      split_ifs with ht
      · exact fun _ => ⟨rfl, rfl, rfl, rfl⟩
      · intro h; cases h

/-- **C181** But the steps made by hand are not independent of the history: new transforms are applied only once they are smoothed. -/
theorem C181_stale_violated (w : World V) (mode : Mode) (film : Film V U) (s : State V U) (dense : Bool) (bt : Border) (b : ℕ) :
    (apply w film bt b (compute w mode film dense s).1).2 = (apply w film bt b s).2 ∧
      ∀ trs, s.smooth = some trs → (apply w film bt b (compute w mode film dense s).1).1.result = some (applied w bt b film trs) := by
  unfold compute
  cases computed w mode dense (film.frames.map Prod.snd) with
  | error e => exact ⟨rfl, fun trs h => by simp [apply, h]⟩
  | ok q =>
    refine ⟨?_, fun trs h => by simp [apply, h]⟩
    simp only [apply]
    cases s.smooth <;> rfl

end IMT.Stab
