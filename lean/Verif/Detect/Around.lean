import Verif.Detect.AroundModel
import Mathlib.Data.Finset.Card
import Mathlib.Order.Interval.Finset.Nat

namespace IMT.Around

/-! ### Windows -/

theorem kept_get {ax : List Rat} {p : Rat → Bool} {k : Nat} : k ∈ kept ax p ↔ ∃ x, ax[k]? = some x ∧ p x = true := by
  unfold kept
  rw [List.mem_filter, List.mem_range]
  constructor
  · rintro ⟨h1, h2⟩
    refine ⟨ax[k], List.getElem?_eq_getElem h1, ?_⟩
    simpa [List.getD_eq_getElem?_getD, h1] using h2
  · rintro ⟨x, h1, h2⟩
    obtain ⟨h3, h4⟩ := List.getElem?_eq_some_iff.mp h1
    refine ⟨h3, ?_⟩
    simp [List.getD_eq_getElem?_getD, h3, h4, h2]

theorem filter_eq_map (ax : List Rat) (p : Rat → Bool) : ax.filter p = (kept ax p).map fun k => ax.getD k 0 := by
  have h : ax = (List.range ax.length).map fun k => ax.getD k 0 := by
    apply List.ext_getElem?
    intro i
    by_cases hi : i < ax.length
    · simp [List.getD_eq_getElem?_getD, hi]
    · simp [Nat.le_of_not_lt hi]
  unfold kept
  conv_lhs => rw [h]
  rw [List.filter_map]
  rfl

theorem kept_filter {ax : List Rat} {p : Rat → Bool} {i : Nat} {x : Rat} (h : (ax.filter p)[i]? = some x) :
    ax[(kept ax p).getD i 0]? = some x := by
  rw [filter_eq_map, List.getElem?_map] at h
  cases hk : (kept ax p)[i]? with
  | none => rw [hk] at h; simp at h
  | some k =>
    rw [hk] at h
    simp only [Option.map_some, Option.some.injEq] at h
    obtain ⟨y, h1, _⟩ := kept_get.mp (List.mem_of_getElem? hk)
    simp only [List.getD_eq_getElem?_getD, hk, Option.getD_some]
    rw [h1]
    simpa [List.getD_eq_getElem?_getD, h1] using h

theorem kept_index {ax : List Rat} {p : Rat → Bool} {k : Nat} {x : Rat} (h : ax[k]? = some x) (hp : p x = true) :
    ∃ i : Nat, (ax.filter p)[i]? = some x ∧ (kept ax p).getD i 0 = k := by
  obtain ⟨i, hi⟩ := List.mem_iff_getElem?.mp (kept_get.mpr ⟨x, h, hp⟩)
  refine ⟨i, ?_, by simp [List.getD_eq_getElem?_getD, hi]⟩
  rw [filter_eq_map, List.getElem?_map, hi]
  simp [List.getD_eq_getElem?_getD, h]

theorem around_ok {f g : IVF} {xy : Rat × Rat} {nmb : Nat} (h : around f xy nmb = .ok g) :
    ∃ dx dy, steps f = .ok (dx, dy) ∧ g.ax = f.ax.filter (inWin xy.1 dx (half nmb)) ∧ g.ay = f.ay.filter (inWin xy.2 dy (half nmb)) ∧
      g.vx = cutGrid f.vx (kept f.ay (inWin xy.2 dy (half nmb))) (kept f.ax (inWin xy.1 dx (half nmb))) ∧
      g.vy = cutGrid f.vy (kept f.ay (inWin xy.2 dy (half nmb))) (kept f.ax (inWin xy.1 dx (half nmb))) ∧
      g.mask = cutGrid f.mask (kept f.ay (inWin xy.2 dy (half nmb))) (kept f.ax (inWin xy.1 dx (half nmb))) := by
  unfold around at h
  split at h
  · cases h
  · rename_i dx dy hs
    simp only at h
    split at h
    · cases h
    · cases h
      exact ⟨dx, dy, hs, rfl, rfl, rfl, rfl, rfl⟩

theorem around_ne {f g : IVF} {xy : Rat × Rat} {nmb : Nat} (h : around f xy nmb = .ok g) : g.ax ≠ [] ∧ g.ay ≠ [] := by
  unfold around at h
  split at h
  · cases h
  · simp only at h
    split at h
    · cases h
    · rename_i hne
      cases h
      exact not_or.mp hne

/-- C286: the field around a point shows what the field shows at the positions less than half the number of lines away (in
steps of the grid, rounded up), and nothing else. -/
theorem C286_window (f g : IVF) (xy : Rat × Rat) (nmb : Nat) (h : around f xy nmb = .ok g) (dx dy : Rat) (hs : steps f = .ok (dx, dy))
    (n : Nat) (hn : nmb = 2 * n ∨ nmb + 1 = 2 * n) (x y u v : Rat) (m : Bool) :
    Shows g x y u v m ↔ Shows f x y u v m ∧ xy.1 - n * dx < x ∧ x < xy.1 + n * dx ∧ xy.2 - n * dy < y ∧ y < xy.2 + n * dy := by
  obtain ⟨dx', dy', hs', h1, h2, h3, h4, h5⟩ := around_ok h
  rw [hs] at hs'
  simp only [Except.ok.injEq, Prod.mk.injEq] at hs'
  obtain ⟨rfl, rfl⟩ := hs'
  have hh : half nmb = n := by unfold half; omega
  rw [hh] at h1 h2 h3 h4 h5
  have win : ∀ c d z, inWin c d n z = true ↔ c - n * d < z ∧ z < c + n * d := by
    intro c d z; simp [inWin]
  unfold Shows
  rw [h1, h2, h3, h4, h5]
  constructor
  · rintro ⟨i, j, hj, hi, hu, hv, hm⟩
    have kx := kept_filter hj
    have ky := kept_filter hi
    have mx := (List.mem_filter.mp (List.mem_of_getElem? hj)).2
    have my := (List.mem_filter.mp (List.mem_of_getElem? hi)).2
    rw [win] at mx my
    exact ⟨⟨_, _, kx, ky, hu, hv, hm⟩, mx.1, mx.2, my.1, my.2⟩
  · rintro ⟨⟨i, j, hj, hi, hu, hv, hm⟩, w1, w2, w3, w4⟩
    obtain ⟨j', hj1, hj2⟩ := kept_index hj ((win _ _ _).mpr ⟨w1, w2⟩)
    obtain ⟨i', hi1, hi2⟩ := kept_index hi ((win _ _ _).mpr ⟨w3, w4⟩)
    refine ⟨i', j', hj1, hi1, ?_, ?_, ?_⟩ <;> simp only [cutGrid] <;> rw [hi2, hj2] <;> assumption

/-! ### The size of the windows -/

theorem count_range (n lo hi : Nat) (p : Nat → Bool) (h : ∀ k < n, p k = true ↔ lo ≤ k ∧ k < hi) :
    ((List.range n).filter p).length = min n hi - min n lo := by
  have h1 : ((List.range n).filter p).length = ((Finset.range n).filter fun k => p k = true).card := by
    rw [← List.toFinset_card_of_nodup (List.nodup_range.filter _)]
    congr 1
    ext k
    simp
  rw [h1]
  have h2 : ((Finset.range n).filter fun k => p k = true) = Finset.Ico (min n lo) (min n hi) := by
    ext k
    simp only [Finset.mem_filter, Finset.mem_range, Finset.mem_Ico]
    constructor
    · rintro ⟨hk, hp⟩
      have := (h k hk).mp hp
      omega
    · intro hk
      have : k < n := by omega
      exact ⟨this, (h k this).mpr (by omega)⟩
  rw [h2, Nat.card_Ico]

theorem even_count (a d : Rat) (hd : 0 < d) (n i m : Nat) :
    ((evenAxis a d n).filter (inWin (a + i * d + d / 2) d m)).length = min n (i + 1 + m) - min n (i + 1 - m) := by
  unfold evenAxis
  rw [List.filter_map, List.length_map]
  apply count_range
  intro k _
  simp only [Function.comp, inWin, Bool.and_eq_true, decide_eq_true_eq]
  have e1 : a + (i : Rat) * d + d / 2 - m * d < a + k * d ↔ i + 1 - m ≤ k := by
    have : a + (i : Rat) * d + d / 2 - m * d < a + k * d ↔ ((i : Rat) + 1 / 2 - m) * d < k * d := by
      constructor <;> intro h <;> linarith
    rw [this, mul_lt_mul_iff_left₀ hd]
    constructor
    · intro h
      by_contra hc
      have : (k : Rat) + m + 1 ≤ i + 1 := by exact_mod_cast (by omega : k + m + 1 ≤ i + 1)
      linarith
    · intro h
      have : (i : Rat) + 1 ≤ k + m := by exact_mod_cast (by omega : i + 1 ≤ k + m)
      linarith
  have e2 : a + (k : Rat) * d < a + i * d + d / 2 + m * d ↔ k < i + 1 + m := by
    have : a + (k : Rat) * d < a + i * d + d / 2 + m * d ↔ (k : Rat) * d < ((i : Rat) + 1 / 2 + m) * d := by
      constructor <;> intro h <;> linarith
    rw [this, mul_lt_mul_iff_left₀ hd]
    constructor
    · intro h
      by_contra hc
      have : (i : Rat) + 1 + m ≤ k := by exact_mod_cast (by omega : i + 1 + m ≤ k)
      linarith
    · intro h
      have : (k : Rat) + 1 ≤ i + 1 + m := by exact_mod_cast (by omega : k + 1 ≤ i + 1 + m)
      linarith
  rw [e1, e2]

theorem even_steps {f : IVF} {a b dx dy : Rat} {nx ny : Nat} (h1 : f.ax = evenAxis a dx nx) (h2 : f.ay = evenAxis b dy ny) (h3 : 2 ≤ nx)
    (h4 : 2 ≤ ny) : steps f = .ok (dx, dy) := by
  obtain ⟨nx, rfl⟩ : ∃ k, nx = k + 2 := ⟨nx - 2, by omega⟩
  obtain ⟨ny, rfl⟩ : ∃ k, ny = k + 2 := ⟨ny - 2, by omega⟩
  unfold steps
  have e1 : f.ax = (a + (0 : Nat) * dx) :: (a + (1 : Nat) * dx) :: (List.range nx).map fun k : Nat => a + ((k + 2 : Nat) : Rat) * dx := by
    rw [h1]; unfold evenAxis
    rw [List.range_succ_eq_map, List.range_succ_eq_map]
    simp [List.map_map, Function.comp_def]
    intro k _; left; ring
  have e2 : f.ay = (b + (0 : Nat) * dy) :: (b + (1 : Nat) * dy) :: (List.range ny).map fun k : Nat => b + ((k + 2 : Nat) : Rat) * dy := by
    rw [h2]; unfold evenAxis
    rw [List.range_succ_eq_map, List.range_succ_eq_map]
    simp [List.map_map, Function.comp_def]
    intro k _; left; ring
  rw [e1, e2]
  simp

/-- C286 (size): around the center of a cell of an even grid, far enough from the borders, an even number of lines and columns is
what one gets. -/
theorem C286_size_partial (f : IVF) (a b dx dy : Rat) (hdx : 0 < dx) (hdy : 0 < dy) (nx ny : Nat) (h1 : f.ax = evenAxis a dx nx)
    (h2 : f.ay = evenAxis b dy ny) (i j n : Nat) (hn : 1 ≤ n) (hi : n ≤ i + 1) (hi' : i + n < nx) (hj : n ≤ j + 1) (hj' : j + n < ny) :
    ∃ g, around f (center a b dx dy i j) (2 * n) = .ok g ∧ g.ax.length = 2 * n ∧ g.ay.length = 2 * n := by
  have hs := even_steps h1 h2 (by omega) (by omega)
  have hh : half (2 * n) = n := by unfold half; omega
  have cx := even_count a dx hdx nx i n
  have cy := even_count b dy hdy ny j n
  unfold around
  rw [hs]
  simp only [center, hh, h1, h2]
  rw [if_neg]
  · exact ⟨_, rfl, by rw [cx]; omega, by rw [cy]; omega⟩
  · rintro (h | h)
    · rw [h] at cx; simp at cx; omega
    · rw [h] at cy; simp at cy; omega

/-- C286 is violated for an odd number of lines: around the center of a cell one gets one more line and one more column. -/
theorem C286_size_violated (f : IVF) (a b dx dy : Rat) (hdx : 0 < dx) (hdy : 0 < dy) (nx ny : Nat) (h1 : f.ax = evenAxis a dx nx)
    (h2 : f.ay = evenAxis b dy ny) (i j n : Nat) (hi : n + 1 ≤ i + 1) (hi' : i + n + 1 < nx) (hj : n + 1 ≤ j + 1) (hj' : j + n + 1 < ny) :
    ∃ g, around f (center a b dx dy i j) (2 * n + 1) = .ok g ∧ g.ax.length = 2 * n + 2 ∧ g.ay.length = 2 * n + 2 := by
  have hs := even_steps h1 h2 (by omega) (by omega)
  have hh : half (2 * n + 1) = n + 1 := by unfold half; omega
  have cx := even_count a dx hdx nx i (n + 1)
  have cy := even_count b dy hdy ny j (n + 1)
  unfold around
  rw [hs]
  simp only [center, hh, h1, h2]
  rw [if_neg]
  · exact ⟨_, rfl, by rw [cx]; omega, by rw [cy]; omega⟩
  · rintro (h | h)
    · rw [h] at cx; simp at cx; omega
    · rw [h] at cy; simp at cy; omega

/-! ### Refined positions -/

variable {S : Type}

theorem mapM_ok {α β : Type} {F : α → Res β} {l : List α} {r : List β} (h : l.mapM F = .ok r) :
    List.Forall₂ (fun a b => F a = .ok b) l r := by
  induction l generalizing r with
  | nil => simp [pure, Except.pure] at h; subst h; exact .nil
  | cons a t ih =>
    rw [List.mapM_cons] at h
    cases ha : F a with
    | error e => rw [ha] at h; simp [bind, Except.bind] at h
    | ok b =>
      rw [ha] at h
      cases ht : t.mapM F with
      | error e => rw [ht] at h; simp [bind, Except.bind] at h
      | ok r' =>
        rw [ht] at h
        simp [bind, Except.bind, pure, Except.pure] at h
        subst h
        exact .cons ha (ih ht)

/-- The tools find extrema between the ends of the axes of the window. -/
def Tools.Within (T : Tools S) : Prop :=
  ∀ (g : IVF) (p : Rat × Rat) (s : S), g.ax ≠ [] → g.ay ≠ [] → s = T.gamma g ∨ s = T.kappa g → T.locMin s = .ok p ∨ T.locMax s = .ok p →
    (∃ x0 ∈ g.ax, ∃ x1 ∈ g.ax, x0 ≤ p.1 ∧ p.1 ≤ x1) ∧ ∃ y0 ∈ g.ay, ∃ y1 ∈ g.ay, y0 ≤ p.2 ∧ p.2 ≤ y1

theorem typed_ok {r : Res (Rat × Rat)} {t : Nat} {c : Cell} (h : typed r t = .ok c) : r = .ok c.1 ∧ c.2 = t := by
  unfold typed at h
  split at h
  · cases h
  · cases h; exact ⟨rfl, rfl⟩

theorem locate_ok {T : Tools S} {g : IVF} {c : Cell} (h : locate T g = .ok c) :
    1 ≤ c.2 ∧ c.2 ≤ 4 ∧ ∃ s, (s = T.gamma g ∧ c.2 ≤ 2 ∨ s = T.kappa g ∧ 3 ≤ c.2) ∧
      (T.locMax s = .ok c.1 ∧ (c.2 = 2 ∨ c.2 = 3) ∨ T.locMin s = .ok c.1 ∧ (c.2 = 1 ∨ c.2 = 4)) := by
  unfold locate at h
  split at h <;> split at h <;> obtain ⟨h1, h2⟩ := typed_ok h <;> rw [h2]
  · exact ⟨by omega, by omega, _, .inl ⟨rfl, by omega⟩, .inl ⟨h1, by omega⟩⟩
  · exact ⟨by omega, by omega, _, .inl ⟨rfl, by omega⟩, .inr ⟨h1, by omega⟩⟩
  · exact ⟨by omega, by omega, _, .inr ⟨rfl, by omega⟩, .inl ⟨h1, by omega⟩⟩
  · exact ⟨by omega, by omega, _, .inr ⟨rfl, by omega⟩, .inr ⟨h1, by omega⟩⟩

/-- C287: the refined search reports as many points as there are cells with a critical point, in the same order; a saddle stays a
saddle and another point does not become one; each point is less than half a window away (in steps, rounded up) from the center of
its cell. -/
theorem C287_points (T : Tools S) (hT : T.Within) (w : Nat) (f : IVF) (cells r : List Cell) (h : crit T w f cells = .ok r)
    (dx dy : Rat) (hs : steps f = .ok (dx, dy)) (hdx : 0 < dx) (hdy : 0 < dy) (n : Nat) (hn : w + 1 = 2 * n ∨ w + 2 = 2 * n) :
    List.Forall₂ (fun c q => (c.2 = 0 ↔ q.2 = 0) ∧
      |q.1.1 - c.1.1| < n * dx ∧ |q.1.2 - c.1.2| < n * dy) cells r := by
  refine (mapM_ok h).imp fun c q hc => ?_
  have hn0 : (0 : Rat) < n := by exact_mod_cast (by omega : 0 < n)
  unfold refineOne at hc
  cases ha : around f c.1 (w + 1) with
  | error e => rw [ha] at hc; cases hc
  | ok g =>
    rw [ha] at hc
    simp only at hc
    split at hc
    · rename_i hu
      obtain ⟨h1, h2, s, h3, h4⟩ := locate_ok hc
      refine ⟨by constructor <;> intro h0 <;> omega, ?_⟩
      obtain ⟨dx', dy', hs', e1, e2, -⟩ := around_ok ha
      rw [hs] at hs'
      simp only [Except.ok.injEq, Prod.mk.injEq] at hs'
      obtain ⟨rfl, rfl⟩ := hs'
      have hh : half (w + 1) = n := by unfold half; omega
      rw [hh] at e1 e2
      obtain ⟨⟨x0, hx0, x1, hx1, a1, a2⟩, y0, hy0, y1, hy1, a3, a4⟩ := hT g q.1 s (around_ne ha).1 (around_ne ha).2
        (by rcases h3 with h3 | h3
            · exact .inl h3.1
            · exact .inr h3.1)
        (by rcases h4 with h4 | h4
            · exact .inr h4.1
            · exact .inl h4.1)
      rw [e1, List.mem_filter] at hx0 hx1
      rw [e2, List.mem_filter] at hy0 hy1
      simp only [inWin, Bool.and_eq_true, decide_eq_true_eq] at hx0 hx1 hy0 hy1
      constructor
      · rw [abs_lt]; constructor <;> linarith [hx0.2.1, hx1.2.2]
      · rw [abs_lt]; constructor <;> linarith [hy0.2.1, hy1.2.2]
    · cases hc
      refine ⟨Iff.rfl, ?_⟩
      simp only [sub_self, abs_zero]
      exact ⟨mul_pos hn0 hdx, mul_pos hn0 hdy⟩

/-- C287 (what is refined): with an even window, a point that is not a saddle, whose window is inside the field and without masked
value, is at the extremum, in its window, of the stronger of the two criterions: `gamma1` for the focuses, `kappa1` for the nodes.
Missing: the saddles, `C287_saddle_violated`, and the odd windows, `C287_odd_violated`. -/
theorem C287_refined_partial (T : Tools S) (w : Nat) (hw : w % 2 = 0) (f : IVF) (a b dx dy : Rat) (hdx : 0 < dx) (hdy : 0 < dy) (nx ny : Nat)
    (h1 : f.ax = evenAxis a dx nx) (h2 : f.ay = evenAxis b dy ny) (i j t : Nat) (ht : t ≠ 0) (hi : w / 2 + 1 ≤ i + 1)
    (hi' : i + w / 2 + 1 < nx) (hj : w / 2 + 1 ≤ j + 1) (hj' : j + w / 2 + 1 < ny) (hm : ∀ k l, f.mask.get k l = false) (q : Cell)
    (h : refineOne T w f (center a b dx dy i j, t) = .ok q) :
    ∃ g, around f (center a b dx dy i j) (w + 1) = .ok g ∧ g.ax.length = w + 2 ∧ g.ay.length = w + 2 ∧
      (max |T.hi (T.gamma g)| |T.lo (T.gamma g)| > max |T.hi (T.kappa g)| |T.lo (T.kappa g)| →
        (|T.hi (T.gamma g)| > |T.lo (T.gamma g)| → q.2 = 2 ∧ T.locMax (T.gamma g) = .ok q.1) ∧
        (|T.hi (T.gamma g)| ≤ |T.lo (T.gamma g)| → q.2 = 1 ∧ T.locMin (T.gamma g) = .ok q.1)) ∧
      (max |T.hi (T.gamma g)| |T.lo (T.gamma g)| ≤ max |T.hi (T.kappa g)| |T.lo (T.kappa g)| →
        (|T.hi (T.kappa g)| > |T.lo (T.kappa g)| → q.2 = 3 ∧ T.locMax (T.kappa g) = .ok q.1) ∧
        (|T.hi (T.kappa g)| ≤ |T.lo (T.kappa g)| → q.2 = 4 ∧ T.locMin (T.kappa g) = .ok q.1)) := by
  obtain ⟨g, hg, l1, l2⟩ := C286_size_violated f a b dx dy hdx hdy nx ny h1 h2 i j (w / 2) hi hi' hj hj'
  have e : 2 * (w / 2) = w := by omega
  rw [e] at hg l1 l2
  refine ⟨g, hg, l1, l2, ?_⟩
  unfold refineOne at h
  rw [hg] at h
  have hu : useful w g = true := by
    obtain ⟨dx', dy', _, _, _, _, _, e5⟩ := around_ok hg
    have : anyMask g = false := by
      unfold anyMask
      rw [e5]
      simp [cutGrid, hm]
    simp [useful, l1, l2, this]
  simp only [hu, ne_eq, ht, not_false_eq_true, and_self, if_true] at h
  unfold locate at h
  constructor
  · intro hc
    rw [if_pos hc] at h
    constructor
    · intro hd
      rw [if_pos hd] at h
      exact ⟨(typed_ok h).2, (typed_ok h).1⟩
    · intro hd
      rw [if_neg (not_lt.mpr hd)] at h
      exact ⟨(typed_ok h).2, (typed_ok h).1⟩
  · intro hc
    rw [if_neg (not_lt.mpr hc)] at h
    constructor
    · intro hd
      rw [if_pos hd] at h
      exact ⟨(typed_ok h).2, (typed_ok h).1⟩
    · intro hd
      rw [if_neg (not_lt.mpr hd)] at h
      exact ⟨(typed_ok h).2, (typed_ok h).1⟩

/-- C287 (masked windows): a point with a masked value in its window is left at the center of its cell. -/
theorem C287_masked (T : Tools S) (w : Nat) (f g : IVF) (c q : Cell) (hg : around f c.1 (w + 1) = .ok g) (x y u v : Rat)
    (hm : Shows g x y u v true) (h : refineOne T w f c = .ok q) : q = c := by
  obtain ⟨i, j, hj, hi, -, -, hb⟩ := hm
  obtain ⟨dx, dy, -, e1, e2, -, -, e5⟩ := around_ok hg
  have hx : g.mask.nx = g.ay.length := by rw [e5, e2, filter_eq_map]; simp [cutGrid]
  have hy : g.mask.ny = g.ax.length := by rw [e5, e1, filter_eq_map]; simp [cutGrid]
  have : anyMask g = true := by
    unfold anyMask
    rw [List.any_eq_true]
    refine ⟨i, List.mem_range.mpr (by rw [hx]; exact (List.getElem?_eq_some_iff.mp hi).1), ?_⟩
    rw [List.any_eq_true]
    exact ⟨j, List.mem_range.mpr (by rw [hy]; exact (List.getElem?_eq_some_iff.mp hj).1), hb⟩
  unfold refineOne at h
  rw [hg] at h
  simp only [useful, this, Bool.or_true, Bool.not_true, Bool.false_eq_true, false_and, if_false] at h
  cases h; rfl

/-- C287 is violated for the saddles: whatever the field and the window, a saddle is left at the center of its cell. -/
theorem C287_saddle_violated (T : Tools S) (w : Nat) (f : IVF) (p : Rat × Rat) (q : Cell) (h : refineOne T w f (p, 0) = .ok q) :
    q = (p, 0) := by
  unfold refineOne at h
  split at h
  · cases h
  · simp only [ne_eq, not_true_eq_false, and_false, if_false] at h
    cases h; rfl

/-- C287 is violated for the odd windows: on an even grid, no point at all is refined, each is left at the center of its cell. -/
theorem C287_odd_violated (T : Tools S) (w : Nat) (hw : w % 2 = 1) (f : IVF) (a b dx dy : Rat) (hdx : 0 < dx) (nx ny : Nat)
    (h1 : f.ax = evenAxis a dx nx) (h2 : f.ay = evenAxis b dy ny) (hnx : 2 ≤ nx) (hny : 2 ≤ ny) (cells r : List Cell)
    (hc : ∀ c ∈ cells, ∃ i j, c.1 = center a b dx dy i j) (h : crit T w f cells = .ok r) : r = cells := by
  have key : ∀ c ∈ cells, ∀ q, refineOne T w f c = .ok q → q = c := by
    intro c hm q hq
    obtain ⟨i, j, hij⟩ := hc c hm
    unfold refineOne at hq
    cases ha : around f c.1 (w + 1) with
    | error e => rw [ha] at hq; cases hq
    | ok g =>
      rw [ha] at hq
      have hu : useful w g = false := by
        obtain ⟨dx', dy', hs', e1, _⟩ := around_ok ha
        rw [even_steps h1 h2 hnx hny] at hs'
        simp only [Except.ok.injEq, Prod.mk.injEq] at hs'
        obtain ⟨rfl, rfl⟩ := hs'
        have hh : half (w + 1) = (w + 1) / 2 := by unfold half; omega
        have : g.ax.length ≤ w + 1 := by
          rw [e1, h1, hij, hh]
          simp only [center]
          rw [even_count a dx hdx]
          omega
        simp [useful, this]
      simp only [hu, Bool.false_eq_true, false_and, if_false] at hq
      cases hq; rfl
  have := mapM_ok h
  clear h hc
  induction this with
  | nil => rfl
  | cons h0 _ ih =>
    rw [key _ (by simp) _ h0, ih fun c hm => key c (by simp [hm])]

/-- C287 (kinds): the points of the five kinds are the reported points, each in its kind only. -/
theorem C287_kinds (r : List Cell) (t : Nat) (p : Rat × Rat) : p ∈ ofType r t ↔ (p, t) ∈ r := by
  unfold ofType
  rw [List.mem_map]
  constructor
  · rintro ⟨⟨q, t'⟩, h, rfl⟩
    rw [List.mem_filter] at h
    have : t' = t := by simpa using h.2
    subst this
    exact h.1
  · intro h
    exact ⟨(p, t), List.mem_filter.mpr ⟨h, by simp⟩, rfl⟩

/-! ### Examples -/

/-- A field of nine by nine. -/
def exF : IVF := ⟨⟨9, 9, fun i j => i - j⟩, ⟨9, 9, fun i j => i + j⟩, evenAxis 0 1 9, evenAxis 0 2 9, ⟨9, 9, fun _ _ => false⟩⟩

/-- Tools that find everything at the first position of the window. -/
def exT : Tools (Rat × Rat × Rat) :=
  ⟨fun g => (2, g.ax.headD 0, g.ay.headD 0), fun g => (1, g.ax.headD 0, g.ay.headD 0), fun _ => 0, Prod.fst,
    fun s => .ok s.2, fun s => .ok s.2⟩

/-- They are between the ends of the axes. -/
example : exT.Within := by
  intro g p s h1 h2 hs hp
  obtain ⟨x, lx, hx⟩ := List.exists_cons_of_ne_nil h1
  obtain ⟨y, ly, hy⟩ := List.exists_cons_of_ne_nil h2
  have hp : p = (x, y) := by
    rcases hs with rfl | rfl <;> rcases hp with hp | hp <;> simp [exT, hx, hy] at hp <;> exact hp.symm
  subst hp
  exact ⟨⟨x, by simp [hx], x, by simp [hx], le_refl _, le_refl _⟩, y, by simp [hy], y, by simp [hy], le_refl _, le_refl _⟩

/-- Windows of four and of three steps around the middle of the field. -/
example : (match around exF (center 0 0 1 2 4 4) 4 with | .ok g => decide (g.ax = [3, 4, 5, 6] ∧ g.ay = [6, 8, 10, 12]) | .error _ => false) = true ∧
    (match around exF (center 0 0 1 2 4 4) 5 with | .ok g => decide (g.ax.length = 6) | .error _ => false) = true := by decide +kernel

/-- A focus is refined with a window of four, not with a window of three. -/
example : (match crit exT 4 exF [(center 0 0 1 2 4 4, 1), (center 0 0 1 2 4 3, 0)] with
      | .ok r => decide (r = [((2, 4), 2), (center 0 0 1 2 4 3, 0)]) | .error _ => false) = true ∧
    (match crit exT 3 exF [(center 0 0 1 2 4 4, 1)] with
      | .ok r => decide (r = [(center 0 0 1 2 4 4, 1)]) | .error _ => false) = true := by decide +kernel

end IMT.Around
