import Verif.Points.DensityModel
import Verif.Display.Cursor
import Verif.Utils.Progress
import Mathlib.Algebra.Order.BigOperators.Group.Finset
import Mathlib.Data.List.GetD
import Mathlib.Algebra.BigOperators.Field

/-!
C339: the density of points.  C340: the number of points around the nodes of a grid.  C341: the edges of an envelope.
-/

namespace IMT.Cloud

open IMT.Utils (npround)

/-! ### Lemmas -/

theorem lo_le (l : List Rat) {a : Rat} (h : a ∈ l) : lo l ≤ a := by
  induction l with
  | nil => simp at h
  | cons b l ih =>
    cases l with
    | nil => simp at h; simp [lo, h]
    | cons c l =>
      rcases List.mem_cons.mp h with rfl | h
      · exact min_le_left _ _
      · exact le_trans (min_le_right _ _) (ih h)

theorem le_hi (l : List Rat) {a : Rat} (h : a ∈ l) : a ≤ hi l := by
  induction l with
  | nil => simp at h
  | cons b l ih =>
    cases l with
    | nil => simp at h; simp [hi, h]
    | cons c l =>
      rcases List.mem_cons.mp h with rfl | h
      · exact le_max_left _ _
      · exact le_trans (ih h) (le_max_right _ _)

theorem lo_mem (l : List Rat) (h : l ≠ []) : lo l ∈ l := by
  induction l with
  | nil => exact absurd rfl h
  | cons b l ih =>
    cases l with
    | nil => simp [lo]
    | cons c l =>
      have := ih (by simp)
      show min b (lo (c :: l)) ∈ _
      rcases le_total b (lo (c :: l)) with k | k
      · rw [min_eq_left k]; simp
      · rw [min_eq_right k]; exact List.mem_cons_of_mem _ this

theorem width_nonneg (l : List Rat) : 0 ≤ width l := by
  cases l with
  | nil => simp [width, lo, hi]
  | cons a l =>
    have := lo_le (a :: l) (a := a) (by simp)
    have := le_hi (a :: l) (a := a) (by simp)
    unfold width
    linarith

theorem linspace_length (a b : Rat) (n : Nat) : (linspace a b n).length = n := by simp [linspace]

theorem linspace_get (a b : Rat) {n i : Nat} (h : i < n) : (linspace a b n).getD i 0 = a + i * ((b - a) / ((n : Rat) - 1)) := by
  rw [List.getD_eq_getElem _ _ (by simpa [linspace_length] using h)]
  simp [linspace]

/-- The step of an axis. -/
theorem linspace_step (a b : Rat) {n : Nat} (h : 2 ≤ n) :
    (linspace a b n).getD 1 0 - (linspace a b n).getD 0 0 = (b - a) / ((n : Rat) - 1) := by
  rw [linspace_get a b (by omega), linspace_get a b (by omega)]
  push_cast
  ring

theorem linspace_first (a b : Rat) {n : Nat} (h : 1 ≤ n) : (linspace a b n).getD 0 0 = a := by
  rw [linspace_get a b (by omega)]; simp

theorem linspace_last (a b : Rat) {n : Nat} (h : 2 ≤ n) : (linspace a b n).getD (n - 1) 0 = b := by
  rw [linspace_get a b (by omega)]
  have : (((n - 1 : Nat)) : Rat) = (n : Rat) - 1 := by rw [Nat.cast_sub (by omega)]; simp
  rw [this]
  have : (n : Rat) - 1 ≠ 0 := by
    have : (2 : Rat) ≤ n := by exact_mod_cast h
    intro c
    linarith
  field_simp
  ring

/-! ### C339 -/

/-- The mass of a density: the sum over the nodes, times the surface around each of them. -/
def Dens.mass (d : Dens) : Rat :=
  (∑ i ∈ Finset.range d.ax.length, ∑ j ∈ Finset.range d.ay.length, d.v i j) * ((d.ax.getD 1 0 - d.ax.getD 0 0) * (d.ay.getD 1 0 - d.ay.getD 0 0))

/-- The mass asked for: one, the number of points, or a hundred. -/
def Format.Asks : Format → Nat → Rat → Prop
  | .normalized, _, m => m = 1
  | .ponderated, n, m => m = n
  | .percentage, _, m => m = 100
  | .concentration, n, m => m = n
  | .other, _, _ => False

theorem onGrid_mass (K : Rat → Rat → Rat) (hK : ∀ x y, 0 < K x y) (ax ay : List Rat) (hx : 2 ≤ ax.length) (hy : 2 ≤ ay.length)
    (h1 : ax.getD 1 0 - ax.getD 0 0 ≠ 0) (h2 : ay.getD 1 0 - ay.getD 0 0 ≠ 0) (c : Rat) : (onGrid K ax ay c).mass = c := by
  unfold Dens.mass onGrid
  simp only
  set S := ∑ i ∈ Finset.range ax.length, ∑ j ∈ Finset.range ay.length, K (ax.getD i 0) (ay.getD j 0) with hS
  have S0 : 0 < S := by
    apply Finset.sum_pos
    · intro i _
      apply Finset.sum_pos (fun j _ => hK _ _)
      exact ⟨0, Finset.mem_range.mpr (by omega)⟩
    · exact ⟨0, Finset.mem_range.mpr (by omega)⟩
  have e : ∑ i ∈ Finset.range ax.length, ∑ j ∈ Finset.range ay.length,
      K (ax.getD i 0) (ay.getD j 0) / (S * (ax.getD 1 0 - ax.getD 0 0) * (ay.getD 1 0 - ay.getD 0 0)) * c =
      S / (S * (ax.getD 1 0 - ax.getD 0 0) * (ay.getD 1 0 - ay.getD 0 0)) * c := by
    simp only [← Finset.sum_mul, ← Finset.sum_div]
    rw [← hS]
  rw [e]
  have := S0.ne'
  field_simp

/-- C339: the density of points that are not all on a line parallel to an axis, with a resolution that leaves two nodes at least in
each direction, is positive, has the mass that its format asks for, and its grid holds all the points. -/
theorem C339_mass_partial (K : Rat → Rat → Rat) (hK : ∀ x y, 0 < K x y) (f : Rat) (hf : 0 ≤ f) (res : Int) (fmt : Format)
    (pts : List (Rat × Rat)) (d : Dens) (h : density K f res fmt pts = .ok (some d)) :
    (∃ m, fmt.Asks pts.length m ∧ d.mass = m) ∧ (0 < pts.length → ∀ i j, 0 < d.v i j) ∧
      ∀ p ∈ pts, d.ax.getD 0 0 ≤ p.1 ∧ p.1 ≤ d.ax.getD (d.ax.length - 1) 0 ∧ d.ay.getD 0 0 ≤ p.2 ∧ p.2 ≤ d.ay.getD (d.ay.length - 1) 0 := by
  unfold density at h
  split at h
  · cases h
  rename_i h2
  split at h
  · cases h
  split at h
  · cases h
  rename_i hres
  split at h
  · cases h
  rename_i hw
  rw [not_or] at hres hw
  set wx := width (pts.map Prod.fst) with hwx
  set wy := width (pts.map Prod.snd) with hwy
  have wx0 : 0 < wx := lt_of_le_of_ne (width_nonneg _) (Ne.symm hw.1)
  have wy0 : 0 < wy := lt_of_le_of_ne (width_nonneg _) (Ne.symm hw.2)
  have b0 : 0 ≤ border wx wy f := by unfold border; split <;> positivity
  have rx : 2 ≤ (resOf wx wy res).1.toNat := by omega
  have ry : 2 ≤ (resOf wx wy res).2.toNat := by omega
  cases hs : fmt.scale pts.length with
  | error e => rw [hs] at h; cases h
  | ok c =>
    rw [hs] at h
    simp only [Except.ok.injEq, Option.some.injEq] at h
    have n1 : ((resOf wx wy res).1.toNat : Rat) - 1 > 0 := by
      have : (2 : Rat) ≤ ((resOf wx wy res).1.toNat : Rat) := by exact_mod_cast rx
      linarith
    have n2 : ((resOf wx wy res).2.toNat : Rat) - 1 > 0 := by
      have : (2 : Rat) ≤ ((resOf wx wy res).2.toNat : Rat) := by exact_mod_cast ry
      linarith
    have sx : 0 < (linspace (lo (pts.map Prod.fst) - border wx wy f) (hi (pts.map Prod.fst) + border wx wy f) (resOf wx wy res).1.toNat).getD 1 0 -
        (linspace (lo (pts.map Prod.fst) - border wx wy f) (hi (pts.map Prod.fst) + border wx wy f) (resOf wx wy res).1.toNat).getD 0 0 := by
      rw [linspace_step _ _ rx]
      apply div_pos _ n1
      have : 0 < hi (pts.map Prod.fst) - lo (pts.map Prod.fst) := wx0
      linarith
    have sy : 0 < (linspace (lo (pts.map Prod.snd) - border wx wy f) (hi (pts.map Prod.snd) + border wx wy f) (resOf wx wy res).2.toNat).getD 1 0 -
        (linspace (lo (pts.map Prod.snd) - border wx wy f) (hi (pts.map Prod.snd) + border wx wy f) (resOf wx wy res).2.toNat).getD 0 0 := by
      rw [linspace_step _ _ ry]
      apply div_pos _ n2
      have : 0 < hi (pts.map Prod.snd) - lo (pts.map Prod.snd) := wy0
      linarith
    refine ⟨⟨c, ?_, ?_⟩, ?_, ?_⟩
    · cases fmt <;> simp_all [Format.scale, Format.Asks]
    · rw [← h]
      exact onGrid_mass K hK _ _ (by rw [linspace_length]; exact rx) (by rw [linspace_length]; exact ry) sx.ne' sy.ne' c
    · intro np i j
      have c0 : 0 < c := by
        have : (0 : Rat) < pts.length := by exact_mod_cast np
        cases fmt <;> simp_all [Format.scale] <;> (rw [← hs]; norm_num; try assumption)
      rw [← h]
      unfold onGrid
      simp only
      apply mul_pos _ c0
      apply div_pos (hK _ _)
      apply mul_pos (mul_pos _ sx) sy
      apply Finset.sum_pos
      · intro i _
        apply Finset.sum_pos (fun j _ => hK _ _)
        exact ⟨0, Finset.mem_range.mpr (by rw [linspace_length]; omega)⟩
      · exact ⟨0, Finset.mem_range.mpr (by rw [linspace_length]; omega)⟩
    · intro p hp
      rw [← h]
      unfold onGrid
      simp only [linspace_length]
      rw [linspace_first _ _ (by omega), linspace_first _ _ (by omega), linspace_last _ _ rx, linspace_last _ _ ry]
      have a1 := lo_le (pts.map Prod.fst) (List.mem_map_of_mem hp)
      have a2 := le_hi (pts.map Prod.fst) (List.mem_map_of_mem hp)
      have a3 := lo_le (pts.map Prod.snd) (List.mem_map_of_mem hp)
      have a4 := le_hi (pts.map Prod.snd) (List.mem_map_of_mem hp)
      refine ⟨?_, ?_, ?_, ?_⟩ <;> linarith

/-- C339: too few points, and all the points at one place. -/
theorem C339_few (K : Rat → Rat → Rat) (f : Rat) (res : Int) (fmt : Format) (pts : List (Rat × Rat)) :
    (pts.length < 2 → density K f res fmt pts = .ok none) ∧
    (2 ≤ pts.length → width (pts.map Prod.fst) = 0 → width (pts.map Prod.snd) = 0 → density K f res fmt pts = .error .exception) := by
  unfold density
  refine ⟨fun h => if_pos h, fun h h1 h2 => ?_⟩
  rw [if_neg (by omega), if_pos ⟨h1, h2⟩]

/-- C339: no density for points on a line parallel to an axis, although their number is sufficient and a grid was prepared for them. -/
theorem C339_line_violated (K : Rat → Rat → Rat) (f : Rat) (res : Int) (hr : 2 ≤ res) (fmt : Format) (pts : List (Rat × Rat))
    (hn : 2 ≤ pts.length) (h : ¬ (width (pts.map Prod.fst) = 0 ↔ width (pts.map Prod.snd) = 0)) :
    density K f res fmt pts = .ok none := by
  unfold density
  rw [if_neg (by omega), if_neg (fun c => h ⟨fun _ => c.2, fun _ => c.1⟩)]
  have w : width (pts.map Prod.fst) = 0 ∨ width (pts.map Prod.snd) = 0 := by
    by_contra c
    rw [not_or] at c
    exact h ⟨fun k => absurd k c.1, fun k => absurd k c.2⟩
  have r : resOf (width (pts.map Prod.fst)) (width (pts.map Prod.snd)) res = (res, res) := by unfold resOf; exact if_pos w
  rw [r, if_neg (by simp only; omega), if_pos w]

/-- C339: `ValueError` for points that are too close to a line parallel to the first axis, for the resolution. -/
theorem C339_flat_violated (K : Rat → Rat → Rat) (f : Rat) (res : Int) (fmt : Format) (pts : List (Rat × Rat)) (hn : 2 ≤ pts.length)
    (hy : 0 < width (pts.map Prod.snd)) (hx : width (pts.map Prod.snd) < width (pts.map Prod.fst))
    (h : res * width (pts.map Prod.snd) < width (pts.map Prod.fst) * (3 / 2)) : density K f res fmt pts = .error .valueError := by
  have x0 : 0 < width (pts.map Prod.fst) := lt_trans hy hx
  unfold density
  rw [if_neg (by omega), if_neg (fun c => hy.ne' c.2), if_pos]
  right
  unfold resOf
  rw [if_neg (by rintro (c | c); exact x0.ne' c; exact hy.ne' c), if_pos hx]
  simp only
  have q : (res * width (pts.map Prod.snd) / width (pts.map Prod.fst) : Rat) < 3 / 2 := by rw [div_lt_iff₀ x0]; linarith
  have n := abs_le.mp (Utils.npround_near (res * width (pts.map Prod.snd) / width (pts.map Prod.fst)))
  have : (npround (res * width (pts.map Prod.snd) / width (pts.map Prod.fst)) : Rat) < 2 := by linarith [n.2]
  exact_mod_cast this

/-! ### C340 -/

/-- The node `i` of an axis is the nearest to `x`, and no node before is as near. -/
def Nearest (axe : List Rat) (x : Rat) (i : Nat) : Prop :=
  i < axe.length ∧ (∀ m, m < axe.length → |x - axe.getD i 0| ≤ |x - axe.getD m 0|) ∧ ∀ m, m < i → |x - axe.getD i 0| < |x - axe.getD m 0|

theorem nearIdx_nearest (axe : List Rat) (h : axe ≠ []) (x : Rat) (i : Nat) : Nearest axe x i ↔ i = Cursor.nearIdx axe x := by
  have key : Nearest axe x (Cursor.nearIdx axe x) := by
    obtain ⟨h1, h2, h3⟩ := Cursor.argmin_spec (axe.map fun c => |x - c|) (by simpa using h)
    have l : Cursor.nearIdx axe x < axe.length := by simpa [Cursor.nearIdx] using h1
    have g : ∀ m, m < axe.length → (axe.map fun c => |x - c|).getD m 0 = |x - axe.getD m 0| := by
      intro m hm
      rw [List.getD_eq_getElem _ _ (by simpa using hm), List.getD_eq_getElem _ _ hm]
      simp
    refine ⟨l, fun m hm => ?_, fun m hm => ?_⟩
    · rw [← g _ l, ← g _ hm]
      apply h2
      rw [List.getD_eq_getElem _ _ (by simpa using hm)]
      exact List.getElem_mem _
    · rw [← g _ l, ← g _ (by omega)]
      exact h3 m hm
  constructor
  · rintro ⟨a, b, c⟩
    obtain ⟨a', b', c'⟩ := key
    rcases lt_trichotomy i (Cursor.nearIdx axe x) with k | k | k
    · exact absurd (c' i k) (not_lt.mpr (b _ a'))
    · exact k
    · exact absurd (c _ k) (not_lt.mpr (b' _ a))
  · rintro rfl
    exact key

theorem drop_fold (ax ay : List Rat) (ps : List ((Rat × Rat) × Rat)) (g : Nat → Nat → Rat) (i j : Nat) :
    ps.foldl (drop ax ay) g i j =
      g i j + ((ps.filter fun p => decide (i = Cursor.nearIdx ax p.1.1 ∧ j = Cursor.nearIdx ay p.1.2)).map Prod.snd).sum := by
  induction ps generalizing g with
  | nil => simp
  | cons p ps ih =>
    rw [List.foldl_cons, ih]
    by_cases c : i = Cursor.nearIdx ax p.1.1 ∧ j = Cursor.nearIdx ay p.1.2
    · rw [List.filter_cons_of_pos (by simpa using c)]
      simp only [drop, if_pos c, List.map_cons, List.sum_cons]
      ring
    · rw [List.filter_cons_of_neg (by simpa using c)]
      simp only [drop, if_neg c]

theorem sum_single (n m a b : Nat) (ha : a < n) (hb : b < m) (w : Rat) :
    ∑ i ∈ Finset.range n, ∑ j ∈ Finset.range m, (if i = a ∧ j = b then w else 0) = w := by
  rw [Finset.sum_eq_single a]
  · rw [Finset.sum_eq_single b]
    · simp
    · intro j _ hj; simp [hj]
    · intro h; exact absurd (Finset.mem_range.mpr hb) h
  · intro i _ hi; simp [hi]
  · intro h; exact absurd (Finset.mem_range.mpr ha) h

theorem drop_total (ax ay : List Rat) (hx : ax ≠ []) (hy : ay ≠ []) (ps : List ((Rat × Rat) × Rat)) (g : Nat → Nat → Rat) :
    ∑ i ∈ Finset.range ax.length, ∑ j ∈ Finset.range ay.length, ps.foldl (drop ax ay) g i j =
      (∑ i ∈ Finset.range ax.length, ∑ j ∈ Finset.range ay.length, g i j) + (ps.map Prod.snd).sum := by
  induction ps generalizing g with
  | nil => simp
  | cons p ps ih =>
    rw [List.foldl_cons, ih]
    have e : ∑ i ∈ Finset.range ax.length, ∑ j ∈ Finset.range ay.length, drop ax ay g p i j =
        (∑ i ∈ Finset.range ax.length, ∑ j ∈ Finset.range ay.length, g i j) + p.2 := by
      have s : ∀ i j, drop ax ay g p i j = g i j + (if i = Cursor.nearIdx ax p.1.1 ∧ j = Cursor.nearIdx ay p.1.2 then p.2 else 0) := by
        intro i j
        unfold drop
        split <;> simp
      simp only [s, Finset.sum_add_distrib]
      rw [sum_single _ _ _ _ ((nearIdx_nearest ax hx _ _).2 rfl).1 ((nearIdx_nearest ay hy _ _).2 rfl).1]
    rw [e, List.map_cons, List.sum_cons]
    ring

open Classical in
/-- C340: without subgrid, the density at a node, times the surface of a cell, is the sum of the weights of the points of which it is
the nearest node: each point counts at one node, and the total is the weight of all the points. -/
theorem C340_counts_partial (resx resy : Nat) (hx : 2 ≤ resx) (hy : 2 ≤ resy) (pts : List ((Rat × Rat) × Rat)) (hp : pts ≠ [])
    (wx : width (pts.map fun p => p.1.1) ≠ 0) (wy : width (pts.map fun p => p.1.2) ≠ 0) :
    ∃ d, density2 resx resy false pts = .ok d ∧ d.ax.length = resx ∧ d.ay.length = resy ∧
      d.ax.getD 0 0 = lo (pts.map fun p => p.1.1) ∧ d.ax.getD (resx - 1) 0 = hi (pts.map fun p => p.1.1) ∧
      d.ay.getD 0 0 = lo (pts.map fun p => p.1.2) ∧ d.ay.getD (resy - 1) 0 = hi (pts.map fun p => p.1.2) ∧
      (∀ i j, d.v i j * ((d.ax.getD 1 0 - d.ax.getD 0 0) * (d.ay.getD 1 0 - d.ay.getD 0 0)) =
        ((pts.filter fun p => decide (Nearest d.ax p.1.1 i ∧ Nearest d.ay p.1.2 j)).map Prod.snd).sum) ∧
      d.mass = (pts.map Prod.snd).sum := by
  have r1 : (resx : Rat) - 1 ≠ 0 := by
    have : (2 : Rat) ≤ resx := by exact_mod_cast hx
    intro c; linarith
  have r2 : (resy : Rat) - 1 ≠ 0 := by
    have : (2 : Rat) ≤ resy := by exact_mod_cast hy
    intro c; linarith
  unfold density2
  rw [if_neg hp, if_neg (by simp)]
  have nx : linspace (lo (pts.map fun p => p.1.1)) (hi (pts.map fun p => p.1.1)) resx ≠ [] := by
    intro c; have := congrArg List.length c; simp [linspace_length] at this; omega
  have ny : linspace (lo (pts.map fun p => p.1.2)) (hi (pts.map fun p => p.1.2)) resy ≠ [] := by
    intro c; have := congrArg List.length c; simp [linspace_length] at this; omega
  have cell : width (pts.map fun p => p.1.1) / ((resx : Rat) - 1) * (width (pts.map fun p => p.1.2) / ((resy : Rat) - 1)) ≠ 0 :=
    mul_ne_zero (div_ne_zero wx r1) (div_ne_zero wy r2)
  refine ⟨_, rfl, linspace_length _ _ _, linspace_length _ _ _, linspace_first _ _ (by omega), linspace_last _ _ hx, linspace_first _ _ (by omega),
    linspace_last _ _ hy, ?_, ?_⟩
  · intro i j
    simp only
    rw [linspace_step _ _ hx, linspace_step _ _ hy]
    have e : (hi (pts.map fun p => p.1.1) - lo (pts.map fun p => p.1.1)) = width (pts.map fun p => p.1.1) := rfl
    have e' : (hi (pts.map fun p => p.1.2) - lo (pts.map fun p => p.1.2)) = width (pts.map fun p => p.1.2) := rfl
    rw [e, e', div_mul_cancel₀ _ cell, drop_fold, zero_add]
    congr 3
    funext p
    rw [decide_eq_decide, nearIdx_nearest _ nx, nearIdx_nearest _ ny]
  · unfold Dens.mass
    simp only
    rw [linspace_step _ _ hx, linspace_step _ _ hy]
    have e : (hi (pts.map fun p => p.1.1) - lo (pts.map fun p => p.1.1)) = width (pts.map fun p => p.1.1) := rfl
    have e' : (hi (pts.map fun p => p.1.2) - lo (pts.map fun p => p.1.2)) = width (pts.map fun p => p.1.2) := rfl
    rw [e, e']
    simp only [← Finset.sum_div]
    rw [div_mul_cancel₀ _ cell, drop_total _ _ nx ny]
    simp

/-- C340: with a subgrid, always `TypeError`. -/
theorem C340_subgrid_violated (resx resy : Nat) (pts : List ((Rat × Rat) × Rat)) (hp : pts ≠ []) :
    density2 resx resy true pts = .error .typeError := by
  unfold density2
  rw [if_neg hp]
  rfl

/-- Four points on the corners of a square and one near the first: two at the first node. -/
example : (density2 2 2 false [((0, 0), 1), ((1, 0), 1), ((0, 1), 1), ((1, 1), 1), ((1 / 4, 1 / 4), 1)]).toOption.map (fun d => [d.v 0 0, d.v 0 1, d.v 1 1]) =
    some [2, 1, 1] := by decide +kernel

/-! ### C341 -/

/-- `i` and `j` are the ends of a side of the triangle. -/
def SideOf (t : Nat × Nat × Nat) (i j : Nat) : Prop := (i, j) = (t.1, t.2.1) ∨ (i, j) = (t.2.1, t.2.2) ∨ (i, j) = (t.2.2, t.1)

/-- An edge is listed, in one direction or the other. -/
def Listed (es : List (Nat × Nat)) (i j : Nat) : Prop := (i, j) ∈ es ∨ (j, i) ∈ es

/-- No edge is twice in the list, even reversed. -/
def Once (es : List (Nat × Nat)) : Prop := es.Pairwise fun e e' => e ≠ e' ∧ e ≠ (e'.2, e'.1)

theorem addEdge_listed (es : List (Nat × Nat)) (i j a b : Nat) :
    Listed (addEdge es i j) a b ↔ Listed es a b ∨ (a, b) = (i, j) ∨ (b, a) = (i, j) := by
  unfold addEdge Listed
  by_cases c : (i, j) ∈ es ∨ (j, i) ∈ es
  · rw [if_pos c]
    constructor
    · exact Or.inl
    · rintro (h | h | h)
      · exact h
      · cases h; exact c
      · cases h; exact c.symm
  · rw [if_neg c]
    simp only [List.mem_append, List.mem_singleton]
    tauto

theorem addEdge_once (es : List (Nat × Nat)) (i j : Nat) (h : Once es) : Once (addEdge es i j) := by
  unfold addEdge
  by_cases c : (i, j) ∈ es ∨ (j, i) ∈ es
  · rw [if_pos c]; exact h
  · rw [if_neg c]
    rw [not_or] at c
    unfold Once
    rw [List.pairwise_append]
    refine ⟨h, by simp, ?_⟩
    intro e he e' he'
    rw [List.mem_singleton] at he'
    subst he'
    exact ⟨fun k => c.1 (k ▸ he), fun k => c.2 (k ▸ he)⟩

theorem addEdge_mem (es : List (Nat × Nat)) (i j : Nat) (e : Nat × Nat) (h : e ∈ addEdge es i j) : e ∈ es ∨ e = (i, j) := by
  unfold addEdge at h
  split at h
  · exact Or.inl h
  · simpa using h

open Classical in
theorem edges_inv (pts : Nat → ℝ × ℝ) (alpha : Option ℝ) (ts : List (Nat × Nat × Nat)) (es : List (Nat × Nat)) (h : Once es) :
    Once (ts.foldl (fun es t => if ∀ a, alpha = some a → radius pts t < a then
        addEdge (addEdge (addEdge es t.1 t.2.1) t.2.1 t.2.2) t.2.2 t.1 else es) es) ∧
    (∀ a b, Listed (ts.foldl (fun es t => if ∀ a, alpha = some a → radius pts t < a then
        addEdge (addEdge (addEdge es t.1 t.2.1) t.2.1 t.2.2) t.2.2 t.1 else es) es) a b ↔
      Listed es a b ∨ ∃ t ∈ ts, (∀ a, alpha = some a → radius pts t < a) ∧ (SideOf t a b ∨ SideOf t b a)) := by
  induction ts generalizing es with
  | nil => exact ⟨h, fun a b => by simp⟩
  | cons t ts ih =>
    rw [List.foldl_cons]
    by_cases c : ∀ a, alpha = some a → radius pts t < a
    · rw [if_pos c]
      obtain ⟨i1, i2⟩ := ih _ (addEdge_once _ t.2.2 t.1 (addEdge_once _ t.2.1 t.2.2 (addEdge_once es t.1 t.2.1 h)))
      refine ⟨i1, fun a b => ?_⟩
      rw [i2, addEdge_listed, addEdge_listed, addEdge_listed]
      constructor
      · rintro ((((k | k) | k) | k) | ⟨t', h1, h2⟩)
        · exact Or.inl k
        · refine Or.inr ⟨t, by simp, c, ?_⟩
          unfold SideOf; tauto
        · refine Or.inr ⟨t, by simp, c, ?_⟩
          unfold SideOf; tauto
        · refine Or.inr ⟨t, by simp, c, ?_⟩
          unfold SideOf; tauto
        · exact Or.inr ⟨t', List.mem_cons_of_mem _ h1, h2⟩
      · rintro (k | ⟨t', h1, h2, h3⟩)
        · tauto
        · rcases List.mem_cons.mp h1 with rfl | h1
          · left
            unfold SideOf at h3
            tauto
          · exact Or.inr ⟨t', h1, h2, h3⟩
    · rw [if_neg c]
      obtain ⟨i1, i2⟩ := ih es h
      refine ⟨i1, fun a b => ?_⟩
      rw [i2]
      constructor
      · rintro (k | ⟨t', h1, h2⟩)
        · exact Or.inl k
        · exact Or.inr ⟨t', List.mem_cons_of_mem _ h1, h2⟩
      · rintro (k | ⟨t', h1, h2, h3⟩)
        · exact Or.inl k
        · rcases List.mem_cons.mp h1 with rfl | h1
          · exact absurd h2 c
          · exact Or.inr ⟨t', h1, h2, h3⟩

/-- C341: the edges are the sides of the triangles whose circumscribed circle has a radius below `alpha` (of all of them without
`alpha`), each of them once. -/
theorem C341_edges_partial (pts : Nat → ℝ × ℝ) (alpha : Option ℝ) (ts : List (Nat × Nat × Nat)) :
    Once (edges pts alpha ts) ∧ ∀ a b, Listed (edges pts alpha ts) a b ↔
      ∃ t ∈ ts, (∀ r, alpha = some r → radius pts t < r) ∧ (SideOf t a b ∨ SideOf t b a) := by
  obtain ⟨h1, h2⟩ := edges_inv pts alpha ts [] List.Pairwise.nil
  refine ⟨h1, fun a b => ?_⟩
  have := h2 a b
  unfold edges
  rw [this]
  simp [Listed]

/-- C341: `alpha` is not the largest distance between two points of the hull: for every `alpha` there are points of which an edge is
kept although it is longer. -/
theorem C341_length_violated (alpha : ℝ) (ha : 0 < alpha) :
    ∃ pts : Nat → ℝ × ℝ, Listed (edges pts (some alpha) [(0, 1, 2)]) 1 2 ∧ alpha < side (pts 1) (pts 2) := by
  let pts : Nat → ℝ × ℝ := fun i => if i = 0 then (0, 0) else if i = 1 then (alpha, 0) else (0, alpha)
  have s1 : side (pts 0) (pts 1) = alpha := by
    show √((0 - alpha) ^ 2 + (0 - 0) ^ 2) = alpha
    rw [show (0 - alpha) ^ 2 + (0 - 0) ^ 2 = alpha ^ 2 by ring, Real.sqrt_sq ha.le]
  have s3 : side (pts 2) (pts 0) = alpha := by
    show √((0 - 0) ^ 2 + (alpha - 0) ^ 2) = alpha
    rw [show ((0 : ℝ) - 0) ^ 2 + (alpha - 0) ^ 2 = alpha ^ 2 by ring, Real.sqrt_sq ha.le]
  have s2 : side (pts 1) (pts 2) = √2 * alpha := by
    show √((alpha - 0) ^ 2 + (0 - alpha) ^ 2) = _
    rw [show (alpha - 0) ^ 2 + (0 - alpha) ^ 2 = 2 * alpha ^ 2 by ring, Real.sqrt_mul (by norm_num), Real.sqrt_sq ha.le]
  have q : √(2 : ℝ) ^ 2 = 2 := Real.sq_sqrt (by norm_num)
  have q0 : 0 ≤ √(2 : ℝ) := Real.sqrt_nonneg 2
  have q1 : 1 < √(2 : ℝ) := by
    by_contra c
    have : √(2 : ℝ) ^ 2 ≤ 1 := by nlinarith
    linarith
  have q2 : √(2 : ℝ) < 2 := by
    by_contra c
    nlinarith
  refine ⟨pts, ?_, ?_⟩
  · rw [(C341_edges_partial _ _ _).2]
    refine ⟨(0, 1, 2), by simp, ?_, Or.inl (by unfold SideOf; simp)⟩
    intro r hr
    cases hr
    unfold radius
    simp only
    rw [s1, s2, s3]
    unfold circum
    have area : √((alpha + √2 * alpha + alpha) / 2 * ((alpha + √2 * alpha + alpha) / 2 - alpha) *
        ((alpha + √2 * alpha + alpha) / 2 - √2 * alpha) * ((alpha + √2 * alpha + alpha) / 2 - alpha)) = alpha ^ 2 / 2 := by
      have : (alpha + √2 * alpha + alpha) / 2 * ((alpha + √2 * alpha + alpha) / 2 - alpha) *
        ((alpha + √2 * alpha + alpha) / 2 - √2 * alpha) * ((alpha + √2 * alpha + alpha) / 2 - alpha) = (alpha ^ 2 / 2) ^ 2 := by
        have : (alpha + √2 * alpha + alpha) / 2 * ((alpha + √2 * alpha + alpha) / 2 - alpha) *
          ((alpha + √2 * alpha + alpha) / 2 - √2 * alpha) * ((alpha + √2 * alpha + alpha) / 2 - alpha) =
          alpha ^ 4 * ((4 - √2 ^ 2) * √2 ^ 2) / 16 := by ring
        rw [this, q]; ring
      rw [this, Real.sqrt_sq (by positivity)]
    rw [area]
    rw [div_lt_iff₀ (by positivity)]
    have : 0 < alpha ^ 3 := by positivity
    nlinarith
  · rw [s2]
    nlinarith

end IMT.Cloud
