import Verif.Axis.Lemmas
import Verif.Scalar.Spec

/-! Helper lemmas on scalar fields. -/

namespace IMT

theorem getElem?_some_lt {α : Type} {l : List α} {i : Nat} {x : α} (h : l[i]? = some x) : i < l.length := by
  by_contra hc
  rw [List.getElem?_eq_none (by omega)] at h
  exact absurd h (by simp)

theorem Inc.idx_inj' {l : List Rat} (h : Inc l) {i j : Nat} {x : Rat}
    (hi : l[i]? = some x) (hj : l[j]? = some x) : i = j := by
  have li := getElem?_some_lt hi
  have lj := getElem?_some_lt hj
  rw [List.getElem?_eq_getElem li] at hi
  rw [List.getElem?_eq_getElem lj] at hj
  have e : l[i] = l[j] := by
    have h1 := Option.some.inj hi
    have h2 := Option.some.inj hj
    rw [h1, h2]
  rcases Nat.lt_trichotomy i j with c | c | c
  · have := (List.pairwise_iff_getElem.mp h) i j li lj c
    rw [e] at this; exact absurd this (lt_irrefl _)
  · exact c
  · have := (List.pairwise_iff_getElem.mp h) j i lj li c
    rw [e] at this; exact absurd this (lt_irrefl _)

theorem getElem?_reverse_iff {α : Type} {l : List α} {i : Nat} {x : α} :
    l.reverse[i]? = some x ↔ i < l.length ∧ l[l.length - 1 - i]? = some x := by
  constructor
  · intro h
    have hi := getElem?_some_lt h
    rw [List.length_reverse] at hi
    rw [List.getElem?_reverse hi] at h
    exact ⟨hi, h⟩
  · rintro ⟨hi, h⟩
    rw [List.getElem?_reverse hi]; exact h

theorem Inc.reverse_neg {l : List Rat} (h : Inc l) : Inc (l.reverse.map fun c => -c) := by
  unfold Inc at *
  rw [List.pairwise_map, List.pairwise_reverse]
  exact h.imp fun hab => by linarith

theorem Inc.map_mul_pos {l : List Rat} (h : Inc l) {c : Rat} (hc : 0 < c) : Inc (l.map (· * c)) := by
  unfold Inc at *
  rw [List.pairwise_map]
  exact h.imp fun hab => mul_lt_mul_of_pos_right hab hc

theorem Inc.map_mul_neg {l : List Rat} (h : Inc l) {c : Rat} (hc : c < 0) :
    Inc (l.map (· * c)).reverse := by
  unfold Inc at *
  rw [List.pairwise_reverse, List.pairwise_map]
  exact h.imp fun hab => mul_lt_mul_of_neg_right hab hc

theorem Inc.map_sub {l : List Rat} (h : Inc l) (c : Rat) : Inc (l.map (· - c)) := by
  unfold Inc at *
  rw [List.pairwise_map]
  exact h.imp fun hab => by linarith

theorem slice_getElem? {α : Type} (l : List α) (lo hi i : Nat) :
    (slice l lo hi)[i]? = if lo + i < hi then l[lo + i]? else none := by
  unfold slice
  rw [List.getElem?_drop, List.getElem?_take]

theorem slice_length {α : Type} (l : List α) (lo hi : Nat) :
    (slice l lo hi).length = min hi l.length - lo := by
  unfold slice; rw [List.length_drop, List.length_take]

theorem slice_inc {l : List Rat} (h : Inc l) (lo hi : Nat) : Inc (slice l lo hi) := by
  unfold slice Inc
  exact (List.Pairwise.sublist (List.drop_sublist _ _) (List.Pairwise.sublist (List.take_sublist _ _) h))

namespace SF

theorem fixAxis_inc {l : List Rat} (h : Inc l) : fixAxis l = l := by
  unfold fixAxis
  split
  · rename_i a b ha hb
    have : ¬ b < a := not_lt.mpr (Axis.head_le_last h ha hb)
    rw [if_neg this]
  · rfl

theorem fixAxis_rev {l : List Rat} (h : Inc l) (h2 : 2 ≤ l.length) :
    fixAxis l.reverse = l.reverse.map fun c => -c := by
  unfold fixAxis
  have hh : l.reverse.head? = some (l[l.length - 1]'(by omega)) := by
    rw [List.head?_reverse, List.getLast?_eq_getElem?, List.getElem?_eq_getElem (by omega)]
  have hl : l.reverse.getLast? = some (l[0]'(by omega)) := by
    rw [List.getLast?_reverse, List.head?_eq_getElem?, List.getElem?_eq_getElem (by omega)]
  rw [hh, hl]
  have : l[0]'(by omega) < l[l.length - 1]'(by omega) :=
    (List.pairwise_iff_getElem.mp h) 0 (l.length - 1) (by omega) (by omega) (by omega)
  simp only [this, if_true]

variable {f g : SF}

theorem Reads.cellMask (hf : f.WF) {i j : Nat} (hi : i < f.ax.length) (hj : j < f.ay.length) :
    f.mask.get i j = (f.cell i j).isNone := by
  unfold cell
  by_cases h : f.mask.get i j = true
  · simp [h]
  · simp only [h, Bool.false_eq_true, if_false]
    cases hv : f.val.get i j with
    | none => exact absurd (hf.nan i j hi hj hv) h
    | some v => simp

theorem Reads.unique (hf : f.WF) {x y : Rat} {r s : Option Rat} (h1 : f.Reads x y r)
    (h2 : f.Reads x y s) : r = s := by
  obtain ⟨i, j, hi, hj, hr⟩ := h1
  obtain ⟨i', j', hi', hj', hs⟩ := h2
  obtain rfl := hf.incx.idx_inj' hi hi'
  obtain rfl := hf.incy.idx_inj' hj hj'
  rw [← hr, ← hs]

theorem inc_ext {l m : List Rat} (hl : Inc l) (hm : Inc m) (h : ∀ x, x ∈ l ↔ x ∈ m) : l = m := by
  have hp : l.Perm m := by
    rw [List.perm_ext_iff_of_nodup]
    · exact h
    · exact hl.imp fun h => ne_of_lt h
    · exact hm.imp fun h => ne_of_lt h
  exact hp.eq_of_pairwise (fun a b _ _ h1 h2 => absurd (lt_trans h1 h2) (lt_irrefl _)) hl hm

/-- Consistent fields with the same readings are the same field, units apart. -/
theorem ext_of_reads (hf : f.WF) (hg : g.WF) (h : ∀ x y r, f.Reads x y r ↔ g.Reads x y r)
    (hux : f.ux = g.ux) (huy : f.uy = g.uy) (huv : f.uv = g.uv) : f.Equal g := by
  have hax : f.ax = g.ax := by
    refine inc_ext hf.incx hg.incx fun x => ⟨fun hx => ?_, fun hx => ?_⟩
    · obtain ⟨i, hi⟩ := List.getElem?_of_mem hx
      obtain ⟨y, hy⟩ := List.exists_mem_of_ne_nil _ hf.ney
      obtain ⟨j, hj⟩ := List.getElem?_of_mem hy
      obtain ⟨i', _, hi', _⟩ := (h x y (f.cell i j)).mp ⟨i, j, hi, hj, rfl⟩
      exact List.mem_of_getElem? hi'
    · obtain ⟨i, hi⟩ := List.getElem?_of_mem hx
      obtain ⟨y, hy⟩ := List.exists_mem_of_ne_nil _ hg.ney
      obtain ⟨j, hj⟩ := List.getElem?_of_mem hy
      obtain ⟨i', _, hi', _⟩ := (h x y (g.cell i j)).mpr ⟨i, j, hi, hj, rfl⟩
      exact List.mem_of_getElem? hi'
  have hay : f.ay = g.ay := by
    refine inc_ext hf.incy hg.incy fun y => ⟨fun hy => ?_, fun hy => ?_⟩
    · obtain ⟨j, hj⟩ := List.getElem?_of_mem hy
      obtain ⟨x, hx⟩ := List.exists_mem_of_ne_nil _ hf.nex
      obtain ⟨i, hi⟩ := List.getElem?_of_mem hx
      obtain ⟨_, j', _, hj', _⟩ := (h x y (f.cell i j)).mp ⟨i, j, hi, hj, rfl⟩
      exact List.mem_of_getElem? hj'
    · obtain ⟨j, hj⟩ := List.getElem?_of_mem hy
      obtain ⟨x, hx⟩ := List.exists_mem_of_ne_nil _ hg.nex
      obtain ⟨i, hi⟩ := List.getElem?_of_mem hx
      obtain ⟨_, j', _, hj', _⟩ := (h x y (g.cell i j)).mpr ⟨i, j, hi, hj, rfl⟩
      exact List.mem_of_getElem? hj'
  have hcell : ∀ i j, i < f.ax.length → j < f.ay.length → f.cell i j = g.cell i j := by
    intro i j hi hj
    have hx : f.ax[i]? = some f.ax[i] := List.getElem?_eq_getElem hi
    have hy : f.ay[j]? = some f.ay[j] := List.getElem?_eq_getElem hj
    have := (h f.ax[i] f.ay[j] (f.cell i j)).mp ⟨i, j, hx, hy, rfl⟩
    refine this.unique hg ⟨i, j, ?_, ?_, rfl⟩
    · rw [← hax]; exact hx
    · rw [← hay]; exact hy
  refine ⟨hax, hay, hux, huy, huv, hcell, fun i j hi hj => ?_⟩
  rw [Reads.cellMask hf hi hj, Reads.cellMask hg (hax ▸ hi) (hay ▸ hj), hcell i j hi hj]

theorem setValues_cell (f : SF) (v : Grid (Option Rat)) (i j : Nat) :
    (f.setValues v).cell i j = v.get i j := by
  unfold setValues cell Grid.map
  simp only
  cases v.get i j <;> simp

theorem setValues_WF (hf : f.WF) {v : Grid (Option Rat)} (hx : v.nx = f.ax.length)
    (hy : v.ny = f.ay.length) : (f.setValues v).WF := by
  refine ⟨hf.incx, hf.incy, hf.nex, hf.ney, hx, hy, hx, hy, ?_⟩
  intro i j _ _ h
  simp only [setValues, Grid.map] at *
  rw [h]; rfl

/-- A field on the same axes. -/
theorem reads_map (hax : g.ax = f.ax) (hay : g.ay = f.ay)
    (φ : Option Rat → Option Rat)
    (h : ∀ i j, i < f.ax.length → j < f.ay.length → g.cell i j = φ (f.cell i j)) (x y : Rat) (r : Option Rat) :
    g.Reads x y r ↔ ∃ s, f.Reads x y s ∧ r = φ s := by
  constructor
  · rintro ⟨i, j, hi, hj, hr⟩
    rw [hax] at hi; rw [hay] at hj
    refine ⟨f.cell i j, ⟨i, j, hi, hj, rfl⟩, ?_⟩
    rw [← hr, h i j (getElem?_some_lt hi) (getElem?_some_lt hj)]
  · rintro ⟨s, ⟨i, j, hi, hj, hs⟩, rfl⟩
    refine ⟨i, j, by rw [hax]; exact hi, by rw [hay]; exact hj, ?_⟩
    rw [h i j (getElem?_some_lt hi) (getElem?_some_lt hj), hs]

/-- The axis `lg` is the axis `lf` read through the index permutation `σ`, each coordinate moved by `φ`. -/
structure AxMap (lf lg : List Rat) (φ : Rat → Rat) (σ : Nat → Nat) : Prop where
  len : lg.length = lf.length
  lt : ∀ i, i < lf.length → σ i < lf.length
  inv : ∀ i, i < lf.length → σ (σ i) = i
  get : ∀ i, i < lf.length → lg[i]? = (lf[σ i]?).map φ

theorem AxMap.to {lf lg : List Rat} {φ : Rat → Rat} {σ : Nat → Nat} (h : AxMap lf lg φ σ) {i : Nat} {x' : Rat}
    (hx : lg[i]? = some x') : ∃ x, lf[σ i]? = some x ∧ x' = φ x := by
  have hi : i < lf.length := h.len ▸ getElem?_some_lt hx
  rw [h.get i hi] at hx
  obtain ⟨x, h1, h2⟩ := Option.map_eq_some_iff.mp hx
  exact ⟨x, h1, h2.symm⟩

theorem AxMap.from {lf lg : List Rat} {φ : Rat → Rat} {σ : Nat → Nat} (h : AxMap lf lg φ σ) {i : Nat} {x : Rat}
    (hx : lf[i]? = some x) : lg[σ i]? = some (φ x) := by
  have hi : i < lf.length := getElem?_some_lt hx
  rw [h.get (σ i) (h.lt i hi), h.inv i hi, hx]; rfl

theorem AxMap.id (l : List Rat) : AxMap l l (fun x => x) (fun i => i) :=
  ⟨rfl, fun _ h => h, fun _ _ => rfl, fun i _ => by simp⟩

theorem AxMap.map (l : List Rat) (φ : Rat → Rat) : AxMap l (l.map φ) φ (fun i => i) :=
  ⟨by simp, fun _ h => h, fun _ _ => rfl, fun i _ => by simp⟩

theorem AxMap.revMap (l : List Rat) (φ : Rat → Rat) : AxMap l (l.map φ).reverse φ (fun i => l.length - 1 - i) := by
  refine ⟨by simp, fun i h => by omega, fun i h => by omega, fun i h => ?_⟩
  rw [List.getElem?_reverse (by simpa using h)]
  simp

theorem AxMap.mapRev (l : List Rat) (φ : Rat → Rat) : AxMap l (l.reverse.map φ) φ (fun i => l.length - 1 - i) := by
  have := AxMap.revMap l φ
  rwa [← List.map_reverse] at this

theorem reads_axmap {φx φy : Rat → Rat} {σx σy : Nat → Nat} {ψ : Option Rat → Option Rat}
    (hx : AxMap f.ax g.ax φx σx) (hy : AxMap f.ay g.ay φy σy)
    (hc : ∀ i j, i < f.ax.length → j < f.ay.length → g.cell i j = ψ (f.cell (σx i) (σy j)))
    (x' y' : Rat) (r' : Option Rat) :
    g.Reads x' y' r' ↔ ∃ x y r, f.Reads x y r ∧ x' = φx x ∧ y' = φy y ∧ r' = ψ r := by
  constructor
  · rintro ⟨i, j, hi, hj, hr⟩
    obtain ⟨x, h1, rfl⟩ := hx.to hi
    obtain ⟨y, h2, rfl⟩ := hy.to hj
    refine ⟨x, y, _, ⟨σx i, σy j, h1, h2, rfl⟩, rfl, rfl, ?_⟩
    rw [← hr, hc i j (hx.len ▸ getElem?_some_lt hi) (hy.len ▸ getElem?_some_lt hj)]
  · rintro ⟨x, y, r, ⟨i, j, hi, hj, hr⟩, rfl, rfl, rfl⟩
    have li := getElem?_some_lt hi
    have lj := getElem?_some_lt hj
    refine ⟨σx i, σy j, hx.from hi, hy.from hj, ?_⟩
    rw [hc _ _ (hx.lt i li) (hy.lt j lj), hx.inv i li, hy.inv j lj, hr]

/-- Same, for a field whose axes are exchanged. -/
theorem reads_axswap {φx φy : Rat → Rat} {σx σy : Nat → Nat}
    (hx : AxMap f.ax g.ay φx σx) (hy : AxMap f.ay g.ax φy σy)
    (hc : ∀ i j, i < f.ax.length → j < f.ay.length → g.cell j i = f.cell (σx i) (σy j))
    (x' y' : Rat) (r' : Option Rat) :
    g.Reads x' y' r' ↔ ∃ x y, f.Reads x y r' ∧ x' = φy y ∧ y' = φx x := by
  constructor
  · rintro ⟨j, i, hj, hi, hr⟩
    obtain ⟨x, h1, rfl⟩ := hx.to hi
    obtain ⟨y, h2, rfl⟩ := hy.to hj
    refine ⟨x, y, ⟨σx i, σy j, h1, h2, ?_⟩, rfl, rfl⟩
    rw [← hr, hc i j (hx.len ▸ getElem?_some_lt hi) (hy.len ▸ getElem?_some_lt hj)]
  · rintro ⟨x, y, ⟨i, j, hi, hj, hr⟩, rfl, rfl⟩
    have li := getElem?_some_lt hi
    have lj := getElem?_some_lt hj
    refine ⟨σy j, σx i, hy.from hj, hx.from hi, ?_⟩
    rw [hc _ _ (hx.lt i li) (hy.lt j lj), hx.inv i li, hy.inv j lj, hr]

/-! ### Rotation -/

theorem rot_cases (k : Int) : (90 * k) % 90 = 0 ∧ (90 * k) % 360 = 90 * (k % 4) := by
  constructor <;> omega

theorem rotate_spec (hf : f.WF) (h2x : 2 ≤ f.ax.length) (h2y : 2 ≤ f.ay.length) (k : Int) :
    ∃ g, f.rotate (90 * k) = .ok g ∧ g.WF ∧
      (∀ x y r, f.Reads x y r ↔ g.Reads (turn k (x, y)).1 (turn k (x, y)).2 r) ∧
      g.uv = f.uv ∧
      (g.ux, g.uy) = (if k % 2 = 0 then (f.ux, f.uy) else (f.uy, f.ux)) ∧
      (g.ax.length, g.ay.length)
        = (if k % 2 = 0 then (f.ax.length, f.ay.length) else (f.ay.length, f.ax.length)) := by
  obtain ⟨e1, e2⟩ := rot_cases k
  unfold rotate
  simp only [e1, e2, ne_eq, not_true_eq_false, if_false]
  have hk : k % 4 = 0 ∨ k % 4 = 1 ∨ k % 4 = 2 ∨ k % 4 = 3 := by omega
  rcases hk with hk | hk | hk | hk
  · have hk2 : k % 2 = 0 := by omega
    simp only [hk, hk2, if_true, mul_zero, turn, fixAxis_inc hf.incx, fixAxis_inc hf.incy]
    refine ⟨_, rfl, ?_, ?_, rfl, rfl, rfl⟩
    · refine ⟨hf.incx, hf.incy, hf.nex, hf.ney, hf.vx, hf.vy, hf.mx, hf.my, ?_⟩
      intro i j hi hj h
      simp only [values] at *
      rw [Reads.cellMask hf hi hj, h]; rfl
    · intro x y r
      have := reads_map (f := f) (g := { f with val := f.values }) rfl rfl (fun r => r) (fun i j _ _ => by
        unfold cell values; simp only; unfold cell
        by_cases h : f.mask.get i j = true <;> simp [h]) x y r
      rw [this]; simp
  · have hk2 : ¬ k % 2 = 0 := by omega
    simp only [hk, hk2, if_true, if_false, mul_one, turn, show ¬ ((90 : Int) = 0) by omega,
      show ¬ ((1 : Int) = 0) by omega, fixAxis_rev hf.incy h2y, fixAxis_inc hf.incx]
    refine ⟨_, rfl, ?_, ?_, rfl, rfl, by simp⟩
    · refine ⟨hf.incy.reverse_neg, hf.incx, by simpa using hf.ney, hf.nex, ?_, ?_, ?_, ?_, ?_⟩
      · simp [Grid.rot90, Grid.transpose, Grid.flipY, values, hf.vy]
      · simp [Grid.rot90, Grid.transpose, Grid.flipY, values, hf.vx]
      · simp [Grid.rot90, Grid.transpose, Grid.flipY, hf.my]
      · simp [Grid.rot90, Grid.transpose, Grid.flipY, hf.mx]
      · intro i j hi hj h
        simp only [List.length_map, List.length_reverse] at hi
        simp only [Grid.rot90, Grid.transpose, Grid.flipY, values, hf.vy, hf.my] at *
        rw [Reads.cellMask hf hj (by omega), h]; rfl
    · intro x y r
      refine Iff.symm (Iff.trans (reads_axswap (f := f) (φx := fun c => c) (φy := fun c => -c)
        (σx := fun i => i) (σy := fun j => f.ay.length - 1 - j) ?_ ?_ ?_ _ _ _) (Iff.symm ?_))
      · exact AxMap.id f.ax
      · exact AxMap.mapRev f.ay (fun c => -c)
      rotate_left
      · constructor
        · intro h; exact ⟨x, y, h, rfl, rfl⟩
        · rintro ⟨x', y', h, h1, h2⟩
          have : y = y' := by linarith
          subst this; subst h2; exact h
      · intro i j hi hj
        show (if Grid.get _ _ _ = true then none else _) = _
        simp only [Grid.rot90, Grid.transpose, Grid.flipY, values, hf.vy, hf.my]
        unfold cell
        by_cases h : f.mask.get i (f.ay.length - 1 - j) = true <;> simp [h]
  · have hk2 : k % 2 = 0 := by omega
    simp only [hk, hk2, if_true, if_false, turn, show ((90 * 2 : Int) = 180) by omega,
      show ¬ ((2 : Int) = 0) by omega, show ¬ ((2 : Int) = 1) by omega,
      fixAxis_rev hf.incy h2y, fixAxis_rev hf.incx h2x]
    refine ⟨_, rfl, ?_, ?_, rfl, rfl, by simp⟩
    · refine ⟨hf.incx.reverse_neg, hf.incy.reverse_neg, by simpa using hf.nex, by simpa using hf.ney, ?_, ?_, ?_, ?_, ?_⟩
      · simp [Grid.rot180, Grid.flipX, Grid.flipY, values, hf.vx]
      · simp [Grid.rot180, Grid.flipX, Grid.flipY, values, hf.vy]
      · simp [Grid.rot180, Grid.flipX, Grid.flipY, hf.mx]
      · simp [Grid.rot180, Grid.flipX, Grid.flipY, hf.my]
      · intro i j hi hj h
        simp only [List.length_map, List.length_reverse] at hi hj
        simp only [Grid.rot180, Grid.flipX, Grid.flipY, values, hf.vx, hf.vy, hf.mx, hf.my] at *
        rw [Reads.cellMask hf (by omega) (by omega), h]; rfl
    · intro x y r
      refine Iff.symm (Iff.trans (reads_axmap (f := f) (ψ := fun r => r) (φx := fun c => -c) (φy := fun c => -c)
        (σx := fun i => f.ax.length - 1 - i) (σy := fun j => f.ay.length - 1 - j) ?_ ?_ ?_ _ _ _) (Iff.symm ?_))
      · exact AxMap.mapRev f.ax (fun c => -c)
      · exact AxMap.mapRev f.ay (fun c => -c)
      rotate_left
      · constructor
        · intro h; exact ⟨x, y, r, h, rfl, rfl, rfl⟩
        · rintro ⟨x', y', r', h, h1, h2, rfl⟩
          have e1 : y = y' := by linarith
          have e2 : x = x' := by linarith
          subst e1; subst e2; exact h
      · intro i j hi hj
        show (if Grid.get _ _ _ = true then none else _) = _
        simp only [Grid.rot180, Grid.flipX, Grid.flipY, values, hf.vx, hf.vy, hf.mx, hf.my]
        unfold cell
        by_cases h : f.mask.get (f.ax.length - 1 - i) (f.ay.length - 1 - j) = true <;> simp [h]
  · have hk2 : ¬ k % 2 = 0 := by omega
    simp only [hk, hk2, if_false, turn, show ¬ ((90 * 3 : Int) = 0) by omega,
      show ¬ ((90 * 3 : Int) = 90) by omega, show ¬ ((90 * 3 : Int) = 180) by omega,
      show ¬ ((3 : Int) = 0) by omega, show ¬ ((3 : Int) = 1) by omega, show ¬ ((3 : Int) = 2) by omega,
      fixAxis_inc hf.incy, fixAxis_rev hf.incx h2x]
    refine ⟨_, rfl, ?_, ?_, rfl, rfl, by simp⟩
    · refine ⟨hf.incy, hf.incx.reverse_neg, hf.ney, by simpa using hf.nex, ?_, ?_, ?_, ?_, ?_⟩
      · simp [Grid.rot270, Grid.transpose, Grid.flipY, values, hf.vy]
      · simp [Grid.rot270, Grid.transpose, Grid.flipY, values, hf.vx]
      · simp [Grid.rot270, Grid.transpose, Grid.flipY, hf.my]
      · simp [Grid.rot270, Grid.transpose, Grid.flipY, hf.mx]
      · intro i j hi hj h
        simp only [List.length_map, List.length_reverse] at hj
        simp only [Grid.rot270, Grid.transpose, Grid.flipY, values, hf.vx, hf.mx] at *
        rw [Reads.cellMask hf (by omega) hi, h]; rfl
    · intro x y r
      refine Iff.symm (Iff.trans (reads_axswap (f := f) (φx := fun c => -c) (φy := fun c => c)
        (σx := fun i => f.ax.length - 1 - i) (σy := fun j => j) ?_ ?_ ?_ _ _ _) (Iff.symm ?_))
      · exact AxMap.mapRev f.ax (fun c => -c)
      · exact AxMap.id f.ay
      rotate_left
      · constructor
        · intro h; exact ⟨x, y, h, rfl, rfl⟩
        · rintro ⟨x', y', h, h1, h2⟩
          have : x = x' := by linarith
          subst this; subst h1; exact h
      · intro i j hi hj
        show (if Grid.get _ _ _ = true then none else _) = _
        simp only [Grid.rot270, Grid.transpose, Grid.flipY, values, hf.vx, hf.mx]
        unfold cell
        by_cases h : f.mask.get (f.ax.length - 1 - i) j = true <;> simp [h]

theorem turn_add (a b : Int) (p : Rat × Rat) : turn a (turn b p) = turn (a + b) p := by
  obtain ⟨x, y⟩ := p
  have ha : a % 4 = 0 ∨ a % 4 = 1 ∨ a % 4 = 2 ∨ a % 4 = 3 := by omega
  have hb : b % 4 = 0 ∨ b % 4 = 1 ∨ b % 4 = 2 ∨ b % 4 = 3 := by omega
  have key : ∀ s, (a + b) % 4 = s → turn (a + b) (x, y) = turn s (x, y) := by
    rintro s rfl; unfold turn; simp
  rcases ha with ha | ha | ha | ha <;> rcases hb with hb | hb | hb | hb <;>
    · rw [key _ (show (a + b) % 4 = _ by rw [Int.add_emod, ha, hb])]
      unfold turn; simp [ha, hb]

theorem turn_inj (k : Int) {p q : Rat × Rat} (h : turn k p = turn k q) : p = q := by
  have := congrArg (turn (-k)) h
  rw [turn_add, turn_add] at this
  simpa [turn] using this

end SF
end IMT
