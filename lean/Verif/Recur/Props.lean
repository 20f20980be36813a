import Verif.Recur.Model
import Verif.Reshape.Doublons
import Verif.Stat.Norm
import Verif.Turb.Scal
import Verif.Vector.Lemmas
import Verif.Back.Clear

/-! C238: recurrence maps. -/

namespace IMT.Recur

open Temporal (TF)
open Turb (TVF SRecord)
open Reshape (allSome allSome_some allSome_none)

/-! ### specification -/

/-- `a` gives the value that the field shows at each of its points, none being masked. -/
def Gives (f : SF) (a : Rat × Rat → Rat) : Prop := ∀ x ∈ f.ax, ∀ y ∈ f.ay, f.Reads x y (some (a (x, y)))

/-- `a` gives the vector that the field shows at each of its points, none being masked. -/
def GivesV (f : VF) (a : Rat × Rat → Rat × Rat) : Prop := ∀ x ∈ f.ax, ∀ y ∈ f.ay, f.Reads x y (some (a (x, y)))

/-- The norm of order `p` of the difference of values at the points `P`, divided by their number. -/
noncomputable def apart (p : ℝ) (P : Finset (Rat × Rat)) (a b : Rat × Rat → Rat) : ℝ :=
  (∑ q ∈ P, |(a q : ℝ) - b q| ^ p) ^ (1 / p) / P.card

/-- The same for vectors, by their components. -/
noncomputable def apartV (p : ℝ) (P : Finset (Rat × Rat)) (a b : Rat × Rat → Rat × Rat) : ℝ :=
  (∑ q ∈ P, (|((a q).1 : ℝ) - (b q).1| ^ p + |((a q).2 : ℝ) - (b q).2| ^ p)) ^ (1 / p) / (2 * P.card)

/-- The indices are not farther than the bandwidth. -/
def Within (band : Option Nat) (i j : Nat) : Prop := ∀ w ∈ band, i ≤ j + w ∧ j ≤ i + w

/-! ### lemmas -/

theorem power_eq (p v : ℝ) (hp : 0 < p) : power p v = |v| ^ p := by
  unfold power
  split_ifs with h
  · obtain ⟨k, rfl⟩ := h
    have hk : (0 : ℝ) < k := by linarith
    have hk : 0 < k := by exact_mod_cast hk
    lift k to ℕ using hk.le
    have e : (2 : ℝ) * ((k : ℤ) : ℝ) = ((2 * k : ℕ) : ℝ) := by push_cast; rfl
    rw [e, Real.rpow_natCast, show ⌊((2 * k : ℕ) : ℝ)⌋ = ((2 * k : ℕ) : ℤ) from Int.floor_natCast _, zpow_natCast, pow_mul, pow_mul, sq_abs]
  · rfl

theorem power_even (p v w : ℝ) (hp : 0 < p) : power p (v - w) = power p (w - v) := by
  rw [power_eq _ _ hp, power_eq _ _ hp, abs_sub_comm]

theorem zip_some (a b : List Rat) : List.zipWith subF (a.map some) (b.map some) = (List.zipWith (· - ·) a b).map some := by
  induction a generalizing b with
  | nil => rfl
  | cons x a ih => cases b with
    | nil => rfl
    | cons y b => simp [subF, ih]

theorem dist_some (p : ℝ) (hp : 0 < p) (a b : List Rat) :
    dist p (a.map some) (b.map some) = some (((List.zipWith (fun x y : Rat => |(x : ℝ) - y| ^ p) a b).sum) ^ (1 / p) / a.length) := by
  unfold dist
  rw [zip_some, allSome_some.2 rfl, Option.map_some, List.length_map, List.map_zipWith]
  have e : (fun x y : Rat => power p ((x - y : Rat) : ℝ)) = fun x y : Rat => |(x : ℝ) - y| ^ p := by
    funext x y
    rw [power_eq _ _ hp]
    push_cast
    rfl
  rw [e]

theorem entry_in {p : ℝ} {band : Option Nat} {rows : List (List (Option Rat))} {i j : Nat} (hij : i ≠ j) (hw : Within band i j) :
    entry p band rows i j = dist p (rows.getD (min i j) []) (rows.getD (max i j) []) := by
  unfold entry
  rw [if_neg hij, if_neg]
  cases band with
  | none => simp
  | some w =>
    obtain ⟨h1, h2⟩ := hw w rfl
    simp only [decide_eq_true_eq]
    omega

theorem entry_out {p : ℝ} {band : Option Nat} {rows : List (List (Option Rat))} {i j : Nat} (hij : i ≠ j) (hw : ¬ Within band i j) :
    entry p band rows i j = none := by
  unfold entry
  rw [if_neg hij, if_pos]
  cases band with
  | none => exact absurd (fun w hw => by cases hw) hw
  | some w =>
    simp only [decide_eq_true_eq]
    by_contra h
    exact hw fun w' hw' => by cases hw'; omega

theorem entry_comm (p : ℝ) (band : Option Nat) (rows : List (List (Option Rat))) (i j : Nat) : entry p band rows i j = entry p band rows j i := by
  unfold entry
  rw [min_comm, max_comm]
  by_cases h : i = j
  · rw [if_pos h, if_pos h.symm]
  · rw [if_neg h, if_neg (Ne.symm h)]

theorem getD_map {α β : Type} (l : List α) (g : α → β) (d : β) (i : Nat) (a : α) (h : l[i]? = some a) : (l.map g).getD i d = g a := by
  simp [List.getD, h]

/-- The points of a grid, line after line. -/
def points (ax ay : List Rat) : List (Rat × Rat) := ax.flatMap fun x => ay.map fun y => (x, y)

theorem points_nodup {ax ay : List Rat} (hx : Inc ax) (hy : Inc ay) : (points ax ay).Nodup := by
  unfold points
  rw [List.nodup_flatMap]
  refine ⟨fun x _ => List.Nodup.map (fun a b h => (Prod.mk.inj h).2) (List.Pairwise.imp (fun h => ne_of_lt h) hy), ?_⟩
  refine List.Pairwise.imp ?_ hx
  intro a b hab c hc hc'
  rw [List.mem_map] at hc hc'
  obtain ⟨_, _, rfl⟩ := hc
  obtain ⟨_, _, e⟩ := hc'
  exact (ne_of_lt hab) (Prod.mk.inj e).1.symm

theorem points_toFinset (ax ay : List Rat) : (points ax ay).toFinset = ax.toFinset ×ˢ ay.toFinset := by
  ext ⟨x, y⟩
  simp [points]

theorem points_length (ax ay : List Rat) : (points ax ay).length = ax.length * ay.length := by
  simp [points, List.length_flatMap]

theorem sum_points {ax ay : List Rat} (hx : Inc ax) (hy : Inc ay) (h : Rat × Rat → ℝ) :
    ((points ax ay).map h).sum = ∑ q ∈ ax.toFinset ×ˢ ay.toFinset, h q := by
  rw [← points_toFinset, List.sum_toFinset _ (points_nodup hx hy)]

theorem card_points {ax ay : List Rat} (hx : Inc ax) (hy : Inc ay) : (ax.toFinset ×ˢ ay.toFinset).card = (points ax ay).length := by
  rw [← points_toFinset, List.toFinset_card_of_nodup (points_nodup hx hy)]

theorem range_flatMap {β : Type} (ax ay : List Rat) (g : Nat → Nat → β) (h : Rat × Rat → β)
    (hh : ∀ i j x y, ax[i]? = some x → ay[j]? = some y → g i j = h (x, y)) :
    ((List.range ax.length).flatMap fun i => (List.range ay.length).map fun j => g i j) = (points ax ay).map h := by
  have e1 : ax = (List.range ax.length).map fun i => ax.getD i 0 := by
    apply List.ext_getElem
    · simp
    · intro i h1 h2; simp [List.getElem?_eq_getElem h1]
  have e2 : ay = (List.range ay.length).map fun j => ay.getD j 0 := by
    apply List.ext_getElem
    · simp
    · intro i h1 h2; simp [List.getElem?_eq_getElem h1]
  unfold points
  rw [List.map_flatMap]
  conv_rhs => rw [e1, List.flatMap_map]
  rw [List.flatMap_def, List.flatMap_def]
  congr 1
  apply List.map_congr_left
  intro i hi
  rw [List.mem_range] at hi
  rw [List.map_map]
  conv_rhs => rw [e2, List.map_map]
  apply List.map_congr_left
  intro j hj
  rw [List.mem_range] at hj
  exact hh i j _ _ (by simp [List.getElem?_eq_getElem hi]) (by simp [List.getElem?_eq_getElem hj])

theorem zip_points {α : Type} (P : List α) (a b : α → Rat) (φ : Rat → Rat → ℝ) :
    List.zipWith φ (P.map a) (P.map b) = P.map fun q => φ (a q) (b q) := by
  induction P with
  | nil => rfl
  | cons q P ih => simp [ih]

theorem flatS_gives {f : SF} (hf : f.WF) {a : Rat × Rat → Rat} (ha : Gives f a) : flatS f = ((points f.ax f.ay).map a).map some := by
  unfold flatS SF.indexPairs
  rw [List.map_flatMap, List.map_map]
  simp only [List.map_map]
  apply range_flatMap
  intro i j x y hi hj
  obtain ⟨i', j', e1, e2, e3⟩ := ha x (List.mem_of_getElem? hi) y (List.mem_of_getElem? hj)
  show f.cell i j = _
  rw [hf.incx.idx_inj' hi e1, hf.incy.idx_inj' hj e2]
  exact e3

theorem flatV_gives {f : VF} (hf : f.WF) {a : Rat × Rat → Rat × Rat} (ha : GivesV f a) :
    flatV f = ((points f.ax f.ay).map (fun q => (a q).1) ++ (points f.ax f.ay).map (fun q => (a q).2)).map some := by
  have key : ∀ i j x y, f.ax[i]? = some x → f.ay[j]? = some y → f.mask.get i j = false ∧ f.cx.get i j = some (a (x, y)).1 ∧
      f.cy.get i j = some (a (x, y)).2 := by
    intro i j x y hi hj
    obtain ⟨i', j', e1, e2, e3⟩ := ha x (List.mem_of_getElem? hi) y (List.mem_of_getElem? hj)
    rw [← hf.incx.idx_inj' hi e1, ← hf.incy.idx_inj' hj e2] at e3
    unfold VF.cell at e3
    split_ifs at e3 with hm
    refine ⟨by simpa using hm, ?_⟩
    cases hu : f.cx.get i j with
    | none => rw [hu] at e3; cases e3
    | some u =>
      cases hv : f.cy.get i j with
      | none => rw [hu, hv] at e3; cases e3
      | some v =>
        rw [hu, hv] at e3
        have e3 := Option.some.inj e3
        rw [← e3]
        exact ⟨rfl, rfl⟩
  unfold flatV
  rw [List.map_append, List.map_map, List.map_map]
  congr 1
  · apply range_flatMap
    intro i j x y hi hj
    rw [(key i j x y hi hj).2.1]; rfl
  · apply range_flatMap
    intro i j x y hi hj
    rw [(key i j x y hi hj).2.2]; rfl

/-! ### C238 -/

variable {t : TF} {u : Sym} {p : ℝ} {band : Option Nat}

theorem mapS_ok (hp : 0 < p) (h2 : 2 ≤ t.times.length) :
    mapS t p band = .ok ⟨t.times, t.ut, (t.fields.head?.map SF.uv).getD Sym.one, entry p band (t.fields.map flatS)⟩ := by
  unfold mapS store
  rw [if_neg hp.ne', if_neg (by omega)]

theorem mapV_ok {t : TVF} (hp : 0 < p) (h2 : 2 ≤ t.times.length) :
    mapV t p band = .ok ⟨t.times, t.ut, (t.fields.head?.map VF.uv).getD Sym.one, entry p band (t.fields.map flatV)⟩ := by
  unfold mapV store
  rw [if_neg hp.ne', if_neg (by omega)]

theorem apart_comm (p : ℝ) (P : Finset (Rat × Rat)) (a b : Rat × Rat → Rat) : apart p P a b = apart p P b a := by
  unfold apart
  simp only [abs_sub_comm]

theorem apartV_comm (p : ℝ) (P : Finset (Rat × Rat)) (a b : Rat × Rat → Rat × Rat) : apartV p P a b = apartV p P b a := by
  unfold apartV
  simp only [abs_sub_comm]

theorem dist_fields (hp : 0 < p) {f g : SF} (hf : f.WF) (hg : g.WF) (hx : g.ax = f.ax) (hy : g.ay = f.ay) {a b : Rat × Rat → Rat} (ha : Gives f a)
    (hb : Gives g b) : dist p (flatS f) (flatS g) = some (apart p (f.ax.toFinset ×ˢ f.ay.toFinset) a b) := by
  rw [flatS_gives hf ha, flatS_gives hg hb, hx, hy, dist_some p hp, zip_points, sum_points hf.incx hf.incy]
  unfold apart
  rw [card_points hf.incx hf.incy, List.length_map]

theorem dist_fieldsV (hp : 0 < p) {f g : VF} (hf : f.WF) (hg : g.WF) (hx : g.ax = f.ax) (hy : g.ay = f.ay) {a b : Rat × Rat → Rat × Rat}
    (ha : GivesV f a) (hb : GivesV g b) : dist p (flatV f) (flatV g) = some (apartV p (f.ax.toFinset ×ˢ f.ay.toFinset) a b) := by
  rw [flatV_gives hf ha, flatV_gives hg hb, hx, hy, dist_some p hp, List.zipWith_append (by simp), zip_points, zip_points, List.sum_append,
    sum_points hf.incx hf.incy, sum_points hf.incx hf.incy, ← Finset.sum_add_distrib]
  unfold apartV
  rw [card_points hf.incx hf.incy, List.length_append, List.length_map, List.length_map]
  push_cast
  rw [two_mul]

/-- **C238** The recurrence map of scalar fields without mask has the times on both axes and shows at each pair of instants, within the bandwidth, the
norm of the difference of the two fields divided by the number of points. -/
theorem C238_distance (h : SRecord t u) (hp : 0 < p) (h2 : 2 ≤ t.times.length) :
    ∃ M, mapS t p band = .ok M ∧ M.axis = t.times ∧ M.unit = t.ut ∧ M.uv = u ∧
      ∀ (i j : Nat) f g a b, t.fields[i]? = some f → t.fields[j]? = some g → Gives f a → Gives g b → Within band i j →
        M.get i j = some (apart p (t.ax.toFinset ×ˢ t.ay.toFinset) a b) := by
  refine ⟨_, mapS_ok hp h2, rfl, rfl, ?_, ?_⟩
  · cases hh : t.fields with
    | nil => exact absurd hh h.ne
    | cons f fs => exact h.uv f (by rw [hh]; simp)
  · intro i j f g a b hf hg ha hb hw
    have hfm := List.mem_of_getElem? hf
    have hgm := List.mem_of_getElem? hg
    have ex : g.ax = f.ax := by rw [h.ok.ax f hfm, h.ok.ax g hgm]
    have ey : g.ay = f.ay := by rw [h.ok.ay f hfm, h.ok.ay g hgm]
    rw [← h.ok.ax f hfm, ← h.ok.ay f hfm]
    show entry p band _ i j = _
    by_cases hij : i = j
    · subst hij
      have : f = g := Option.some.inj (hf.symm.trans hg)
      subst this
      have hab : ∀ q ∈ f.ax.toFinset ×ˢ f.ay.toFinset, |(a q : ℝ) - b q| ^ p = 0 := by
        intro q hq
        rw [Finset.mem_product, List.mem_toFinset, List.mem_toFinset] at hq
        obtain ⟨i1, j1, e1, e2, e3⟩ := ha q.1 hq.1 q.2 hq.2
        obtain ⟨i2, j2, e1', e2', e3'⟩ := hb q.1 hq.1 q.2 hq.2
        have hw := h.ok.wf f hfm
        rw [hw.incx.idx_inj' e1 e1', hw.incy.idx_inj' e2 e2'] at e3
        have : a q = b q := Option.some.inj (e3.symm.trans e3')
        rw [this, sub_self, abs_zero, Real.zero_rpow hp.ne']
      unfold entry apart
      rw [if_pos rfl, Finset.sum_eq_zero hab, Real.zero_rpow (by positivity), zero_div]
    · rw [entry_in hij hw]
      rcases lt_or_gt_of_ne hij with hlt | hlt
      · rw [min_eq_left hlt.le, max_eq_right hlt.le, getD_map _ _ _ _ _ hf, getD_map _ _ _ _ _ hg]
        exact dist_fields hp (h.ok.wf f hfm) (h.ok.wf g hgm) ex ey ha hb
      · rw [min_eq_right hlt.le, max_eq_left hlt.le, getD_map _ _ _ _ _ hf, getD_map _ _ _ _ _ hg,
          dist_fields hp (h.ok.wf g hgm) (h.ok.wf f hfm) ex.symm ey.symm hb ha, apart_comm, ex, ey]

/-- **C238** For vector fields the differences of the two components count alike. -/
theorem C238_vectors {t : TVF} (hw : ∀ f ∈ t.fields, f.WF ∧ f.ax = t.ax ∧ f.ay = t.ay) (hp : 0 < p) (h2 : 2 ≤ t.times.length) :
    ∃ M, mapV t p band = .ok M ∧ M.axis = t.times ∧ M.unit = t.ut ∧
      ∀ (i j : Nat) f g a b, t.fields[i]? = some f → t.fields[j]? = some g → GivesV f a → GivesV g b → Within band i j → i ≠ j →
        M.get i j = some (apartV p (t.ax.toFinset ×ˢ t.ay.toFinset) a b) := by
  refine ⟨_, mapV_ok hp h2, rfl, rfl, ?_⟩
  intro i j f g a b hf hg ha hb hwi hij
  obtain ⟨wf, fx, fy⟩ := hw f (List.mem_of_getElem? hf)
  obtain ⟨wg, gx, gy⟩ := hw g (List.mem_of_getElem? hg)
  have ex : g.ax = f.ax := by rw [fx, gx]
  have ey : g.ay = f.ay := by rw [fy, gy]
  rw [← fx, ← fy]
  show entry p band _ i j = _
  rw [entry_in hij hwi]
  rcases lt_or_gt_of_ne hij with hlt | hlt
  · rw [min_eq_left hlt.le, max_eq_right hlt.le, getD_map _ _ _ _ _ hf, getD_map _ _ _ _ _ hg]
    exact dist_fieldsV hp wf wg ex ey ha hb
  · rw [min_eq_right hlt.le, max_eq_left hlt.le, getD_map _ _ _ _ _ hf, getD_map _ _ _ _ _ hg,
      dist_fieldsV hp wg wf ex.symm ey.symm hb ha, apartV_comm, ex, ey]

/-- **C238** The map is symmetric and zero on its diagonal; outside the bandwidth it is masked. -/
theorem C238_symmetric (hp : 0 < p) {M : Map} (hM : mapS t p band = .ok M) (i j : Nat) :
    M.get i j = M.get j i ∧ M.get i i = some 0 ∧ (i ≠ j → ¬ Within band i j → M.get i j = none) := by
  have : M.get = entry p band (t.fields.map flatS) := by
    unfold mapS store at hM
    rw [if_neg hp.ne'] at hM
    split_ifs at hM
    cases hM; rfl
  rw [this]
  exact ⟨entry_comm _ _ _ _ _, by unfold entry; rw [if_pos rfl], entry_out⟩

theorem apart_zero (hp : 0 < p) (P : Finset (Rat × Rat)) (a b : Rat × Rat → Rat) : apart p P a b = 0 ↔ ∀ q ∈ P, a q = b q := by
  have h0 : 0 ≤ ∑ q ∈ P, |(a q : ℝ) - b q| ^ p := Finset.sum_nonneg fun q _ => by positivity
  unfold apart
  rw [div_eq_zero_iff, Real.rpow_eq_zero h0 (by positivity), Finset.sum_eq_zero_iff_of_nonneg fun q _ => by positivity]
  constructor
  · rintro (h | h)
    · intro q hq
      have := h q hq
      rw [Real.rpow_eq_zero (abs_nonneg _) hp.ne', abs_eq_zero, sub_eq_zero] at this
      exact_mod_cast this
    · intro q hq
      rw [Nat.cast_eq_zero, Finset.card_eq_zero] at h
      rw [h] at hq; exact absurd hq (Finset.notMem_empty q)
  · intro h
    left
    intro q hq
    rw [h q hq, sub_self, abs_zero, Real.zero_rpow hp.ne']

theorem apart_triangle (hp : 1 ≤ p) (P : Finset (Rat × Rat)) (a b c : Rat × Rat → Rat) : apart p P a c ≤ apart p P a b + apart p P b c := by
  unfold apart
  rw [← add_div]
  refine div_le_div_of_nonneg_right ?_ (Nat.cast_nonneg _)
  refine le_trans (le_of_eq ?_) (Real.Lp_add_le P (fun q => (a q : ℝ) - b q) (fun q => (b q : ℝ) - c q) hp)
  congr 1
  apply Finset.sum_congr rfl
  intro q _
  congr 2
  ring

/-- **C238** The map measures how far the fields are from each other: it is zero only for equal fields, and the triangle inequality holds for norms
of order 1 at least. -/
theorem C238_metric (h : SRecord t u) (hp : 0 < p) (h2 : 2 ≤ t.times.length) {M : Map} (hM : mapS t p none = .ok M) {i j k : Nat} {f g l : SF}
    {a b c : Rat × Rat → Rat} (hf : t.fields[i]? = some f) (hg : t.fields[j]? = some g) (hl : t.fields[k]? = some l) (ha : Gives f a) (hb : Gives g b)
    (hc : Gives l c) :
    ∃ x y z, M.get i j = some x ∧ M.get j k = some y ∧ M.get i k = some z ∧ 0 ≤ x ∧ (x = 0 ↔ ∀ q, q.1 ∈ t.ax → q.2 ∈ t.ay → a q = b q) ∧
      (1 ≤ p → z ≤ x + y) := by
  obtain ⟨M', e, -, -, -, hd⟩ := C238_distance (band := none) h hp h2
  rw [hM] at e
  cases e
  have hw : ∀ i j, Within none i j := fun i j w hw => by cases hw
  refine ⟨_, _, _, hd i j f g a b hf hg ha hb (hw _ _), hd j k g l b c hg hl hb hc (hw _ _), hd i k f l a c hf hl ha hc (hw _ _), ?_, ?_,
    fun h1 => apart_triangle h1 _ _ _ _⟩
  · exact div_nonneg (Real.rpow_nonneg (Finset.sum_nonneg fun q _ => by positivity) _) (Nat.cast_nonneg _)
  · rw [apart_zero hp]
    constructor
    · intro h q h1 h2
      exact h q (by rw [Finset.mem_product, List.mem_toFinset, List.mem_toFinset]; exact ⟨h1, h2⟩)
    · intro h q hq
      rw [Finset.mem_product, List.mem_toFinset, List.mem_toFinset] at hq
      exact h q hq.1 hq.2

/-- **C238** A field with one masked point is at no distance of any other field: its line of the map is masked but for the diagonal. -/
theorem C238_masked_violated (h : SRecord t u) (hp : 0 < p) {M : Map} (hM : mapS t p band = .ok M) {i j : Nat} {f g : SF}
    (hf : t.fields[i]? = some f) (hg : t.fields[j]? = some g) (hij : i ≠ j) {x y : Rat} (hm : f.Reads x y none) : M.get i j = none := by
  have hMg : M.get = entry p band (t.fields.map flatS) := by
    unfold mapS store at hM
    rw [if_neg hp.ne'] at hM
    split_ifs at hM
    cases hM; rfl
  rw [hMg]
  by_cases hw : Within band i j
  · rw [entry_in hij hw]
    obtain ⟨a, b, e1, e2, e3⟩ := hm
    have hfm := List.mem_of_getElem? hf
    have hgm := List.mem_of_getElem? hg
    have hmem : (a, b) ∈ f.indexPairs := (SF.mem_indexPairs f a b).2 ⟨(List.getElem?_eq_some_iff.1 e1).1, (List.getElem?_eq_some_iff.1 e2).1⟩
    have hpairs : g.indexPairs = f.indexPairs := by
      unfold SF.indexPairs; rw [h.ok.ax f hfm, h.ok.ax g hgm, h.ok.ay f hfm, h.ok.ay g hgm]
    have key : ∀ (l : List (Nat × Nat)), (a, b) ∈ l → none ∈ List.zipWith subF (l.map fun q => f.cell q.1 q.2) (l.map fun q => g.cell q.1 q.2) ∧
        none ∈ List.zipWith subF (l.map fun q => g.cell q.1 q.2) (l.map fun q => f.cell q.1 q.2) := by
      intro l hl
      induction l with
      | nil => cases hl
      | cons q l ih =>
        simp only [List.map_cons, List.zipWith_cons_cons, List.mem_cons]
        rcases List.mem_cons.1 hl with rfl | hl
        · have e3 : f.cell a b = none := e3
          refine ⟨Or.inl ?_, Or.inl ?_⟩
          · show none = subF (f.cell a b) _
            rw [e3]; rfl
          · show none = subF _ (f.cell a b)
            rw [e3]; cases g.cell a b <;> rfl
        · exact ⟨Or.inr (ih hl).1, Or.inr (ih hl).2⟩
    obtain ⟨k1, k2⟩ := key _ hmem
    unfold dist
    rcases lt_or_gt_of_ne hij with hlt | hlt
    · rw [min_eq_left hlt.le, max_eq_right hlt.le, getD_map _ _ _ _ _ hf, getD_map _ _ _ _ _ hg]
      unfold flatS
      rw [hpairs, allSome_none.2 k1]; rfl
    · rw [min_eq_right hlt.le, max_eq_left hlt.le, getD_map _ _ _ _ _ hf, getD_map _ _ _ _ _ hg]
      unfold flatS
      rw [hpairs, allSome_none.2 k2]; rfl
  · exact entry_out hij hw

/-- **C238** A record of one field has no map. -/
theorem C238_single (hp : 0 < p) (h1 : t.times.length ≤ 1) : mapS t p band = .error .indexError := by
  unfold mapS store
  rw [if_neg hp.ne', if_pos (by omega)]

example : SRecord Back.demo Sym.one ∧ 2 ≤ Back.demo.times.length ∧ Within (some 1) 1 2 ∧ ¬ Within (some 1) 0 2 ∧
    Gives (Back.demoF 50) (fun q => if q.1 + q.2 = 0 then 50 else q.1 + 5) := by
  refine ⟨Back.demo_record, by decide, fun w hw => by cases hw; decide, fun h => by have := h 1 rfl; omega, ?_⟩
  intro x hx y hy
  have hx : x ∈ ([0, 1] : List Rat) := hx
  have hy : y ∈ ([0, 1] : List Rat) := hy
  simp only [List.mem_cons, List.not_mem_nil, or_false] at hx hy
  rcases hx with rfl | rfl <;> rcases hy with rfl | rfl
  · exact ⟨0, 0, rfl, rfl, by decide +kernel⟩
  · exact ⟨0, 1, rfl, rfl, by decide +kernel⟩
  · exact ⟨1, 0, rfl, rfl, by decide +kernel⟩
  · exact ⟨1, 1, rfl, rfl, by decide +kernel⟩

end IMT.Recur
