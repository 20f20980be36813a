import Verif.Stat.Hist
import Verif.Line.Sum
import Mathlib.Algebra.Order.BigOperators.Ring.Finset

/-! C192: the correlations of profiles and fields. -/

namespace IMT.Stat

open Profile (Prof F MaskArg IsArgsort pts)

variable {srt : List Rat → List Nat}

/-! ### specification -/

/-- The energy of the centres of the windows of half width `w` on `n` values: all the windows of the values but the last one. -/
def energy (y : Nat → Rat) (n w : Nat) : Rat := ∑ i ∈ Finset.Ico w (n - w - 1), y i ^ 2

/-- The correlation of the centres of the windows with the points `k - w` places after them. -/
def correlation (y : Nat → Rat) (n w k : Nat) : Rat := (∑ i ∈ Finset.Ico w (n - w - 1), y i * y (i - w + k)) / energy y n w

/-! ### lemmas -/

theorem mem_centres (n w i : Nat) : i ∈ centres n w ↔ w ≤ i ∧ i < n - w - 1 := by
  unfold centres
  rw [List.range_eq_range', List.drop_range', List.mem_range'_1]
  omega

theorem centres_nodup (n w : Nat) : (centres n w).Nodup := List.nodup_range.sublist (List.drop_sublist _ _)

theorem centres_sum (n w : Nat) (g : Nat → Rat) : ((centres n w).map g).sum = ∑ i ∈ Finset.Ico w (n - w - 1), g i := by
  rw [← List.sum_toFinset _ (centres_nodup n w)]
  congr 1
  ext i
  rw [List.mem_toFinset, mem_centres, Finset.mem_Ico]

/-- The value of index `i` of a list. -/
def at' (ys : List Rat) (i : Nat) : Rat := ys.getD i 0

theorem products_some (ys : List Rat) (is : List Nat) (s : Nat → Nat) (h : ∀ i ∈ is, i < ys.length ∧ s i < ys.length) :
    products (ys.map some) is s = some ((is.map fun i => at' ys i * at' ys (s i)).sum) := by
  have hget : ∀ j, j < ys.length → (ys.map some).getD j none = some (at' ys j) := by
    intro j hj
    unfold at'
    rw [List.getD_eq_getElem?_getD, List.getElem?_map, List.getElem?_eq_getElem hj, List.getD_eq_getElem?_getD, List.getElem?_eq_getElem hj]
    rfl
  have : ∀ (is : List Nat) (a : Rat), (∀ i ∈ is, i < ys.length ∧ s i < ys.length) →
      is.foldl (fun acc i => addProd acc ((ys.map some).getD (s i) none) ((ys.map some).getD i none)) (some a) = some (a + (is.map fun i => at' ys i * at' ys (s i)).sum) := by
    intro is
    induction is with
    | nil => intro a _; simp
    | cons i is ih =>
      intro a hi
      obtain ⟨h1, h2⟩ := hi i (by simp)
      rw [List.foldl_cons, hget _ h1, hget _ h2,
        show addProd (some a) (some (at' ys (s i))) (some (at' ys i)) = some (a + at' ys (s i) * at' ys i) from rfl, ih _ fun j hj => hi j (List.mem_cons_of_mem _ hj), List.map_cons, List.sum_cons]
      congr 1
      ring
  unfold products
  rw [this is 0 h, zero_add]

theorem autocorr_some (ys : List Rat) (window : Nat) (hw : window + 2 ≤ ys.length) :
    autocorr (ys.map some) window = .ok ((List.range (2 * (window / 2) + 1)).map fun k =>
      if energy (at' ys) ys.length (window / 2) = 0 then none else some (correlation (at' ys) ys.length (window / 2) k)) := by
  unfold autocorr
  rw [if_neg (by rw [List.length_map]; omega), List.length_map]
  congr 1
  refine List.map_congr_left fun k hk => ?_
  have hk := List.mem_range.1 hk
  rw [products_some _ _ _ (fun i hi => by have := (mem_centres _ _ _).1 hi; omega),
    products_some _ _ _ (fun i hi => by have := (mem_centres _ _ _).1 hi; omega), centres_sum, centres_sum]
  unfold quot
  simp only
  have e : ∑ i ∈ Finset.Ico (window / 2) (ys.length - window / 2 - 1), at' ys i * at' ys i = energy (at' ys) ys.length (window / 2) := by
    unfold energy
    exact Finset.sum_congr rfl fun i _ => by ring
  rw [e]
  rfl

theorem lags_inc {dx : Rat} (h : 0 < dx) (n : Nat) : Inc (lags dx n) := by
  unfold lags Inc
  rw [List.pairwise_map]
  refine List.pairwise_lt_range.imp fun {a b} hab => ?_
  have : (a : Rat) < b := by exact_mod_cast hab
  exact mul_lt_mul_of_pos_right this h

/-- The points of a profile are `ys`, at increasing positions. -/
structure Shows (p : Prof) (ys : List Rat) : Prop where
  inc : Inc p.x
  y : (pts p).map Prod.snd = ys.map some
  ok : Profile.Valid p

theorem Shows.getY {p : Prof} {ys : List Rat} (h : Shows p ys) : Profile.getY p = ys.map some ∧ ys.length = p.x.length := by
  have e := h.y
  rw [Profile.pts_valid h.ok, List.map_snd_zip (by rw [h.ok.1])] at e
  refine ⟨by rw [Profile.getY_valid h.ok, e], ?_⟩
  rw [← h.ok.1, e, List.length_map]

/-! ### C192 -/

/-- **C192** The auto-correlation of a profile, as a function of the place `k` in a window of `2·(window/2) + 1` places. -/
theorem C192_values (hs : IsArgsort srt) {p : Prof} {ys : List Rat} (hp : Shows p ys) {window : Nat} (hw : window + 2 ≤ ys.length) :
    ∃ q, autocorrelation srt p window = .ok q ∧ q.ux = p.ux ∧ (pts q).map Prod.snd = (List.range (2 * (window / 2) + 1)).map fun k =>
      if energy (at' ys) ys.length (window / 2) = 0 then none else some (correlation (at' ys) ys.length (window / 2) k) := by
  obtain ⟨e1, e2⟩ := hp.getY
  unfold autocorrelation
  rw [e1, autocorr_some ys window hw]
  simp only
  have h1 : 1 < p.x.length := by omega
  have hdx : 0 < p.x.getD 1 0 - p.x.getD 0 0 := by
    rw [SF.getD_of_getElem? (List.getElem?_eq_getElem h1), SF.getD_of_getElem? (List.getElem?_eq_getElem (show 0 < p.x.length by omega))]
    have := hp.inc.get_lt (List.getElem?_eq_getElem (show 0 < p.x.length by omega)) (List.getElem?_eq_getElem h1) (by omega)
    linarith
  obtain ⟨q, hq, h2, h3, h4, -⟩ := profile_ok hs (lags_inc hdx (2 * (window / 2) + 1)) (y := (List.range (2 * (window / 2) + 1)).map fun k =>
      if energy (at' ys) ys.length (window / 2) = 0 then none else some (correlation (at' ys) ys.length (window / 2) k))
      (by unfold lags; simp) p.ux Sym.one
  refine ⟨q, by simpa using hq, h4, ?_⟩
  rw [h2, List.map_snd_zip (by unfold lags; simp)]

/-- **C192** At the centre of the window it is one. -/
theorem C192_centre (y : Nat → Rat) (n w : Nat) (h : energy y n w ≠ 0) : correlation y n w w = 1 := by
  unfold correlation
  rw [show ∑ i ∈ Finset.Ico w (n - w - 1), y i * y (i - w + w) = energy y n w from ?_, div_self h]
  unfold energy
  refine Finset.sum_congr rfl fun i hi => ?_
  rw [Nat.sub_add_cancel (Finset.mem_Ico.1 hi).1]
  ring

/-- **C192** A constant profile is fully correlated; the scale of the values has no influence. -/
theorem C192_scale (y : Nat → Rat) (n w k : Nat) {c : Rat} (hc : c ≠ 0) :
    (energy y n w ≠ 0 → correlation (fun i => c * y i) n w k = correlation y n w k) ∧
    (2 * w + 2 ≤ n → correlation (fun _ => c) n w k = 1) := by
  constructor
  · intro _
    unfold correlation energy
    rw [show ∑ i ∈ Finset.Ico w (n - w - 1), c * y i * (c * y (i - w + k)) = c ^ 2 * ∑ i ∈ Finset.Ico w (n - w - 1), y i * y (i - w + k) by
      rw [Finset.mul_sum]; exact Finset.sum_congr rfl fun i _ => by ring,
      show ∑ i ∈ Finset.Ico w (n - w - 1), (c * y i) ^ 2 = c ^ 2 * ∑ i ∈ Finset.Ico w (n - w - 1), y i ^ 2 by
      rw [Finset.mul_sum]; exact Finset.sum_congr rfl fun i _ => by ring,
      mul_div_mul_left _ _ (pow_ne_zero 2 hc)]
  · intro hn
    unfold correlation energy
    rw [show ∑ i ∈ Finset.Ico w (n - w - 1), c * c = ∑ i ∈ Finset.Ico w (n - w - 1), c ^ 2 from Finset.sum_congr rfl fun i _ => by ring]
    apply div_self
    rw [Finset.sum_const, Nat.card_Ico, nsmul_eq_mul]
    refine mul_ne_zero ?_ (pow_ne_zero 2 hc)
    have : 0 < n - w - 1 - w := by omega
    exact_mod_cast this.ne'

/-- **C192** It is bounded by the energies: for values that do not grow along the profile it is at most one in absolute value. -/
theorem C192_bound (y : Nat → Rat) (n w k : Nat) (h : energy y n w ≠ 0) :
    correlation y n w k ^ 2 * energy y n w ≤ ∑ i ∈ Finset.Ico w (n - w - 1), y (i - w + k) ^ 2 := by
  have hpos : 0 < energy y n w := lt_of_le_of_ne (Finset.sum_nonneg fun i _ => sq_nonneg _) (Ne.symm h)
  unfold correlation
  have hcs := Finset.sum_mul_sq_le_sq_mul_sq (Finset.Ico w (n - w - 1)) y fun i => y (i - w + k)
  rw [div_pow, div_mul_eq_mul_div, div_le_iff₀ (by positivity)]
  have e : (∑ i ∈ Finset.Ico w (n - w - 1), y i ^ 2) = energy y n w := rfl
  rw [e] at hcs
  calc _ ≤ energy y n w * (∑ i ∈ Finset.Ico w (n - w - 1), y (i - w + k) ^ 2) * energy y n w := mul_le_mul_of_nonneg_right hcs hpos.le
    _ = _ := by ring

/-- **C192** A window as long as the profile, less one, is refused. -/
theorem C192_refused {p : Prof} (hp : Profile.Valid p) (window : Nat) (h : p.x.length ≤ window + 1) :
    autocorrelation srt p window = .error .valueError := by
  unfold autocorrelation autocorr
  rw [if_pos (by rw [Profile.getY_valid hp, hp.1]; exact h)]

/-- **C192** Not all the possible windows are used: the last value of the profile is never looked at. -/
theorem C192_last_violated (ys : List Rat) (a b : Rat) (window : Nat) :
    autocorr ((ys ++ [a]).map some) window = autocorr ((ys ++ [b]).map some) window := by
  by_cases hw : window + 2 ≤ ys.length + 1
  · rw [autocorr_some _ _ (by simpa using hw), autocorr_some _ _ (by simpa using hw)]
    have hl : (ys ++ [a]).length = (ys ++ [b]).length := by simp
    have hsame : ∀ i, i < ys.length → at' (ys ++ [a]) i = at' (ys ++ [b]) i := by
      intro i hi
      unfold at'
      rw [List.getD_eq_getElem?_getD, List.getD_eq_getElem?_getD, List.getElem?_append_left hi, List.getElem?_append_left hi]
    have he : energy (at' (ys ++ [a])) (ys ++ [a]).length (window / 2) = energy (at' (ys ++ [b])) (ys ++ [b]).length (window / 2) := by
      rw [hl]
      unfold energy
      refine Finset.sum_congr rfl fun i hi => ?_
      have := Finset.mem_Ico.1 hi
      rw [List.length_append, List.length_singleton] at this
      rw [hsame i (by omega)]
    congr 1
    refine List.map_congr_left fun k hk => ?_
    have hk := List.mem_range.1 hk
    rw [he]
    unfold correlation
    rw [he, hl]
    rw [show ∑ i ∈ Finset.Ico (window / 2) ((ys ++ [b]).length - window / 2 - 1), at' (ys ++ [a]) i * at' (ys ++ [a]) (i - window / 2 + k) =
      ∑ i ∈ Finset.Ico (window / 2) ((ys ++ [b]).length - window / 2 - 1), at' (ys ++ [b]) i * at' (ys ++ [b]) (i - window / 2 + k) from ?_]
    refine Finset.sum_congr rfl fun i hi => ?_
    have := Finset.mem_Ico.1 hi
    rw [List.length_append, List.length_singleton] at this
    rw [hsame i (by omega), hsame _ (by omega)]
  · unfold autocorr
    rw [if_pos (by simp; omega), if_pos (by simp; omega)]

/-- **C192** The lags are not the distances to the centre: the full correlation of a point with itself is shown at half the window. -/
theorem C192_lag_violated (hs : IsArgsort srt) {p q : Prof} {ys : List Rat} (hp : Shows p ys) {window : Nat} (hw : window + 2 ≤ ys.length)
    (h2 : 2 ≤ window) (hE : energy (at' ys) ys.length (window / 2) ≠ 0) (h : autocorrelation srt p window = .ok q) :
    ∃ x, 0 < x ∧ (pts q)[window / 2]? = some (x, some 1) := by
  obtain ⟨e1, e2⟩ := hp.getY
  unfold autocorrelation at h
  rw [e1, autocorr_some ys window hw] at h
  simp only at h
  have h1 : 1 < p.x.length := by omega
  have hdx : 0 < p.x.getD 1 0 - p.x.getD 0 0 := by
    rw [SF.getD_of_getElem? (List.getElem?_eq_getElem h1), SF.getD_of_getElem? (List.getElem?_eq_getElem (show 0 < p.x.length by omega))]
    have := hp.inc.get_lt (List.getElem?_eq_getElem (show 0 < p.x.length by omega)) (List.getElem?_eq_getElem h1) (by omega)
    linarith
  obtain ⟨q', hq, h3, -⟩ := profile_ok hs (lags_inc hdx (2 * (window / 2) + 1)) (y := (List.range (2 * (window / 2) + 1)).map fun k =>
      if energy (at' ys) ys.length (window / 2) = 0 then none else some (correlation (at' ys) ys.length (window / 2) k))
      (by unfold lags; simp) p.ux Sym.one
  rw [List.length_map, List.length_range, hq] at h
  cases h
  refine ⟨(window / 2 : Nat) * (p.x.getD 1 0 - p.x.getD 0 0), ?_, ?_⟩
  · refine mul_pos ?_ hdx
    have : 0 < window / 2 := by omega
    exact_mod_cast this
  · rw [h3, List.getElem?_zip_eq_some]
    constructor
    · unfold lags
      rw [List.getElem?_map, List.getElem?_range (by omega)]
      rfl
    · rw [List.getElem?_map, List.getElem?_range (by omega)]
      simp only [Option.map_some]
      rw [if_neg hE, C192_centre _ _ _ hE]

/-! ### fields -/

open Line in
theorem line_y {f : SF} {d : Dir} {p : Prof} {R : Rat → Option Rat → Prop} (ha : Along f d p R) (G : Rat → Rat)
    (hG : ∀ q ∈ other f d, ∀ r, R q r → r = some (G q)) : Profile.getY p = ((other f d).map G).map some := by
  rw [Profile.getY_valid ha.ok, List.map_map]
  apply List.ext_getElem
  · rw [ha.ok.1, ha.x, List.length_map]
  · intro k h1 h2
    have hk : k < p.x.length := by rw [← ha.ok.1]; exact h1
    have hm : (p.x[k], p.y[k]) ∈ pts p := by
      rw [Profile.pts_valid ha.ok, List.mem_iff_getElem]
      exact ⟨k, by rw [List.length_zip]; omega, by simp⟩
    obtain ⟨hq, hr⟩ := (ha.shows _ _).1 hm
    rw [hG _ hq _ hr]
    simp [ha.x]

open Line in
theorem corrLoop_some (hs : IsArgsort srt) (main : Bool) {f : SF} (hf : f.WF) (d : Dir) {F : Rat → Rat → Rat}
    (hF : ∀ v ∈ axe f d, ∀ q ∈ other f d, Sees f d v q (some (F v q))) {window : Nat} (hw : window + 2 ≤ (other f d).length)
    (is : List Nat) (his : ∀ i ∈ is, i < (axe f d).length)
    (hE : ∀ i ∈ is, energy (at' ((other f d).map (F ((axe f d).getD i 0)))) (other f d).length (window / 2) ≠ 0) (c : Nat → Rat) :
    corrLoop main srt f d window is ((List.range (2 * (window / 2) + 1)).map fun k => some (c k)) =
      .ok ((List.range (2 * (window / 2) + 1)).map fun k => some (c k + (is.map fun i =>
        correlation (at' ((other f d).map (F ((axe f d).getD i 0)))) (other f d).length (window / 2) k).sum)) := by
  induction is generalizing c with
  | nil => simp [corrLoop]
  | cons i is ih =>
    have hi := his i (by simp)
    obtain ⟨p, hp, ha⟩ := (C187_index hs main hf d .linear).1 i _ (List.getElem?_eq_getElem hi)
    have hy := line_y ha (F (axe f d)[i]) fun q hq r hr => sees_unique hf hr (hF _ (List.getElem_mem hi) q hq)
    have hgd : (axe f d).getD i 0 = (axe f d)[i] := SF.getD_of_getElem? (List.getElem?_eq_getElem hi)
    simp only [corrLoop]
    rw [hp]
    simp only
    rw [hy, autocorr_some _ _ (by rw [List.length_map]; exact hw)]
    simp only
    have hEi := hE i (by simp)
    rw [hgd] at hEi
    have hz : List.zipWith plus ((List.range (2 * (window / 2) + 1)).map fun k => some (c k))
        ((List.range (2 * (window / 2) + 1)).map fun k => if energy (at' ((other f d).map (F (axe f d)[i]))) ((other f d).map (F (axe f d)[i])).length (window / 2) = 0
          then none else some (correlation (at' ((other f d).map (F (axe f d)[i]))) ((other f d).map (F (axe f d)[i])).length (window / 2) k)) =
        (List.range (2 * (window / 2) + 1)).map fun k => some (c k + correlation (at' ((other f d).map (F (axe f d)[i]))) (other f d).length (window / 2) k) := by
      rw [List.zipWith_map, List.zipWith_self]
      refine List.map_congr_left fun k _ => ?_
      rw [List.length_map, if_neg hEi]
      rfl
    rw [hz, ih (fun j hj => his j (List.mem_cons_of_mem _ hj)) (fun j hj => hE j (List.mem_cons_of_mem _ hj))]
    congr 1
    refine List.map_congr_left fun k _ => ?_
    rw [List.map_cons, List.sum_cons, hgd, add_assoc]

open Line in
/-- **C192** The auto-correlation of a field is the mean of those of its lines; at the centre of the window it is one.  By default the window
is the longest even one. -/
theorem C192_field (hs : IsArgsort srt) (main : Bool) {f : SF} (hf : f.WF) (d : Dir) {F : Rat → Rat → Rat}
    (hF : ∀ v ∈ axe f d, ∀ q ∈ other f d, Sees f d v q (some (F v q))) {win : Option Nat} {window : Nat}
    (hwin : win = some window ∨ (win = none ∧ window + 2 = (other f d).length)) (hw : window + 2 ≤ (other f d).length)
    (hE : ∀ v ∈ axe f d, energy (at' ((other f d).map (F v))) (other f d).length (window / 2) ≠ 0) :
    ∃ p, spatialAutocorrelation main srt f d win = .ok p ∧ p.ux = unit f d ∧
      (pts p).map Prod.snd = (List.range (2 * (window / 2) + 1)).map (fun k =>
        some (avg ((axe f d).map fun v => correlation (at' ((other f d).map (F v))) (other f d).length (window / 2) k))) ∧
      ((pts p).map Prod.snd)[window / 2]? = some (some 1) := by
  have hgd : win.getD ((other f d).length - 2) = window := by
    rcases hwin with rfl | ⟨rfl, h⟩
    · rfl
    · show (other f d).length - 2 = window; omega
  have hrep : List.replicate (2 * (window / 2) + 1) (some (0 : Rat)) = (List.range (2 * (window / 2) + 1)).map fun k => some ((fun _ => 0) k) := by
    simp
  have hget : ∀ i ∈ List.range (axe f d).length, (axe f d).getD i 0 ∈ axe f d := by
    intro i hi
    have hi := List.mem_range.1 hi
    rw [SF.getD_of_getElem? (List.getElem?_eq_getElem hi)]
    exact List.getElem_mem hi
  have hl := corrLoop_some hs main hf d hF hw (List.range (axe f d).length) (fun i hi => List.mem_range.1 hi)
    (fun i hi => hE _ (hget i hi)) (fun _ => 0)
  have hdx : 0 < (other f d).getD 1 0 - (other f d).getD 0 0 := by
    have h1 : 1 < (other f d).length := by omega
    rw [SF.getD_of_getElem? (List.getElem?_eq_getElem h1), SF.getD_of_getElem? (List.getElem?_eq_getElem (show 0 < (other f d).length by omega))]
    have := (other_inc hf d).get_lt (List.getElem?_eq_getElem (show 0 < (other f d).length by omega)) (List.getElem?_eq_getElem h1) (by omega)
    linarith
  have hval : ((List.range (2 * (window / 2) + 1)).map fun k => some ((fun _ => (0 : Rat)) k + ((List.range (axe f d).length).map fun i =>
        correlation (at' ((other f d).map (F ((axe f d).getD i 0)))) (other f d).length (window / 2) k).sum)).map
          (fun c => c.map fun v => v / ((axe f d).length : Rat)) =
      (List.range (2 * (window / 2) + 1)).map (fun k =>
        some (avg ((axe f d).map fun v => correlation (at' ((other f d).map (F v))) (other f d).length (window / 2) k))) := by
    rw [List.map_map]
    refine List.map_congr_left fun k _ => ?_
    simp only [Function.comp, Option.map_some, Option.some.injEq, zero_add]
    unfold avg
    rw [List.length_map]
    congr 2
    exact map_range_getD _ _ (fun v => correlation (at' ((other f d).map (F v))) (other f d).length (window / 2) k) fun i hi => by
      rw [SF.getD_of_getElem? (List.getElem?_eq_getElem hi)]
  unfold spatialAutocorrelation
  rw [hgd, hrep, hl]
  simp only [List.length_map, List.length_range]
  simp only at hval
  rw [hval]
  obtain ⟨p, hp, h3, -, h4, -⟩ := profile_ok hs (lags_inc hdx (2 * (window / 2) + 1)) (y := (List.range (2 * (window / 2) + 1)).map (fun k =>
        some (avg ((axe f d).map fun v => correlation (at' ((other f d).map (F v))) (other f d).length (window / 2) k))))
      (by unfold lags; simp) (unit f d) Sym.one
  have hsnd : (pts p).map Prod.snd = (List.range (2 * (window / 2) + 1)).map (fun k =>
        some (avg ((axe f d).map fun v => correlation (at' ((other f d).map (F v))) (other f d).length (window / 2) k))) := by
    rw [h3, List.map_snd_zip (by unfold lags; simp)]
  refine ⟨p, hp, h4, hsnd, ?_⟩
  rw [hsnd, List.getElem?_map, List.getElem?_range (by omega)]
  simp only [Option.map_some]
  have h1 : ((axe f d).map fun v => correlation (at' ((other f d).map (F v))) (other f d).length (window / 2) (window / 2)) = (axe f d).map fun v => 1 + 0 * v :=
    List.map_congr_left fun v hv => by rw [C192_centre _ _ _ (hE v hv)]; ring
  rw [h1, avg_affine _ (axe_ne hf d)]
  simp

theorem zip_none_left (n : Nat) (c : List (Option Rat)) (h : c.length = n) : List.zipWith plus (List.replicate n none) c = List.replicate n none := by
  subst h
  induction c with
  | nil => rfl
  | cons a c ih => simp [List.replicate_succ, ih, plus]

theorem zip_none_right (n : Nat) (c : List (Option Rat)) (h : c.length = n) : List.zipWith plus c (List.replicate n none) = List.replicate n none := by
  subst h
  induction c with
  | nil => rfl
  | cons a c ih => cases a <;> simp [List.replicate_succ, ih, plus]

open Line in
theorem corrLoop_none (hs : IsArgsort srt) (main : Bool) {f : SF} (hf : f.WF) (d : Dir) {F : Rat → Rat → Rat}
    (hF : ∀ v ∈ axe f d, ∀ q ∈ other f d, Sees f d v q (some (F v q))) {window : Nat} (hw : window + 2 ≤ (other f d).length)
    (is : List Nat) (his : ∀ i ∈ is, i < (axe f d).length) (c : List (Option Rat)) (hc : c.length = 2 * (window / 2) + 1)
    (h0 : c = List.replicate (2 * (window / 2) + 1) none ∨
      ∃ i ∈ is, energy (at' ((other f d).map (F ((axe f d).getD i 0)))) (other f d).length (window / 2) = 0) :
    corrLoop main srt f d window is c = .ok (List.replicate (2 * (window / 2) + 1) none) := by
  induction is generalizing c with
  | nil =>
    rcases h0 with rfl | ⟨i, hi, -⟩
    · rfl
    · simp at hi
  | cons i is ih =>
    have hi := his i (by simp)
    obtain ⟨p, hp, ha⟩ := (C187_index hs main hf d .linear).1 i _ (List.getElem?_eq_getElem hi)
    have hy := line_y ha (F (axe f d)[i]) fun q hq r hr => sees_unique hf hr (hF _ (List.getElem_mem hi) q hq)
    have hgd : (axe f d).getD i 0 = (axe f d)[i] := SF.getD_of_getElem? (List.getElem?_eq_getElem hi)
    simp only [corrLoop]
    rw [hp]
    simp only
    rw [hy, autocorr_some _ _ (by rw [List.length_map]; exact hw)]
    simp only
    apply ih (fun j hj => his j (List.mem_cons_of_mem _ hj))
    · rw [List.length_zipWith, hc]; simp
    · rcases h0 with rfl | ⟨j, hj, hE⟩
      · left; exact zip_none_left _ _ (by simp)
      · rcases List.mem_cons.1 hj with rfl | hj
        · left
          rw [hgd] at hE
          rw [List.length_map]
          simp only [hE, if_true]
          rw [List.map_const', List.length_range]
          exact zip_none_right _ _ hc
        · right; exact ⟨j, hj, hE⟩

open Line in
/-- **C192** One line without energy (zero at the centres of the windows) leaves nothing of the correlation of the field. -/
theorem C192_zero_line_violated (hs : IsArgsort srt) (main : Bool) {f : SF} (hf : f.WF) (d : Dir) {F : Rat → Rat → Rat}
    (hF : ∀ v ∈ axe f d, ∀ q ∈ other f d, Sees f d v q (some (F v q))) {window : Nat} (hw : window + 2 ≤ (other f d).length)
    {v : Rat} (hv : v ∈ axe f d) (h0 : ∀ q ∈ other f d, F v q = 0) :
    ∃ p, spatialAutocorrelation main srt f d (some window) = .ok p ∧ ∀ r ∈ pts p, r.2 = none := by
  obtain ⟨i, hi⟩ := List.mem_iff_getElem?.1 hv
  have hE : energy (at' ((other f d).map (F ((axe f d).getD i 0)))) (other f d).length (window / 2) = 0 := by
    rw [SF.getD_of_getElem? hi]
    unfold energy
    refine Finset.sum_eq_zero fun k _ => ?_
    have : at' ((other f d).map (F v)) k = 0 := by
      unfold at'
      rw [List.getD_eq_getElem?_getD, List.getElem?_map]
      cases h : (other f d)[k]? with
      | none => rfl
      | some q => simp [h0 q (List.mem_of_getElem? h)]
    rw [this]
    norm_num
  have hl := corrLoop_none hs main hf d hF hw (List.range (axe f d).length) (fun i hi => List.mem_range.1 hi)
    (List.replicate (2 * (window / 2) + 1) (some 0)) (by simp) (.inr ⟨i, List.mem_range.2 (getElem?_some_lt hi), hE⟩)
  have hdx : 0 < (other f d).getD 1 0 - (other f d).getD 0 0 := by
    have h1 : 1 < (other f d).length := by omega
    rw [SF.getD_of_getElem? (List.getElem?_eq_getElem h1), SF.getD_of_getElem? (List.getElem?_eq_getElem (show 0 < (other f d).length by omega))]
    have := (other_inc hf d).get_lt (List.getElem?_eq_getElem (show 0 < (other f d).length by omega)) (List.getElem?_eq_getElem h1) (by omega)
    linarith
  unfold spatialAutocorrelation
  rw [Option.getD_some, hl]
  simp only [List.length_replicate, List.map_replicate, Option.map_none]
  obtain ⟨p, hp, h3, -⟩ := profile_ok hs (lags_inc hdx (2 * (window / 2) + 1)) (y := List.replicate (2 * (window / 2) + 1) none)
      (by unfold lags; simp) (unit f d) Sym.one
  refine ⟨p, hp, fun r hr => ?_⟩
  rw [h3] at hr
  exact (List.mem_replicate.1 (List.of_mem_zip hr).2).2

/-! ### concrete cases -/

/-- A profile of five points. -/
def wave : Prof := ⟨[0, 1, 2, 3, 4], [some 1, some 2, some 0, some (-1), some 7], [false, false, false, false, false], .m, .s⟩

example : (autocorrelation Profile.argsort wave 3).map pts = .ok [(0, some (2/4)), (1, some 1), (2, some 0)] := by decide +kernel

theorem wave_shows : Shows wave [1, 2, 0, -1, 7] := ⟨by decide +kernel, by decide +kernel, rfl, rfl, by decide +kernel⟩

-- the hypotheses of the theorems above
example : Shows wave [1, 2, 0, -1, 7] ∧ 3 + 2 ≤ [1, 2, 0, -1, (7 : Rat)].length ∧ energy (at' [1, 2, 0, -1, 7]) 5 (3 / 2) ≠ 0 := by
  refine ⟨wave_shows, by decide, ?_⟩
  decide +kernel

example : (spatialAutocorrelation true Profile.argsort Line.plain .y none).map pts = .ok [(0, some 1)] ∧
    (spatialAutocorrelation true Profile.argsort ⟨[0, 1], [0, 1, 2, 3], ⟨2, 4, fun i j => some (i + j)⟩, ⟨2, 4, fun _ _ => false⟩, .m, .m, .s⟩ .x
      (some 2)).map pts = .ok [(0, some (1/4)), (1, some 1), (2, some (7/4))] := by decide +kernel

end IMT.Stat
