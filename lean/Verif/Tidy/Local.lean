import Verif.Tidy.Model
import Verif.Reshape.Marginal
import Verif.Profile.Fill
import Verif.Profile.Arith

/-! C270: removal of the local marginal values of a profile. -/

namespace IMT.Tidy

open Profile

/-! ### specification -/

/-- How far a value is from the smoothed value `S i`; nothing at masked points. -/
def gap (p : Prof) (S : List Rat) (i : Nat) : Option Rat := (p.y.getD i none).map fun v => v - S.getD i 0

/-- The gaps of the unmasked values. -/
def gaps (p : Prof) (S : List Rat) : List Rat := (List.range p.x.length).filterMap (gap p S)

/-- Mean of a list. -/
def avg (l : List Rat) : Rat := l.sum / l.length

/-- Squared standard deviation. -/
def spread (l : List Rat) : Rat := (l.map fun v => (v - avg l) ^ 2).sum / l.length

/-- A gap more than `fact` standard deviations away from the mean gap. -/
def Outlier (p : Prof) (S : List Rat) (fact : Rat) (i : Nat) : Prop :=
  ∃ g, gap p S i = some g ∧ fact ^ 2 * spread (gaps p S) < (g - avg (gaps p S)) ^ 2

/-! ### lemmas -/

theorem new_inc {srt : List Rat → List Nat} (hs : IsArgsort srt) {x : List Rat} (hx : Inc x) {y : List F} {m : List Bool} (ux uy : Sym)
    (hy : y.length = x.length) (hm : m.length = x.length) (hb : blank y m = y) :
    new srt x y (.arr m) ux uy = .ok ⟨x, y, y.map Option.isNone, ux, uy⟩ := by
  unfold new
  rw [if_neg (by simp [hy]), if_neg (by show ¬ m.length < _; omega)]
  show Except.ok (build (srt x) x y m ux uy) = _
  rw [build_eq ux uy hy (by omega) (fun i hi => mem_order hs hi), take_order_inc hs hx x rfl, take_order_inc hs hx y hy, take_order_inc hs hx m hm, hb]

theorem getD_range (y : List F) (n : Nat) (h : y.length = n) : y = (List.range n).map fun i => y.getD i none := by
  apply List.ext_getElem
  · simp [h]
  · intro i h1 h2
    simp [List.getD_eq_getElem?_getD, List.getElem?_eq_getElem h1]

theorem zipWith_range {α : Type} (y : List F) (S : List Rat) (n : Nat) (hy : y.length = n) (hS : S.length = n) (g : F → Rat → α) :
    List.zipWith g y S = (List.range n).map fun i => g (y.getD i none) (S.getD i 0) := by
  apply List.ext_getElem
  · simp [hy, hS]
  · intro i h1 h2
    have hi : i < n := by simpa using h2
    simp [List.getD_eq_getElem?_getD, List.getElem?_eq_getElem (show i < y.length by omega), List.getElem?_eq_getElem (show i < S.length by omega)]

/-- The smoothed profile. -/
theorem smoothG_eq {srt : List Rat → List Nat} (hs : IsArgsort srt) {Ga : List Rat → List Rat} {p : Prof} (h : Valid p)
    (hx : Inc p.x) (h2 : 2 ≤ (pts p).countP fun r => r.2.isSome) :
    ∃ f, Filled p f ∧ smoothG srt Ga p = .ok ⟨p.x, (Ga (f.y.map fun v => v.getD 0)).map some,
      ((Ga (f.y.map fun v => v.getD 0)).map some).map Option.isNone, p.ux, p.uy⟩ := by
  obtain ⟨f, e, hf⟩ := C33_fill_inplace_partial h hx 0 h2
  refine ⟨f, hf, ?_⟩
  unfold smoothG
  rw [e]
  simp only
  have hfx : f.x.length = f.y.length := hf.consistent.1.symm
  have hset : setX srt f f.x = (f, .ok ⟨⟩) := by
    unfold setX
    rw [if_neg (by simp [hfx])]
    have hi : Inc f.x := by rw [hf.abscissae]; exact hx
    split
    · rw [take_order_inc hs hi f.x rfl, take_order_inc hs hi f.y hfx.symm, take_order_inc hs hi f.m (by rw [hf.consistent.2.1]; simp [hfx])]
    · rfl
  rw [hset]
  simp only
  rw [getY_valid hf.consistent]
  unfold setY Reshape.nums
  rw [← hf.abscissae, ← hf.units.1, ← hf.units.2]

/-- The difference to the smoothed profile. -/
theorem sub_eq {srt : List Rat → List Nat} (hs : IsArgsort srt) {p : Prof} (h : Valid p) (hx : Inc p.x) (hz : p.uy.size ≠ 0) {S : List Rat}
    (hS : S.length = p.x.length) :
    sub srt p ⟨p.x, S.map some, (S.map some).map Option.isNone, p.ux, p.uy⟩ =
      .ok ⟨p.x, (List.range p.x.length).map (gap p S), ((List.range p.x.length).map (gap p S)).map Option.isNone, p.ux, p.uy⟩ := by
  have hneg : neg srt ⟨p.x, S.map some, (S.map some).map Option.isNone, p.ux, p.uy⟩ =
      .ok ⟨p.x, S.map fun v => some (-v), (S.map fun v => some (-v)).map Option.isNone, p.ux, p.uy⟩ := by
    unfold neg
    have hv : getY ⟨p.x, S.map some, (S.map some).map Option.isNone, p.ux, p.uy⟩ = S.map some := by
      unfold getY
      exact blank_isNone _
    rw [hv]
    have hm : (S.map some).map (Option.map fun v : Rat => -v) = S.map fun v => some (-v) := by
      rw [List.map_map]
      rfl
    rw [hm]
    have hb : (S.map some).map Option.isNone = (S.map fun v : Rat => some (-v)).map Option.isNone := by
      rw [List.map_map, List.map_map]
      rfl
    simp only
    rw [hb]
    exact new_inc hs hx _ _ (by simp [hS]) (by simp [hS]) (blank_isNone _)
  unfold sub
  rw [hneg]
  simp only
  unfold add
  rw [if_neg (by simp [Sym.Compat]), if_neg (by simp), if_neg (by simp)]
  have hf : fact p.uy p.uy = 1 := by unfold fact; exact div_self hz
  have hv : getY ⟨p.x, S.map fun v => some (-v), (S.map fun v => some (-v)).map Option.isNone, p.ux, p.uy⟩ = S.map fun v => some (-v) := by
    unfold getY
    exact blank_isNone _
  rw [hv, getY_valid h]
  simp only
  rw [hf]
  have hm : ((S.map fun v : Rat => some (-v)).map (Option.map fun v => (1 : Rat) * v)) = S.map fun v => some (-v) := by
    rw [List.map_map]
    apply List.map_congr_left
    intro v _
    simp
  have hgap : List.zipWith addF p.y (S.map fun v => some (-v)) = (List.range p.x.length).map (gap p S) := by
    rw [List.zipWith_map_right, zipWith_range p.y S p.x.length h.1 hS]
    apply List.map_congr_left
    intro i _
    unfold gap
    cases p.y.getD i none with
    | none => rfl
    | some v => simp only [addF, Option.map_some]; rw [sub_eq_add_neg]
  rw [hm, hgap]
  have hmask : List.zipWith (· || ·) p.m ((S.map fun v : Rat => some (-v)).map Option.isNone) = ((List.range p.x.length).map (gap p S)).map Option.isNone := by
    rw [List.map_map, List.zipWith_map_right, h.2.1, List.zipWith_map_left, zipWith_range p.y S p.x.length h.1 hS, List.map_map]
    apply List.map_congr_left
    intro i _
    simp only [Function.comp_apply, gap]
    generalize p.y.getD i none = v
    cases v <;> simp
  rw [hmask]
  exact new_inc hs hx _ _ (by simp) (by simp) (blank_isNone _)

theorem vals_gaps {p : Prof} {S : List Rat} (h : Valid p) :
    Reshape.vals ⟨p.x, (List.range p.x.length).map (gap p S), ((List.range p.x.length).map (gap p S)).map Option.isNone, p.ux, p.uy⟩ = gaps p S := by
  have hv : Valid ⟨p.x, (List.range p.x.length).map (gap p S), ((List.range p.x.length).map (gap p S)).map Option.isNone, p.ux, p.uy⟩ :=
    ⟨by simp, rfl, h.2.2⟩
  unfold Reshape.vals gaps
  rw [valid_eq hv, pts_valid hv, List.map_filterMap]
  simp only
  rw [List.zip_map_right, List.filterMap_map]
  have : ∀ (l : List Nat) (x : List Rat), x.length = l.length →
      ((x.zip l).filterMap fun r => ((gap p S r.2).map fun v => (r.1, v)).map Prod.snd) = l.filterMap (gap p S) := by
    intro l
    induction l with
    | nil => intro x _; simp
    | cons i l ih =>
      intro x hx
      cases x with
      | nil => simp at hx
      | cons a x =>
        rw [List.zip_cons_cons, List.filterMap_cons, List.filterMap_cons, ih x (by simpa using hx)]
        cases gap p S i <;> rfl
  exact this (List.range p.x.length) p.x (by simp)

open Classical in
theorem removeLocal_eq {srt : List Rat → List Nat} (hs : IsArgsort srt) {Ga : List Rat → List Rat} (hG : ∀ l, (Ga l).length = l.length) {p : Prof}
    (h : Valid p) (hx : Inc p.x) (h2 : 2 ≤ (pts p).countP fun r => r.2.isSome) (hz : p.uy.size ≠ 0) {fact : Rat} (hf : 0 ≤ fact) :
    ∃ f, Filled p f ∧ (Ga (f.y.map fun v => v.getD 0)).length = p.x.length ∧
      removeLocal srt Ga p fact = .ok ⟨p.x, (List.range p.x.length).map fun i =>
          if Outlier p (Ga (f.y.map fun v => v.getD 0)) fact i then none else p.y.getD i none,
        ((List.range p.x.length).map fun i =>
          if Outlier p (Ga (f.y.map fun v => v.getD 0)) fact i then none else p.y.getD i none).map Option.isNone, p.ux, p.uy⟩ := by
  obtain ⟨f, hfill, e⟩ := smoothG_eq hs (Ga := Ga) h hx h2
  generalize hS : Ga (f.y.map fun v => v.getD 0) = S at e ⊢
  have hl : S.length = p.x.length := by
    rw [← hS, hG, List.length_map, hfill.consistent.1, hfill.abscissae]
  refine ⟨f, hfill, by rw [hS]; exact hl, ?_⟩
  rw [hS]
  unfold removeLocal
  rw [e]
  simp only
  rw [sub_eq hs h hx hz hl]
  simp only
  set d : Prof := ⟨p.x, (List.range p.x.length).map (gap p S), ((List.range p.x.length).map (gap p S)).map Option.isNone, p.ux, p.uy⟩ with hd
  have hdy : getY d = (List.range p.x.length).map (gap p S) := by
    unfold getY
    exact blank_isNone _
  have hmean : Reshape.mean d = avg (gaps p S) := by
    unfold Reshape.mean avg
    rw [hd, vals_gaps h]
  have hvar : Reshape.variance d = spread (gaps p S) := by
    unfold Reshape.variance spread
    rw [hmean, hd, vals_gaps h]
  have hmar : ∀ i, Reshape.marginal d fact (gap p S i) = true ↔ Outlier p S fact i := by
    intro i
    unfold Outlier
    cases hg : gap p S i with
    | none => simp [Reshape.marginal]
    | some g =>
      rw [Reshape.marginal_iff d hf, hmean, hvar]
      simp
  have hmask : List.zipWith (fun b v => b || Reshape.marginal d fact v) p.m (getY d) = ((List.range p.x.length).map fun i =>
      if Outlier p S fact i then none else p.y.getD i none).map Option.isNone := by
    rw [hdy, List.zipWith_map_right, h.2.1, List.zipWith_map_left, List.map_map]
    have hy := getD_range p.y p.x.length h.1
    conv_lhs => rw [hy]
    rw [List.zipWith_map_left, List.zipWith_self]
    apply List.map_congr_left
    intro i _
    simp only [Function.comp_apply]
    by_cases ho : Outlier p S fact i
    · rw [(hmar i).2 ho, if_pos ho]
      simp
    · rw [if_neg ho]
      have : Reshape.marginal d fact (gap p S i) = false := by
        by_contra hc
        exact ho ((hmar i).1 (by simpa using hc))
      rw [this]
      simp
  rw [hmask]
  have hblank : blank (getY p) (((List.range p.x.length).map fun i => if Outlier p S fact i then none else p.y.getD i none).map Option.isNone) =
      (List.range p.x.length).map fun i => if Outlier p S fact i then none else p.y.getD i none := by
    rw [getY_valid h]
    unfold blank
    have hy := getD_range p.y p.x.length h.1
    conv_lhs => arg 2; rw [hy]
    rw [List.map_map, List.zipWith_map_left, List.zipWith_map_right, List.zipWith_self]
    apply List.map_congr_left
    intro i _
    by_cases ho : Outlier p S fact i
    · simp only [Function.comp_apply, ho, if_true]
      rfl
    · simp only [Function.comp_apply, ho, if_false]
      generalize p.y.getD i none = v
      cases v <;> rfl
  rw [hblank]

/-! ### C270 -/

open Classical in
/-- **C270** The values masked are exactly those whose gap to the smoothed profile is more than `fact` standard deviations away from the mean gap; the
smoothed profile is the filter applied to the filled profile. -/
theorem C270_masked_partial {srt : List Rat → List Nat} (hs : IsArgsort srt) {Ga : List Rat → List Rat} (hG : ∀ l, (Ga l).length = l.length) {p : Prof}
    (h : Valid p) (hx : Inc p.x) (h2 : 2 ≤ (pts p).countP fun r => r.2.isSome) (hz : p.uy.size ≠ 0) {fact : Rat} (hf : 0 ≤ fact) :
    ∃ f q, Filled p f ∧ removeLocal srt Ga p fact = .ok q ∧ Valid q ∧ q.x = p.x ∧ q.ux = p.ux ∧ q.uy = p.uy ∧
      ∀ i : Nat, i < p.x.length → (Outlier p (Ga (f.y.map fun v => v.getD 0)) fact i → q.y[i]? = some none) ∧
        (¬ Outlier p (Ga (f.y.map fun v => v.getD 0)) fact i → q.y[i]? = p.y[i]?) := by
  obtain ⟨f, hfill, hl, e⟩ := removeLocal_eq hs hG h hx h2 hz hf
  refine ⟨f, _, hfill, e, ⟨by simp, rfl, h.2.2⟩, rfl, rfl, rfl, ?_⟩
  intro i hi
  simp only [List.getElem?_map, List.getElem?_range hi, Option.map_some]
  constructor
  · intro ho
    rw [if_pos ho]
  · intro ho
    rw [if_neg ho, List.getD_eq_getElem?_getD, List.getElem?_eq_getElem (by rw [h.1]; exact hi)]
    rfl

theorem spread_nonneg (l : List Rat) : 0 ≤ spread l := by
  unfold spread
  apply div_nonneg
  · apply List.sum_nonneg
    intro x hx
    obtain ⟨v, -, rfl⟩ := List.mem_map.1 hx
    positivity
  · positivity

/-- **C270** With `fact ≥ 1` some value is left, so that the method can be repeated. -/
theorem C270_some_left {srt : List Rat → List Nat} (hs : IsArgsort srt) {Ga : List Rat → List Rat} (hG : ∀ l, (Ga l).length = l.length) {p : Prof}
    (h : Valid p) (hx : Inc p.x) (h2 : 2 ≤ (pts p).countP fun r => r.2.isSome) (hz : p.uy.size ≠ 0) {fact : Rat} (hf : 1 ≤ fact) :
    ∃ q, removeLocal srt Ga p fact = .ok q ∧ ∃ r ∈ pts q, r.2 ≠ none := by
  obtain ⟨f, q, hfill, e, hv, hqx, -, -, hq⟩ := C270_masked_partial hs hG h hx h2 hz (by linarith : 0 ≤ fact)
  generalize Ga (f.y.map fun v => v.getD 0) = S at hq
  refine ⟨q, e, ?_⟩
  by_contra hno
  push Not at hno
  have hnone : ∀ i, i < p.x.length → q.y[i]? = some none := by
    intro i hi
    have hi' : i < q.y.length := by rw [hv.1, hqx]; exact hi
    rw [List.getElem?_eq_getElem hi']
    congr 1
    apply hno (q.x[i]'(by rw [hqx]; exact hi), q.y[i])
    rw [pts_valid hv]
    exact List.mem_iff_getElem.2 ⟨i, by simp [hqx, hv.1, hi], by simp⟩
  have hall : ∀ g ∈ gaps p S, fact ^ 2 * spread (gaps p S) < (g - avg (gaps p S)) ^ 2 := by
    intro g hg
    obtain ⟨i, hi, hgi⟩ := List.mem_filterMap.1 hg
    have hi := List.mem_range.1 hi
    by_contra hc
    have ho : ¬ Outlier p S fact i := by
      rintro ⟨g', hg', hlt⟩
      rw [hgi] at hg'
      cases hg'
      exact hc hlt
    have h1 := (hq i hi).2 ho
    rw [hnone i hi] at h1
    unfold gap at hgi
    rw [List.getD_eq_getElem?_getD (l := p.y), ← h1] at hgi
    simp at hgi
  have hne : gaps p S ≠ [] := by
    obtain ⟨r, hr, hs⟩ := List.countP_pos_iff.1 (show 0 < (pts p).countP fun r => r.2.isSome by omega)
    rw [pts_valid h] at hr
    obtain ⟨i, hi, rfl⟩ := List.mem_iff_getElem.1 hr
    have hix : i < p.x.length := by
      have := hi
      rw [List.length_zip, h.1] at this
      omega
    obtain ⟨v, hv⟩ := Option.isSome_iff_exists.1 hs
    refine List.ne_nil_of_mem (List.mem_filterMap.2 ⟨i, List.mem_range.2 hix, (?_ : gap p S i = some (v - S.getD i 0))⟩)
    unfold gap
    have hiy : i < p.y.length := by rw [h.1]; exact hix
    rw [List.getD_eq_getElem?_getD (l := p.y), List.getElem?_eq_getElem hiy]
    simp only [List.getElem_zip] at hv
    rw [Option.getD_some, hv]
    rfl
  have hc := Reshape.chebyshev_strict (gaps p S) (avg (gaps p S)) _ hne hall
  have hpos : (0 : Rat) < (gaps p S).length := by
    have := List.length_pos_iff.2 hne
    exact_mod_cast this
  have hvar : ((gaps p S).map fun v => (v - avg (gaps p S)) ^ 2).sum = (gaps p S).length * spread (gaps p S) := by
    unfold spread
    field_simp
  rw [hvar] at hc
  have h1 : spread (gaps p S) ≤ fact ^ 2 * spread (gaps p S) := by
    have h2 : 1 ≤ fact ^ 2 := by nlinarith
    have := spread_nonneg (gaps p S)
    nlinarith
  nlinarith

/-- **C270** A profile equal to its smoothed version keeps all its values. -/
theorem C270_smooth_kept {srt : List Rat → List Nat} (hs : IsArgsort srt) {Ga : List Rat → List Rat} (hG : ∀ l, (Ga l).length = l.length) {p : Prof}
    (h : Valid p) (hx : Inc p.x) (h2 : 2 ≤ (pts p).countP fun r => r.2.isSome) (hz : p.uy.size ≠ 0) {fact : Rat} (hf : 0 ≤ fact)
    (hg : ∀ f, Filled p f → ∃ c, ∀ g ∈ gaps p (Ga (f.y.map fun v => v.getD 0)), g = c) :
    ∃ q, removeLocal srt Ga p fact = .ok q ∧ pts q = pts p := by
  obtain ⟨f, q, hfill, e, hv, hqx, -, -, hq⟩ := C270_masked_partial hs hG h hx h2 hz hf
  obtain ⟨c, hc⟩ := hg f hfill
  generalize Ga (f.y.map fun v => v.getD 0) = S at hq hc
  refine ⟨q, e, ?_⟩
  rw [pts_valid hv, pts_valid h, hqx]
  congr 1
  apply List.ext_getElem?
  intro i
  by_cases hi : i < p.x.length
  · apply (hq i hi).2
    rintro ⟨g, hgi, hlt⟩
    have hm : g ∈ gaps p S := List.mem_filterMap.2 ⟨i, List.mem_range.2 hi, hgi⟩
    have hne : gaps p S ≠ [] := List.ne_nil_of_mem hm
    have hrep : gaps p S = List.replicate (gaps p S).length c := List.eq_replicate_iff.2 ⟨rfl, hc⟩
    have hpos : (0 : Rat) < (gaps p S).length := by
      have := List.length_pos_iff.2 hne
      exact_mod_cast this
    have ha : avg (gaps p S) = c := by
      unfold avg
      rw [hrep, List.sum_replicate, List.length_replicate, nsmul_eq_mul]
      field_simp
    have := spread_nonneg (gaps p S)
    rw [ha, hc g hm] at hlt
    have : 0 ≤ fact ^ 2 * spread (gaps p S) := by positivity
    rw [sub_self] at hlt
    norm_num at hlt
    linarith
  · rw [List.getElem?_eq_none (by rw [hv.1, hqx]; omega), List.getElem?_eq_none (by rw [h.1]; omega)]

/-- **C270** fails for a profile with masked points and less than two values: the smoothing raises. -/
theorem C270_single_violated {srt : List Rat → List Nat} {Ga : List Rat → List Rat} {p : Prof} (h : Valid p) (hm : ∃ r ∈ pts p, r.2 = none)
    (h1 : ((pts p).countP fun r => r.2.isSome) ≤ 1) (fact : Rat) : ∃ e, removeLocal srt Ga p fact = .error e := by
  have hm' : ¬ p.m.any id = false := by
    rw [any_masked h]
    push Not
    exact hm
  have hfd : ∃ e, fillData p .slinear 0 = .error e := by
    unfold fillData
    by_cases ha : p.m.all id = true
    · rw [if_pos ha]; exact ⟨_, rfl⟩
    · rw [if_neg ha]
      simp only
      rw [if_pos (by rw [valid_length h]; omega)]
      exact ⟨_, rfl⟩
  obtain ⟨e, he⟩ := hfd
  refine ⟨e, ?_⟩
  unfold removeLocal smoothG fillInplace
  rw [if_neg hm', he]

/-! ### examples -/

/-- A slope with a spike, one point masked. -/
def ramp : Prof := ⟨[0, 1, 2, 3, 4, 5, 6], [some 0, some 1, some 2, none, some 4, some 35, some 6],
  [false, false, false, true, false, false, false], .m, .s⟩

example : Valid ramp ∧ Inc ramp.x ∧ 2 ≤ ((pts ramp).countP fun r => r.2.isSome) ∧ ramp.uy.size ≠ 0 := by
  unfold Valid
  decide +kernel

/-- With the slope as smoothed profile, the spike and nothing else is an outlier at two standard deviations. -/
example : gaps ramp [0, 1, 2, 3, 4, 5, 6] = [0, 0, 0, 0, 30, 0] ∧ (2 : Rat) ^ 2 * spread [0, 0, 0, 0, 30, 0] < (30 - avg [0, 0, 0, 0, 30, 0]) ^ 2 ∧
    ¬ (2 : Rat) ^ 2 * spread [0, 0, 0, 0, 30, 0] < (0 - avg [0, 0, 0, 0, 30, 0]) ^ 2 := by decide +kernel

end IMT.Tidy
