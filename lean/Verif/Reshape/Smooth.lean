import Verif.Reshape.Conv

/-! Smoothing of profiles: C234. -/

namespace IMT.Reshape

open IMT.Profile

variable {srt : List Rat → List Nat} {p : Prof}

/-- Specification: the index of a list of `n` elements nearest to `k`. -/
def clamp (n : Nat) (k : Int) : Nat := (max 0 (min k ((n : Int) - 1))).toNat

/-- Specification: the mean over the `size` indices around `i`, the ends being repeated. -/
def windowMean (n size : Nat) (w : Nat → Rat) (i : Nat) : Rat :=
  (∑ j ∈ Finset.range size, w (clamp n ((i : Int) + j - (size / 2 : Nat)))) / size

theorem sum_range_map (f : Nat → Rat) (n : Nat) : ((List.range n).map f).sum = ∑ j ∈ Finset.range n, f j := by
  induction n with
  | zero => rfl
  | succ n ih => rw [List.range_succ, List.map_append, List.sum_append, ih, Finset.sum_range_succ]; simp

theorem near_eq (l : List Rat) (k : Int) : near l k = l.getD (clamp l.length k) 0 := by
  unfold near clamp
  rcases Nat.eq_zero_or_pos l.length with h | h
  · have : l = [] := List.length_eq_zero_iff.1 h
    subst this
    simp
  · congr 1
    omega

theorem uniform_length (size : Nat) (l : List Rat) : (uniform size l).length = l.length := by simp [uniform]

theorem uniform_get (size : Nat) (l : List Rat) {i : Nat} (hi : i < l.length) :
    (uniform size l)[i]? = some (windowMean l.length size (fun k => l.getD k 0) i) := by
  unfold uniform windowMean
  rw [List.getElem?_map, List.getElem?_range hi]
  simp only [Option.map_some, Option.some.injEq]
  rw [sum_range_map]
  congr 1
  exact Finset.sum_congr rfl fun j _ => near_eq l _

theorem clamp_lt {n : Nat} (h : 0 < n) (k : Int) : clamp n k < n := by unfold clamp; omega

theorem clamp_mono (n : Nat) {k k' : Int} (h : k ≤ k') : clamp n k ≤ clamp n k' := by unfold clamp; omega

theorem windowMean_mono {n size : Nat} (hs : size ≠ 0) {w : Nat → Rat} (hw : ∀ a b, a < b → b < n → w a < w b) {i : Nat}
    (hi : i + 1 < n) : windowMean n size w i < windowMean n size w (i + 1) := by
  unfold windowMean
  have s0 : (0 : Rat) < size := by exact_mod_cast Nat.pos_of_ne_zero hs
  refine div_lt_div_of_pos_right ?_ s0
  have hwm : ∀ a b, a ≤ b → b < n → w a ≤ w b := by
    intro a b hab hb
    rcases Nat.lt_or_eq_of_le hab with h | h
    · exact (hw a b h hb).le
    · rw [h]
  refine Finset.sum_lt_sum (fun j _ => hwm _ _ (clamp_mono n (by push_cast; omega)) (clamp_lt (by omega) _)) ?_
  refine ⟨size / 2, Finset.mem_range.2 (Nat.div_lt_self (Nat.pos_of_ne_zero hs) (by omega)), ?_⟩
  refine hw _ _ ?_ (clamp_lt (by omega) _)
  unfold clamp
  push_cast
  omega

theorem uniform_inc {size : Nat} (hs : size ≠ 0) {l : List Rat} (hl : Inc l) : Inc (uniform size l) := by
  have hw : ∀ a b, a < b → b < l.length → (fun k => l.getD k 0) a < (fun k => l.getD k 0) b := by
    intro a b hab hb
    simp only [List.getD_eq_getElem?_getD]
    have h1 : l[a]? = some l[a] := List.getElem?_eq_getElem (by omega)
    have h2 : l[b]? = some l[b] := List.getElem?_eq_getElem hb
    rw [h1, h2]
    exact Path.inc_get.1 hl a b _ _ h1 h2 hab
  have step : ∀ d i : Nat, i + d + 1 < l.length →
      windowMean l.length size (fun k => l.getD k 0) i < windowMean l.length size (fun k => l.getD k 0) (i + d + 1) := by
    intro d
    induction d with
    | zero => intro i hi; exact windowMean_mono hs hw hi
    | succ d ih =>
      intro i hi
      exact (ih i (by omega)).trans (windowMean_mono hs hw (by omega))
  rw [Path.inc_get]
  intro i j a b ha hb hij
  have h1 := getElem?_some_lt ha
  have h2 := getElem?_some_lt hb
  rw [uniform_length] at h1 h2
  rw [uniform_get size l h1] at ha
  rw [uniform_get size l h2] at hb
  rw [← Option.some.inj ha, ← Option.some.inj hb]
  obtain ⟨d, rfl⟩ : ∃ d, j = i + d + 1 := ⟨j - i - 1, by omega⟩
  exact step d i h2

/-- C234: `smooth('uniform', size, direction)` fills the profile, then replaces the values (direction y), the abscissae
(direction x) or both by their means over `size` neighbours, the ends being repeated; the order of the abscissae is kept. -/
theorem C234_smooth (hs : IsArgsort srt) (h : Valid p) (hi : Inc p.x) (h2 : 2 ≤ (pts p).countP fun r => r.2.isSome)
    {size : Nat} (h0 : size ≠ 0) (inX inY : Bool) :
    ∃ f q, Filled p f ∧ smooth srt p size inX inY = (q, .ok ⟨⟩) ∧ Valid q ∧ Inc q.x ∧ q.ux = p.ux ∧ q.uy = p.uy ∧
      q.x.length = p.x.length ∧ (∀ r ∈ pts q, r.2 ≠ none) ∧
      (∀ i < p.x.length, q.x[i]? =
        if inX then some (windowMean p.x.length size (fun k => p.x.getD k 0) i) else p.x[i]?) ∧
      (∀ i < p.x.length, q.y[i]? =
        if inY then some (some (windowMean p.x.length size (ext f.y) i)) else f.y[i]?) := by
  obtain ⟨f, ef, hf⟩ := C33_fill_inplace_partial h hi 0 h2
  have fx := hf.abscissae
  have fv := hf.consistent
  have fc := hf.complete
  have hvx : Inc (if inX then uniform size f.x else f.x) := by
    rw [fx]
    cases inX
    · exact hi
    · exact uniform_inc h0 hi
  have hl : (if inX then uniform size f.x else f.x).length = f.y.length := by
    rw [fv.1]
    cases inX
    · rfl
    · exact uniform_length _ _
  obtain ⟨r, er, hr, -, u1, u2, hinc⟩ := setX_spec hs (p := f) hl fv.2.1
  obtain ⟨rx, ry⟩ := hinc hvx
  have gy : getY f = f.y := getY_valid fv
  have allv : ∀ v ∈ f.y, v ≠ none := by
    intro v hv hn
    have : getY f = (pts f).map Prod.snd := by
      rw [getY_valid fv, pts_valid fv, List.map_snd_zip]
      rw [fv.1]
    rw [gy] at this
    rw [this] at hv
    obtain ⟨s, hs, rfl⟩ := List.mem_map.1 hv
    exact fc s hs hn
  have ly : (if inY then (uniform size (nums (getY f))).map some else getY f).length = f.y.length := by
    cases inY
    · rw [gy]; rfl
    · simp [uniform_length, nums, gy]
  have lx : r.x.length = p.x.length := by rw [rx, hl, fv.1, fx]
  have hne : ∀ v ∈ (if inY then (uniform size (nums (getY f))).map some else getY f), v ≠ none := by
    cases inY
    · rw [gy]; exact allv
    · intro v hv hn
      rw [if_pos rfl] at hv
      obtain ⟨w, -, rfl⟩ := List.mem_map.1 hv
      cases hn
  have hq : Valid (setY r (if inY then (uniform size (nums (getY f))).map some else getY f)) := by
    refine ⟨?_, rfl, hr.2.2⟩
    show (if inY then (uniform size (nums (getY f))).map some else getY f).length = r.x.length
    rw [ly, rx, hl]
  refine ⟨f, setY r (if inY then (uniform size (nums (getY f))).map some else getY f), hf, ?_, hq, ?_, ?_, ?_, lx, ?_, ?_, ?_⟩
  · unfold smooth
    rw [ef]
    simp only
    rw [if_neg h0, er]
  · show Inc r.x
    rw [rx]; exact hvx
  · show r.ux = p.ux
    rw [u1, hf.units.1]
  · show r.uy = p.uy
    rw [u2, hf.units.2]
  · intro s hsm
    rw [pts_valid hq] at hsm
    exact hne _ (List.of_mem_zip (show (s.1, s.2) ∈ _ from hsm)).2
  · intro i hlt
    show r.x[i]? = _
    rw [rx, fx]
    cases inX
    · rfl
    · exact uniform_get size p.x hlt
  · intro i hlt
    show (if inY then (uniform size (nums (getY f))).map some else getY f)[i]? = _
    rw [gy]
    cases inY
    · rfl
    · simp only [if_true]
      have ln : (nums f.y).length = p.x.length := by simp [nums, fv.1, fx]
      rw [List.getElem?_map, uniform_get size (nums f.y) (by rw [ln]; exact hlt), ln]
      simp only [Option.map_some, Option.some.injEq]
      congr 1
      funext k
      unfold ext nums
      rw [List.getD_eq_getElem?_getD, List.getElem?_map]
      cases f.y[k]? <;> rfl

/-! ### bounds -/

theorem last_some (L : List (Rat × F)) :
    (∀ r ∈ L, r.2 = none) ∨ ∃ A x v M, L = A ++ (x, some v) :: M ∧ ∀ r ∈ M, r.2 = none := by
  induction L with
  | nil => left; simp
  | cons r L ih =>
    rcases ih with ih | ⟨A, x, v, M, e, hM⟩
    · obtain ⟨x, v⟩ := r
      cases v with
      | none => left; intro s hs; rcases List.mem_cons.1 hs with rfl | hs; exacts [rfl, ih s hs]
      | some v => right; exact ⟨[], x, v, L, rfl, ih⟩
    · right; exact ⟨r :: A, x, v, M, by rw [e]; rfl, hM⟩

theorem first_some (L : List (Rat × F)) :
    (∀ r ∈ L, r.2 = none) ∨ ∃ M x v B, L = M ++ (x, some v) :: B ∧ ∀ r ∈ M, r.2 = none := by
  induction L with
  | nil => left; simp
  | cons r L ih =>
    obtain ⟨x, v⟩ := r
    cases v with
    | some v => right; exact ⟨[], x, v, L, rfl, by simp⟩
    | none =>
      rcases ih with ih | ⟨M, x', v, B, e, hM⟩
      · left; intro s hs; rcases List.mem_cons.1 hs with rfl | hs; exacts [rfl, ih s hs]
      · right
        refine ⟨(x, none) :: M, x', v, B, by rw [e]; rfl, ?_⟩
        intro s hs; rcases List.mem_cons.1 hs with rfl | hs; exacts [rfl, hM s hs]

theorem onLine_bounds {x1 v1 x2 v2 x lo hi : Rat} (h1 : x1 < x) (h2 : x < x2) (a1 : lo ≤ v1) (a2 : v1 ≤ hi) (b1 : lo ≤ v2)
    (b2 : v2 ≤ hi) : lo ≤ onLine x1 v1 x2 v2 x ∧ onLine x1 v1 x2 v2 x ≤ hi := by
  have hp : 0 < x2 - x1 := by linarith
  unfold onLine
  constructor
  · rw [le_div_iff₀ hp]
    nlinarith
  · rw [div_le_iff₀ hp]
    nlinarith

/-- A filled profile stays within the bounds of the unmasked values. -/
theorem filled_bounds {f : Prof} (h : Valid p) (hi : Inc p.x) (hf : Filled p f) {lo up : Rat}
    (hex : ∃ r ∈ pts p, r.2 ≠ none)
    (hb : ∀ x v, (x, some v) ∈ pts p → lo ≤ v ∧ v ≤ up) : ∀ x v, (x, some v) ∈ pts f → lo ≤ v ∧ v ≤ up := by
  intro x v hxv
  have fI : (pts f).Pairwise fun r s => r.1 < s.1 := pts_inc hf.consistent (hf.abscissae ▸ hi)
  have pI : (pts p).Pairwise fun r s => r.1 < s.1 := pts_inc h hi
  have uniq : ∀ w, (x, some w) ∈ pts f → w = v := by
    intro w hw
    by_contra hne
    have : (x, some w) ≠ (x, some v) := by simpa using hne
    obtain ⟨i, hi1⟩ := List.mem_iff_getElem?.1 hw
    obtain ⟨j, hj1⟩ := List.mem_iff_getElem?.1 hxv
    rw [List.pairwise_iff_getElem] at fI
    obtain ⟨li, e1⟩ := List.getElem?_eq_some_iff.1 hi1
    obtain ⟨lj, e2⟩ := List.getElem?_eq_some_iff.1 hj1
    rcases Nat.lt_trichotomy i j with hij | hij | hij
    · have := fI i j li lj hij
      rw [e1, e2] at this
      exact lt_irrefl _ this
    · subst hij
      rw [hi1] at hj1
      exact this (Option.some.inj hj1)
    · have := fI j i lj li hij
      rw [e1, e2] at this
      exact lt_irrefl _ this
  have hx : x ∈ p.x := by
    rw [← hf.abscissae, ← pts_fst hf.consistent]
    exact List.mem_map.2 ⟨_, hxv, rfl⟩
  rw [← pts_fst h] at hx
  obtain ⟨⟨x', w⟩, hm, hxx⟩ := List.mem_map.1 hx
  have hxx : x' = x := hxx
  subst hxx
  cases w with
  | some w =>
    rw [← uniq w (hf.kept x' w hm)]
    exact hb x' w hm
  | none =>
    obtain ⟨L, R, e⟩ := List.append_of_mem hm
    rcases last_some L with hL | ⟨A, x1, v1, M, eL, hM⟩
    · rcases first_some R with hR | ⟨M', x2, v2, B, eR, hM'⟩
      · exfalso
        obtain ⟨r, hr, hn⟩ := hex
        rw [e] at hr
        rcases List.mem_append.1 hr with hr | hr
        · exact hn (hL r hr)
        · rcases List.mem_cons.1 hr with rfl | hr
          · exact hn rfl
          · exact hn (hR r hr)
      · have hpe : pts p = (L ++ (x', none) :: M') ++ (x2, some v2) :: B := by rw [e, eR]; simp
        have := hf.left _ B x2 v2 hpe (by
          intro r hr
          rcases List.mem_append.1 hr with hr | hr
          · exact hL r hr
          · rcases List.mem_cons.1 hr with rfl | hr
            · rfl
            · exact hM' r hr) x' (by simp)
        rw [← uniq v2 this]
        exact hb x2 v2 (by rw [hpe]; simp)
    · rcases first_some R with hR | ⟨M', x2, v2, B, eR, hM'⟩
      · have hpe : pts p = A ++ (x1, some v1) :: (M ++ (x', none) :: R) := by rw [e, eL]; simp
        have := hf.right A _ x1 v1 hpe (by
          intro r hr
          rcases List.mem_append.1 hr with hr | hr
          · exact hM r hr
          · rcases List.mem_cons.1 hr with rfl | hr
            · rfl
            · exact hR r hr) x' (by simp)
        rw [← uniq v1 this]
        exact hb x1 v1 (by rw [hpe]; simp)
      · have hpe : pts p = A ++ (x1, some v1) :: ((M ++ (x', none) :: M') ++ (x2, some v2) :: B) := by rw [e, eL, eR]; simp
        have := hf.inner A _ B x1 v1 x2 v2 hpe (by
          intro r hr
          rcases List.mem_append.1 hr with hr | hr
          · exact hM r hr
          · rcases List.mem_cons.1 hr with rfl | hr
            · rfl
            · exact hM' r hr) x' (by simp)
        rw [← uniq _ this]
        have h1 := hb x1 v1 (by rw [hpe]; simp)
        have h2 := hb x2 v2 (by rw [hpe]; simp)
        rw [hpe, List.pairwise_append, List.pairwise_cons] at pI
        have o1 := pI.2.1.1 (x', none) (by simp)
        have o2 := (List.pairwise_append.1 pI.2.1.2).2.2 (x', none) (by simp) (x2, some v2) (by simp)
        exact onLine_bounds o1 o2 h1.1 h1.2 h2.1 h2.2

/-- C234: smoothed values stay between the bounds of the unmasked values; in particular a constant profile stays constant. -/
theorem C234_bounds (hs : IsArgsort srt) (h : Valid p) (hi : Inc p.x) (h2 : 2 ≤ (pts p).countP fun r => r.2.isSome)
    {size : Nat} (h0 : size ≠ 0) (inX inY : Bool) {lo up : Rat} (hb : ∀ x v, (x, some v) ∈ pts p → lo ≤ v ∧ v ≤ up) :
    ∃ q, smooth srt p size inX inY = (q, .ok ⟨⟩) ∧ ∀ r ∈ pts q, ∃ v, r.2 = some v ∧ lo ≤ v ∧ v ≤ up := by
  obtain ⟨f, q, hf, e, hq, -, -, -, lq, hc, -, hy⟩ := C234_smooth hs h hi h2 h0 inX inY
  refine ⟨q, e, ?_⟩
  have hex : ∃ r ∈ pts p, r.2 ≠ none := by
    have : 0 < (pts p).countP fun r => r.2.isSome := by omega
    rw [List.countP_pos_iff] at this
    obtain ⟨r, hr, hn⟩ := this
    exact ⟨r, hr, by intro hc; rw [hc] at hn; simp at hn⟩
  have hfb := filled_bounds h hi hf hex hb
  have fv := hf.consistent
  have fl : f.y.length = p.x.length := by rw [fv.1, hf.abscissae]
  -- every value of the filled profile is within the bounds
  have hval : ∀ i < p.x.length, ∃ v, f.y[i]? = some (some v) ∧ lo ≤ v ∧ v ≤ up := by
    intro i hlt
    have hx : f.x[i]? = some (f.x[i]'(by rw [hf.abscissae]; exact hlt)) := List.getElem?_eq_getElem _
    have hyy : f.y[i]? = some (f.y[i]'(by rw [fl]; exact hlt)) := List.getElem?_eq_getElem _
    have hm : (f.x[i]'(by rw [hf.abscissae]; exact hlt), f.y[i]'(by rw [fl]; exact hlt)) ∈ pts f := by
      rw [pts_valid fv, List.mem_iff_getElem?]
      refine ⟨i, ?_⟩
      rw [Path.zip_get, hx, hyy]
    cases hv : f.y[i]'(by rw [fl]; exact hlt) with
    | none => exact absurd hv (hf.complete _ hm)
    | some v =>
      rw [hv] at hm hyy
      exact ⟨v, hyy, hfb _ v hm⟩
  intro r hr
  rw [pts_valid hq, List.mem_iff_getElem?] at hr
  obtain ⟨i, hri⟩ := hr
  have hlt := getElem?_some_lt hri
  rw [List.length_zip, hq.1, min_self, lq] at hlt
  rw [Path.zip_get, hy i hlt, List.getElem?_eq_getElem (by rw [lq]; exact hlt)] at hri
  cases inY with
  | false =>
    obtain ⟨v, hv, b1, b2⟩ := hval i hlt
    simp only [Bool.false_eq_true, if_false, hv] at hri
    exact ⟨v, by rw [← Option.some.inj hri], b1, b2⟩
  | true =>
    simp only [if_true] at hri
    refine ⟨_, by rw [← Option.some.inj hri], ?_⟩
    have s0 : (0 : Rat) < size := by exact_mod_cast Nat.pos_of_ne_zero h0
    have each : ∀ j, lo ≤ ext f.y (clamp p.x.length ((i : Int) + j - (size / 2 : Nat))) ∧
        ext f.y (clamp p.x.length ((i : Int) + j - (size / 2 : Nat))) ≤ up := by
      intro j
      obtain ⟨v, hv, b1, b2⟩ := hval _ (clamp_lt (by omega) ((i : Int) + j - (size / 2 : Nat)))
      unfold ext
      rw [hv]
      exact ⟨b1, b2⟩
    unfold windowMean
    constructor
    · rw [le_div_iff₀ s0]
      have := Finset.card_nsmul_le_sum (Finset.range size) (fun j => ext f.y (clamp p.x.length ((i : Int) + (j : Nat) - (size / 2 : Nat)))) lo
        fun j _ => (each j).1
      rw [Finset.card_range, nsmul_eq_mul] at this
      linarith
    · rw [div_le_iff₀ s0]
      have := Finset.sum_le_card_nsmul (Finset.range size) (fun j => ext f.y (clamp p.x.length ((i : Int) + (j : Nat) - (size / 2 : Nat)))) up
        fun j _ => (each j).2
      rw [Finset.card_range, nsmul_eq_mul] at this
      linarith

/-! A profile with a masked point. -/

def wavy : Prof where
  x := [0, 1, 2, 3]
  y := [some 0, none, some 6, some 0]
  m := [false, true, false, false]
  ux := .m
  uy := .s

example : Valid wavy ∧ Inc wavy.x ∧ 2 ≤ (pts wavy).countP (fun r => r.2.isSome) := by
  unfold Valid Inc
  decide +kernel

example : pts (smooth argsort wavy 3 false true).1 = [(0, some 1), (1, some 3), (2, some 3), (3, some 2)] := by decide +kernel

end IMT.Reshape
