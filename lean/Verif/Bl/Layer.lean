import Verif.Bl.Reach
import Verif.Profile.Crop
import Verif.Profile.Integral

/-!
C173, C174: displacement and momentum thicknesses, shape factor.

The integrals are sums of trapezia (`trapz`, Profile/Model.lean, whose properties are those of C96).
-/

namespace IMT.Meas

open IMT.Profile

variable {srt : List Rat → List Nat}

/-! ### Specification -/

/-- The points of the layer of thickness `t`: those of the profile up to `t`, all shown, after a point at rest at the wall if the
profile has none there. -/
def LayerOf (p : Prof) (t : Rat) (L : List (Rat × Rat)) : Prop :=
  ∃ L', (pts p).filter (fun r => r.1 ≤ t) = L'.map (fun r => (r.1, some r.2)) ∧
    L = if (0 : Rat) ∈ L'.map Prod.fst then L' else (0, 0) :: L'

/-- `U` is the largest velocity among these points. -/
def Largest (L : List (Rat × Rat)) (U : Rat) : Prop := (∃ r ∈ L, r.2 = U) ∧ ∀ r ∈ L, r.2 ≤ U

/-- A profile of a layer on a wall at 0, measured from below the edge `t` of the layer on. -/
structure OnWall (p : Prof) (t : Rat) : Prop where
  valid : Valid p
  inc : Inc p.x
  above : ∀ x ∈ p.x, 0 ≤ x
  below : ∃ x0, p.x.head? = some x0 ∧ x0 < t
  edge : thickness p (95 / 100) = .ok t

/-! ### Lemmas -/

theorem numbers_some (L : List (Rat × Rat)) : numbers (L.map fun r => (r.1, some r.2)) = some L := by
  induction L with
  | nil => rfl
  | cons r L ih => simp [numbers, ih]

theorem numbers_none {l : List (Rat × F)} (h : ∃ x, (x, none) ∈ l) : numbers l = none := by
  obtain ⟨x, hx⟩ := h
  induction l with
  | nil => simp at hx
  | cons r l ih =>
    obtain ⟨a, v⟩ := r
    cases v with
    | none => rfl
    | some v =>
      rw [List.mem_cons] at hx
      rcases hx with hx | hx
      · simp at hx
      · simp [numbers, ih hx]

theorem fold_max (l : List (Rat × Rat)) (m : Rat) : m ≤ l.foldl (fun m q => max m q.2) m ∧
    (∀ r ∈ l, r.2 ≤ l.foldl (fun m q => max m q.2) m) ∧
    (l.foldl (fun m q => max m q.2) m = m ∨ ∃ r ∈ l, r.2 = l.foldl (fun m q => max m q.2) m) := by
  induction l generalizing m with
  | nil => simp
  | cons r l ih =>
    obtain ⟨h1, h2, h3⟩ := ih (max m r.2)
    rw [List.foldl_cons]
    refine ⟨le_trans (le_max_left _ _) h1, ?_, ?_⟩
    · intro s hs
      rcases List.mem_cons.mp hs with rfl | hs
      · exact le_trans (le_max_right _ _) h1
      · exact h2 s hs
    · rcases h3 with h3 | ⟨s, hs, h3⟩
      · rw [h3]
        rcases le_total m r.2 with hle | hle
        · right
          exact ⟨r, by simp, (max_eq_right hle).symm⟩
        · left
          exact max_eq_left hle
      · right
        exact ⟨s, by simp [hs], h3⟩

theorem maxi_largest {L : List (Rat × Rat)} (h : L ≠ []) : Largest L (maxi L) := by
  rcases L with _ | ⟨r, l⟩
  · exact absurd rfl h
  · obtain ⟨h1, h2, h3⟩ := fold_max l r.2
    refine ⟨?_, ?_⟩
    · rcases h3 with h3 | ⟨s, hs, h3⟩
      · exact ⟨r, by simp, h3.symm⟩
      · exact ⟨s, by simp [hs], h3⟩
    · intro s hs
      rcases List.mem_cons.mp hs with rfl | hs
      · exact h1
      · exact h2 s hs

theorem Largest.unique {L : List (Rat × Rat)} {U V : Rat} (h : Largest L U) (h' : Largest L V) : U = V := by
  obtain ⟨⟨r, hr, e⟩, h2⟩ := h
  obtain ⟨⟨s, hs, e'⟩, h2'⟩ := h'
  apply le_antisymm
  · rw [← e]; exact h2' r hr
  · rw [← e']; exact h2 s hs

theorem maxi_eq {L : List (Rat × Rat)} {U : Rat} (h : Largest L U) : maxi L = U := by
  have : L ≠ [] := by
    rintro rfl
    obtain ⟨⟨r, hr, _⟩, _⟩ := h
    simp at hr
  exact (maxi_largest this).unique h

/-- The layer thickness is at a point of the profile. -/
theorem Takes.le_last {p : Prof} (h : Valid p) (hx : Inc p.x) {v t xn : Rat} (hT : Takes p v t) (hn : p.x.getLast? = some xn) :
    t ≤ xn := by
  have hle : ∀ x ∈ p.x, x ≤ xn := by
    intro x hxm
    obtain ⟨ys, e⟩ := List.getLast?_eq_some_iff.mp hn
    have := hx
    unfold Inc at this
    rw [e, List.pairwise_append] at this
    rw [e] at hxm
    rcases List.mem_append.mp hxm with hm | hm
    · exact le_of_lt (this.2.2 x hm xn (by simp))
    · exact le_of_eq (List.mem_singleton.mp hm)
  have hfst : ∀ r ∈ pts p, r.1 ∈ p.x := fun r hr => by
    rw [← pts_fst h]
    exact List.mem_map.mpr ⟨r, hr, rfl⟩
  rcases hT with hm | ⟨A, B, x1, v1, x2, v2, hl, _, h2, _⟩
  · exact hle _ (hfst _ hm)
  · have : (x2, some v2) ∈ pts p := by rw [hl]; simp
    exact le_trans (le_of_lt h2) (hle _ (hfst _ this))

theorem layer_eq (hs : IsArgsort srt) {p : Prof} {t : Rat} (h : OnWall p t) (w : Rat → Rat) :
    layer srt w p = .ok (.num (integrated w (withWall ((pts p).filter fun r => r.1 ≤ t)))) := by
  obtain ⟨hv, hx, hab, ⟨x0, h0, hlt⟩, ht⟩ := h
  have hx0 : 0 ≤ x0 := hab x0 (List.mem_of_mem_head? (by rw [h0]; rfl))
  have ht0 : 0 < t := lt_of_le_of_lt hx0 hlt
  cases hm : max? p with
  | none =>
    have : t = 0 := by
      simp only [thickness, hm] at ht
      simpa using ht.symm
    exact absurd this ht0.ne'
  | some m =>
    obtain ⟨u, l, e, et⟩ := thickness_ok hm ht
    obtain ⟨x, e', hT⟩ := C93_interpolated_sound hv hx (w := u) (by rw [e]; simp)
    have hxt : x = t := by rw [et, e']; rfl
    subst hxt
    have hne : p.x ≠ [] := by
      intro e
      rw [e] at h0
      simp at h0
    obtain ⟨xn, hn⟩ : ∃ xn, p.x.getLast? = some xn := ⟨_, List.getLast?_eq_some_getLast hne⟩
    have hle := Takes.le_last hv hx hT hn
    obtain ⟨q, e1, e2, _, _, e5⟩ := C31_crop_partial hs hv hx ht0 h0 hn (Or.inl hx0) hlt hle
    have e6 : pts q = (pts p).filter fun r => r.1 ≤ x := by
      rw [e5]
      apply List.filter_congr
      intro r hr
      have : 0 ≤ r.1 := hab _ (by rw [← pts_fst hv]; exact List.mem_map.mpr ⟨r, hr, rfl⟩)
      simp [this]
    have hlen : q.x.length ≠ 0 := by
      rw [← pts_fst e2, e6, List.length_map]
      have : ∃ r ∈ pts p, r.1 = x0 := by
        have := List.mem_of_mem_head? (by rw [h0]; rfl : x0 ∈ p.x.head?)
        rw [← pts_fst hv, List.mem_map] at this
        exact this
      obtain ⟨r, hr, er⟩ := this
      have hmem : r ∈ (pts p).filter fun r => r.1 ≤ x := by
        rw [List.mem_filter]
        exact ⟨hr, by simp [er, le_of_lt hlt]⟩
      exact (List.length_pos_of_mem hmem).ne'
    simp only [layer, ht]
    rw [if_neg ht0.ne', e1]
    simp only
    rw [if_neg hlen, e6]

theorem withWall_eq {L : List (Rat × Rat)} (hi : (L.map Prod.fst).Pairwise (· < ·)) (h0 : ∀ r ∈ L, 0 ≤ r.1) (hne : L ≠ []) :
    withWall (L.map fun r => (r.1, some r.2)) =
      (if (0 : Rat) ∈ L.map Prod.fst then L else (0, 0) :: L).map fun r => (r.1, some r.2) := by
  rcases L with _ | ⟨r, L⟩
  · exact absurd rfl hne
  · simp only [List.map_cons, withWall]
    by_cases h : r.1 = 0
    · rw [if_neg (by simpa using h), if_pos (by rw [h]; simp)]
      rfl
    · rw [if_pos h, if_neg]
      · rfl
      · intro hm
        rw [List.mem_cons] at hm
        rcases hm with hm | hm
        · exact h hm.symm
        · rw [List.map_cons, List.pairwise_cons] at hi
          have := hi.1 0 hm
          have := h0 r (by simp)
          linarith

/-- Facts on the points of a layer. -/
theorem LayerOf.facts {p : Prof} {t : Rat} (h : OnWall p t) {L : List (Rat × Rat)} (hL : LayerOf p t L) :
    (L.map Prod.fst).Pairwise (· < ·) ∧ (∃ l v, L = (0, v) :: l) ∧ (∀ r ∈ L, 0 ≤ r.1 ∧ r.1 ≤ t) ∧
    withWall ((pts p).filter fun r => r.1 ≤ t) = L.map (fun r => (r.1, some r.2)) ∧
    (∀ r ∈ L, r = (0, 0) ∨ (r.1, some r.2) ∈ pts p) := by
  obtain ⟨L', e, rfl⟩ := hL
  obtain ⟨x0, h0, hlt⟩ := h.below
  have hfst : ∀ r ∈ pts p, r.1 ∈ p.x := fun r hr => by
    rw [← pts_fst h.valid]
    exact List.mem_map.mpr ⟨r, hr, rfl⟩
  have hin : ∀ r ∈ L', (r.1, some r.2) ∈ pts p ∧ r.1 ≤ t := by
    intro r hr
    have : (r.1, some r.2) ∈ (pts p).filter fun r => r.1 ≤ t := by
      rw [e]
      exact List.mem_map.mpr ⟨r, hr, rfl⟩
    rw [List.mem_filter] at this
    exact ⟨this.1, by simpa using this.2⟩
  have hpos : ∀ r ∈ L', 0 ≤ r.1 := fun r hr => h.above _ (hfst _ (hin r hr).1)
  have hi : (L'.map Prod.fst).Pairwise (· < ·) := by
    have := (pts_inc h.valid h.inc).filter (fun r => decide (r.1 ≤ t))
    rw [e, List.pairwise_map] at this
    rw [List.pairwise_map]
    exact this
  have hne : L' ≠ [] := by
    have : ∃ r ∈ pts p, r.1 = x0 := by
      have := List.mem_of_mem_head? (by rw [h0]; rfl : x0 ∈ p.x.head?)
      rw [← pts_fst h.valid, List.mem_map] at this
      exact this
    obtain ⟨r, hr, er⟩ := this
    have hmem : r ∈ (pts p).filter fun r => r.1 ≤ t := by
      rw [List.mem_filter]
      exact ⟨hr, by simp [er, le_of_lt hlt]⟩
    rw [e] at hmem
    rintro rfl
    simp at hmem
  have ht0 : 0 ≤ t := by
    rcases L' with _ | ⟨r, l⟩
    · exact absurd rfl hne
    · exact le_trans (hpos r (by simp)) (hin r (by simp)).2
  have hw := withWall_eq hi hpos hne
  rw [e]
  refine ⟨?_, ?_, ?_, hw, ?_⟩
  · by_cases hz : (0 : Rat) ∈ L'.map Prod.fst
    · rw [if_pos hz]; exact hi
    · rw [if_neg hz, List.map_cons, List.pairwise_cons]
      refine ⟨?_, hi⟩
      intro a ha
      obtain ⟨r, hr, rfl⟩ := List.mem_map.mp ha
      exact lt_of_le_of_ne (hpos r hr) fun e => hz (by
        have e' : (0 : Rat) = r.1 := e
        rw [e']
        exact ha)
  · by_cases hz : (0 : Rat) ∈ L'.map Prod.fst
    · rw [if_pos hz]
      rcases L' with _ | ⟨r, l⟩
      · exact absurd rfl hne
      · refine ⟨l, r.2, ?_⟩
        have : r.1 = 0 := by
          rw [List.map_cons, List.mem_cons] at hz
          rcases hz with hz | hz
          · exact hz.symm
          · rw [List.map_cons, List.pairwise_cons] at hi
            have := hi.1 0 hz
            have := hpos r (by simp)
            linarith
        rw [← this]
    · rw [if_neg hz]
      exact ⟨L', 0, rfl⟩
  · intro r hr
    by_cases hz : (0 : Rat) ∈ L'.map Prod.fst
    · rw [if_pos hz] at hr
      exact ⟨hpos r hr, (hin r hr).2⟩
    · rw [if_neg hz, List.mem_cons] at hr
      rcases hr with rfl | hr
      · exact ⟨le_refl _, ht0⟩
      · exact ⟨hpos r hr, (hin r hr).2⟩
  · intro r hr
    by_cases hz : (0 : Rat) ∈ L'.map Prod.fst
    · rw [if_pos hz] at hr
      exact Or.inr (hin r hr).1
    · rw [if_neg hz, List.mem_cons] at hr
      rcases hr with rfl | hr
      · exact Or.inl rfl
      · exact Or.inr (hin r hr).1

theorem layer_num (hs : IsArgsort srt) {p : Prof} {t : Rat} (h : OnWall p t) {L : List (Rat × Rat)} (hL : LayerOf p t L) {U : Rat}
    (hU : Largest L U) (hU0 : U ≠ 0) (w : Rat → Rat) :
    layer srt w p = .ok (.num (some (trapz (L.map fun r => (r.1, w (r.2 / U)))))) := by
  rw [layer_eq hs h, (hL.facts h).2.2.2.1]
  simp only [integrated, numbers_some, maxi_eq hU]
  rw [if_neg hU0]

theorem trapz_mono {f g : Rat × Rat → Rat} {L : List (Rat × Rat)} (hi : (L.map Prod.fst).Pairwise (· < ·))
    (h : ∀ r ∈ L, f r ≤ g r) : trapz (L.map fun r => (r.1, f r)) ≤ trapz (L.map fun r => (r.1, g r)) := by
  induction L with
  | nil => simp [trapz]
  | cons a L ih =>
    rcases L with _ | ⟨b, L⟩
    · simp [trapz]
    · simp only [List.map_cons] at ih hi ⊢
      rw [List.pairwise_cons] at hi
      have h1 := ih hi.2 fun r hr => h r (by simp [hr])
      have h2 := hi.1 b.1 (by simp)
      have h3 := h a (by simp)
      have h4 := h b (by simp)
      rw [trapz, trapz]
      simp only
      have : (b.1 - a.1) * (f a + f b) ≤ (b.1 - a.1) * (g a + g b) :=
        mul_le_mul_of_nonneg_left (by linarith) (by linarith)
      linarith

theorem trapz_lin (a b : Rat) (f g : Rat × Rat → Rat) (L : List (Rat × Rat)) :
    trapz (L.map fun r => (r.1, a * f r + b * g r)) =
      a * trapz (L.map fun r => (r.1, f r)) + b * trapz (L.map fun r => (r.1, g r)) := by
  induction L with
  | nil => simp [trapz]
  | cons c L ih =>
    rcases L with _ | ⟨d, L⟩
    · simp [trapz]
    · simp only [List.map_cons] at ih ⊢
      rw [trapz, trapz, trapz, ih]
      ring

theorem trapz_one (x v : Rat) (L : List (Rat × Rat)) :
    trapz (((x, v) :: L).map fun r => (r.1, 1)) = (((x, v) :: L).getLast (by simp)).1 - x := by
  induction L generalizing x v with
  | nil => simp [trapz]
  | cons d L ih =>
    have := ih d.1 d.2
    simp only [List.map_cons] at this ⊢
    rw [trapz, this, List.getLast_cons (a := (x, v)) (l := d :: L) (by simp)]
    ring

theorem trapz_zero (L : List (Rat × Rat)) : trapz (L.map fun r => (r.1, 0)) = 0 := by
  have := trapz_lin 0 0 (fun _ => 0) (fun _ => 0) L
  simpa using this

/-! ### C173 -/

/-- C173: the displacement thickness is the integral of the velocity deficit over the points of the layer, with the velocity
divided by the largest one of these points; the momentum thickness is the integral of `u / U (1 - u / U)`. -/
theorem C173_formula_partial (hs : IsArgsort srt) {p : Prof} {t : Rat} (h : OnWall p t) {L : List (Rat × Rat)} (hL : LayerOf p t L)
    {U : Rat} (hU : Largest L U) (hU0 : U ≠ 0) :
    displThickness srt p = .ok (.num (some (trapz (L.map fun r => (r.1, 1 - r.2 / U))))) ∧
    momThickness srt p = .ok (.num (some (trapz (L.map fun r => (r.1, r.2 / U * (1 - r.2 / U)))))) :=
  ⟨layer_num hs h hL hU hU0 deficit, layer_num hs h hL hU hU0 momentum⟩

/-- C173: without reversed flow, the momentum thickness is not negative, at most the displacement thickness, which is at most
the thickness. -/
theorem C173_order (hs : IsArgsort srt) {p : Prof} {t : Rat} (h : OnWall p t) {L : List (Rat × Rat)} (hL : LayerOf p t L)
    {U : Rat} (hU : Largest L U) (hU0 : U ≠ 0) (hpos : ∀ r ∈ L, 0 ≤ r.2) :
    ∃ d m, displThickness srt p = .ok (.num (some d)) ∧ momThickness srt p = .ok (.num (some m)) ∧ 0 ≤ m ∧ m ≤ d ∧ d ≤ t := by
  obtain ⟨h1, h2⟩ := C173_formula_partial hs h hL hU hU0
  obtain ⟨f1, ⟨l, v, f2⟩, f3, _, _⟩ := hL.facts h
  have hUp : 0 < U := by
    obtain ⟨r, hr, e⟩ := hU.1
    exact lt_of_le_of_ne (e ▸ hpos r hr) (Ne.symm hU0)
  have hb : ∀ r ∈ L, 0 ≤ r.2 / U ∧ r.2 / U ≤ 1 := fun r hr =>
    ⟨div_nonneg (hpos r hr) hUp.le, (div_le_one hUp).mpr (hU.2 r hr)⟩
  refine ⟨_, _, h1, h2, ?_, ?_, ?_⟩
  · rw [← trapz_zero L]
    exact trapz_mono f1 fun r hr => mul_nonneg (hb r hr).1 (by linarith [(hb r hr).2])
  · exact trapz_mono f1 fun r hr => by nlinarith [(hb r hr).1, (hb r hr).2]
  · have : trapz (L.map fun r => (r.1, 1 - r.2 / U)) ≤ trapz (L.map fun r => (r.1, 1)) :=
      trapz_mono f1 fun r hr => by linarith [(hb r hr).1]
    refine le_trans this ?_
    have hlast : ((0, v) :: l).getLast (by simp) ∈ L := by rw [f2]; exact List.getLast_mem _
    have := (f3 _ hlast).2
    rw [f2, trapz_one]
    linarith

/-- C173: the lost flow rate: the displacement thickness is the height of the last point of the layer less the flow rate below it
over the largest velocity. -/
theorem C173_flow (hs : IsArgsort srt) {p : Prof} {t : Rat} (h : OnWall p t) {L : List (Rat × Rat)} (hL : LayerOf p t L)
    {U : Rat} (hU : Largest L U) (hU0 : U ≠ 0) :
    ∃ d x, displThickness srt p = .ok (.num (some d)) ∧ L.getLast?.map Prod.fst = some x ∧ d * U = x * U - trapz L := by
  obtain ⟨h1, _⟩ := C173_formula_partial hs h hL hU hU0
  obtain ⟨f1, ⟨l, v, f2⟩, f3, _, _⟩ := hL.facts h
  refine ⟨_, _, h1, by rw [f2, List.getLast?_eq_some_getLast (by simp)]; rfl, ?_⟩
  have e := trapz_lin 1 (-(1 / U)) (fun _ => 1) (fun r => r.2) L
  have e1 : (L.map fun r => (r.1, 1 - r.2 / U)) = L.map fun r => (r.1, 1 * 1 + -(1 / U) * r.2) := by
    apply List.map_congr_left
    intro r _
    congr 1
    ring
  have e2 : (L.map fun r => (r.1, r.2)) = L := by simp
  rw [e1, e, e2]
  have e3 : trapz (L.map fun r => (r.1, 1)) = (((0, v) :: l).getLast (by simp)).1 - 0 := by rw [f2, trapz_one]
  rw [e3]
  field_simp
  ring

/-- C173, C174 fail: as soon as one point of the layer is masked the thicknesses are NaN, and so is the shape factor. -/
theorem C173_masked_violated (hs : IsArgsort srt) {p : Prof} {t : Rat} (h : OnWall p t) {x : Rat} (hx : (x, none) ∈ pts p)
    (hxt : x ≤ t) : displThickness srt p = .ok (.num none) ∧ momThickness srt p = .ok (.num none) ∧
      shapeFactor srt p = .ok none := by
  have key : ∀ w, layer srt w p = .ok (.num none) := by
    intro w
    rw [layer_eq hs h]
    have hm : (x, none) ∈ (pts p).filter fun r => r.1 ≤ t := by
      rw [List.mem_filter]
      exact ⟨hx, by simpa using hxt⟩
    have hm' : (x, none) ∈ withWall ((pts p).filter fun r => r.1 ≤ t) := by
      generalize (pts p).filter (fun r => decide (r.1 ≤ t)) = l at hm
      rcases l with _ | ⟨r, l⟩
      · simp at hm
      · simp only [withWall]
        by_cases h0 : r.1 ≠ 0
        · rw [if_pos h0]; exact List.mem_cons_of_mem _ hm
        · rw [if_neg h0]; exact hm
    simp only [integrated, numbers_none ⟨x, hm'⟩]
  have h1 : displThickness srt p = .ok (.num none) := key _
  have h2 : momThickness srt p = .ok (.num none) := key _
  refine ⟨h1, h2, ?_⟩
  simp only [shapeFactor, h1, h2]
  rfl

/-- Before its first crossing the profile stays on the side where it starts. -/
theorem layer_below {p : Prof} {t m : Rat} (h : OnWall p t) (hm : max? p = some m)
    (hst : ¬ ∃ x, (x, some (m * (95 / 100))) ∈ pts p) {L : List (Rat × Rat)} (hL : LayerOf p t L) {x0 v0 : Rat}
    (hf : (pts p).head? = some (x0, some v0)) (hv0 : v0 < m * (95 / 100)) (hmp : 0 ≤ m) : ∀ r ∈ L, r.2 ≤ m * (95 / 100) := by
  obtain ⟨hsc, hno⟩ := atY_scan h.valid hst
  have hinc := pts_inc h.valid h.inc
  obtain ⟨w, l, e, et⟩ := thickness_ok hm h.edge
  obtain ⟨x, e', hT⟩ := C93_interpolated_sound h.valid h.inc (w := w) (by rw [e]; simp)
  have hxt : x = t := by rw [et, e']; rfl
  subst hxt
  obtain ⟨_, _, _, _, f5⟩ := hL.facts h
  intro r hr
  rcases f5 r hr with rfl | hmem
  · show (0 : Rat) ≤ m * (95 / 100)
    positivity
  by_contra hcon
  push Not at hcon
  -- the points up to `r` would cross the wanted velocity before `t`
  have hrx : r.1 ≤ x := ((hL.facts h).2.2.1 r hr).2
  obtain ⟨A, B, hAB⟩ := List.append_of_mem hmem
  have hshown : ∀ s ∈ A ++ [(r.1, some r.2)], ∃ u, s.2 = some u ∧ u ≠ m * (95 / 100) := by
    intro s hs'
    have hsp : s ∈ pts p := by
      rw [hAB]
      rcases List.mem_append.mp hs' with hs' | hs'
      · exact List.mem_append_left _ hs'
      · rw [List.mem_singleton.mp hs']; simp
    have hsx : s.1 ≤ x := by
      rcases List.mem_append.mp hs' with hs'' | hs''
      · have hp := hinc
        rw [hAB, List.pairwise_append] at hp
        exact le_trans (le_of_lt (hp.2.2 s hs'' (r.1, some r.2) (by simp))) hrx
      · rw [List.mem_singleton.mp hs'']; exact hrx
    obtain ⟨L', e1, _⟩ := hL
    have : s ∈ (pts p).filter fun r => r.1 ≤ x := by
      rw [List.mem_filter]
      exact ⟨hsp, by simpa using hsx⟩
    rw [e1, List.mem_map] at this
    obtain ⟨u, _, rfl⟩ := this
    exact ⟨u.2, rfl, fun he => hno _ hsp (by rw [he])⟩
  have hempty : scan (m * (95 / 100)) ((A ++ [(r.1, some r.2)]).map fun r => (r.2, some r.1)) = [] := by
    rw [List.eq_nil_iff_forall_not_mem]
    intro u hu
    have hinc' : (A ++ [(r.1, some r.2)]).Pairwise fun r s => r.1 < s.1 := by
      have hp := hinc
      rw [hAB] at hp
      exact hp.sublist (List.Sublist.append_left (by simp) A)
    obtain ⟨u', rfl, A', a, b, B', e1, h1, h2⟩ := scan_in hinc' (fun s hs' he => by
      obtain ⟨c, hc, hne⟩ := hshown s hs'
      rw [hc] at he
      exact hne (by simpa using he)) hu
    have hbr : b.1 ≤ r.1 := by
      have hb : b ∈ A ++ [(r.1, some r.2)] := by rw [e1]; simp
      rcases List.mem_append.mp hb with hb | hb
      · rw [List.pairwise_append] at hinc'
        exact le_of_lt (hinc'.2.2 b hb (r.1, some r.2) (by simp))
      · rw [List.mem_singleton.mp hb]
    have hin : (some u' : F) ∈ scan (m * (95 / 100)) ((pts p).map fun r => (r.2, some r.1)) := by
      rw [hAB, List.map_append, List.map_cons, scan_append]
      rw [List.map_append] at hu
      exact List.mem_append_left _ hu
    have e2 : scan (m * (95 / 100)) ((pts p).map fun r => (r.2, some r.1)) = some x :: l := by rw [← hsc, e, e']
    have := scan_first hinc hno e2 hin
    linarith
  rcases scan_side hshown hempty with hh | hh
  · have hmem0 : (x0, some v0) ∈ A ++ [(r.1, some r.2)] := by
      rw [hAB] at hf
      rcases A with _ | ⟨a, A⟩
      · simp at hf
        simp [hf]
      · simp at hf
        simp [hf]
    have := hh _ hmem0 v0 rfl
    linarith
  · have := hh (r.1, some r.2) (by simp) r.2 rfl
    linarith

/-- C173 fails: the velocities are divided by the largest one stored below the edge of the layer, not by the one outside: the
displacement thickness is too small, by at least a nineteenth of the integral of the velocity. -/
theorem C173_normal_violated (hs : IsArgsort srt) {p : Prof} {t m : Rat} (h : OnWall p t) (hm : max? p = some m)
    (hst : ¬ ∃ x, (x, some (m * (95 / 100))) ∈ pts p) {L : List (Rat × Rat)} (hL : LayerOf p t L) {x0 v0 : Rat}
    (hf : (pts p).head? = some (x0, some v0)) (hv0 : v0 < m * (95 / 100)) {U : Rat} (hU : Largest L U) (hU0 : 0 < U)
    (hpos : ∀ r ∈ L, 0 ≤ r.2) :
    ∃ d, displThickness srt p = .ok (.num (some d)) ∧
      d + trapz (L.map fun r => (r.1, r.2 / m)) / 19 ≤ trapz (L.map fun r => (r.1, 1 - r.2 / m)) := by
  obtain ⟨h1, _⟩ := C173_formula_partial hs h hL hU hU0.ne'
  obtain ⟨f1, _, _, _, f5⟩ := hL.facts h
  refine ⟨_, h1, ?_⟩
  have hm0 : 0 < m := by
    obtain ⟨r, hr, e⟩ := hU.1
    rcases f5 r hr with rfl | hmem
    · rw [← e] at hU0
      exact absurd hU0 (lt_irrefl _)
    · have := (((C95_extrema h.valid).1 m).mp hm).2 _ _ hmem
      linarith
  have hUm : U ≤ m * (95 / 100) := by
    obtain ⟨r, hr, e⟩ := hU.1
    rw [← e]
    exact layer_below h hm hst hL hf hv0 hm0.le r hr
  have e2 := trapz_lin 1 (1 / 19) (fun r => 1 - r.2 / U) (fun r => r.2 / m) L
  have e3 : trapz (L.map fun r => (r.1, 1 - r.2 / U)) + trapz (L.map fun r => (r.1, r.2 / m)) / 19 =
      trapz (L.map fun r => (r.1, 1 * (1 - r.2 / U) + 1 / 19 * (r.2 / m))) := by
    rw [e2]
    ring
  rw [e3]
  apply trapz_mono f1
  intro r hr
  have hr0 := hpos r hr
  have h4 : 20 / 19 * (r.2 / m) ≤ r.2 / U := by
    rw [le_div_iff₀ hU0]
    have : r.2 / m * U ≤ r.2 / m * (m * (95 / 100)) := mul_le_mul_of_nonneg_left hUm (div_nonneg hr0 hm0.le)
    have e5 : r.2 / m * (m * (95 / 100)) = r.2 * (95 / 100) := by field_simp
    rw [e5] at this
    linarith
  linarith

/-- C173: the thicknesses are proportional to the lengths and do not depend on the scale of the velocities. -/
theorem C173_scale (hs : IsArgsort srt) {p q : Prof} {t : Rat} (h : OnWall p t) (hq : Valid q) {c d : Rat} (hc : 0 < c)
    (hd : 0 < d) (e : pts q = (pts p).map fun r => (r.1 * c, r.2.map (· * d))) {L : List (Rat × Rat)} (hL : LayerOf p t L) {U : Rat}
    (hU : Largest L U) (hU0 : U ≠ 0) :
    ∃ a b, displThickness srt p = .ok (.num (some a)) ∧ displThickness srt q = .ok (.num (some (a * c))) ∧
      momThickness srt p = .ok (.num (some b)) ∧ momThickness srt q = .ok (.num (some (b * c))) := by
  have hqx : q.x = p.x.map (· * c) := by
    rw [← pts_fst hq, e, ← pts_fst h.valid, List.map_map, List.map_map]
    rfl
  have hq' : OnWall q (t * c) := by
    refine ⟨hq, ?_, ?_, ?_, (C172_scale h.valid hq hd e _).1 t h.edge⟩
    · rw [hqx]
      unfold Inc
      rw [List.pairwise_map]
      exact h.inc.imp fun hab => mul_lt_mul_of_pos_right hab hc
    · rw [hqx]
      intro x hx
      obtain ⟨y, hy, rfl⟩ := List.mem_map.mp hx
      exact mul_nonneg (h.above y hy) hc.le
    · obtain ⟨x0, h0, hlt⟩ := h.below
      exact ⟨x0 * c, by rw [hqx, List.head?_map, h0]; rfl, mul_lt_mul_of_pos_right hlt hc⟩
  have hL' : LayerOf q (t * c) (L.map fun r => (r.1 * c, r.2 * d)) := by
    obtain ⟨L', e1, rfl⟩ := hL
    refine ⟨L'.map fun r => (r.1 * c, r.2 * d), ?_, ?_⟩
    · rw [e, List.filter_map]
      have : (pts p).filter ((fun r : Rat × F => decide (r.1 ≤ t * c)) ∘ fun r => (r.1 * c, r.2.map (· * d))) =
          (pts p).filter fun r => r.1 ≤ t := by
        apply List.filter_congr
        intro r _
        simp only [Function.comp, mul_le_mul_iff_left₀ hc]
      rw [this, e1, List.map_map, List.map_map]
      rfl
    · have hz : (0 : Rat) ∈ (L'.map fun r => (r.1 * c, r.2 * d)).map Prod.fst ↔ (0 : Rat) ∈ L'.map Prod.fst := by
        rw [List.map_map]
        simp only [List.mem_map, Function.comp]
        constructor
        · rintro ⟨r, hr, e⟩
          exact ⟨r, hr, by rcases mul_eq_zero.mp e with h | h; exact h; exact absurd h hc.ne'⟩
        · rintro ⟨r, hr, e⟩
          exact ⟨r, hr, by rw [e, zero_mul]⟩
      by_cases h0 : (0 : Rat) ∈ L'.map Prod.fst
      · rw [if_pos h0, if_pos (hz.mpr h0)]
      · rw [if_neg h0, if_neg (fun h => h0 (hz.mp h))]
        simp
  have hU' : Largest (L.map fun r => (r.1 * c, r.2 * d)) (U * d) := by
    constructor
    · obtain ⟨r, hr, e⟩ := hU.1
      exact ⟨_, List.mem_map.mpr ⟨r, hr, rfl⟩, by rw [← e]⟩
    · intro s hs'
      obtain ⟨r, hr, rfl⟩ := List.mem_map.mp hs'
      exact mul_le_mul_of_nonneg_right (hU.2 r hr) hd.le
  have hU0' : U * d ≠ 0 := mul_ne_zero hU0 hd.ne'
  obtain ⟨h1, h2⟩ := C173_formula_partial hs h hL hU hU0
  obtain ⟨h3, h4⟩ := C173_formula_partial hs hq' hL' hU' hU0'
  have key : ∀ w : Rat → Rat, trapz ((L.map fun r => (r.1 * c, r.2 * d)).map fun r => (r.1, w (r.2 / (U * d)))) =
      trapz (L.map fun r => (r.1, w (r.2 / U))) * c := by
    intro w
    have := trapz_scale (L.map fun r => (r.1, w (r.2 / U))) c 1
    rw [List.map_map] at this ⊢
    rw [mul_one] at this
    rw [← this]
    congr 1
    apply List.map_congr_left
    intro r _
    simp only [Function.comp, mul_div_mul_right _ _ hd.ne', mul_one]
  refine ⟨_, _, h1, ?_, h2, ?_⟩
  · rw [h3, ← key fun z => 1 - z]
  · rw [h4, ← key fun z => z * (1 - z)]

/-- A laminar-like profile from the wall, its layer and its largest velocity. -/
def exLayer : Prof := ⟨[1, 2, 3, 4], [some 4, some 8, some 10, some 10], [false, false, false, false], Sym.m, Sym.m⟩
example : OnWall exLayer (11 / 4) ∧ LayerOf exLayer (11 / 4) [(0, 0), (1, 4), (2, 8)] ∧ Largest [(0, 0), (1, 4), (2, 8)] 8 ∧
    max? exLayer = some 10 ∧ displThickness argsort exLayer = .ok (.num (some 1)) ∧
    momThickness argsort exLayer = .ok (.num (some (1 / 4))) := by
  refine ⟨⟨by unfold Valid; decide +kernel, by unfold Inc; decide +kernel, by decide +kernel, ⟨1, rfl, by norm_num⟩,
    by decide +kernel⟩, ⟨[(1, 4), (2, 8)], by decide +kernel, by decide +kernel⟩, ⟨by decide +kernel, by decide +kernel⟩,
    by decide +kernel, by decide +kernel, by decide +kernel⟩

/-! ### C174 -/

/-- C174: the shape factor is the quotient of the displacement and momentum thicknesses; without reversed flow, it is at least
1. -/
theorem C174_shape (hs : IsArgsort srt) {p : Prof} {t : Rat} (h : OnWall p t) {L : List (Rat × Rat)} (hL : LayerOf p t L)
    {U : Rat} (hU : Largest L U) (hU0 : U ≠ 0) (hpos : ∀ r ∈ L, 0 ≤ r.2) {m : Rat}
    (hm : momThickness srt p = .ok (.num (some m))) (hm0 : m ≠ 0) :
    ∃ d H, displThickness srt p = .ok (.num (some d)) ∧ shapeFactor srt p = .ok (some H) ∧ H * m = d ∧ 1 ≤ H := by
  obtain ⟨d, m', h1, h2, h3, h4, _⟩ := C173_order hs h hL hU hU0 hpos
  have : m' = m := by
    rw [h2] at hm
    simpa using hm
  subst this
  refine ⟨d, d / m', h1, ?_, div_mul_cancel₀ d hm0, ?_⟩
  · simp only [shapeFactor, h1, h2, Out.div, Out.val, divF]
    rw [if_neg hm0]
  · rw [le_div_iff₀ (lt_of_le_of_ne h3 (Ne.symm hm0))]
    linarith

/-- C174: the shape factor changes neither with the lengths nor with the velocities. -/
theorem C174_scale (hs : IsArgsort srt) {p q : Prof} {t : Rat} (h : OnWall p t) (hq : Valid q) {c d : Rat} (hc : 0 < c)
    (hd : 0 < d) (e : pts q = (pts p).map fun r => (r.1 * c, r.2.map (· * d))) {L : List (Rat × Rat)} (hL : LayerOf p t L) {U : Rat}
    (hU : Largest L U) (hU0 : U ≠ 0) : ∃ H, shapeFactor srt p = .ok H ∧ shapeFactor srt q = .ok H := by
  obtain ⟨a, b, h1, h2, h3, h4⟩ := C173_scale hs h hq hc hd e hL hU hU0
  simp only [shapeFactor, h1, h2, h3, h4, Out.div, Out.val, divF]
  by_cases hb : b = 0
  · rw [if_pos hb, if_pos (by rw [hb, zero_mul])]
    exact ⟨_, rfl, rfl⟩
  · rw [if_neg hb, if_neg (mul_ne_zero hb hc.ne'), mul_div_mul_right _ _ hc.ne']
    exact ⟨_, rfl, rfl⟩

/-- C174 fails: a profile that is entirely masked raises ZeroDivisionError, while its thicknesses are 0. -/
theorem C174_masked_violated {p : Prof} (h : Valid p) (hn : ∀ r ∈ pts p, r.2 = none) :
    displThickness srt p = .ok .zero ∧ momThickness srt p = .ok .zero ∧ shapeFactor srt p = .error .zeroDivision := by
  have key : ∀ w, layer srt w p = .ok .zero := by
    intro w
    simp only [layer, C172_masked h hn, if_true]
  have h1 : displThickness srt p = .ok .zero := key _
  have h2 : momThickness srt p = .ok .zero := key _
  refine ⟨h1, h2, ?_⟩
  simp only [shapeFactor, h1, h2]
  rfl

end IMT.Meas
