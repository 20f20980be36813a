import Verif.Bl.Thick
import Verif.Profile.Interp
import Verif.Profile.History
import Mathlib.Data.List.Chain

/-!
C172: thickness of a measured boundary layer.

`Takes p v x` (Profile/Interp.lean): the piecewise linear velocity through the shown points has the value `v` at `x`.
-/

namespace IMT.Meas

open IMT.Profile

/-! ### The list of crossings -/

theorem thickness_ok {p : Prof} {perc m t : Rat} (hm : max? p = some m) (ht : thickness p perc = .ok t) :
    ∃ w l, atY p (m * perc) = w :: l ∧ t = w.getD 0 := by
  simp only [thickness, hm] at ht
  cases e : atY p (m * perc) with
  | nil => rw [e] at ht; simp at ht
  | cons w l =>
    rw [e] at ht
    exact ⟨w, l, rfl, by simpa using ht.symm⟩

theorem crosses_strict {v v1 v2 : Rat} (h1 : v1 ≠ v) (h2 : v2 ≠ v) :
    crosses v (some v1) (some v2) = true ↔ (v1 > v ∧ v2 < v) ∨ (v1 < v ∧ v2 > v) := by
  simp only [crosses, decide_eq_true_eq]
  constructor
  · rintro (⟨a, b⟩ | ⟨a, b⟩)
    · exact Or.inl ⟨lt_of_le_of_ne a (Ne.symm h1), b⟩
    · exact Or.inr ⟨lt_of_le_of_ne a h1, b⟩
  · rintro (⟨a, b⟩ | ⟨a, b⟩)
    · exact Or.inl ⟨le_of_lt a, b⟩
    · exact Or.inr ⟨le_of_lt a, b⟩

/-- A crossing of the scan lies between two neighbours. -/
theorem scan_in {v : Rat} {l : List (Rat × F)} (hi : l.Pairwise fun r s => r.1 < s.1) (hs : ∀ r ∈ l, r.2 ≠ some v) {w : F}
    (hw : w ∈ scan v (l.map fun r => (r.2, some r.1))) :
    ∃ t, w = some t ∧ ∃ A r s B, l = A ++ r :: s :: B ∧ r.1 < t ∧ t < s.1 := by
  obtain ⟨A, p, q, B, e, hc, hw⟩ := scan_mem.mp hw
  obtain ⟨A', r, s, B', e', rfl, rfl⟩ := map_split e
  obtain ⟨x1, w1⟩ := r
  obtain ⟨x2, w2⟩ := s
  cases w1 with
  | none => simp [crosses] at hc
  | some v1 =>
    cases w2 with
    | none => simp [crosses] at hc
    | some v2 =>
      have h1 : v1 ≠ v := fun e => hs (x1, some v1) (by rw [e']; simp) (by rw [e])
      have h2 : v2 ≠ v := fun e => hs (x2, some v2) (by rw [e']; simp) (by rw [e])
      have hv := (crosses_strict h1 h2).mp hc
      have hlt : x1 < x2 := by
        rw [e', List.pairwise_append, List.pairwise_cons] at hi
        exact hi.2.1.1 (x2, some v2) (by simp)
      obtain ⟨i1, i2, _⟩ := inv_spec hlt hv
      refine ⟨inv v x1 v1 x2 v2, ?_, A', _, _, B', e', i1, i2⟩
      rw [hw]
      exact interp_inv hv

/-- The first crossing of the scan is the first one along the profile. -/
theorem scan_first {v : Rat} {l : List (Rat × F)} (hi : l.Pairwise fun r s => r.1 < s.1) (hs : ∀ r ∈ l, r.2 ≠ some v) {t : Rat}
    {L : List F} (h : scan v (l.map fun r => (r.2, some r.1)) = some t :: L) {t' : Rat}
    (ht' : some t' ∈ scan v (l.map fun r => (r.2, some r.1))) : t ≤ t' := by
  induction l with
  | nil => simp [scan] at h
  | cons r l ih =>
    rcases l with _ | ⟨s, l⟩
    · simp [scan] at h
    · have hi' := (List.pairwise_cons.mp hi).2
      have hs' : ∀ r ∈ s :: l, r.2 ≠ some v := fun a ha => hs a (by simp [ha])
      have later : ∀ u : Rat, some u ∈ scan v ((s :: l).map fun r => (r.2, (some r.1 : F))) → s.1 ≤ u := by
        intro u hu
        obtain ⟨u', e, A, a, b, B, hl, h1, _⟩ := scan_in hi' hs' hu
        have : u = u' := by simpa using e
        subst this
        have hle : s.1 ≤ a.1 := by
          have hmem : a ∈ s :: l := by rw [hl]; simp
          rcases List.mem_cons.mp hmem with rfl | hm
          · exact le_refl _
          · exact le_of_lt ((List.pairwise_cons.mp hi').1 a hm)
        exact le_trans hle (le_of_lt h1)
      simp only [List.map_cons] at h ht' later
      rw [scan_cons] at h ht'
      by_cases hc : crosses v r.2 s.2 = true
      · rw [if_pos hc] at h ht'
        have e1 : interp v (r.2.getD 0) (s.2.getD 0) (some r.1) (some s.1) = some t := by simpa using (List.cons.inj h).1
        have hlt : t < s.1 := by
          have hin : (some t : F) ∈ scan v ([r, s].map fun r => (r.2, (some r.1 : F))) := by
            simp only [List.map_cons, List.map_nil]
            rw [scan_cons, if_pos hc, e1]
            simp
          obtain ⟨u', e, A, a, b, B, hl, _, h2⟩ := scan_in (l := [r, s]) (by simpa using (List.pairwise_cons.mp hi).1 s (by simp))
            (fun a ha => hs a (by simp at ha; rcases ha with rfl | rfl <;> simp)) hin
          have : t = u' := by simpa using e
          subst this
          have : b = s := by
            rcases A with _ | ⟨c, A⟩
            · simp at hl; exact hl.2.1.symm
            · rcases A with _ | ⟨d, A⟩ <;> simp at hl
          rw [← this]
          exact h2
        rw [List.mem_append] at ht'
        rcases ht' with hm | hm
        · rw [List.mem_singleton, e1] at hm
          exact le_of_eq (by simpa using hm.symm)
        · exact le_trans (le_of_lt hlt) (later _ hm)
      · rw [if_neg hc, List.nil_append] at h ht'
        exact ih hi' hs' h ht'

theorem atY_scan {p : Prof} (h : Valid p) {v : Rat} (hs : ¬ ∃ x, (x, some v) ∈ pts p) :
    atY p v = scan v ((pts p).map fun r => (r.2, some r.1)) ∧ ∀ r ∈ pts p, r.2 ≠ some v := by
  have hn : ∀ r ∈ pts p, r.2 ≠ some v := fun r hr e => hs ⟨r.1, by rw [← e]; exact hr⟩
  refine ⟨?_, hn⟩
  unfold atY
  rw [atY_list h, single_scan]
  intro r hr
  rw [List.mem_map] at hr
  obtain ⟨s, hs', rfl⟩ := hr
  exact hn s hs'

theorem atY_stored {p : Prof} (h : Valid p) {v : Rat} (hs : ∃ x, (x, some v) ∈ pts p) :
    atY p v = ((pts p).filter fun r => r.2 = some v).map fun r => some r.1 := by
  obtain ⟨x0, hx0⟩ := hs
  unfold atY single
  rw [atY_list h, if_pos (by rw [List.any_map, List.any_eq_true]; exact ⟨_, hx0, by simp⟩), List.filter_map, List.map_map]
  rfl

/-! ### C172 -/

/-- C172: at the distance returned, the velocity is the wanted part of the largest one. -/
theorem C172_reached {p : Prof} (h : Valid p) (hx : Inc p.x) {perc t : Rat} (ht : thickness p perc = .ok t)
    (hv : ∃ r ∈ pts p, r.2 ≠ none) :
    ∃ m, (∃ x, (x, some m) ∈ pts p) ∧ (∀ x w, (x, some w) ∈ pts p → w ≤ m) ∧ Takes p (m * perc) t := by
  cases hm : max? p with
  | none =>
    obtain ⟨r, hr, hn⟩ := hv
    exact absurd ((C95_extrema h).2.2.1.mp hm r hr) hn
  | some m =>
    obtain ⟨h1, h2⟩ := ((C95_extrema h).1 m).mp hm
    refine ⟨m, h1, h2, ?_⟩
    obtain ⟨w, l, e, rfl⟩ := thickness_ok hm ht
    obtain ⟨x, e', hT⟩ := C93_interpolated_sound h hx (w := w) (by rw [e]; simp)
    rw [e']
    exact hT

/-- C172: when no stored velocity is exactly the wanted one, the distance returned is the first one where the wanted velocity is
reached. -/
theorem C172_first_partial {p : Prof} (h : Valid p) (hx : Inc p.x) {perc m t : Rat} (hm : max? p = some m)
    (ht : thickness p perc = .ok t) (hs : ¬ ∃ x, (x, some (m * perc)) ∈ pts p) {x : Rat} (hT : Takes p (m * perc) x) : t ≤ x := by
  obtain ⟨w, l, e, ew⟩ := thickness_ok hm ht
  have hmem := C93_interpolated_complete_partial h hs hT
  obtain ⟨x', e', _⟩ := C93_interpolated_sound h hx (w := w) (v := m * perc) (by rw [e]; simp)
  obtain ⟨h1, h2⟩ := atY_scan h hs
  rw [h1] at e hmem
  rw [e'] at e ew
  simp only [Option.getD_some] at ew
  subst ew
  exact scan_first (pts_inc h hx) h2 e hmem

/-- C172: when one is, the first of the stored points with this velocity is returned. -/
theorem C172_stored {p : Prof} (h : Valid p) (hx : Inc p.x) {perc m t : Rat} (hm : max? p = some m)
    (ht : thickness p perc = .ok t) (hs : ∃ x, (x, some (m * perc)) ∈ pts p) :
    (t, some (m * perc)) ∈ pts p ∧ ∀ x, (x, some (m * perc)) ∈ pts p → t ≤ x := by
  obtain ⟨w, l, e, rfl⟩ := thickness_ok hm ht
  rw [atY_stored h hs] at e
  have hi := (pts_inc h hx).filter (fun r => decide (r.2 = some (m * perc)))
  cases ef : (pts p).filter fun r => decide (r.2 = some (m * perc)) with
  | nil => rw [ef] at e; simp at e
  | cons r L =>
    rw [ef] at e hi
    simp only [List.map_cons, List.cons.injEq] at e
    have hr : r ∈ (pts p).filter fun r => decide (r.2 = some (m * perc)) := by rw [ef]; simp
    rw [List.mem_filter] at hr
    have hr2 : r.2 = some (m * perc) := by simpa using hr.2
    rw [← e.1]
    refine ⟨by rw [← hr2]; exact hr.1, ?_⟩
    intro x hxm
    have : (x, some (m * perc)) ∈ (pts p).filter fun r => decide (r.2 = some (m * perc)) := by
      rw [List.mem_filter]
      exact ⟨hxm, by simp⟩
    rw [ef] at this
    rcases List.mem_cons.mp this with he | hl
    · rw [← he]; exact le_refl _
    · exact le_of_lt ((List.pairwise_cons.mp hi).1 _ hl)

/-- C172 fails: when a stored velocity is exactly the wanted one, earlier places where the velocity goes through the wanted one are
missed, and the layer is found too thick. -/
theorem C172_first_violated {p : Prof} (h : Valid p) (hx : Inc p.x) {perc m t x : Rat} (hm : max? p = some m)
    (ht : thickness p perc = .ok t) (_hT : Takes p (m * perc) x) (hs : ∃ s, (s, some (m * perc)) ∈ pts p)
    (hb : ∀ s, (s, some (m * perc)) ∈ pts p → x < s) : x < t :=
  hb t (C172_stored h hx hm ht hs).1

/-- Velocities 0, 10, 5, 5, 10 at 0, 1, 2, 3, 4: half of the largest velocity is reached at 1/2; the thickness returned is 2. -/
def exFirst : Prof := ⟨[0, 1, 2, 3, 4], [some 0, some 10, some 5, some 5, some 10], [false, false, false, false, false], Sym.m, Sym.m⟩
example : Valid exFirst ∧ Inc exFirst.x ∧ max? exFirst = some 10 ∧ thickness exFirst (1 / 2) = .ok 2 ∧
    Takes exFirst (10 * (1 / 2)) (1 / 2) := by
  refine ⟨by unfold Valid; decide +kernel, by unfold Inc; decide +kernel, by decide +kernel, by decide +kernel, Or.inr ⟨[], _, 0, 0, 1, 10, rfl, by norm_num,
    by norm_num, by unfold onLine; norm_num⟩⟩

/-- Nothing is crossed: all shown values are on the same side. -/
theorem scan_side {v : Rat} {l : List (Rat × F)} (hs : ∀ r ∈ l, ∃ u, r.2 = some u ∧ u ≠ v)
    (h : scan v (l.map fun r => (r.2, some r.1)) = []) :
    (∀ r ∈ l, ∀ u, r.2 = some u → v < u) ∨ (∀ r ∈ l, ∀ u, r.2 = some u → u < v) := by
  induction l with
  | nil => left; simp
  | cons r l ih =>
    obtain ⟨u, hu, hne⟩ := hs r (by simp)
    rcases l with _ | ⟨s, l⟩
    · rcases lt_or_gt_of_ne hne with hlt | hgt
      · right
        intro a ha b hb
        rw [List.mem_singleton.mp ha, hu] at hb
        simp at hb
        linarith
      · left
        intro a ha b hb
        rw [List.mem_singleton.mp ha, hu] at hb
        simp at hb
        linarith
    · obtain ⟨u', hu', hne'⟩ := hs s (by simp)
      simp only [List.map_cons] at h
      rw [scan_cons, List.append_eq_nil_iff] at h
      have hc : crosses v r.2 s.2 ≠ true := by
        intro hc
        rw [if_pos hc] at h
        simp at h
      rw [hu, hu', Ne, crosses_strict hne hne'] at hc
      push Not at hc
      rcases ih (fun a ha => hs a (by simp [ha])) h.2 with hh | hh
      · left
        intro a ha b hb
        rcases List.mem_cons.mp ha with rfl | ha
        · rw [hu] at hb
          simp at hb
          subst hb
          have := hh s (by simp) u' hu'
          by_contra hcon
          have := hc.2 (lt_of_le_of_ne (not_lt.mp hcon) hne)
          linarith
        · exact hh a ha b hb
      · right
        intro a ha b hb
        rcases List.mem_cons.mp ha with rfl | ha
        · rw [hu] at hb
          simp at hb
          subst hb
          have := hh s (by simp) u' hu'
          by_contra hcon
          have := hc.1 (lt_of_le_of_ne (not_lt.mp hcon) (Ne.symm hne))
          linarith
        · exact hh a ha b hb

/-- C172: without masked points, and with a velocity (for instance at the wall) not above the wanted one, there is a
thickness. -/
theorem C172_exists_partial {p : Prof} (h : Valid p) {perc m : Rat} (hm : max? p = some m) (hm0 : 0 ≤ m) (hp : perc ≤ 1)
    (hn : ∀ r ∈ pts p, r.2 ≠ none) {x0 v0 : Rat} (hw : (x0, some v0) ∈ pts p) (hv : v0 ≤ m * perc) :
    ∃ t, thickness p perc = .ok t := by
  obtain ⟨⟨xm, hxm⟩, _⟩ := ((C95_extrema h).1 m).mp hm
  have hle : m * perc ≤ m := by nlinarith
  simp only [thickness, hm]
  cases e : atY p (m * perc) with
  | cons w l => exact ⟨_, rfl⟩
  | nil =>
    exfalso
    by_cases hs : ∃ x, (x, some (m * perc)) ∈ pts p
    · obtain ⟨x, hx⟩ := hs
      have := (mem_atY_stored h ⟨x, hx⟩ (some x)).mpr ⟨x, rfl, hx⟩
      rw [e] at this
      simp at this
    · obtain ⟨h1, h2⟩ := atY_scan h hs
      rw [h1] at e
      have hne : ∀ u, (∃ x, (x, some u) ∈ pts p) → u ≠ m * perc := by
        rintro u ⟨x, hx⟩ rfl
        exact hs ⟨x, hx⟩
      have a1 : v0 < m * perc := lt_of_le_of_ne hv (hne v0 ⟨x0, hw⟩)
      have a2 : m * perc < m := lt_of_le_of_ne hle (Ne.symm (hne m ⟨xm, hxm⟩))
      rcases scan_side (fun r hr => by
        obtain ⟨u, hu⟩ := Option.ne_none_iff_exists'.mp (hn r hr)
        exact ⟨u, hu, fun he => h2 r hr (by rw [hu, he])⟩) e with hh | hh
      · have := hh _ hw v0 rfl
        linarith
      · have := hh _ hxm m rfl
        linarith

theorem scan_none' {v : Rat} {l : List (Rat × F)} (h : l.IsChain fun r s => crosses v r.2 s.2 = false) :
    scan v (l.map fun r => (r.2, some r.1)) = [] := by
  apply scan_none
  rw [List.isChain_map]
  exact h

theorem chain_side {v : Rat} {l : List (Rat × F)} (h : (∀ r ∈ l, ∀ u, r.2 = some u → v < u) ∨ (∀ r ∈ l, ∀ u, r.2 = some u → u < v)) :
    l.IsChain fun r s => crosses v r.2 s.2 = false := by
  apply List.Pairwise.isChain
  rw [List.pairwise_iff_forall_sublist]
  intro a b hab
  have ha : a ∈ l := hab.subset (by simp)
  have hb : b ∈ l := hab.subset (by simp)
  cases ea : a.2 with
  | none => rfl
  | some u =>
    cases eb : b.2 with
    | none => rfl
    | some u' =>
      simp only [crosses, decide_eq_false_iff_not]
      rcases h with h | h
      · have h1 := h a ha u ea
        have h2 := h b hb u' eb
        rintro (⟨_, _⟩ | ⟨_, _⟩) <;> linarith
      · have h1 := h a ha u ea
        have h2 := h b hb u' eb
        rintro (⟨_, _⟩ | ⟨_, _⟩) <;> linarith

theorem thickness_error {p : Prof} (h : Valid p) {perc m : Rat} (hm : max? p = some m)
    (hs : ¬ ∃ x, (x, some (m * perc)) ∈ pts p) (hc : (pts p).IsChain fun r s => crosses (m * perc) r.2 s.2 = false) :
    thickness p perc = .error .indexError := by
  simp only [thickness, hm]
  rw [(atY_scan h hs).1, scan_none' hc]

/-- C172 fails: a profile whose velocities are all close to the largest one (no slow point near the wall was measured) has no
thickness: IndexError. -/
theorem C172_uniform_violated {p : Prof} (h : Valid p) {perc m : Rat} (hm : max? p = some m)
    (hu : ∀ x v, (x, some v) ∈ pts p → m * perc < v) : thickness p perc = .error .indexError := by
  apply thickness_error h hm
  · rintro ⟨x, hx⟩
    exact lt_irrefl _ (hu x _ hx)
  · apply chain_side
    left
    intro r hr u hu'
    exact hu r.1 u (by rw [← hu']; exact hr)

example : Valid ⟨[1, 2], [some 10, some 10], [false, false], Sym.m, Sym.m⟩ ∧
    thickness ⟨[1, 2], [some 10, some 10], [false, false], Sym.m, Sym.m⟩ (95 / 100) = .error .indexError := by
  unfold Valid
  decide +kernel

/-- C172 fails: when a masked point separates the slow points from the fast ones there is no thickness either: IndexError. -/
theorem C172_gap_violated {p : Prof} (h : Valid p) {perc m x : Rat} {A B : List (Rat × F)} (hm : max? p = some m)
    (hp : pts p = A ++ (x, none) :: B) (hA : ∀ r ∈ A, ∀ u, r.2 = some u → u < m * perc)
    (hB : ∀ r ∈ B, ∀ u, r.2 = some u → m * perc < u) : thickness p perc = .error .indexError := by
  apply thickness_error h hm
  · rintro ⟨x', hx⟩
    rw [hp] at hx
    rcases List.mem_append.mp hx with hx | hx
    · exact lt_irrefl _ (hA _ hx _ rfl)
    · rcases List.mem_cons.mp hx with hx | hx
      · simp at hx
      · exact lt_irrefl _ (hB _ hx _ rfl)
  · rw [hp, List.isChain_append]
    refine ⟨chain_side (Or.inr hA), ?_, ?_⟩
    · rw [List.isChain_cons]
      exact ⟨fun y _ => by rfl, chain_side (Or.inl hB)⟩
    · intro a _ b hb
      simp at hb
      subst hb
      cases a.2 <;> rfl

example : thickness ⟨[0, 1, 2, 3], [some 0, some 1, none, some 10], [false, false, true, false], Sym.m, Sym.m⟩ (95 / 100)
    = .error .indexError := by decide +kernel

/-- C172: a profile that is entirely masked has the thickness 0. -/
theorem C172_masked {p : Prof} (h : Valid p) (hn : ∀ r ∈ pts p, r.2 = none) (perc : Rat) : thickness p perc = .ok 0 := by
  simp only [thickness, (C95_extrema h).2.2.1.mpr hn]

theorem interp_scale {c d : Rat} (hd : 0 < d) (v a a' x x' : Rat) :
    interp (v * d) (a * d) (a' * d) (some (x * c)) (some (x' * c)) = (interp v a a' (some x) (some x')).map (· * c) := by
  have e : ∀ b e : Rat, |b * d - e * d| = |b - e| * d := fun b e => by
    rw [← sub_mul, abs_mul, abs_of_pos hd]
  simp only [interp, Option.map_some, Option.some.injEq]
  rw [e, e, e, show x * c * (|a' - v| * d) + x' * c * (|a - v| * d) = (x * |a' - v| + x' * |a - v|) * c * d by ring,
    mul_div_mul_right _ _ hd.ne']
  ring

theorem crosses_scale {d : Rat} (hd : 0 < d) (v : Rat) (a b : F) :
    crosses (v * d) (a.map (· * d)) (b.map (· * d)) = crosses v a b := by
  cases a <;> cases b <;> try rfl
  simp only [Option.map_some, crosses, ge_iff_le, gt_iff_lt, mul_le_mul_iff_left₀ hd, mul_lt_mul_iff_left₀ hd]

theorem scan_scale {c d : Rat} (hd : 0 < d) (v : Rat) (l : List (Rat × F)) :
    scan (v * d) (l.map fun r => (r.2.map (· * d), some (r.1 * c))) =
      (scan v (l.map fun r => (r.2, some r.1))).map (Option.map (· * c)) := by
  induction l with
  | nil => rfl
  | cons r l ih =>
    rcases l with _ | ⟨s, l⟩
    · rfl
    · simp only [List.map_cons] at ih ⊢
      rw [scan_cons, scan_cons, crosses_scale hd, ih, List.map_append]
      congr 1
      by_cases hc : crosses v r.2 s.2 = true
      · rw [if_pos hc, if_pos hc]
        cases er : r.2 with
        | none => rw [er] at hc; simp [crosses] at hc
        | some a =>
          cases es : s.2 with
          | none => rw [er, es] at hc; simp [crosses] at hc
          | some b =>
            simp only [Option.map_some, Option.getD_some, List.map_cons, List.map_nil]
            rw [interp_scale hd]
      · rw [if_neg hc, if_neg hc]
        rfl

theorem atY_scale {p q : Prof} (hp : Valid p) (hq : Valid q) {c d : Rat} (hd : 0 < d)
    (e : pts q = (pts p).map fun r => (r.1 * c, r.2.map (· * d))) (v : Rat) :
    atY q (v * d) = (atY p v).map (Option.map (· * c)) := by
  have hiff : ∀ w : F, w.map (· * d) = some (v * d) ↔ w = some v := by
    intro w
    cases w with
    | none => simp
    | some u =>
      simp only [Option.map_some, Option.some.injEq]
      exact mul_left_inj' hd.ne'
  by_cases hs : ∃ x, (x, some v) ∈ pts p
  · have hs' : ∃ x, (x, some (v * d)) ∈ pts q := by
      obtain ⟨x, hx⟩ := hs
      exact ⟨x * c, by rw [e, List.mem_map]; exact ⟨_, hx, rfl⟩⟩
    rw [atY_stored hp hs, atY_stored hq hs', e, List.filter_map, List.map_map, List.map_map]
    congr 1
    apply List.filter_congr
    intro r _
    simp only [Function.comp, hiff]
  · have hs' : ¬ ∃ x, (x, some (v * d)) ∈ pts q := by
      rintro ⟨x, hx⟩
      rw [e, List.mem_map] at hx
      obtain ⟨r, hr, he⟩ := hx
      simp only [Prod.mk.injEq] at he
      exact hs ⟨r.1, by rw [← (hiff r.2).mp he.2]; exact hr⟩
    rw [(atY_scan hp hs).1, (atY_scan hq hs').1, e, List.map_map]
    exact scan_scale hd v _

theorem max_scale {p q : Prof} (hp : Valid p) (hq : Valid q) {c d : Rat} (hd : 0 < d)
    (e : pts q = (pts p).map fun r => (r.1 * c, r.2.map (· * d))) : max? q = (max? p).map (· * d) := by
  cases hm : max? p with
  | none =>
    rw [Option.map_none, (C95_extrema hq).2.2.1, e]
    intro r hr
    rw [List.mem_map] at hr
    obtain ⟨s, hs, rfl⟩ := hr
    simp [(C95_extrema hp).2.2.1.mp hm s hs]
  | some m =>
    obtain ⟨⟨x, hx⟩, h2⟩ := ((C95_extrema hp).1 m).mp hm
    rw [Option.map_some, (C95_extrema hq).1, e]
    refine ⟨⟨x * c, List.mem_map.mpr ⟨_, hx, rfl⟩⟩, ?_⟩
    intro y w hw
    rw [List.mem_map] at hw
    obtain ⟨⟨a, s⟩, hs, he⟩ := hw
    cases s with
    | none => simp at he
    | some s =>
      simp only [Option.map_some, Prod.mk.injEq, Option.some.injEq] at he
      rw [← he.2]
      exact mul_le_mul_of_nonneg_right (h2 a s hs) hd.le

/-- C172: multiplying the velocities by a positive number does not change the thickness, multiplying the lengths multiplies
it (errors are the same). -/
theorem C172_scale {p q : Prof} (hp : Valid p) (hq : Valid q) {c d : Rat} (hd : 0 < d)
    (e : pts q = (pts p).map fun r => (r.1 * c, r.2.map (· * d))) (perc : Rat) :
    (∀ t, thickness p perc = .ok t → thickness q perc = .ok (t * c)) ∧
    (∀ er, thickness p perc = .error er → thickness q perc = .error er) := by
  have hmax := max_scale hp hq hd e
  cases hm : max? p with
  | none =>
    rw [hm] at hmax
    simp [thickness, hm, hmax]
  | some m =>
    rw [hm] at hmax
    have ha : atY q (m * d * perc) = (atY p (m * perc)).map (Option.map (· * c)) := by rw [mul_right_comm]; exact atY_scale hp hq hd e (m * perc)
    simp only [thickness, hm, hmax, Option.map_some, ha]
    cases ey : atY p (m * perc) with
    | nil => simp
    | cons w l =>
      cases w with
      | none => simp
      | some w => simp

end IMT.Meas
