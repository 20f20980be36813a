import Verif.Reshape.Model
import Verif.Profile.History
import Verif.Path.Lemmas

/-! Resolution of a profile and of a set of points: C229. -/

namespace IMT.Reshape

open IMT.Profile

variable {srt : List Rat → List Nat}

abbrev Knot := Rat × (Rat × Rat)

theorem inc_cons {a : Rat} {l : List Rat} (h : Inc (a :: l)) : (∀ b ∈ l, a < b) ∧ Inc l := by
  unfold Inc at h ⊢
  rwa [List.pairwise_cons] at h

/-- In the range of the knots, the interpolation uses two neighbours. -/
theorem lin_split : ∀ (K : List Knot) (t : Rat), Inc (K.map Prod.fst) → 2 ≤ K.length → (∃ a ∈ K, a.1 ≤ t) →
    (∃ b ∈ K, t ≤ b.1) → ∃ A a b B, K = A ++ a :: b :: B ∧ a.1 ≤ t ∧ t ≤ b.1 ∧
      ∀ g : Knot → Rat, lin (K.map fun k => (k.1, g k)) t = some (line (a.1, g a) (b.1, g b) t)
  | [], _, _, h2, _, _ => by simp at h2
  | [_], _, _, h2, _, _ => by simp at h2
  | a :: b :: l, t, hI, _, ⟨c, hc, hct⟩, ⟨d, hd, hdt⟩ => by
    have hI' := inc_cons hI
    have hat : a.1 ≤ t := by
      rcases List.mem_cons.1 hc with rfl | hc
      · exact hct
      · have := hI'.1 c.1 (List.mem_map.2 ⟨c, hc, rfl⟩)
        linarith
    by_cases hb : t ≤ b.1
    · refine ⟨[], a, b, l, rfl, hat, hb, fun g => ?_⟩
      simp only [List.map_cons, lin]
      rw [if_neg (not_lt.2 hat), if_pos hb]
    · have hb : b.1 < t := not_le.1 hb
      have hd' : d ∈ l := by
        have hab := hI'.1 b.1 (by simp)
        rcases List.mem_cons.1 hd with rfl | hd
        · linarith
        · rcases List.mem_cons.1 hd with rfl | hd
          · linarith
          · exact hd
      have hl : 2 ≤ (b :: l).length := by
        have := List.length_pos_of_mem hd'
        simp only [List.length_cons]
        omega
      obtain ⟨A, a', b', B, e, h1, h2, h3⟩ := lin_split (b :: l) t hI'.2 hl ⟨b, by simp, hb.le⟩ ⟨d, by simp [hd'], hdt⟩
      refine ⟨a :: A, a', b', B, by rw [e]; rfl, h1, h2, fun g => ?_⟩
      rw [← h3 g]
      simp only [List.map_cons, lin]
      rw [if_neg (not_lt.2 hat), if_neg (not_le.2 hb)]

theorem inc_split {A B : List Knot} {a b : Knot} (hI : Inc ((A ++ a :: b :: B).map Prod.fst)) :
    a.1 < b.1 ∧ (∀ c ∈ A, c.1 < a.1) ∧ (∀ c ∈ B, b.1 < c.1) := by
  unfold Inc at hI
  rw [List.pairwise_map, List.pairwise_append, List.pairwise_cons, List.pairwise_cons] at hI
  exact ⟨hI.2.1.1 b (by simp), fun c hc => hI.2.2 c hc a (by simp), fun c hc => hI.2.1.2.1 c hc⟩

/-- A knot between two neighbours is one of them. -/
theorem knot_between {A B : List Knot} {a b k : Knot} (hI : Inc ((A ++ a :: b :: B).map Prod.fst))
    (hk : k ∈ A ++ a :: b :: B) (h1 : a.1 ≤ k.1) (h2 : k.1 ≤ b.1) : k = a ∨ k = b := by
  obtain ⟨-, hA, hB⟩ := inc_split hI
  rcases List.mem_append.1 hk with hk | hk
  · have := hA k hk; linarith
  · rcases List.mem_cons.1 hk with hk | hk
    · exact Or.inl hk
    · rcases List.mem_cons.1 hk with hk | hk
      · exact Or.inr hk
      · have := hB k hk; linarith

theorem line_left (a b : Rat × Rat) : line a b a.1 = a.2 := by unfold line; ring

theorem line_right {a b : Rat × Rat} (h : a.1 < b.1) : line a b b.1 = b.2 := by
  have : b.1 - a.1 ≠ 0 := by linarith
  unfold line
  field_simp
  ring

/-- At a knot the value of the knot. -/
theorem lin_knot {K : List Knot} (hI : Inc (K.map Prod.fst)) (h2 : 2 ≤ K.length) {k : Knot} (hk : k ∈ K)
    (g : Knot → Rat) : lin (K.map fun k => (k.1, g k)) k.1 = some (g k) := by
  obtain ⟨A, a, b, B, rfl, e1, e2, e3⟩ := lin_split K k.1 hI h2 ⟨k, hk, le_refl _⟩ ⟨k, hk, le_refl _⟩
  rw [e3 g]
  rcases knot_between hI hk e1 e2 with rfl | rfl
  · rw [line_left (k.1, g k)]
  · rw [line_right (b := (k.1, g k)) (inc_split hI).1]

theorem line_mono {a b : Rat × Rat} (h : a.1 < b.1) (hv : a.2 < b.2) {t t' : Rat} (ht : t < t') :
    line a b t < line a b t' := by
  have h1 : 0 < (b.2 - a.2) / (b.1 - a.1) := div_pos (by linarith) (by linarith)
  unfold line
  nlinarith

/-- Interpolation of increasing numbers is increasing. -/
theorem lin_mono {K : List Knot} (hI : Inc (K.map Prod.fst)) (h2 : 2 ≤ K.length) {g : Knot → Rat}
    (hg : ∀ a ∈ K, ∀ b ∈ K, a.1 < b.1 → g a < g b) {t t' w w' : Rat} (ht : t < t')
    (h : lin (K.map fun k => (k.1, g k)) t = some w) (h' : lin (K.map fun k => (k.1, g k)) t' = some w')
    (r1 : ∃ a ∈ K, a.1 ≤ t) (r2 : ∃ b ∈ K, t' ≤ b.1) : w < w' := by
  obtain ⟨a0, ha0, hat⟩ := r1
  obtain ⟨b0, hb0, hbt⟩ := r2
  obtain ⟨A, a, b, B, e, l1, l2, l3⟩ := lin_split K t hI h2 ⟨a0, ha0, hat⟩ ⟨b0, hb0, by linarith⟩
  obtain ⟨A', a', b', B', e', l1', l2', l3'⟩ := lin_split K t' hI h2 ⟨a0, ha0, by linarith⟩ ⟨b0, hb0, hbt⟩
  rw [l3 g] at h
  rw [l3' g] at h'
  have h := Option.some.inj h
  have h' := Option.some.inj h'
  have hab : a.1 < b.1 := (inc_split (e ▸ hI)).1
  have hab' : a'.1 < b'.1 := (inc_split (e' ▸ hI)).1
  have ma : a ∈ K := by rw [e]; simp
  have mb : b ∈ K := by rw [e]; simp
  have ma' : a' ∈ K := by rw [e']; simp
  have mb' : b' ∈ K := by rw [e']; simp
  have gab := hg a ma b mb hab
  have gab' := hg a' ma' b' mb' hab'
  have up : w ≤ g b := by
    have hr : line (a.1, g a) (b.1, g b) b.1 = g b := line_right (a := (a.1, g a)) (b := (b.1, g b)) hab
    rw [← h]
    rcases lt_or_eq_of_le l2 with l2 | l2
    · exact (line_mono (a := (a.1, g a)) (b := (b.1, g b)) hab gab l2).le.trans (le_of_eq hr)
    · rw [l2]; exact le_of_eq hr
  have low : g a' ≤ w' := by
    have hr : line (a'.1, g a') (b'.1, g b') a'.1 = g a' := line_left (a'.1, g a') (b'.1, g b')
    rw [← h']
    rcases lt_or_eq_of_le l1' with l1' | l1'
    · exact (le_of_eq hr.symm).trans (line_mono (a := (a'.1, g a')) (b := (b'.1, g b')) hab' gab' l1').le
    · rw [← l1']; exact le_of_eq hr.symm
  rcases lt_trichotomy a'.1 b.1 with hlt | heq | hgt
  · -- same segment
    have hsame : a = a' := by
      rcases lt_trichotomy a.1 a'.1 with h1 | h1 | h1
      · exact absurd (knot_between (e ▸ hI) (e ▸ ma') h1.le hlt.le) (by rintro (rfl | rfl) <;> linarith)
      · rcases knot_between (e ▸ hI) (e ▸ ma') h1.le (by linarith) with r | r
        · exact r.symm
        · rw [r] at h1; linarith
      · have := knot_between (e' ▸ hI) (e' ▸ ma) h1.le (by linarith)
        rcases this with r | r
        · exact r
        · rw [r] at l1; linarith
    have hsame' : b = b' := by
      subst hsame
      rcases lt_trichotomy b.1 b'.1 with h1 | h1 | h1
      · rcases knot_between (e' ▸ hI) (e' ▸ mb) hab.le h1.le with r | r
        · rw [r] at hab; linarith
        · exact r
      · rcases knot_between (e' ▸ hI) (e' ▸ mb) hab.le h1.le with r | r
        · rw [r] at hab; linarith
        · exact r
      · rcases knot_between (e ▸ hI) (e ▸ mb') hab'.le h1.le with r | r
        · rw [r] at hab'; linarith
        · exact r.symm
    subst hsame hsame'
    rw [← h, ← h']
    exact line_mono hab gab ht
  · have hb : b = a' := by
      rcases knot_between (e ▸ hI) (e ▸ ma') (by linarith) heq.le with r | r
      · rw [r] at heq; linarith
      · exact r.symm
    subst hb
    rcases lt_or_eq_of_le up with up | up
    · linarith
    · rcases lt_or_eq_of_le low with low | low
      · linarith
      · exfalso
        have e1 : t = b.1 := by
          by_contra hne
          have := line_mono (a := (a.1, g a)) (b := (b.1, g b)) hab gab (lt_of_le_of_ne l2 hne)
          rw [line_right (a := (a.1, g a)) (b := (b.1, g b)) hab, h, up] at this
          exact lt_irrefl _ this
        have e2 : t' = b.1 := by
          by_contra hne
          have := line_mono (a := (b.1, g b)) (b := (b'.1, g b')) hab' gab' (lt_of_le_of_ne l1' (Ne.symm hne))
          rw [h', ← low, line_left (b.1, g b)] at this
          exact lt_irrefl _ this
        linarith
  · have := hg b mb a' ma' hgt
    linarith

/-! ### the knots of a profile -/

variable {p : Prof} {fact : Nat}

theorem mem_knots (k : Knot) : k ∈ knots fact p ↔
    ∃ i : Nat, (pts p)[i]? = some (k.2.1, some k.2.2) ∧ k.1 = ((i * fact : Nat) : Rat) := by
  unfold knots
  rw [List.mem_filterMap]
  constructor
  · rintro ⟨⟨⟨x, v⟩, i⟩, hm, hk⟩
    rw [List.mem_zipIdx_iff_getElem?] at hm
    cases v with
    | none => simp at hk
    | some v =>
      simp only [Option.map_some, Option.some.injEq] at hk
      subst hk
      exact ⟨i, hm, rfl⟩
  · rintro ⟨i, hm, hk⟩
    refine ⟨((k.2.1, some k.2.2), i), List.mem_zipIdx_iff_getElem?.2 hm, ?_⟩
    simp only [Option.map_some, Option.some.injEq]
    rw [← hk]

theorem knots_snd (h : Valid p) : (knots fact p).map Prod.snd = valid p := by
  rw [valid_eq h]
  unfold knots
  rw [List.map_filterMap]
  have : ∀ (l : List (Rat × F)) (n : Nat),
      (l.zipIdx n).filterMap (fun r => (r.1.2.map fun v => (((r.2 * fact : Nat) : Rat), (r.1.1, v))).map Prod.snd) =
        l.filterMap fun r => r.2.map fun v => (r.1, v) := by
    intro l
    induction l with
    | nil => intro n; rfl
    | cons r l ih =>
      intro n
      obtain ⟨x, v⟩ := r
      rw [List.zipIdx_cons]
      cases v with
      | none => simpa using ih (n + 1)
      | some v => simpa using ih (n + 1)
  exact this _ 0

theorem knots_inc (hf : fact ≠ 0) : Inc ((knots fact p).map Prod.fst) := by
  unfold knots Inc
  rw [List.map_filterMap]
  have : ∀ (l : List (Rat × F)) (n : Nat),
      ((l.zipIdx n).filterMap fun r => (r.1.2.map fun v => (((r.2 * fact : Nat) : Rat), (r.1.1, v))).map Prod.fst).Pairwise
        (· < ·) ∧
      ∀ a ∈ (l.zipIdx n).filterMap fun r => (r.1.2.map fun v => (((r.2 * fact : Nat) : Rat), (r.1.1, v))).map Prod.fst,
        ((n * fact : Nat) : Rat) ≤ a := by
    intro l
    induction l with
    | nil => intro n; simp
    | cons r l ih =>
      intro n
      obtain ⟨x, v⟩ := r
      obtain ⟨i1, i2⟩ := ih (n + 1)
      have hlt : ((n * fact : Nat) : Rat) < (((n + 1) * fact : Nat) : Rat) := by
        have : n * fact < (n + 1) * fact := Nat.mul_lt_mul_of_pos_right (by omega) (Nat.pos_of_ne_zero hf)
        exact_mod_cast this
      rw [List.zipIdx_cons]
      cases v with
      | none =>
        rw [List.filterMap_cons_none (by rfl)]
        exact ⟨i1, fun a ha => hlt.le.trans (i2 a ha)⟩
      | some v =>
        rw [List.filterMap_cons_some (b := ((n * fact : Nat) : Rat)) (by rfl)]
        constructor
        · rw [List.pairwise_cons]
          exact ⟨fun a ha => lt_of_lt_of_le hlt (i2 a ha), i1⟩
        · intro a ha
          rcases List.mem_cons.1 ha with rfl | ha
          · exact le_refl _
          · exact hlt.le.trans (i2 a ha)
  exact (this _ 0).1

/-- The abscissae of the knots increase. -/
theorem knots_mono (h : Valid p) (hi : Inc p.x) (hf : fact ≠ 0) :
    ∀ a ∈ knots fact p, ∀ b ∈ knots fact p, a.1 < b.1 → a.2.1 < b.2.1 := by
  intro a ha b hb hab
  obtain ⟨i, h1, h2⟩ := (mem_knots a).1 ha
  obtain ⟨j, h3, h4⟩ := (mem_knots b).1 hb
  have hij : i < j := by
    by_contra hc
    have : j * fact ≤ i * fact := Nat.mul_le_mul_right _ (by omega)
    have : b.1 ≤ a.1 := by rw [h2, h4]; exact_mod_cast this
    linarith
  have hx : ∀ {n : Nat} {r : Rat × F}, (pts p)[n]? = some r → p.x[n]? = some r.1 := by
    intro n r hr
    rw [← pts_fst h, List.getElem?_map, hr]; rfl
  exact Path.inc_get.1 hi i j _ _ (hx h1) (hx h3) hij

/-- What the end of `augment_resolution` does on a profile that starts and ends with valid points. -/
theorem augRest_spec (hs : IsArgsort srt) (h : Valid p) (hi : Inc p.x) (hf : fact ≠ 0) (h2 : 2 ≤ (valid p).length)
    (hh : ∃ r, (pts p).head? = some r ∧ r.2 ≠ none) (hl : ∃ r, (pts p).getLast? = some r ∧ r.2 ≠ none) :
    ∃ q, augRest srt fact p = (q, .ok ⟨⟩) ∧ Valid q ∧ Inc q.x ∧ q.ux = p.ux ∧ q.uy = p.uy ∧
      (pts q).length = (p.x.length - 1) * fact + 1 ∧
      ∀ i : Nat, i < (p.x.length - 1) * fact + 1 → ∃ A a b B, knots fact p = A ++ a :: b :: B ∧ a.1 ≤ (i : Rat) ∧ (i : Rat) ≤ b.1 ∧
        (pts q)[i]? = some (line (a.1, a.2.1) (b.1, b.2.1) i, some (line (a.1, a.2.2) (b.1, b.2.2) i)) := by
  have hK := knots_inc (p := p) hf
  have hKl : 2 ≤ (knots fact p).length := by
    rw [← knots_snd (fact := fact) h, List.length_map] at h2
    exact h2
  have hpl : (pts p).length = p.x.length := by rw [pts_valid h]; simp [h.1]
  have first : ∃ a ∈ knots fact p, a.1 = 0 := by
    obtain ⟨⟨x, v⟩, e, hn⟩ := hh
    cases v with
    | none => exact absurd rfl hn
    | some v =>
      refine ⟨(0, (x, v)), (mem_knots _).2 ⟨0, ?_, by simp⟩, rfl⟩
      rw [List.head?_eq_getElem?] at e
      exact e
  have last : ∃ b ∈ knots fact p, b.1 = (((p.x.length - 1) * fact : Nat) : Rat) := by
    obtain ⟨⟨x, v⟩, e, hn⟩ := hl
    cases v with
    | none => exact absurd rfl hn
    | some v =>
      refine ⟨((((p.x.length - 1) * fact : Nat) : Rat), (x, v)), (mem_knots _).2 ⟨p.x.length - 1, ?_, rfl⟩, rfl⟩
      rw [List.getLast?_eq_getElem?, hpl] at e
      exact e
  have split : ∀ i : Nat, i < (p.x.length - 1) * fact + 1 → ∃ A a b B, knots fact p = A ++ a :: b :: B ∧ a.1 ≤ (i : Rat) ∧
      (i : Rat) ≤ b.1 ∧ ∀ g : Knot → Rat, lin ((knots fact p).map fun k => (k.1, g k)) (i : Rat) =
        some (line (a.1, g a) (b.1, g b) i) := by
    intro i hlt
    obtain ⟨a, ha, e1⟩ := first
    obtain ⟨b, hb, e2⟩ := last
    refine lin_split _ _ hK hKl ⟨a, ha, by rw [e1]; positivity⟩ ⟨b, hb, ?_⟩
    rw [e2]
    have : i ≤ (p.x.length - 1) * fact := by omega
    exact_mod_cast this
  have lenX : (augX fact p).length = (p.x.length - 1) * fact + 1 := by unfold augX newInds; simp
  have lenY : (augY fact p).length = (p.x.length - 1) * fact + 1 := by unfold augY newInds; simp
  have getX : ∀ i : Nat, i < (p.x.length - 1) * fact + 1 → (augX fact p)[i]? =
      some ((lin ((knots fact p).map fun k => (k.1, k.2.1)) (i : Rat)).getD 0) := by
    intro i hlt
    unfold augX newInds
    rw [List.getElem?_map, List.getElem?_map, List.getElem?_range hlt]
    rfl
  have getYv : ∀ i : Nat, i < (p.x.length - 1) * fact + 1 → (augY fact p)[i]? =
      some (lin ((knots fact p).map fun k => (k.1, k.2.2)) (i : Rat)) := by
    intro i hlt
    unfold augY newInds
    rw [List.getElem?_map, List.getElem?_map, List.getElem?_range hlt]
    rfl
  have incX : Inc (augX fact p) := by
    rw [Path.inc_get]
    intro i j a b ha hb hij
    have hi1 := getElem?_some_lt ha
    have hj1 := getElem?_some_lt hb
    rw [lenX] at hi1 hj1
    rw [getX i hi1] at ha
    rw [getX j hj1] at hb
    obtain ⟨A, a1, b1, B, -, -, -, e1⟩ := split i hi1
    obtain ⟨A', a2, b2, B', -, -, -, e2⟩ := split j hj1
    have e1 := e1 fun k => k.2.1
    have e2 := e2 fun k => k.2.1
    rw [e1] at ha
    rw [e2] at hb
    have ha := Option.some.inj ha
    have hb := Option.some.inj hb
    simp only [Option.getD_some] at ha hb
    obtain ⟨k1, hk1, z1⟩ := first
    obtain ⟨k2, hk2, z2⟩ := last
    rw [← ha, ← hb]
    refine lin_mono hK hKl (g := fun k => k.2.1) (knots_mono h hi hf) (t := i) (t' := j) (by exact_mod_cast hij) e1 e2
      ⟨k1, hk1, by rw [z1]; positivity⟩ ⟨k2, hk2, ?_⟩
    rw [z2]
    have : j ≤ (p.x.length - 1) * fact := by omega
    exact_mod_cast this
  have someY : ∀ v ∈ augY fact p, v ≠ none := by
    intro v hv hn
    obtain ⟨i, hiv⟩ := List.mem_iff_getElem?.1 hv
    have hlt := getElem?_some_lt hiv
    rw [lenY] at hlt
    rw [getYv i hlt] at hiv
    obtain ⟨A, a1, b1, B, -, -, -, e1⟩ := split i hlt
    have e1 := e1 fun k => k.2.2
    rw [e1] at hiv
    rw [← Option.some.inj hiv] at hn
    cases hn
  obtain ⟨q, eq, hq, -, ux, uy, hinc⟩ := setXY_spec hs p (v := augX fact p) (w := augY fact p) (by rw [lenX, lenY])
  obtain ⟨qx, qy⟩ := hinc incX
  have hmask : List.replicate (augX fact p).length false = (augY fact p).map Option.isNone := by
    apply List.ext_getElem
    · simp [lenX, lenY]
    · intro i h1 h2
      rw [List.getElem_replicate, List.getElem_map]
      have hmem : (augY fact p)[i]'(by simpa using h2) ∈ augY fact p := List.getElem_mem _
      cases hc : (augY fact p)[i]'(by simpa using h2) with
      | none => exact absurd hc (someY _ hmem)
      | some v => rfl
  have hset : setMask q (List.replicate (augX fact p).length false) = (q, .ok ⟨⟩) := by
    unfold setMask
    rw [if_pos (by rw [qy, lenY]; simp [lenX]), hmask, ← qy, blank_isNone, ← hq.2.1]
  refine ⟨q, ?_, hq, by rw [qx]; exact incX, ux, uy, ?_, ?_⟩
  · unfold augRest
    rw [if_neg (by omega), eq]
    exact hset
  · rw [pts_valid hq, qx, qy, List.length_zip, lenX, lenY, min_self]
  · intro i hlt
    obtain ⟨A, a, b, B, e1, e2, e3, e4⟩ := split i hlt
    refine ⟨A, a, b, B, e1, e2, e3, ?_⟩
    rw [pts_valid hq, qx, qy, Path.zip_get, getX i hlt, getYv i hlt, e4 fun k => k.2.1, e4 fun k => k.2.2]
    rfl

/-- A profile with valid ends is not cropped. -/
theorem border_none (hs : IsArgsort srt) (h : Valid p) (hi : Inc p.x)
    (hh : ∃ r, (pts p).head? = some r ∧ r.2 ≠ none) (hl : ∃ r, (pts p).getLast? = some r ∧ r.2 ≠ none) :
    ∃ q, cropMaskedBorder srt p = (q, .ok ⟨⟩) ∧ Valid q ∧ pts q = pts p ∧ q.ux = p.ux ∧ q.uy = p.uy := by
  obtain ⟨r, e1, n1⟩ := hh
  obtain ⟨s, e2, n2⟩ := hl
  obtain ⟨q, b, a, e, hv, hp, hb, ha, -, -, ux, uy⟩ := C37_border hs h hi ⟨r, List.mem_of_mem_head? e1, n1⟩
  refine ⟨q, e, hv, ?_, ux, uy⟩
  have hb0 : b = [] := by
    rcases b with _ | ⟨c, b⟩
    · rfl
    · rw [hp] at e1
      have hcr : c = r := by simpa using e1
      exact absurd (hb r (by simp [hcr])) n1
  have ha0 : a = [] := by
    rcases List.eq_nil_or_concat a with rfl | ⟨a', c, rfl⟩
    · rfl
    · rw [hp, List.concat_eq_append, ← List.append_assoc, List.getLast?_concat] at e2
      have hcr : c = s := by simpa using e2
      exact absurd (ha s (by simp [hcr])) n2
  rw [hp, hb0, ha0]
  simp

theorem eq_of_pts {p q : Prof} (hp : Valid p) (hq : Valid q) (h : pts q = pts p) : q.x = p.x ∧ valid q = valid p := by
  refine ⟨?_, ?_⟩
  · rw [← pts_fst hp, ← pts_fst hq, h]
  · rw [valid_eq hp, valid_eq hq, h]

theorem knots_congr {p q : Prof} (h : pts q = pts p) : knots fact q = knots fact p := by
  unfold knots; rw [h]

theorem line_between {a b : Knot} (h : a.1 < b.1) (hx : a.2.1 < b.2.1) {t : Rat} (h1 : a.1 ≤ t) (h2 : t ≤ b.1) :
    a.2.1 ≤ line (a.1, a.2.1) (b.1, b.2.1) t ∧ line (a.1, a.2.1) (b.1, b.2.1) t ≤ b.2.1 ∧
      line (a.1, a.2.2) (b.1, b.2.2) t = onLine a.2.1 a.2.2 b.2.1 b.2.2 (line (a.1, a.2.1) (b.1, b.2.1) t) := by
  have d1 : b.1 - a.1 ≠ 0 := by linarith
  have d2 : b.2.1 - a.2.1 ≠ 0 := by linarith
  refine ⟨?_, ?_, ?_⟩
  · rcases lt_or_eq_of_le h1 with h1 | h1
    · have := line_mono (a := (a.1, a.2.1)) (b := (b.1, b.2.1)) h hx h1
      rw [line_left (a.1, a.2.1)] at this
      exact this.le
    · rw [← h1]; exact le_of_eq (line_left (a.1, a.2.1) _).symm
  · rcases lt_or_eq_of_le h2 with h2 | h2
    · have := line_mono (a := (a.1, a.2.1)) (b := (b.1, b.2.1)) h hx h2
      rw [line_right (b := (b.1, b.2.1)) h] at this
      exact this.le
    · rw [h2]; exact le_of_eq (line_right (b := (b.1, b.2.1)) h)
  · unfold onLine line
    field_simp
    ring

/-- C229: `augment_resolution` keeps every unmasked point and puts all the other ones on the segments between neighbouring
unmasked points; nothing is masked any more, and a part of `n` points between the first and the last unmasked ones becomes
`(n - 1)*fact + 1` points. -/
theorem C229_polyline (hs : IsArgsort srt) (h : Valid p) (hi : Inc p.x) (hf : fact ≠ 0)
    (h2 : 2 ≤ (pts p).countP fun r => r.2.isSome) :
    ∃ q before core after, augment srt p fact = (q, .ok ⟨⟩) ∧ pts p = before ++ core ++ after ∧
      (∀ r ∈ before, r.2 = none) ∧ (∀ r ∈ after, r.2 = none) ∧ (∃ r, core.head? = some r ∧ r.2 ≠ none) ∧
      (∃ r, core.getLast? = some r ∧ r.2 ≠ none) ∧
      Valid q ∧ Inc q.x ∧ q.ux = p.ux ∧ q.uy = p.uy ∧ (pts q).length = (core.length - 1) * fact + 1 ∧
      (∀ r ∈ pts q, r.2 ≠ none) ∧ (∀ x v, (x, some v) ∈ pts p → (x, some v) ∈ pts q) ∧
      (∀ x v, (x, some v) ∈ pts q → ∃ A B x1 v1 x2 v2, valid p = A ++ (x1, v1) :: (x2, v2) :: B ∧ x1 ≤ x ∧ x ≤ x2 ∧
        v = onLine x1 v1 x2 v2 x) := by
  have hex : ∃ r ∈ pts p, r.2 ≠ none := by
    have : 0 < (pts p).countP fun r => r.2.isSome := by omega
    rw [List.countP_pos_iff] at this
    obtain ⟨r, hr, hn⟩ := this
    exact ⟨r, hr, by intro hc; rw [hc] at hn; simp at hn⟩
  obtain ⟨c, before, after, ec, hc, hp, hb, ha, hh, hl, ux, uy⟩ := C37_border hs h hi hex
  have hvc : valid c = valid p := by
    have z : ∀ l : List (Rat × F), (∀ r ∈ l, r.2 = none) → (l.filterMap fun r => r.2.map fun v => (r.1, v)) = [] :=
      fun l hl => List.filterMap_eq_nil_iff.2 fun r hr => by rw [hl r hr]; rfl
    rw [valid_eq hc, valid_eq h, hp, List.filterMap_append, List.filterMap_append, z _ hb, z _ ha]
    simp
  have hic : Inc c.x := by
    rw [← pts_fst hc]
    rw [← pts_fst h, hp] at hi
    refine hi.sublist ?_
    rw [List.map_append, List.map_append]
    exact (List.sublist_append_right _ _).trans (List.sublist_append_left _ _)
  have hlc : 2 ≤ (valid c).length := by rw [hvc, valid_length h]; exact h2
  obtain ⟨q, e, hq, incq, u1, u2, len, hpt⟩ := augRest_spec hs hc hic hf hlc hh hl
  have hpc : (pts c).length = c.x.length := by rw [pts_valid hc]; simp [hc.1]
  refine ⟨q, before, pts c, after, ?_, hp, hb, ha, hh, hl, hq, incq, by rw [u1, ux], by rw [u2, uy],
    by rw [len, hpc], ?_, ?_, ?_⟩
  · unfold augment
    rw [if_neg hf, ec]
    exact e
  · intro r hr hn
    obtain ⟨i, hri⟩ := List.mem_iff_getElem?.1 hr
    have hlt := getElem?_some_lt hri
    rw [len] at hlt
    obtain ⟨A, a, b, B, -, -, -, e4⟩ := hpt i hlt
    rw [hri] at e4
    rw [Option.some.inj e4] at hn
    cases hn
  · intro x v hx
    have hxc : (x, some v) ∈ pts c := by
      rw [hp] at hx
      rcases List.mem_append.1 hx with hx | hx
      · rcases List.mem_append.1 hx with hx | hx
        · have := hb _ hx; cases this
        · exact hx
      · have := ha _ hx; cases this
    obtain ⟨i, hxi⟩ := List.mem_iff_getElem?.1 hxc
    have hlt := getElem?_some_lt hxi
    rw [hpc] at hlt
    have hif : i * fact < (c.x.length - 1) * fact + 1 := by
      have : i * fact ≤ (c.x.length - 1) * fact := Nat.mul_le_mul_right _ (by omega)
      omega
    obtain ⟨A, a, b, B, e1, e2, e3, e4⟩ := hpt (i * fact) hif
    have hk : ((((i * fact : Nat) : Rat)), (x, v)) ∈ knots fact c := (mem_knots _).2 ⟨i, hxi, rfl⟩
    have hkI := knots_inc (p := c) hf
    rw [e1] at hk hkI
    refine List.mem_iff_getElem?.2 ⟨i * fact, ?_⟩
    rw [e4]
    rcases knot_between hkI hk e2 e3 with r | r
    · rw [← r]
      rw [line_left (((i * fact : Nat) : Rat), x), line_left (((i * fact : Nat) : Rat), v)]
    · have hab := (inc_split hkI).1
      rw [← r] at hab ⊢
      rw [line_right (b := (((i * fact : Nat) : Rat), x)) hab, line_right (b := (((i * fact : Nat) : Rat), v)) hab]
  · intro x v hx
    obtain ⟨i, hxi⟩ := List.mem_iff_getElem?.1 hx
    have hlt := getElem?_some_lt hxi
    rw [len] at hlt
    obtain ⟨A, a, b, B, e1, e2, e3, e4⟩ := hpt i hlt
    rw [hxi] at e4
    have e4 := Option.some.inj e4
    have hkI := knots_inc (p := c) hf
    have hmono := knots_mono hc hic hf
    rw [e1] at hkI hmono
    have hab := (inc_split hkI).1
    have hx12 := hmono a (by simp) b (by simp) hab
    obtain ⟨l1, l2, l3⟩ := line_between hab hx12 e2 e3
    refine ⟨A.map Prod.snd, B.map Prod.snd, a.2.1, a.2.2, b.2.1, b.2.2, ?_, ?_, ?_, ?_⟩
    · rw [← hvc, ← knots_snd (fact := fact) hc, e1]
      simp
    · have ex : x = _ := congrArg Prod.fst e4
      rw [ex]; exact l1
    · have ex : x = _ := congrArg Prod.fst e4
      rw [ex]; exact l2
    · have ex : x = _ := congrArg Prod.fst e4
      have hv : v = _ := Option.some.inj (congrArg Prod.snd e4)
      rw [hv, ex]
      exact l3

/-- The segment of a new index: between two neighbouring points that are both unmasked. -/
theorem on_segment {A B : List Knot} {a b : Knot} {i j : Nat} {x1 v1 x2 v2 : Rat} (hf : fact ≠ 0)
    (e : knots fact p = A ++ a :: b :: B) (hj : j ≤ fact)
    (h1 : (pts p)[i]? = some (x1, some v1)) (h2 : (pts p)[i + 1]? = some (x2, some v2))
    (l1 : a.1 ≤ ((i * fact + j : Nat) : Rat)) (l2 : ((i * fact + j : Nat) : Rat) ≤ b.1) :
    line (a.1, a.2.1) (b.1, b.2.1) ((i * fact + j : Nat) : Rat) = x1 + (j : Rat) / fact * (x2 - x1) ∧
      line (a.1, a.2.2) (b.1, b.2.2) ((i * fact + j : Nat) : Rat) = v1 + (j : Rat) / fact * (v2 - v1) := by
  have hI := knots_inc (p := p) hf
  rw [e] at hI
  have hab := (inc_split hI).1
  have k1 : ((((i * fact : Nat) : Rat)), (x1, v1)) ∈ A ++ a :: b :: B := e ▸ (mem_knots _).2 ⟨i, h1, rfl⟩
  have k2 : (((((i + 1) * fact : Nat) : Rat)), (x2, v2)) ∈ A ++ a :: b :: B := e ▸ (mem_knots _).2 ⟨i + 1, h2, rfl⟩
  have f0 : (0 : Rat) < fact := by exact_mod_cast Nat.pos_of_ne_zero hf
  have jr : (j : Rat) ≤ fact := by exact_mod_cast hj
  have j0 : (0 : Rat) ≤ j := by positivity
  push_cast at l1 l2 k1 k2
  -- the knots of the two points surround the index
  have ha : a ∈ knots fact p := e ▸ (by simp)
  have hb : b ∈ knots fact p := e ▸ (by simp)
  obtain ⟨na, ga, za⟩ := (mem_knots a).1 ha
  obtain ⟨nb, gb, zb⟩ := (mem_knots b).1 hb
  push_cast at za zb
  have cases3 : (a.1 = (i : Rat) * fact ∧ b.1 = ((i : Rat) + 1) * fact) ∨
      (j = fact ∧ a.1 = ((i : Rat) + 1) * fact) ∨ (j = 0 ∧ b.1 = (i : Rat) * fact) := by
    rcases lt_or_ge b.1 (((i : Rat) + 1) * fact) with c | c
    · -- then b is at or before the first point
      have : nb < i + 1 := by
        by_contra hc
        have : ((i + 1 : Nat) : Rat) ≤ nb := by exact_mod_cast not_lt.1 hc
        push_cast at this
        rw [zb] at c
        nlinarith
      have hbi : b.1 ≤ (i : Rat) * fact := by
        have : (nb : Rat) ≤ i := by exact_mod_cast Nat.lt_succ_iff.1 this
        rw [zb]
        nlinarith
      refine Or.inr (Or.inr ⟨?_, by linarith⟩)
      have : (j : Rat) = 0 := by linarith
      exact_mod_cast this
    · rcases lt_or_ge ((i : Rat) * fact) a.1 with d | d
      · have : i < na := by
          by_contra hc
          have : (na : Rat) ≤ i := by exact_mod_cast not_lt.1 hc
          rw [za] at d
          nlinarith
        have hai : ((i : Rat) + 1) * fact ≤ a.1 := by
          have : ((i + 1 : Nat) : Rat) ≤ na := by exact_mod_cast this
          push_cast at this
          rw [za]
          nlinarith
        refine Or.inr (Or.inl ⟨?_, by nlinarith⟩)
        have : (j : Rat) = fact := by nlinarith
        exact_mod_cast this
      · left
        have r1 := knot_between hI k1 d (by simp only; nlinarith)
        have r2 := knot_between hI k2 (by simp only; nlinarith) c
        have hne : (i : Rat) * fact < ((i : Rat) + 1) * fact := by nlinarith
        rcases r1 with r1 | r1 <;> rcases r2 with r2 | r2
        · have q1 := congrArg Prod.fst r1
          have q2 := congrArg Prod.fst r2
          simp only at q1 q2
          linarith
        · exact ⟨(congrArg Prod.fst r1).symm, (congrArg Prod.fst r2).symm⟩
        · have q1 := congrArg Prod.fst r1
          have q2 := congrArg Prod.fst r2
          simp only at q1 q2
          linarith
        · have q1 := congrArg Prod.fst r1
          have q2 := congrArg Prod.fst r2
          simp only at q1 q2
          linarith
  push_cast
  rcases cases3 with ⟨c1, c2⟩ | ⟨rfl, c⟩ | ⟨rfl, c⟩
  · have r1 : a = ((i : Rat) * fact, (x1, v1)) := by
      rcases knot_between hI k1 (by simp only; linarith) (by simp only; linarith) with r | r
      · exact r.symm
      · have := congrArg Prod.fst r; simp only at this; linarith
    have r2 : b = (((i : Rat) + 1) * fact, (x2, v2)) := by
      rcases knot_between hI k2 (by simp only; linarith) (by simp only; linarith) with r | r
      · have := congrArg Prod.fst r; simp only at this; linarith
      · exact r.symm
    rw [r1, r2]
    unfold line
    simp only
    have d : ((i : Rat) + 1) * fact - i * fact = fact := by ring
    rw [d]
    constructor
    · field_simp
      ring
    · field_simp
      ring
  · have r1 : a = (((i : Rat) + 1) * j, (x2, v2)) := by
      rcases knot_between hI k2 (by simp only; linarith) (by simp only; linarith) with r | r
      · exact r.symm
      · have := congrArg Prod.fst r; simp only at this; linarith
    rw [r1]
    unfold line
    simp only
    constructor
    · field_simp
      ring
    · field_simp
      ring
  · have r2 : b = ((i : Rat) * fact, (x1, v1)) := by
      rcases knot_between hI k1 (by simp only; linarith) (by simp only; linarith) with r | r
      · have := congrArg Prod.fst r; simp only at this; linarith
      · exact r.symm
    have z : (i : Rat) * fact + ((0 : Nat) : Rat) = b.1 := by rw [c]; simp
    rw [z, line_right (a := (a.1, a.2.1)) (b := (b.1, b.2.1)) hab, line_right (a := (a.1, a.2.2)) (b := (b.1, b.2.2)) hab, r2]
    simp

/-- C229: the new points are at regular fractions of each interval between unmasked neighbours. -/
theorem C229_grid (hs : IsArgsort srt) (h : Valid p) (hi : Inc p.x) (hf : fact ≠ 0) (hn : 2 ≤ p.x.length)
    (hm : ∀ r ∈ pts p, r.2 ≠ none) :
    ∃ q, augment srt p fact = (q, .ok ⟨⟩) ∧ Valid q ∧ q.ux = p.ux ∧ q.uy = p.uy ∧
      (pts q).length = (p.x.length - 1) * fact + 1 ∧
      ∀ (i j : Nat) (x1 v1 x2 v2 : Rat), (pts p)[i]? = some (x1, some v1) → (pts p)[i + 1]? = some (x2, some v2) →
        j ≤ fact → (pts q)[i * fact + j]? =
          some (x1 + (j : Rat) / fact * (x2 - x1), some (v1 + (j : Rat) / fact * (v2 - v1))) := by
  have hpl : (pts p).length = p.x.length := by rw [pts_valid h]; simp [h.1]
  have hne : pts p ≠ [] := by intro hc; rw [hc] at hpl; simp at hpl; omega
  have hh : ∃ r, (pts p).head? = some r ∧ r.2 ≠ none :=
    ⟨_, List.head?_eq_some_head hne, hm _ (List.head_mem hne)⟩
  have hl : ∃ r, (pts p).getLast? = some r ∧ r.2 ≠ none :=
    ⟨_, List.getLast?_eq_some_getLast hne, hm _ (List.getLast_mem hne)⟩
  obtain ⟨c, ec, hc, hpc, ux, uy⟩ := border_none hs h hi hh hl
  obtain ⟨exx, ev⟩ := eq_of_pts h hc hpc
  have h2 : 2 ≤ (valid c).length := by
    rw [ev, valid_length h, List.countP_eq_length.2, hpl]
    · exact hn
    · intro r hr
      rw [← Option.ne_none_iff_isSome]
      exact hm r hr
  obtain ⟨q, e, hq, -, u1, u2, len, hpt⟩ := augRest_spec hs hc (exx ▸ hi) hf h2 (hpc ▸ hh) (hpc ▸ hl)
  refine ⟨q, ?_, hq, by rw [u1, ux], by rw [u2, uy], by rw [len, exx], ?_⟩
  · unfold augment
    rw [if_neg hf, ec]
    exact e
  · intro i j x1 v1 x2 v2 g1 g2 hj
    have hlt := getElem?_some_lt g2
    rw [hpl] at hlt
    have hij : i * fact + j < (c.x.length - 1) * fact + 1 := by
      rw [exx]
      have : (i + 1) * fact ≤ (p.x.length - 1) * fact := Nat.mul_le_mul_right _ (by omega)
      have e : (i + 1) * fact = i * fact + fact := by ring
      omega
    obtain ⟨A, a, b, B, e1, e2, e3, e4⟩ := hpt _ hij
    obtain ⟨s1, s2⟩ := on_segment hf e1 hj (hpc ▸ g1) (hpc ▸ g2) e2 e3
    rw [e4, s1, s2]

/-- C229: with a factor 1 a masked point between two unmasked ones is not given a value: unless it is exactly in the
middle, its abscissa **disappears** from the profile. -/
theorem C229_abscissa_violated (hs : IsArgsort srt) (h : Valid p) (hi : Inc p.x) {x1 v1 x x2 v2 : Rat}
    (hp : pts p = [(x1, some v1), (x, none), (x2, some v2)]) (hx : x ≠ (x1 + x2) / 2) :
    ∃ q, augment srt p 1 = (q, .ok ⟨⟩) ∧ pts q = [(x1, some v1), ((x1 + x2) / 2, some ((v1 + v2) / 2)), (x2, some v2)] ∧
      x ∈ p.x ∧ x ∉ q.x := by
  have hxx : p.x = [x1, x, x2] := by rw [← pts_fst h, hp]; rfl
  have hh : ∃ r, (pts p).head? = some r ∧ r.2 ≠ none := ⟨(x1, some v1), by rw [hp]; rfl, by simp⟩
  have hl : ∃ r, (pts p).getLast? = some r ∧ r.2 ≠ none := ⟨(x2, some v2), by rw [hp]; rfl, by simp⟩
  obtain ⟨c, ec, hc, hpc, ux, uy⟩ := border_none hs h hi hh hl
  obtain ⟨exx, ev⟩ := eq_of_pts h hc hpc
  have h2 : 2 ≤ (valid c).length := by rw [ev, valid_eq h, hp]; simp
  obtain ⟨q, e, hq, -, u1, u2, len, hpt⟩ := augRest_spec hs hc (exx ▸ hi) one_ne_zero h2 (hpc ▸ hh) (hpc ▸ hl)
  have hk : knots 1 c = [(0, (x1, v1)), (2, (x2, v2))] := by
    unfold knots
    rw [hpc, hp]
    simp [List.zipIdx]
  have lc : c.x.length = 3 := by rw [exx, hxx]; rfl
  have at' : ∀ i : Nat, i < 3 → (pts q)[i]? = some (line (0, x1) (2, x2) i, some (line (0, v1) (2, v2) i)) := by
    intro i hlt
    obtain ⟨A, a, b, B, e1, e2, e3, e4⟩ := hpt i (by rw [lc]; omega)
    rw [hk] at e1
    have hA : A = [] := by
      rcases A with _ | ⟨d, A⟩
      · rfl
      · exfalso
        have := congrArg List.length e1
        simp only [List.length_cons, List.length_nil, List.length_append] at this
        omega
    subst hA
    simp only [List.nil_append, List.cons.injEq] at e1
    rw [e4, ← e1.1, ← e1.2.1]
  have hpq : pts q = [(x1, some v1), ((x1 + x2) / 2, some ((v1 + v2) / 2)), (x2, some v2)] := by
    apply List.ext_getElem?
    intro i
    rcases i with _ | _ | _ | i
    · rw [at' 0 (by omega)]
      simp [line]
    · rw [at' 1 (by omega)]
      simp only [line]
      norm_num
      constructor <;> ring
    · rw [at' 2 (by omega)]
      simp only [line]
      norm_num
    · rw [List.getElem?_eq_none (by rw [len, lc]; omega), List.getElem?_eq_none (by simp)]
  refine ⟨q, ?_, hpq, by rw [hxx]; simp, ?_⟩
  · unfold augment
    rw [if_neg one_ne_zero, ec]
    exact e
  · rw [← pts_fst hq, hpq]
    rw [hxx] at hi
    have i1 := (inc_cons hi).1 x (by simp)
    have i2 := (inc_cons (inc_cons hi).2).1 x2 (by simp)
    simp only [List.map_cons, List.map_nil, List.mem_cons, List.not_mem_nil, or_false, not_or]
    exact ⟨by linarith, hx, by linarith⟩

/-- C229: a factor 0 is refused, and so is a profile without two unmasked points. -/
theorem C229_refused (hs : IsArgsort srt) (h : Valid p) (hi : Inc p.x) :
    augment srt p 0 = (p, .error .typeError) ∧
      (fact ≠ 0 → ((pts p).countP fun r => r.2.isSome) < 2 →
        ∃ q e, augment srt p fact = (q, .error e) ∧ (e = .valueError ∨ e = .indexError)) := by
  refine ⟨by simp [augment], fun hf hc => ?_⟩
  unfold augment
  rw [if_neg hf]
  by_cases hex : ∃ r ∈ pts p, r.2 ≠ none
  · obtain ⟨c, before, after, ec, hcv, hp, hb, ha, -⟩ := C37_border hs h hi hex
    refine ⟨c, .valueError, ?_, Or.inl rfl⟩
    rw [ec]
    simp only [augRest]
    rw [if_pos]
    have : (knots fact c).length = (valid c).length := by rw [← knots_snd (fact := fact) hcv, List.length_map]
    rw [this, valid_length hcv]
    refine lt_of_le_of_lt ?_ hc
    rw [hp, List.countP_append, List.countP_append]
    omega
  · push Not at hex
    obtain e := C37_all_masked (srt := srt) h hex
    exact ⟨p, .indexError, by rw [e], Or.inr rfl⟩

/-- C229: `augment_resolution` of a set of points puts `fact - 1` new points at regular fractions of each step. -/
theorem C229_points (hs : IsArgsort srt) (hf : fact ≠ 0) {l : List Rat} (hl : 2 ≤ l.length) :
    ∃ r, augColumn srt l fact = .ok r ∧ r.length = (l.length - 1) * fact + 1 ∧
      ∀ (i j : Nat) (a b : Rat), l[i]? = some a → l[i + 1]? = some b → j ≤ fact →
        r[i * fact + j]? = some (some (a + (j : Rat) / fact * (b - a))) := by
  have hx : Inc ((List.range l.length).map fun i : Nat => (i : Rat)) := by
    unfold Inc
    rw [List.pairwise_map]
    exact List.pairwise_lt_range.imp fun h => by exact_mod_cast h
  obtain ⟨p, ep, hv, px, pp, -, -⟩ := Path.new_inc hs (y := l.map some) Sym.one Sym.one hx (by simp)
  have hpl : p.x.length = l.length := by rw [px]; simp
  have hget : ∀ i : Nat, (pts p)[i]? = (l[i]?).map fun a => ((i : Rat), some a) := by
    intro i
    rw [pp, Path.zip_get, List.getElem?_map, List.getElem?_map]
    cases hc : l[i]? with
    | none => cases (List.range l.length)[i]? <;> rfl
    | some a => rw [List.getElem?_range (getElem?_some_lt hc)]; rfl
  have hm : ∀ r ∈ pts p, r.2 ≠ none := by
    intro r hr hn
    obtain ⟨i, hi⟩ := List.mem_iff_getElem?.1 hr
    rw [hget] at hi
    cases hc : l[i]? with
    | none => rw [hc] at hi; cases hi
    | some a =>
      rw [hc] at hi
      rw [← Option.some.inj hi] at hn
      cases hn
  obtain ⟨q, eq, hq, -, -, len, hpt⟩ := C229_grid hs hv (px ▸ hx) hf (by rw [hpl]; exact hl) hm
  have hsnd : getY q = (pts q).map Prod.snd := by
    rw [getY_valid hq, pts_valid hq, List.map_snd_zip]
    rw [hq.1]
  refine ⟨getY q, ?_, ?_, ?_⟩
  · unfold augColumn
    rw [ep]
    simp only [eq]
  · rw [hsnd, List.length_map, len, hpl]
  · intro i j a b h1 h2 hj
    have := hpt i j _ a _ b (by rw [hget, h1]; rfl) (by rw [hget, h2]; rfl) hj
    rw [hsnd, List.getElem?_map, this]
    rfl

/-- C229: a set of one point has no finer version. -/
theorem C229_one_point (hs : IsArgsort srt) (hf : fact ≠ 0) (a : Rat) : augColumn srt [a] fact = .error .valueError := by
  have hx : Inc ((List.range 1).map fun i : Nat => (i : Rat)) := by simp [Inc, List.range_succ]
  obtain ⟨p, ep, hv, px, pp, -, -⟩ := Path.new_inc hs (y := [some a]) Sym.one Sym.one hx (by simp)
  have hp : pts p = [(0, some a)] := by rw [pp]; simp [List.range_succ]
  obtain ⟨c, ec, hc, hpc, -, -⟩ := border_none hs hv (px ▸ hx) ⟨(0, some a), by rw [hp]; rfl, by simp⟩
    ⟨(0, some a), by rw [hp]; rfl, by simp⟩
  have hk : (knots fact c).length < 2 := by
    have : (knots fact c).length = (valid c).length := by rw [← knots_snd (fact := fact) hc, List.length_map]
    rw [this, valid_eq hc, hpc, hp]
    simp
  have ea : augment srt p fact = (c, .error .valueError) := by
    unfold augment
    rw [if_neg hf, ec]
    simp only [augRest]
    rw [if_pos hk]
  unfold augColumn
  simp only [List.length_cons, List.length_nil, List.map_cons, List.map_nil, Nat.zero_add] at ep ⊢
  rw [ep]
  simp only [ea]

/-! A profile with a masked border and a masked point inside, refined twice. -/

def rough : Prof where
  x := [0, 1, 2, 4]
  y := [none, some 3, none, some 9]
  m := [true, false, true, false]
  ux := Sym.one
  uy := Sym.one

example : Valid rough ∧ Inc rough.x ∧ 2 ≤ (pts rough).countP (fun r => r.2.isSome) := by
  refine ⟨⟨by decide, by decide, by decide⟩, ?_, by decide +kernel⟩
  unfold Inc; decide +kernel

example : (augment argsort rough 2).2 = .ok ⟨⟩ ∧
    pts (augment argsort rough 2).1 = [(1, some 3), (7 / 4, some (9 / 2)), (5 / 2, some 6), (13 / 4, some (15 / 2)), (4, some 9)] := by
  decide +kernel

example : augColumn argsort [0, 2, 1] 2 = .ok [some 0, some 1, some 2, some (3 / 2), some 1] := by decide +kernel

end IMT.Reshape
