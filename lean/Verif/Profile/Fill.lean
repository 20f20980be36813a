import Verif.Profile.Crop

/-! Filling the masked points of a profile: C33. -/

namespace IMT.Profile

variable {srt : List Rat → List Nat}

theorem lin_spec (l1 : List (Rat × Rat)) {a b : Rat × Rat} {l2 : List (Rat × Rat)} {t : Rat}
    (hi : Inc ((l1 ++ a :: b :: l2).map Prod.fst)) (h1 : a.1 < t) (h2 : t ≤ b.1) :
    lin (l1 ++ a :: b :: l2) t = some (line a b t) := by
  induction l1 with
  | nil =>
    show lin (a :: b :: l2) t = _
    unfold lin
    rw [if_neg (not_lt.mpr (le_of_lt h1)), if_pos h2]
  | cons c l1 ih =>
    have hi' : Inc ((l1 ++ a :: b :: l2).map Prod.fst) := by
      unfold Inc at hi ⊢
      rw [List.cons_append, List.map_cons, List.pairwise_cons] at hi
      exact hi.2
    have hc : ∀ r ∈ l1 ++ a :: b :: l2, c.1 < r.1 := by
      intro r hr
      unfold Inc at hi
      rw [List.cons_append, List.map_cons, List.pairwise_cons] at hi
      exact hi.1 r.1 (List.mem_map.mpr ⟨r, hr, rfl⟩)
    have hca : c.1 < a.1 := hc a (by simp)
    rcases l1 with _ | ⟨d, l1⟩
    · show lin (c :: a :: b :: l2) t = _
      rw [lin, if_neg (not_lt.mpr (by linarith)), if_neg (not_le.mpr h1)]
      exact ih hi'
    · show lin (c :: d :: (l1 ++ a :: b :: l2)) t = _
      have hda : d.1 < a.1 := by
        unfold Inc at hi'
        rw [List.cons_append, List.map_cons, List.pairwise_cons] at hi'
        exact hi'.1 a.1 (List.mem_map.mpr ⟨a, by simp, rfl⟩)
      rw [lin, if_neg (not_lt.mpr (by linarith)), if_neg (not_le.mpr (by linarith))]
      exact ih hi'

theorem filledY_length (p : Prof) (fillv : Rat) : (filledY p fillv).length = p.x.length := by
  unfold filledY
  rw [List.length_map, List.length_range]

theorem filledY_get {p : Prof} (h : Valid p) (fillv : Rat) {k : Nat} (hk : k < p.x.length) :
    (filledY p fillv)[k]? = some (if k < firstValid p.m then (p.y[firstValid p.m]?).getD none
      else if lastValid p.m < k then (p.y[lastValid p.m]?).getD none
      else if (p.m[k]?).getD false then some ((lin (valid p) p.x[k]).getD fillv)
      else (p.y[k]?).getD none) := by
  unfold filledY
  rw [List.getElem?_map, List.getElem?_range hk, getY_valid h]
  simp only [Option.map_some, Option.some.injEq]
  rw [get_some hk]

/-- Data of one point. -/
theorem at_pts {p : Prof} (h : Valid p) {k : Nat} {x : Rat} {v : F} (hk : (pts p)[k]? = some (x, v)) :
    ∃ hk' : k < p.x.length, p.x[k] = x ∧ p.y[k]? = some v ∧ p.m[k]? = some v.isNone := by
  have hl : k < p.x.length := by
    by_contra hc
    rw [List.getElem?_eq_none (by rw [pts_valid h]; simp; omega)] at hk
    simp at hk
  rw [pts_get h k hl] at hk
  simp only [Option.some.injEq, Prod.mk.injEq] at hk
  refine ⟨hl, hk.1, ?_, ?_⟩
  · rw [List.getElem?_eq_getElem (by rw [h.1]; exact hl), hk.2]
  · rw [h.2.1, List.getElem?_map, List.getElem?_eq_getElem (by rw [h.1]; exact hl), hk.2]
    rfl

theorem first_le {p : Prof} (h : Valid p) (ha : p.m.all id = false) {k : Nat} {x v : Rat} (hk : (pts p)[k]? = some (x, some v)) :
    firstValid p.m ≤ k := by
  obtain ⟨_, _, _, hm⟩ := at_pts h hk
  by_contra hc
  rw [(firstValid_spec ha).2 k (by omega)] at hm
  simp at hm

theorem le_last {p : Prof} (h : Valid p) (ha : p.m.all id = false) {k : Nat} {x v : Rat} (hk : (pts p)[k]? = some (x, some v)) :
    k ≤ lastValid p.m := by
  obtain ⟨hl, _, _, hm⟩ := at_pts h hk
  by_contra hc
  rw [(lastValid_spec ha).2 k (by omega) (by rw [h.2.1, List.length_map, h.1]; exact hl)] at hm
  simp at hm

theorem pts_length {p : Prof} (h : Valid p) : (pts p).length = p.x.length := by rw [pts_valid h]; simp [h.1]

/-- The interpolated value of a point between two neighbouring unmasked ones. -/
def onLine (x1 v1 x2 v2 x : Rat) : Rat := ((x2 - x) * v1 + (x - x1) * v2) / (x2 - x1)

theorem line_onLine {x1 v1 x2 v2 x : Rat} (h : x1 < x2) : line (x1, v1) (x2, v2) x = onLine x1 v1 x2 v2 x := by
  have hne : x2 - x1 ≠ 0 := by linarith
  unfold line onLine
  field_simp
  ring

theorem pts_fst {p : Prof} (h : Valid p) : (pts p).map Prod.fst = p.x := by
  rw [pts_valid h, List.map_fst_zip (by rw [h.1])]

theorem valid_inc {p : Prof} (h : Valid p) (hx : Inc p.x) : Inc ((valid p).map Prod.fst) := by
  have : ((valid p).map Prod.fst).Sublist ((pts p).map Prod.fst) := by
    rw [valid_eq h]
    generalize pts p = l
    induction l with
    | nil => simp
    | cons r l ih =>
      obtain ⟨a, v⟩ := r
      cases v with
      | none => simpa using ih.cons a
      | some v => simpa using ih
  rw [pts_fst h] at this
  exact hx.sublist this

/-- What is demanded of a filled profile `q` of `p`, in terms of the points alone. -/
structure Filled (p q : Prof) : Prop where
  abscissae : q.x = p.x
  units : q.ux = p.ux ∧ q.uy = p.uy
  consistent : Valid q
  complete : ∀ r ∈ pts q, r.2 ≠ none
  kept : ∀ x v, (x, some v) ∈ pts p → (x, some v) ∈ pts q
  inner : ∀ A M B x1 v1 x2 v2, pts p = A ++ (x1, some v1) :: (M ++ (x2, some v2) :: B) → (∀ r ∈ M, r.2 = none) →
    ∀ x, (x, none) ∈ M → (x, some (onLine x1 v1 x2 v2 x)) ∈ pts q
  left : ∀ M B x1 v1, pts p = M ++ (x1, some v1) :: B → (∀ r ∈ M, r.2 = none) → ∀ x, (x, none) ∈ M → (x, some v1) ∈ pts q
  right : ∀ A M x1 v1, pts p = A ++ (x1, some v1) :: M → (∀ r ∈ M, r.2 = none) → ∀ x, (x, none) ∈ M → (x, some v1) ∈ pts q

theorem filled_spec {p q : Prof} (h : Valid p) (hx : Inc p.x) (ha : p.m.all id = false) (fillv : Rat) (hq : q.x = p.x)
    (hu : q.ux = p.ux ∧ q.uy = p.uy) (hv : Valid q) (hy : q.y = filledY p fillv) : Filled p q := by
  have hfl := last_lt ha
  have hfi := firstValid_spec ha
  have hla := lastValid_spec ha
  have hml : p.m.length = p.x.length := by rw [h.2.1, List.length_map, h.1]
  have hql : (filledY p fillv).length = p.x.length := filledY_length p fillv
  have hmem : ∀ k x w, k < p.x.length → (p.x[k]? = some x) → (filledY p fillv)[k]? = some w → (x, w) ∈ pts q := by
    intro k x w hk h1 h2
    rw [pts_valid hv, hq, hy]
    apply List.mem_of_getElem? (i := k)
    rw [List.getElem?_zip_eq_some]
    exact ⟨h1, h2⟩
  have ptsx : ∀ k x v, (pts p)[k]? = some (x, v) → k < p.x.length ∧ p.x[k]? = some x := by
    intro k x v hk
    obtain ⟨hl, e, _⟩ := at_pts h hk
    exact ⟨hl, by rw [List.getElem?_eq_getElem hl, e]⟩
  refine ⟨hq, hu, hv, ?_, ?_, ?_, ?_, ?_⟩
  · intro r hr
    obtain ⟨k, hk, he⟩ := List.mem_iff_getElem.mp hr
    have hk' : k < p.x.length := by rw [pts_length hv, hq] at hk; exact hk
    have hg := pts_get hv k (by rw [hq]; exact hk')
    rw [List.getElem?_eq_getElem hk, he, Option.some.injEq] at hg
    rw [hg]
    have hyk : q.y[k]? = (filledY p fillv)[k]? := by rw [hy]
    rw [List.getElem?_eq_getElem (by rw [hv.1, hq]; exact hk'), filledY_get h fillv hk', Option.some.injEq] at hyk
    rw [hyk]
    have valof : ∀ i : Nat, p.m[i]? = some false → (p.y[i]?).getD none ≠ none := by
      intro i hi
      obtain ⟨r', hr', hn⟩ := mask_get h hi
      obtain ⟨_, _, e, _⟩ := at_pts h (x := r'.1) (v := r'.2) hr'
      rw [e]
      intro hc
      rw [Option.getD_some] at hc
      rw [hc] at hn
      simp at hn
    split
    · exact valof _ hfi.1
    · split
      · exact valof _ hla.1
      · split
        · simp
        · rename_i _ _ hm
          apply valof k
          rw [List.getElem?_eq_getElem (by omega)] at hm ⊢
          simpa using hm
  · intro x v hr
    obtain ⟨k, hk⟩ := List.mem_iff_getElem?.mp hr
    obtain ⟨hl, hxk⟩ := ptsx k x _ hk
    apply hmem k x _ hl hxk
    obtain ⟨_, _, e1, e2⟩ := at_pts h hk
    rw [filledY_get h fillv hl, if_neg (by have := first_le h ha hk; omega), if_neg (by have := le_last h ha hk; omega), e1, e2]
    rfl
  · intro A M B x1 v1 x2 v2 hp hM x hxM
    obtain ⟨m, hm⟩ := List.mem_iff_getElem?.mp hxM
    have hml' : m < M.length := by
      by_contra hc
      rw [List.getElem?_eq_none (by omega)] at hm
      simp at hm
    have g1 : (pts p)[A.length]? = some (x1, some v1) := by rw [hp]; simp
    have g2 : (pts p)[A.length + 1 + m]? = some (x, none) := by
      rw [hp, List.getElem?_append_right (by omega), show A.length + 1 + m - A.length = m + 1 by omega,
        List.getElem?_cons_succ, List.getElem?_append_left hml', hm]
    have g3 : (pts p)[A.length + 1 + M.length]? = some (x2, some v2) := by
      rw [hp, List.getElem?_append_right (by omega), show A.length + 1 + M.length - A.length = M.length + 1 by omega,
        List.getElem?_cons_succ, List.getElem?_append_right (by omega)]
      simp
    obtain ⟨hl, hxk⟩ := ptsx _ _ _ g2
    obtain ⟨hl1, e1, _⟩ := at_pts h g1
    obtain ⟨_, e2, _, m2⟩ := at_pts h g2
    obtain ⟨hl3, e3, _⟩ := at_pts h g3
    have lt1 : x1 < x := by rw [← e1, ← e2]; exact inc_lt hx hl1 hl (by omega)
    have lt2 : x < x2 := by rw [← e2, ← e3]; exact inc_lt hx hl hl3 (by omega)
    apply hmem _ _ _ hl hxk
    have f1 := first_le h ha g1
    have f2 := le_last h ha g3
    rw [filledY_get h fillv hl, if_neg (by omega), if_neg (by omega), m2, e2]
    have hval : valid p = A.filterMap (fun r => r.2.map fun v => (r.1, v)) ++ (x1, v1) :: (x2, v2) ::
        B.filterMap (fun r => r.2.map fun v => (r.1, v)) := by
      rw [valid_eq h, hp]
      have hM' : M.filterMap (fun r => r.2.map fun v => (r.1, v)) = [] := by
        rw [List.filterMap_eq_nil_iff]
        intro r hr
        rw [hM r hr]
        rfl
      simp [List.filterMap_append, hM']
    have hinc := valid_inc h hx
    rw [hval] at hinc ⊢
    rw [lin_spec _ hinc lt1 (le_of_lt lt2), line_onLine (by linarith)]
    rfl
  · intro M B x1 v1 hp hM x hxM
    obtain ⟨m, hm⟩ := List.mem_iff_getElem?.mp hxM
    have hml' : m < M.length := by
      by_contra hc
      rw [List.getElem?_eq_none (by omega)] at hm
      simp at hm
    have g1 : (pts p)[M.length]? = some (x1, some v1) := by rw [hp]; simp
    have g2 : (pts p)[m]? = some (x, none) := by rw [hp, List.getElem?_append_left hml', hm]
    obtain ⟨hl, hxk⟩ := ptsx _ _ _ g2
    apply hmem _ _ _ hl hxk
    have f1 := first_le h ha g1
    have f2 : firstValid p.m = M.length := by
      by_contra hc
      have hlt : firstValid p.m < M.length := by omega
      obtain ⟨r, hr, hn⟩ := mask_get h hfi.1
      rw [hp, List.getElem?_append_left hlt] at hr
      rw [hM r (List.mem_of_getElem? hr)] at hn
      simp at hn
    obtain ⟨_, _, e3, _⟩ := at_pts h g1
    rw [filledY_get h fillv hl, if_pos (by omega), f2, e3]
    rfl
  · intro A M x1 v1 hp hM x hxM
    obtain ⟨m, hm⟩ := List.mem_iff_getElem?.mp hxM
    have hml' : m < M.length := by
      by_contra hc
      rw [List.getElem?_eq_none (by omega)] at hm
      simp at hm
    have g1 : (pts p)[A.length]? = some (x1, some v1) := by rw [hp]; simp
    have g2 : (pts p)[A.length + 1 + m]? = some (x, none) := by
      rw [hp, List.getElem?_append_right (by omega), show A.length + 1 + m - A.length = m + 1 by omega,
        List.getElem?_cons_succ, hm]
    obtain ⟨hl, hxk⟩ := ptsx _ _ _ g2
    apply hmem _ _ _ hl hxk
    have f1 := le_last h ha g1
    have f0 := first_le h ha g1
    have f2 : lastValid p.m = A.length := by
      by_contra hc
      obtain ⟨r, hr, hn⟩ := mask_get h hla.1
      rw [hp, List.getElem?_append_right (by omega)] at hr
      obtain ⟨j, hj⟩ : ∃ j, lastValid p.m - A.length = j + 1 := ⟨lastValid p.m - A.length - 1, by omega⟩
      rw [hj, List.getElem?_cons_succ] at hr
      rw [hM r (List.mem_of_getElem? hr)] at hn
      simp at hn
    obtain ⟨_, _, e3, _⟩ := at_pts h g1
    rw [filledY_get h fillv hl, if_neg (by omega), if_pos (by omega), f2, e3]
    rfl

theorem valid_length {p : Prof} (h : Valid p) : (valid p).length = (pts p).countP fun r => r.2.isSome := by
  rw [valid_eq h]
  generalize pts p = l
  induction l with
  | nil => rfl
  | cons r l ih =>
    obtain ⟨a, v⟩ := r
    cases v with
    | none => simpa using ih
    | some v => simpa using ih

theorem all_false_of {p : Prof} (h : Valid p) (h2 : 1 ≤ (pts p).countP fun r => r.2.isSome) : p.m.all id = false := by
  rw [all_masked h]
  obtain ⟨r, hr, hs⟩ := List.countP_pos_iff.mp (show 0 < _ from h2)
  exact ⟨r, hr, fun hc => by simp [hc] at hs⟩

theorem any_masked {p : Prof} (h : Valid p) : p.m.any id = false ↔ ∀ r ∈ pts p, r.2 ≠ none := by
  rw [List.any_eq_false]
  constructor
  · intro hn r hr hc
    obtain ⟨k, hk⟩ := List.mem_iff_getElem?.mp hr
    obtain ⟨_, _, _, hm⟩ := at_pts h (x := r.1) (v := r.2) hk
    apply hn _ (List.mem_of_getElem? hm)
    rw [hc]; rfl
  · intro hn b hb
    obtain ⟨k, hk⟩ := List.mem_iff_getElem?.mp hb
    obtain ⟨r, hr, he⟩ := mask_get h hk
    have := hn r (List.mem_of_getElem? hr)
    rw [← he]
    cases hr2 : r.2 with
    | none => exact absurd hr2 this
    | some v => simp

/-- A profile without masked point is filled by itself. -/
theorem filled_self {p : Prof} (h : Valid p) (hn : ∀ r ∈ pts p, r.2 ≠ none) : Filled p p := by
  have no : ∀ M : List (Rat × F), (∀ r ∈ M, r ∈ pts p) → ∀ x, (x, (none : F)) ∉ M :=
    fun M hM x hx => hn _ (hM _ hx) rfl
  refine ⟨rfl, ⟨rfl, rfl⟩, h, hn, fun x v hv => hv, ?_, ?_, ?_⟩
  · intro A M B x1 v1 x2 v2 hp _ x hx
    exact absurd hx (no M (fun r hr => by rw [hp]; simp [hr]) x)
  · intro M B x1 v1 hp _ x hx
    exact absurd hx (no M (fun r hr => by rw [hp]; simp [hr]) x)
  · intro A M x1 v1 hp _ x hx
    exact absurd hx (no M (fun r hr => by rw [hp]; simp [hr]) x)

theorem blank_none {y : List F} : blank y (List.replicate y.length false) = y := blank_false y

/-- C33, for the piecewise linear interpolation without cropping, at least two valid points: the result is `Filled`. -/
theorem C33_fill_partial (hs : IsArgsort srt) {p : Prof} (h : Valid p) (hx : Inc p.x) (fillv : Rat)
    (h2 : 2 ≤ (pts p).countP fun r => r.2.isSome) :
    ∃ q, fill srt p .slinear fillv false = .ok q ∧ Filled p q := by
  unfold fill
  by_cases hm : p.m.any id = false
  · rw [if_pos hm]
    exact ⟨p, rfl, filled_self h ((any_masked h).mp hm)⟩
  · rw [if_neg hm]
    have ha := all_false_of h (by omega)
    have hfd : fillData p .slinear fillv = .ok (filledY p fillv) := by
      unfold fillData
      rw [if_neg (by rw [ha]; simp)]
      simp only
      rw [if_neg (by rw [valid_length h]; omega)]
    rw [if_neg (by simp), hfd]
    simp only
    rw [new_flag _ _ _ (filledY_length p fillv), build_inc hs p.ux p.uy hx (filledY_length p fillv) (by simp)]
    have hb : blank (filledY p fillv) (List.replicate p.x.length false) = filledY p fillv := by
      rw [← filledY_length p fillv]; exact blank_false _
    rw [hb]
    exact ⟨_, rfl, filled_spec h hx ha fillv rfl ⟨rfl, rfl⟩ ⟨filledY_length p fillv, rfl, h.2.2⟩ rfl⟩

/-- C33, in place. -/
theorem C33_fill_inplace_partial {p : Prof} (h : Valid p) (hx : Inc p.x) (fillv : Rat)
    (h2 : 2 ≤ (pts p).countP fun r => r.2.isSome) :
    ∃ q, fillInplace p .slinear fillv = (q, .ok ⟨⟩) ∧ Filled p q := by
  unfold fillInplace
  by_cases hm : p.m.any id = false
  · rw [if_pos hm]
    exact ⟨p, rfl, filled_self h ((any_masked h).mp hm)⟩
  · rw [if_neg hm]
    have ha := all_false_of h (by omega)
    have hfd : fillData p .slinear fillv = .ok (filledY p fillv) := by
      unfold fillData
      rw [if_neg (by rw [ha]; simp)]
      simp only
      rw [if_neg (by rw [valid_length h]; omega)]
    rw [hfd]
    simp only
    unfold setMask
    rw [if_pos (by simp [setY])]
    refine ⟨_, rfl, ?_⟩
    have hb : blank (setY p (filledY p fillv)).y (List.replicate (filledY p fillv).length false) = filledY p fillv := blank_false _
    -- nothing of the new values is masked, so the mask is exact
    have hv' : Valid { p with y := filledY p fillv, m := (filledY p fillv).map Option.isNone } :=
      ⟨filledY_length p fillv, rfl, h.2.2⟩
    have hF := filled_spec (q := { p with y := filledY p fillv, m := (filledY p fillv).map Option.isNone }) h hx ha fillv rfl
      ⟨rfl, rfl⟩ hv' rfl
    have hmask : (filledY p fillv).map Option.isNone = List.replicate (filledY p fillv).length false := by
      rw [List.eq_replicate_iff]
      refine ⟨by simp, fun b hb => ?_⟩
      rw [List.mem_map] at hb
      obtain ⟨w, hw, rfl⟩ := hb
      obtain ⟨k, hk⟩ := List.mem_iff_getElem?.mp hw
      have hkl : k < p.x.length := by
        by_contra hc
        rw [List.getElem?_eq_none (by rw [filledY_length]; omega)] at hk
        simp at hk
      have := hF.complete (p.x[k], w) (by
        rw [pts_valid hv']
        apply List.mem_of_getElem? (i := k)
        rw [List.getElem?_zip_eq_some]
        exact ⟨List.getElem?_eq_getElem hkl, hk⟩)
      cases w with
      | none => exact absurd rfl this
      | some v => rfl
    have he : ({ setY p (filledY p fillv) with
        m := List.replicate (filledY p fillv).length false
        y := blank (setY p (filledY p fillv)).y (List.replicate (filledY p fillv).length false) } : Prof) =
        { p with y := filledY p fillv, m := (filledY p fillv).map Option.isNone } := by
      rw [hb, hmask]
      rfl
    rw [he]
    exact hF

/-- A profile with masked points at both ends and inside. -/
def ex3 : Prof := ⟨[0, 1, 2, 4, 5, 7], [none, some 1, none, none, some 9, none], [true, false, true, true, false, true], .m, .s⟩

example : Valid ex3 ∧ 2 ≤ (pts ex3).countP fun r => r.2.isSome := by unfold Valid ex3; decide +kernel

example : ((fill argsort ex3 .slinear 0 false).toOption.map pts) =
    some [(0, some 1), (1, some 1), (2, some 3), (4, some 7), (5, some 9), (7, some 9)] := by decide +kernel

example : pts (fillInplace ex3 .slinear 0).1 =
    [(0, some 1), (1, some 1), (2, some 3), (4, some 7), (5, some 9), (7, some 9)] := by decide +kernel

/-- C33 fails for the kind 'value': every valid value is overwritten by the filling value, and every masked point stays
masked. -/
theorem C33_value_violated (hs : IsArgsort srt) {p : Prof} (h : Valid p) (hx : Inc p.x) (fillv : Rat)
    (hm : ∃ r ∈ pts p, r.2 = none) (hv : ∃ r ∈ pts p, r.2 ≠ none) :
    ∃ q, fill srt p .value fillv false = .ok q ∧ pts q = (pts p).map fun r => (r.1, r.2.map fun _ => fillv) := by
  unfold fill
  have hm' : ¬ p.m.any id = false := by
    rw [any_masked h]
    push Not
    exact hm
  have ha := (all_masked h).mpr hv
  rw [if_neg hm', if_neg (by simp)]
  have hfd : fillData p .value fillv = .ok (valueY p fillv) := by
    unfold fillData
    rw [if_neg (by rw [ha]; simp)]
  have hval : valueY p fillv = p.y.map fun w => w.map fun _ => fillv := by
    unfold valueY
    rw [getY_valid h, h.2.1]
    generalize p.y = y
    induction y with
    | nil => rfl
    | cons w y ih =>
      rw [List.map_cons, List.zipWith_cons_cons, ih, List.map_cons]
      cases w <;> rfl
  have hl : (valueY p fillv).length = p.x.length := by rw [hval, List.length_map, h.1]
  rw [hfd]
  simp only
  rw [new_flag _ _ _ hl, build_inc hs p.ux p.uy hx hl (by simp)]
  have hb : blank (valueY p fillv) (List.replicate p.x.length false) = valueY p fillv := by rw [← hl]; exact blank_false _
  rw [hb]
  refine ⟨_, rfl, ?_⟩
  have hq : Valid ⟨p.x, valueY p fillv, (valueY p fillv).map Option.isNone, p.ux, p.uy⟩ := ⟨hl, rfl, h.2.2⟩
  rw [pts_valid hq, pts_valid h]
  show p.x.zip (valueY p fillv) = _
  rw [hval, List.zip_map_right]
  rfl

example : ((fill argsort ex1 .value 0 false).toOption.map pts) = some ((pts ex1).map fun r => (r.1, r.2.map fun _ => 0)) := by
  decide +kernel

/-- C33 fails with `crop=True`: any profile with a masked point raises TypeError. -/
theorem C33_crop_violated {p : Prof} (h : Valid p) (k : Kind) (fillv : Rat) (hm : ∃ r ∈ pts p, r.2 = none) :
    fill srt p k fillv true = .error .typeError := by
  unfold fill
  have hm' : ¬ p.m.any id = false := by
    rw [any_masked h]
    push Not
    exact hm
  rw [if_neg hm', if_pos rfl]

/-- C33 fails with a single valid point: the nearest value exists, but the interpolation raises ValueError. -/
theorem C33_single_violated {p : Prof} (h : Valid p) (fillv : Rat) (hm : ∃ r ∈ pts p, r.2 = none)
    (h1 : ((pts p).countP fun r => r.2.isSome) = 1) : fill srt p .slinear fillv false = .error .valueError := by
  unfold fill
  have hm' : ¬ p.m.any id = false := by
    rw [any_masked h]
    push Not
    exact hm
  have ha := all_false_of h (by omega)
  have hfd : fillData p .slinear fillv = .error .valueError := by
    unfold fillData
    rw [if_neg (by rw [ha]; simp)]
    simp only
    rw [if_pos (by rw [valid_length h]; omega)]
  rw [if_neg hm', if_neg (by simp), hfd]

/-- C33: a profile with no valid point is refused. -/
theorem C33_no_value {p : Prof} (h : Valid p) (k : Kind) (fillv : Rat) (hne : p.x ≠ []) (hm : ∀ r ∈ pts p, r.2 = none) :
    fill srt p k fillv false = .error .exception := by
  have ha : p.m.all id = true := by
    by_contra hc
    obtain ⟨r, hr, hn⟩ := (all_masked h).mp (by simpa using hc)
    exact hn (hm r hr)
  have hm' : ¬ p.m.any id = false := by
    rw [any_masked h]
    push Not
    have hpos : 0 < p.x.length := List.length_pos_iff.mpr hne
    exact ⟨_, List.mem_of_getElem? (pts_get h 0 hpos), hm _ (List.mem_of_getElem? (pts_get h 0 hpos))⟩
  unfold fill
  rw [if_neg hm', if_neg (by simp)]
  unfold fillData
  rw [if_pos ha]

end IMT.Profile
