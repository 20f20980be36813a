import Verif.Profile.Interp

/-! Arithmetic of profiles: C36 and C92. -/

namespace IMT.Profile

variable {srt : List Rat → List Nat}

/-- The constructor on aligned arrays: the points are those of the arrays, in some order. -/
theorem new_perm (hs : IsArgsort srt) {x : List Rat} {y : List F} {m : List Bool} (ux uy : Sym) (hy : y.length = x.length)
    (hm : m.length = x.length) :
    ∃ q, new srt x y (.arr m) ux uy = .ok q ∧ Valid q ∧ (pts q).Perm (x.zip (blank y m)) ∧ q.ux = ux ∧ q.uy = uy := by
  refine ⟨_, new_arr ux uy hy hm, (build_spec hs ux uy hy hm).1, ?_, rfl, rfl⟩
  rw [(build_spec hs ux uy hy hm).2]
  exact take_nodup hs x _ (by simp [blank_length y m (by omega), hy])

theorem new_flag_perm (hs : IsArgsort srt) {x : List Rat} {y : List F} (b : Bool) (ux uy : Sym) (hy : y.length = x.length) :
    ∃ q, new srt x y (.flag b) ux uy = .ok q ∧ Valid q ∧ (pts q).Perm (x.zip y) ∧ q.ux = ux ∧ q.uy = uy := by
  have hm : (List.replicate x.length false).length = x.length := by simp
  refine ⟨_, new_flag b ux uy hy, (build_spec hs ux uy hy hm).1, ?_, rfl, rfl⟩
  rw [(build_spec hs ux uy hy hm).2, ← hy, blank_false]
  exact take_nodup hs x _ (by simp [hy])

theorem blank_absorb {y : List F} {m : List Bool} (h : y.length = m.length)
    (hn : ∀ (k : Nat), m[k]? = some true → y[k]? = some none) : blank y m = y := by
  induction y generalizing m with
  | nil => simp [blank]
  | cons v y ih =>
    rcases m with _ | ⟨b, m⟩
    · simp at h
    · unfold blank
      rw [List.zipWith_cons_cons]
      have := ih (m := m) (by simpa using h) fun k hk => by
        have := hn (k + 1) (by simpa using hk)
        simpa using this
      unfold blank at this
      rw [this]
      cases b with
      | false => rfl
      | true =>
        have := hn 0 (by simp)
        simp at this
        simp [this]

/-- Pointwise combination of two profiles on the same abscissae. -/
def combine (g : F → F → F) (p q : Prof) : List (Rat × F) := List.zipWith (fun r s => (r.1, g r.2 s.2)) (pts p) (pts q)

theorem zip_zipWith {x : List Rat} {y z : List F} (g : F → F → F) (h1 : y.length = x.length) (h2 : z.length = x.length) :
    x.zip (List.zipWith g y z) = List.zipWith (fun r s => (r.1, g r.2 s.2)) (x.zip y) (x.zip z) := by
  induction x generalizing y z with
  | nil => simp
  | cons a x ih =>
    rcases y with _ | ⟨b, y⟩
    · simp at h1
    · rcases z with _ | ⟨c, z⟩
      · simp at h2
      · simp only [List.zip_cons_cons, List.zipWith_cons_cons]
        rw [ih (by simpa using h1) (by simpa using h2)]

/-- A strict operation of masked arrays gives NaN wherever the union of the masks is true. -/
theorem combine_blank {p q : Prof} (hp : Valid p) (hq : Valid q) (hx : p.x = q.x) (g : F → F → F)
    (g1 : ∀ w, g none w = none) (g2 : ∀ v, g v none = none) :
    p.x.zip (blank (List.zipWith g p.y q.y) (List.zipWith (· || ·) p.m q.m)) = combine g p q := by
  have hl : p.y.length = q.y.length := by rw [hp.1, hq.1, hx]
  rw [blank_absorb]
  · unfold combine
    rw [pts_valid hp, pts_valid hq, ← hx, zip_zipWith g hp.1 (by rw [hq.1, hx])]
  · rw [hp.2.1, hq.2.1]; simp
  · intro k hk
    rw [hp.2.1, hq.2.1, List.getElem?_zipWith, List.getElem?_map, List.getElem?_map] at hk
    rw [List.getElem?_zipWith]
    cases e1 : p.y[k]? with
    | none => rw [e1] at hk; simp at hk
    | some v =>
      cases e2 : q.y[k]? with
      | none => rw [e1, e2] at hk; simp at hk
      | some w =>
        rw [e1, e2] at hk
        simp at hk
        rcases hk with hk | hk
        · rw [hk]; simp [g1]
        · rw [hk]; simp [g2]

/-- Membership in the combination: abscissae are shared, so the points can be read one by one. -/
theorem combine_mem {p q : Prof} (hp : Valid p) (hq : Valid q) (hx : p.x = q.x) (hi : Inc p.x) (g : F → F → F) (x : Rat)
    (w : F) : (x, w) ∈ combine g p q ↔ ∃ v v', (x, v) ∈ pts p ∧ (x, v') ∈ pts q ∧ w = g v v' := by
  unfold combine
  constructor
  · intro hm
    obtain ⟨k, hk⟩ := List.mem_iff_getElem?.mp hm
    rw [List.getElem?_zipWith] at hk
    cases e1 : (pts p)[k]? with
    | none => rw [e1] at hk; simp at hk
    | some r =>
      cases e2 : (pts q)[k]? with
      | none => rw [e1, e2] at hk; simp at hk
      | some s =>
        rw [e1, e2] at hk
        simp at hk
        obtain ⟨l1, x1, _⟩ := at_pts hp (x := r.1) (v := r.2) e1
        obtain ⟨l2, x2, _⟩ := at_pts hq (x := s.1) (v := s.2) e2
        have : s.1 = r.1 := by
          rw [← x1, ← x2]
          simp only [hx]
        refine ⟨r.2, s.2, ?_, ?_, hk.2.symm⟩
        · rw [← hk.1]; exact List.mem_of_getElem? e1
        · rw [← hk.1, ← this]; exact List.mem_of_getElem? e2
  · rintro ⟨v, v', h1, h2, rfl⟩
    obtain ⟨k, hk⟩ := List.mem_iff_getElem?.mp h1
    obtain ⟨j, hj⟩ := List.mem_iff_getElem?.mp h2
    obtain ⟨l1, x1, _⟩ := at_pts hp hk
    obtain ⟨l2, x2, _⟩ := at_pts hq hj
    have hjl : j < p.x.length := by rw [hx]; exact l2
    have : k = j := inc_inj hi l1 hjl (by rw [x1]; simp only [hx]; exact x2.symm)
    subst this
    apply List.mem_of_getElem? (i := k)
    rw [List.getElem?_zipWith, hk, hj]

/-- C36, units of the same size: the sum is taken point by point, masked where one of the operands is. -/
theorem C36_add_partial (hs : IsArgsort srt) {p q : Prof} (hp : Valid p) (hq : Valid q) (hx : p.x = q.x)
    (hux : p.ux.Compat q.ux) (huy : p.uy = q.uy) (hz : p.uy.size ≠ 0) :
    ∃ r, add srt p q = .ok r ∧ Valid r ∧ (pts r).Perm (combine addF p q) ∧ r.ux = p.ux ∧ r.uy = p.uy := by
  unfold add
  rw [if_neg (by rw [not_not]; exact ⟨hux, by rw [huy]; exact ⟨rfl, rfl, rfl⟩⟩), if_neg (by rw [hx]; simp), if_neg (by simp [hx])]
  have hf : fact p.uy q.uy = 1 := by unfold fact; rw [← huy]; exact div_self hz
  rw [hf, getY_valid hp, getY_valid hq]
  have hid : q.y.map (Option.map fun v => (1 : Rat) * v) = q.y := by simp
  rw [hid]
  obtain ⟨r, e1, e2, e3, e4, e5⟩ := new_perm hs (x := p.x) (y := List.zipWith addF p.y q.y) (m := List.zipWith (· || ·) p.m q.m)
    p.ux p.uy (by simp [hp.1, hq.1, hx]) (by rw [hp.2.1, hq.2.1]; simp [hp.1, hq.1, hx])
  refine ⟨r, e1, e2, ?_, e4, e5⟩
  rw [combine_blank hp hq hx addF (fun _ => rfl) (fun v => by cases v <;> rfl)] at e3
  exact e3

example : add argsort ⟨[0, 1], [some 1, none], [false, true], .m, .s⟩ ⟨[0, 1], [some 2, some 3], [false, false], .m, .s⟩ =
    .ok ⟨[0, 1], [some 3, none], [false, true], .m, .s⟩ := by decide +kernel

/-- C36 fails: the second profile is converted with the inverse factor, so that whenever the units have different
(positive) sizes and the second value is not zero, the stored number is not the sum expressed in the unit of the first. -/
theorem C36_add_units_violated (hs : IsArgsort srt) {p q : Prof} (hp : Valid p) (hq : Valid q) (hx : p.x = q.x) (hi : Inc p.x)
    (hux : p.ux.Compat q.ux) (huy : p.uy.Compat q.uy) (h1 : 0 < p.uy.size) (h2 : 0 < q.uy.size) (hne : p.uy.size ≠ q.uy.size)
    {x a b : Rat} (ha : (x, some a) ∈ pts p) (hb : (x, some b) ∈ pts q) (hb0 : b ≠ 0) :
    ∃ r c, add srt p q = .ok r ∧ r.uy = p.uy ∧ (x, some c) ∈ pts r ∧ c * r.uy.size ≠ a * p.uy.size + b * q.uy.size := by
  unfold add
  rw [if_neg (by rw [not_not]; exact ⟨hux, huy⟩), if_neg (by rw [hx]; simp), if_neg (by simp [hx]), getY_valid hp, getY_valid hq]
  have hpl : p.y.length = p.x.length := hp.1
  have hql : (q.y.map (Option.map (fact p.uy q.uy * ·))).length = p.x.length := by rw [List.length_map, hq.1, hx]
  have hq' : Valid { q with y := q.y.map (Option.map (fact p.uy q.uy * ·)) } := by
    refine ⟨by simp [hq.1], ?_, hq.2.2⟩
    show q.m = _
    rw [hq.2.1, List.map_map]
    apply List.map_congr_left
    intro v _
    cases v <;> rfl
  obtain ⟨r, e1, e2, e3, e4, e5⟩ := new_perm hs (x := p.x)
    (y := List.zipWith addF p.y (q.y.map (Option.map (fact p.uy q.uy * ·)))) (m := List.zipWith (· || ·) p.m q.m)
    p.ux p.uy (by simp [hp.1, hq.1, hx]) (by rw [hp.2.1, hq.2.1]; simp [hp.1, hq.1, hx])
  have hc := combine_blank hp hq' hx addF (fun _ => rfl) (fun v => by cases v <;> rfl)
  have hmem : (x, some (a + fact p.uy q.uy * b)) ∈ combine addF p { q with y := q.y.map (Option.map (fact p.uy q.uy * ·)) } := by
    rw [combine_mem hp hq' hx hi]
    refine ⟨some a, some (fact p.uy q.uy * b), ha, ?_, rfl⟩
    rw [pts_valid hq', show ({ q with y := q.y.map (Option.map (fact p.uy q.uy * ·)) } : Prof).y =
      q.y.map (Option.map (fact p.uy q.uy * ·)) from rfl, List.zip_map_right, List.mem_map]
    refine ⟨(x, some b), ?_, rfl⟩
    rw [← pts_valid hq]
    exact hb
  refine ⟨r, a + fact p.uy q.uy * b, e1, e5, ?_, ?_⟩
  · rw [e3.mem_iff]
    rw [← hc] at hmem
    exact hmem
  · rw [e5]
    unfold fact
    intro he
    have h4 : p.uy.size ^ 2 = q.uy.size ^ 2 := by
      have : (p.uy.size / q.uy.size * b) * p.uy.size = b * q.uy.size := by linarith
      field_simp at this
      exact this
    rcases lt_or_gt_of_ne hne with hl | hl
    · nlinarith
    · nlinarith

example : ((add argsort ⟨[0, 1], [some 1, some 1], [false, false], .s, .m⟩ ⟨[0, 1], [some 5, some 5], [false, false], .s, .mm⟩).toOption.map
    pts) = some [(0, some 5001), (1, some 5001)] := by decide +kernel

/-- C36: profiles on different abscissae, or of different dimensions, are refused. -/
theorem C36_add_refused (p q : Prof) (h : p.x ≠ q.x ∨ ¬ p.ux.Compat q.ux ∨ ¬ p.uy.Compat q.uy) :
    add srt p q = .error .valueError := by
  unfold add
  by_cases h1 : ¬ (p.ux.Compat q.ux ∧ p.uy.Compat q.uy)
  · rw [if_pos h1]
  · rw [if_neg h1]
    by_cases h2 : p.x.length ≠ q.x.length
    · rw [if_pos h2]
    · rw [if_neg h2, if_pos]
      rcases h with h | h | h
      · exact h
      · exact absurd (fun hc => h hc.1) h1
      · exact absurd (fun hc => h hc.2) h1

/-- The quotient of two values, masked at zero. -/
def quot (v w : F) : F := if w = some 0 then none else divF v w

theorem div_values (y z : List F) :
    List.zipWith divF (nanAtZero y z) (oneAtZero z) = List.zipWith quot y z := by
  induction y generalizing z with
  | nil => simp [nanAtZero]
  | cons v y ih =>
    rcases z with _ | ⟨w, z⟩
    · simp [nanAtZero, oneAtZero]
    · have := ih z
      unfold nanAtZero oneAtZero at this ⊢
      rw [List.zipWith_cons_cons, List.map_cons, List.zipWith_cons_cons, List.zipWith_cons_cons, this]
      congr 1
      unfold quot
      by_cases hw : w = some 0
      · simp [hw, divF]
      · simp [hw]

/-- C36: the quotient is masked where one of the operands is masked or where the divisor is zero, and is the quotient of
the values elsewhere. -/
theorem C36_div (hs : IsArgsort srt) {p q : Prof} (hp : Valid p) (hq : Valid q) (hx : p.x = q.x) :
    ∃ r, (div srt p q).2 = .ok r ∧ Valid r ∧ (pts r).Perm (combine quot p q) ∧ r.ux = p.ux ∧ r.uy = p.uy.div q.uy := by
  unfold div
  rw [if_neg (by simp [hx]), getY_valid hp, getY_valid hq, div_values]
  obtain ⟨r, e1, e2, e3, e4, e5⟩ := new_perm hs (x := p.x) (y := List.zipWith quot p.y q.y) (m := List.zipWith (· || ·) p.m q.m)
    p.ux (p.uy.div q.uy) (by simp [hp.1, hq.1, hx]) (by rw [hp.2.1, hq.2.1]; simp [hp.1, hq.1, hx])
  refine ⟨r, e1, e2, ?_, e4, e5⟩
  rw [combine_blank hp hq hx quot (fun w => by unfold quot; split <;> cases w <;> rfl)
    (fun v => by unfold quot; cases v <;> rfl)] at e3
  exact e3

/-- C36 fails: wherever the divisor was zero it now reads one. -/
theorem C36_div_operand_violated {p q : Prof} (hq : Valid q) (hx : p.x = q.x) {x : Rat} (hz : (x, some 0) ∈ pts q) :
    (x, some 1) ∈ pts (div srt p q).1 := by
  unfold div
  rw [if_neg (by simp [hx]), getY_valid hq]
  have hv : Valid { q with y := oneAtZero q.y } := by
    refine ⟨by simp [oneAtZero, hq.1], ?_, hq.2.2⟩
    show q.m = (oneAtZero q.y).map _
    rw [hq.2.1]
    unfold oneAtZero
    rw [List.map_map]
    apply List.map_congr_left
    intro v _
    by_cases h0 : v = some 0
    · simp [h0]
    · simp [h0]
  rw [pts_valid hv, show ({ q with y := oneAtZero q.y } : Prof).y = oneAtZero q.y from rfl]
  unfold oneAtZero
  rw [List.zip_map_right, List.mem_map]
  refine ⟨(x, some 0), ?_, by simp⟩
  rw [← pts_valid hq]
  exact hz

/-- C36: a divisor without zero is left as it was. -/
theorem C36_div_operand_partial {p q : Prof} (hq : Valid q) (hz : ∀ x, (x, some 0) ∉ pts q) : (div srt p q).1 = q := by
  unfold div
  split
  · rfl
  · rw [getY_valid hq]
    have : oneAtZero q.y = q.y := by
      unfold oneAtZero
      conv_rhs => rw [← List.map_id q.y]
      apply List.map_congr_left
      intro v hv
      rw [if_neg]
      · rfl
      · rintro rfl
        obtain ⟨k, hk⟩ := List.mem_iff_getElem?.mp hv
        have hl : k < q.x.length := by
          by_contra hc
          rw [List.getElem?_eq_none (by rw [hq.1]; omega)] at hk
          simp at hk
        apply hz q.x[k]
        rw [pts_valid hq]
        apply List.mem_of_getElem? (i := k)
        rw [List.getElem?_zip_eq_some]
        exact ⟨List.getElem?_eq_getElem hl, hk⟩
    rw [this]

example : (div argsort ⟨[0, 1, 2], [some 4, some 5, none], [false, false, true], .m, .m⟩
      ⟨[0, 1, 2], [some 2, some 0, some 3], [false, false, false], .m, .s⟩) =
    (⟨[0, 1, 2], [some 2, some 1, some 3], [false, false, false], .m, .s⟩,
      .ok ⟨[0, 1, 2], [some 2, none, none], [false, true, true], .m, Sym.m.div .s⟩) := by decide +kernel

/-- C92: multiplying by a number multiplies the values and keeps masked points masked. -/
theorem C92_mul (hs : IsArgsort srt) {p : Prof} (hp : Valid p) (c : Rat) :
    ∃ r, mulNum srt p c = .ok r ∧ Valid r ∧ (pts r).Perm ((pts p).map fun s => (s.1, s.2.map (· * c))) ∧ r.ux = p.ux ∧
      r.uy = p.uy := by
  unfold mulNum
  rw [getY_valid hp]
  obtain ⟨r, e1, e2, e3, e4, e5⟩ := new_flag_perm hs (x := p.x) (y := p.y.map (Option.map (· * c))) false p.ux p.uy
    (by simp [hp.1])
  refine ⟨r, e1, e2, ?_, e4, e5⟩
  rw [List.zip_map_right, ← pts_valid hp] at e3
  exact e3

/-- C92: adding a number to a profile adds it to every value. -/
theorem C92_add_number (hs : IsArgsort srt) {p : Prof} (hp : Valid p) (c : Rat) :
    ∃ r, addNum srt p c = .ok r ∧ Valid r ∧ (pts r).Perm ((pts p).map fun s => (s.1, s.2.map (· + c))) ∧ r.ux = p.ux ∧
      r.uy = p.uy := by
  unfold addNum
  rw [getY_valid hp]
  obtain ⟨r, e1, e2, e3, e4, e5⟩ := new_perm hs (x := p.x) (y := p.y.map (Option.map (· + c))) (m := p.m) p.ux p.uy
    (by simp [hp.1]) (by rw [hp.2.1]; simp [hp.1])
  refine ⟨r, e1, e2, ?_, e4, e5⟩
  have hm : (p.y.map (Option.map (· + c))).map Option.isNone = p.m := by
    rw [hp.2.1, List.map_map]
    apply List.map_congr_left
    intro v _
    cases v <;> rfl
  rw [← hm, blank_isNone, List.zip_map_right, ← pts_valid hp] at e3
  exact e3

/-- C92: the opposite of a profile. -/
theorem C92_neg (hs : IsArgsort srt) {p : Prof} (hp : Valid p) :
    ∃ r, neg srt p = .ok r ∧ Valid r ∧ (pts r).Perm ((pts p).map fun s => (s.1, s.2.map fun v => -v)) ∧ r.ux = p.ux ∧
      r.uy = p.uy := by
  unfold neg
  rw [getY_valid hp]
  obtain ⟨r, e1, e2, e3, e4, e5⟩ := new_perm hs (x := p.x) (y := p.y.map (Option.map fun v => -v)) (m := p.m) p.ux p.uy
    (by simp [hp.1]) (by rw [hp.2.1]; simp [hp.1])
  refine ⟨r, e1, e2, ?_, e4, e5⟩
  have hm : (p.y.map (Option.map fun v => -v)).map Option.isNone = p.m := by
    rw [hp.2.1, List.map_map]
    apply List.map_congr_left
    intro v _
    cases v <;> rfl
  rw [← hm, blank_isNone, List.zip_map_right, ← pts_valid hp] at e3
  exact e3

/-- C92, positive powers: values to the power, masked points stay masked, unit to the power. -/
theorem C92_pow_partial (hs : IsArgsort srt) {p : Prof} (hp : Valid p) {k : Nat} (hk : k ≠ 0) :
    ∃ r, pow srt p k = .ok r ∧ Valid r ∧ (pts r).Perm ((pts p).map fun s => (s.1, s.2.map (· ^ k))) ∧ r.ux = p.ux ∧
      r.uy.size = p.uy.size ^ k := by
  unfold pow
  rw [getY_valid hp]
  obtain ⟨r, e1, e2, e3, e4, e5⟩ := new_flag_perm hs (x := p.x) (y := p.y.map (powF k)) false p.ux (powU p.uy k)
    (by simp [hp.1])
  refine ⟨r, e1, e2, ?_, e4, by rw [e5]; rfl⟩
  rw [List.zip_map_right, ← pts_valid hp] at e3
  have : powF k = Option.map (· ^ k) := by funext v; unfold powF; rw [if_neg hk]
  rw [this] at e3
  exact e3

/-- C92 fails for the power 0: every masked point gets the value 1. -/
theorem C92_pow_zero_violated (hs : IsArgsort srt) {p : Prof} (hp : Valid p) :
    ∃ r, pow srt p 0 = .ok r ∧ ∀ x, (x, none) ∈ pts p → (x, some 1) ∈ pts r := by
  unfold pow
  rw [getY_valid hp]
  obtain ⟨r, e1, _, e3, _, _⟩ := new_flag_perm hs (x := p.x) (y := p.y.map (powF 0)) false p.ux (powU p.uy 0)
    (by simp [hp.1])
  refine ⟨r, e1, fun x hx => ?_⟩
  rw [e3.mem_iff, List.zip_map_right, List.mem_map]
  refine ⟨(x, none), ?_, rfl⟩
  rw [← pts_valid hp]
  exact hx

example : ((pow argsort ex1 0).toOption.map pts) = some ((pts ex1).map fun s => (s.1, some 1)) ∧
    ((mulNum argsort ex3 2).toOption.map pts) = some [(0, none), (1, some 2), (2, none), (4, none), (5, some 18), (7, none)] := by
  decide +kernel

end IMT.Profile
