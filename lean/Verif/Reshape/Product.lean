import Verif.Reshape.Even

/-! Product of two profiles: C232. -/

namespace IMT.Reshape

open IMT.Profile

variable {srt : List Rat → List Nat} {p q : Prof}

theorem sel_all {α : Type} (l : List α) (m : List Bool) (hl : l.length = m.length) (hm : ∀ b ∈ m, b = true) : sel l m = l := by
  unfold sel
  induction l generalizing m with
  | nil => simp
  | cons a l ih =>
    rcases m with _ | ⟨b, m⟩
    · simp at hl
    · have hb : b = true := hm b (by simp)
      subst hb
      have := ih m (by simpa using hl) fun c hc => hm c (by simp [hc])
      rw [List.zip_cons_cons, List.filter_cons_of_pos (by rfl), List.map_cons, this]

theorem inWindow_all {w : Rat × Rat} {x : List Rat} (h : ∀ a ∈ x, w.1 ≤ a ∧ a ≤ w.2) : ∀ b ∈ inWindow w x, b = true := by
  intro b hb
  obtain ⟨a, ha, rfl⟩ := List.mem_map.1 hb
  exact decide_eq_true ⟨(h a ha).2, (h a ha).1⟩

/-- Specification: the product of two values, one of them masked giving a masked one. -/
def times : F → F → F
  | some a, some b => some (a * b)
  | _, _ => none

theorem mulF_times (a b : F) : mulF a b = times a b := by cases a <;> cases b <;> rfl

/-- When all the abscissae are in the window the values are multiplied one by one. -/
theorem mul_index (hs : IsArgsort srt) (hp : Valid p) (hq : Valid q) (ip : Inc p.x) (hn : q.x.length = p.x.length) (h2 : 2 ≤ p.x.length)
    (hu : p.ux = q.ux) (ht : tooHigh p.x q.x = false)
    (wp : ∀ a ∈ p.x, (shared p.x q.x).1 ≤ a ∧ a ≤ (shared p.x q.x).2)
    (wq : ∀ a ∈ q.x, (shared p.x q.x).1 ≤ a ∧ a ≤ (shared p.x q.x).2) :
    ∃ r, mul srt p q = .ok r ∧ Valid r ∧ r.x = p.x ∧ r.y = List.zipWith times p.y q.y ∧ r.ux = p.ux ∧ r.uy = p.uy.mul q.uy := by
  have lp : (inWindow (shared p.x q.x) p.x).length = p.x.length := by simp [inWindow]
  have lq : (inWindow (shared p.x q.x) q.x).length = q.x.length := by simp [inWindow]
  have mp := hp.2.1
  have mq := hq.2.1
  have lpm : p.m.length = p.x.length := by rw [mp]; simp [hp.1]
  have lqm : q.m.length = q.x.length := by rw [mq]; simp [hq.1]
  have sp1 := sel_all p.x _ lp.symm (inWindow_all wp)
  have sq1 := sel_all q.x _ lq.symm (inWindow_all wq)
  have sp2 := sel_all (getY p) (inWindow (shared p.x q.x) p.x) (by rw [lp, getY_valid hp, hp.1]) (inWindow_all wp)
  have sq2 := sel_all (getY q) (inWindow (shared p.x q.x) q.x) (by rw [lq, getY_valid hq, hq.1]) (inWindow_all wq)
  have sp3 := sel_all p.m (inWindow (shared p.x q.x) p.x) (by rw [lp, lpm]) (inWindow_all wp)
  have sq3 := sel_all q.m (inWindow (shared p.x q.x) q.x) (by rw [lq, lqm]) (inWindow_all wq)
  have hy : (List.zipWith mulF p.y q.y).length = p.x.length := by simp [hp.1, hq.1, hn]
  have hm : (List.zipWith (· || ·) p.m q.m).length = p.x.length := by simp [lpm, lqm, hn]
  have hmask : List.zipWith (· || ·) p.m q.m = (List.zipWith mulF p.y q.y).map Option.isNone := by
    rw [mp, mq, List.map_zipWith]
    generalize p.y = y
    generalize q.y = z
    induction y generalizing z with
    | nil => simp
    | cons a y ih =>
      rcases z with _ | ⟨b, z⟩
      · simp
      · simp only [List.map_cons, List.zipWith_cons_cons, ih]
        cases a <;> cases b <;> rfl
  refine ⟨_, ?_, (build_spec hs p.ux (p.uy.mul q.uy) hy hm).1, ?_, ?_, rfl, rfl⟩
  · unfold mul
    rw [if_neg (by omega), if_neg (by simp [ht]), if_neg (by simp [hu]), if_neg (by omega), sp1, sq1,
      if_neg (by omega), sp2, sq2, sp3, sq3, getY_valid hp, getY_valid hq]
    exact new_arr p.ux (p.uy.mul q.uy) hy hm
  · rw [build_inc hs _ _ ip hy hm]
  · rw [build_inc hs _ _ ip hy hm]
    simp only
    rw [hmask, blank_isNone]
    rw [show mulF = times from funext fun a => funext fun b => mulF_times a b]

theorem mean_abs_nonneg (x : List Rat) : 0 ≤ (x.map fun v => |v|).sum / x.length := by
  refine div_nonneg (List.sum_nonneg ?_) (by positivity)
  intro a ha
  obtain ⟨b, -, rfl⟩ := List.mem_map.1 ha
  exact abs_nonneg b

theorem tooHigh_false {x x' : List Rat} (h : ∀ (i : Nat) (a b : Rat), x[i]? = some a → x'[i]? = some b → b ≤ a) :
    tooHigh x x' = false := by
  unfold tooHigh
  rw [List.any_eq_false]
  intro c hc
  obtain ⟨i, hi⟩ := List.mem_iff_getElem?.1 hc
  rw [List.getElem?_zipWith] at hi
  cases h1 : x[i]? with
  | none => rw [h1] at hi; simp at hi
  | some a =>
    cases h2 : x'[i]? with
    | none => rw [h1, h2] at hi; simp at hi
    | some b =>
      rw [h1, h2] at hi
      simp only at hi
      have := h i a b h1 h2
      have hm := mean_abs_nonneg x
      rw [← Option.some.inj hi]
      simp only [id, decide_eq_true_eq, not_lt, gt_iff_lt]
      linarith

/-- The first step, the first and the last abscissa. -/
theorem first_last {x : List Rat} (hi : Inc x) (h2 : 2 ≤ x.length) :
    ∃ a c b, x.head? = some a ∧ x[1]? = some c ∧ x.getLast? = some b ∧ a < c ∧ step x = c - a ∧ ∀ d ∈ x, a ≤ d ∧ d ≤ b := by
  rcases hx : x with _ | ⟨a, _ | ⟨c, l⟩⟩
  · rw [hx] at h2; simp at h2
  · rw [hx] at h2; simp at h2
  rw [← hx]
  have hne : x ≠ [] := by rw [hx]; simp
  refine ⟨a, c, x.getLast hne, by rw [hx]; rfl, by rw [hx]; rfl, List.getLast?_eq_some_getLast hne, ?_, by simp [hx, step, steps], ?_⟩
  · rw [hx] at hi
    exact (inc_cons hi).1 c (by simp)
  · intro d hd
    obtain ⟨i, hid⟩ := List.mem_iff_getElem?.1 hd
    have hlt := getElem?_some_lt hid
    have h0 : x[0]? = some a := by rw [hx]; rfl
    have hl : x[x.length - 1]? = some (x.getLast hne) := by
      rw [← List.getLast?_eq_getElem?, List.getLast?_eq_some_getLast hne]
    constructor
    · rcases Nat.eq_zero_or_pos i with rfl | hp
      · rw [h0] at hid; exact le_of_eq (Option.some.inj hid)
      · exact (Path.inc_get.1 hi 0 i a d h0 hid hp).le
    · rcases Nat.lt_or_ge i (x.length - 1) with hp | hp
      · exact (Path.inc_get.1 hi i (x.length - 1) d _ hid hl hp).le
      · have : i = x.length - 1 := by omega
        rw [this, hl] at hid
        exact le_of_eq (Option.some.inj hid).symm

/-- C232: the product of two profiles with the same abscissae shows the products of their values, is masked where one of them
is, and has the product of the units. -/
theorem C232_product_partial (hs : IsArgsort srt) (hp : Valid p) (hq : Valid q) (ip : Inc p.x) (hx : q.x = p.x) (h2 : 2 ≤ p.x.length)
    (hu : p.ux = q.ux) :
    ∃ r, mul srt p q = .ok r ∧ Valid r ∧ r.x = p.x ∧ r.ux = p.ux ∧ r.uy = p.uy.mul q.uy ∧
      ∀ x v w, (x, v) ∈ pts p → (x, w) ∈ pts q → (x, times v w) ∈ pts r := by
  obtain ⟨a, c, b, ha, -, hb, hac, hst, hr⟩ := first_last ip h2
  have ma : a ∈ p.x := List.mem_of_mem_head? ha
  have mb : b ∈ p.x := List.mem_of_mem_getLast? hb
  have hw : ∀ d ∈ p.x, (shared p.x q.x).1 ≤ d ∧ d ≤ (shared p.x q.x).2 := by
    intro d hd
    obtain ⟨h1, h2⟩ := hr d hd
    unfold shared
    rw [hx, ha, hb, hst]
    simp only [Option.getD_some]
    rw [if_pos ma, if_pos mb]
    constructor <;> linarith
  obtain ⟨r, e, hv, rx, ry, u1, u2⟩ := mul_index hs hp hq ip (by rw [hx]) h2 hu
    (tooHigh_false fun i u v h1 h2 => by rw [hx, h1] at h2; exact le_of_eq (Option.some.inj h2).symm) hw (by rw [hx]; exact hx ▸ hw)
  refine ⟨r, e, hv, rx, u1, u2, ?_⟩
  intro x v w h1 h2
  rw [pts_valid hp, List.mem_iff_getElem?] at h1
  rw [pts_valid hq, List.mem_iff_getElem?] at h2
  obtain ⟨i, h1⟩ := h1
  obtain ⟨j, h2⟩ := h2
  rw [Path.zip_get] at h1 h2
  cases e1 : p.x[i]? with
  | none => rw [e1] at h1; simp at h1
  | some x1 =>
  cases e2 : p.y[i]? with
  | none => rw [e1, e2] at h1; simp at h1
  | some y1 =>
  cases e3 : q.x[j]? with
  | none => rw [e3] at h2; simp at h2
  | some x2 =>
  cases e4 : q.y[j]? with
  | none => rw [e3, e4] at h2; simp at h2
  | some y2 =>
  rw [e1, e2] at h1
  rw [e3, e4] at h2
  simp at h1 h2
  obtain ⟨rfl, rfl⟩ := h1
  obtain ⟨rfl, rfl⟩ := h2
  rw [hx] at e3
  have hij : i = j := by
    rcases Nat.lt_trichotomy i j with h | h | h
    · exact absurd (Path.inc_get.1 ip i j _ _ e1 e3 h) (lt_irrefl _)
    · exact h
    · exact absurd (Path.inc_get.1 ip j i _ _ e3 e1 h) (lt_irrefl _)
  subst hij
  rw [pts_valid hv, rx, ry, List.mem_iff_getElem?]
  refine ⟨i, ?_⟩
  rw [Path.zip_get, List.getElem?_zipWith, e1, e2, e4]

/-- C232: another profile **shifted down** by up to half a step is accepted, and its values are multiplied with those of
different abscissae. -/
theorem C232_shift_violated (hs : IsArgsort srt) (hp : Valid p) (hq : Valid q) (ip : Inc p.x) (h2 : 2 ≤ p.x.length)
    (hu : p.ux = q.ux) {x0 x1 d : Rat} (h0 : p.x[0]? = some x0) (h1 : p.x[1]? = some x1) (d0 : 0 < d) (hd : d ≤ (x1 - x0) / 2)
    (hx : q.x = p.x.map fun x => x - d) :
    ∃ r, mul srt p q = .ok r ∧ r.x = p.x ∧ r.y = List.zipWith times p.y q.y := by
  obtain ⟨a, c, b, ha, hc, hb, hac, hst, hr⟩ := first_last ip h2
  have hae : a = x0 := by rw [List.head?_eq_getElem?, h0] at ha; exact (Option.some.inj ha).symm
  have hce : c = x1 := by rw [h1] at hc; exact (Option.some.inj hc).symm
  subst hae hce
  have ma : a ∈ p.x := List.mem_of_mem_head? ha
  have mb : b ∈ p.x := List.mem_of_mem_getLast? hb
  have qa : q.x.head? = some (a - d) := by rw [hx, List.head?_map, ha]; rfl
  have qb : q.x.getLast? = some (b - d) := by rw [hx, List.getLast?_map, hb]; rfl
  have hna : a - d ∉ p.x := fun hm => by have := (hr _ hm).1; linarith
  have e1 : (shared p.x q.x).1 = a - (c - a) / 2 := by
    unfold shared
    rw [qa, ha, hst]
    simp only [Option.getD_some]
    rw [if_neg hna]
  have e2 : b ≤ (shared p.x q.x).2 := by
    unfold shared
    rw [qb, hb, hst]
    simp only [Option.getD_some]
    split <;> linarith
  have wp : ∀ u ∈ p.x, (shared p.x q.x).1 ≤ u ∧ u ≤ (shared p.x q.x).2 := by
    intro u hu
    obtain ⟨g1, g2⟩ := hr u hu
    rw [e1]
    constructor <;> linarith
  have wq : ∀ u ∈ q.x, (shared p.x q.x).1 ≤ u ∧ u ≤ (shared p.x q.x).2 := by
    intro u hu
    rw [hx] at hu
    obtain ⟨u', hu', rfl⟩ := List.mem_map.1 hu
    obtain ⟨g1, g2⟩ := hr u' hu'
    rw [e1]
    constructor <;> linarith
  obtain ⟨r, e, hv, rx, ry, -, -⟩ := mul_index hs hp hq ip (by rw [hx]; simp) h2 hu
    (tooHigh_false fun i u v g1 g2 => by
      rw [hx, List.getElem?_map, g1] at g2
      have := Option.some.inj g2
      simp only at this
      linarith) wp wq
  exact ⟨r, e, rx, ry⟩

/-- C232: abscissae above those of the first profile are refused, as are other units and other numbers of points. -/
theorem C232_refused (h : q.x.length ≠ p.x.length ∨ q.ux ≠ p.ux ∨
      ∃ (i : Nat) (a b : Rat), p.x[i]? = some a ∧ q.x[i]? = some b ∧ b - a > 1 / 1000000 * ((p.x.map fun v => |v|).sum / p.x.length)) :
    mul srt p q = .error .valueError := by
  unfold mul
  by_cases h1 : p.x.length ≠ q.x.length
  · rw [if_pos h1]
  rw [if_neg h1]
  by_cases h2 : tooHigh p.x q.x = true
  · rw [if_pos h2]
  rw [if_neg h2]
  rcases h with h | h | ⟨i, a, b, g1, g2, g3⟩
  · exact absurd (fun e => h e.symm) h1
  · rw [if_pos h]
  · exfalso
    apply h2
    unfold tooHigh
    rw [List.any_eq_true]
    refine ⟨true, ?_, rfl⟩
    rw [List.mem_iff_getElem?]
    refine ⟨i, ?_⟩
    rw [List.getElem?_zipWith, g1, g2]
    simp only [Option.some.injEq]
    exact decide_eq_true g3

/-- C232: two profiles of **one point**, at the same abscissa, cannot be multiplied. -/
theorem C232_one_point_violated (hx : q.x = p.x) (h1 : p.x.length = 1) (hu : p.ux = q.ux) :
    mul srt p q = .error .indexError := by
  have ht : tooHigh p.x q.x = false :=
    tooHigh_false fun i u v h1 h2 => by rw [hx, h1] at h2; exact le_of_eq (Option.some.inj h2).symm
  unfold mul
  rw [if_neg (by rw [hx]; simp), if_neg (by simp [ht]), if_neg (by simp [hu]), if_pos (by omega)]

/-! A product with a masked value on each side. -/

def left' : Prof where
  x := [0, 1, 3]
  y := [some 2, none, some 4]
  m := [false, true, false]
  ux := .m
  uy := .s

def right' : Prof where
  x := [0, 1, 3]
  y := [some 5, some 6, none]
  m := [false, false, true]
  ux := .m
  uy := .m

example : Valid left' ∧ Valid right' ∧ Inc left'.x ∧ right'.x = left'.x ∧ 2 ≤ left'.x.length ∧ left'.ux = right'.ux := by
  unfold Valid Inc
  decide +kernel

example : (mul argsort left' right').map pts = .ok [(0, some 10), (1, none), (3, none)] := by decide +kernel

end IMT.Reshape
