import Verif.Profile.Fill

/-! Interpolated values and positions: C34 and C93. -/

namespace IMT.Profile

variable {srt : List Rat → List Nat}

theorem atX_list {p : Prof} (h : Valid p) : (p.x.map some).zip (getY p) = (pts p).map fun r => (some r.1, r.2) := by
  rw [getY_valid h, pts_valid h, List.zip_map_left]
  rfl

theorem atY_list {p : Prof} (h : Valid p) : (getY p).zip (p.x.map some) = (pts p).map fun r => (r.2, some r.1) := by
  rw [getY_valid h, pts_valid h, List.zip_map_right]
  generalize p.x = x
  generalize p.y = y
  induction x generalizing y with
  | nil => simp
  | cons a x ih =>
    rcases y with _ | ⟨b, y⟩
    · rfl
    · simp only [List.zip_cons_cons, List.map_cons, ih y, Prod.map, id]

theorem pts_inc {p : Prof} (h : Valid p) (hx : Inc p.x) : (pts p).Pairwise fun r s => r.1 < s.1 := by
  have := hx
  unfold Inc at this
  rw [← pts_fst h, List.pairwise_map] at this
  exact this

theorem pts_unique {p : Prof} (h : Valid p) (hx : Inc p.x) {x : Rat} {y y' : F} (h1 : (x, y) ∈ pts p) (h2 : (x, y') ∈ pts p) :
    y = y' := by
  obtain ⟨i, hi, e1⟩ := List.mem_iff_getElem.mp h1
  obtain ⟨j, hj, e2⟩ := List.mem_iff_getElem.mp h2
  have hp := List.pairwise_iff_getElem.mp (pts_inc h hx)
  rcases Nat.lt_trichotomy i j with hl | hl | hl
  · have := hp i j hi hj hl
    rw [e1, e2] at this
    exact absurd this (lt_irrefl _)
  · subst hl
    rw [e1] at e2
    simpa using e2
  · have := hp j i hj hi hl
    rw [e1, e2] at this
    exact absurd this (lt_irrefl _)

/-- C34: at a stored abscissa the stored value is returned. -/
theorem C34_node {p : Prof} (h : Valid p) (hx : Inc p.x) {x : Rat} {y : F} (hm : (x, y) ∈ pts p) : atX p x = [y] := by
  unfold atX single
  rw [atX_list h, if_pos (by rw [List.any_map, List.any_eq_true]; exact ⟨_, hm, by simp⟩)]
  have hp := pts_inc h hx
  obtain ⟨A, B, hAB⟩ := List.append_of_mem hm
  rw [hAB] at hp ⊢
  rw [List.pairwise_append, List.pairwise_cons] at hp
  have hA : A.filter (fun r => decide ((some r.1 : F) = some x)) = [] := by
    rw [List.filter_eq_nil_iff]
    intro r hr
    have := hp.2.2 r hr (x, y) (by simp)
    simp only [Option.some.injEq, decide_eq_true_eq]
    exact fun e => by rw [e] at this; exact absurd this (lt_irrefl _)
  have hB : B.filter (fun r => decide ((some r.1 : F) = some x)) = [] := by
    rw [List.filter_eq_nil_iff]
    intro r hr
    have := hp.2.1.1 r hr
    simp only [Option.some.injEq, decide_eq_true_eq]
    exact fun e => by rw [e] at this; exact absurd this (lt_irrefl _)
  rw [List.filter_map, List.map_map, List.filter_append, List.filter_cons]
  have : (fun q : F × F => decide (q.1 = some x)) ∘ (fun r : Rat × F => ((some r.1 : F), r.2)) =
      fun r => decide ((some r.1 : F) = some x) := rfl
  rw [this, hA, hB]
  simp

theorem scan_cons (v : Rat) (p q : F × F) (l : List (F × F)) :
    scan v (p :: q :: l) = (if crosses v p.1 q.1 then [interp v (p.1.getD 0) (q.1.getD 0) p.2 q.2] else []) ++ scan v (q :: l) := by
  rw [scan]
  split <;> rfl

/-- All abscissae before the looked-up one: nothing is crossed. -/
theorem scan_none (v : Rat) (l : List (F × F)) (h : l.IsChain fun p q => crosses v p.1 q.1 = false) : scan v l = [] := by
  induction l with
  | nil => rfl
  | cons p l ih =>
    rcases l with _ | ⟨q, l⟩
    · rfl
    · rw [List.isChain_cons_cons] at h
      rw [scan_cons, if_neg (by rw [h.1]; simp), ih h.2]
      rfl

theorem scan_append (v : Rat) (A : List (F × F)) (p : F × F) (B : List (F × F)) :
    scan v (A ++ p :: B) = scan v (A ++ [p]) ++ scan v (p :: B) := by
  induction A with
  | nil => rfl
  | cons a A ih =>
    rcases A with _ | ⟨b, A⟩
    · show scan v (a :: p :: B) = scan v (a :: p :: []) ++ _
      rw [scan_cons, scan_cons v a p []]
      simp [scan]
    · show scan v (a :: b :: (A ++ p :: B)) = scan v (a :: b :: (A ++ [p])) ++ _
      rw [scan_cons, scan_cons, List.append_assoc]
      congr 1

theorem scan_low (v : Rat) (A : List (Rat × F)) (h : ∀ r ∈ A, r.1 < v) :
    scan v (A.map fun r => (some r.1, r.2)) = [] := by
  apply scan_none
  induction A with
  | nil => simp
  | cons a A ih =>
    rcases A with _ | ⟨b, A⟩
    · simp
    · rw [List.map_cons, List.map_cons, List.isChain_cons_cons]
      refine ⟨?_, ih fun r hr => h r (by simp [hr])⟩
      have h1 := h a (by simp)
      have h2 := h b (by simp)
      simp only [crosses, decide_eq_false_iff_not]
      rintro (⟨g1, _⟩ | ⟨_, g2⟩) <;> linarith

theorem scan_high (v : Rat) (A : List (Rat × F)) (h : ∀ r ∈ A, v < r.1) :
    scan v (A.map fun r => (some r.1, r.2)) = [] := by
  apply scan_none
  induction A with
  | nil => simp
  | cons a A ih =>
    rcases A with _ | ⟨b, A⟩
    · simp
    · rw [List.map_cons, List.map_cons, List.isChain_cons_cons]
      refine ⟨?_, ih fun r hr => h r (by simp [hr])⟩
      have h1 := h a (by simp)
      have h2 := h b (by simp)
      simp only [crosses, decide_eq_false_iff_not]
      rintro (⟨_, g2⟩ | ⟨g1, _⟩) <;> linarith

theorem single_scan {l : List (F × F)} {v : Rat} (h : ∀ r ∈ l, r.1 ≠ some v) : single l v = scan v l := by
  unfold single
  rw [if_neg]
  rw [List.any_eq_true]
  rintro ⟨r, hr, he⟩
  exact h r hr (by simpa using he)

/-- The value between two neighbouring points. -/
def between (x1 : Rat) (w1 : F) (x2 : Rat) (w2 : F) (x : Rat) : F :=
  match w1, w2 with
  | some v1, some v2 => some (onLine x1 v1 x2 v2 x)
  | _, _ => none

theorem interp_between {x1 x2 x : Rat} (w1 w2 : F) (h1 : x1 < x) (h2 : x < x2) :
    interp x x1 x2 w1 w2 = between x1 w1 x2 w2 x := by
  unfold interp between
  cases w1 <;> cases w2 <;> try rfl
  simp only [Option.some.injEq]
  unfold onLine
  rw [abs_of_pos (by linarith : (0 : Rat) < x2 - x), abs_of_neg (by linarith : x1 - x < (0 : Rat)),
    abs_of_neg (by linarith : x1 - x2 < (0 : Rat))]
  congr 1 <;> ring

/-- C34: between two neighbouring abscissae, the point of the segment that joins them (masked when an end is). -/
theorem C34_between {p : Prof} (h : Valid p) (hx : Inc p.x) {A B : List (Rat × F)} {x1 x2 x : Rat} {w1 w2 : F}
    (hp : pts p = A ++ (x1, w1) :: (x2, w2) :: B) (h1 : x1 < x) (h2 : x < x2) :
    atX p x = [between x1 w1 x2 w2 x] := by
  have hi := pts_inc h hx
  unfold atX
  rw [atX_list h]
  rw [hp] at hi ⊢
  rw [List.pairwise_append, List.pairwise_cons, List.pairwise_cons] at hi
  have hA : ∀ r ∈ A ++ [(x1, w1)], r.1 < x := by
    intro r hr
    rw [List.mem_append, List.mem_singleton] at hr
    rcases hr with hr | hr
    · have := hi.2.2 r hr (x1, w1) (by simp)
      linarith
    · rw [hr]; exact h1
  have hB : ∀ r ∈ (x2, w2) :: B, x < r.1 := by
    intro r hr
    rw [List.mem_cons] at hr
    rcases hr with hr | hr
    · rw [hr]; exact h2
    · have := hi.2.1.2.1 r hr
      linarith
  rw [single_scan]
  · rw [List.map_append, List.map_cons, scan_append]
    have e1 := scan_low x (A ++ [(x1, w1)]) hA
    rw [List.map_append] at e1
    rw [show [((some x1 : F), w1)] = [(x1, w1)].map (fun r : Rat × F => ((some r.1 : F), r.2)) from rfl, e1]
    rw [List.map_cons, scan_cons]
    have e2 := scan_high x ((x2, w2) :: B) hB
    rw [List.map_cons] at e2
    rw [e2]
    have hc : crosses x (some x1) (some x2) = true := by
      simp only [crosses, decide_eq_true_eq]
      exact Or.inr ⟨le_of_lt h1, h2⟩
    rw [if_pos hc]
    simp only [List.nil_append, List.append_nil, Option.getD_some]
    rw [interp_between _ _ h1 h2]
  · intro r hr
    rw [List.mem_map] at hr
    obtain ⟨s, hs, rfl⟩ := hr
    simp only [ne_eq, Option.some.injEq]
    intro he
    have hs' : s ∈ (A ++ [(x1, w1)]) ++ ((x2, w2) :: B) := by simpa using hs
    rw [List.mem_append] at hs'
    rcases hs' with hs' | hs'
    · have := hA s hs'; linarith
    · have := hB s hs'; linarith

/-- C34: the interpolated value lies between the neighbouring values. -/
theorem C34_no_overshoot {x1 x2 x v1 v2 : Rat} (h1 : x1 < x) (h2 : x < x2) :
    min v1 v2 ≤ onLine x1 v1 x2 v2 x ∧ onLine x1 v1 x2 v2 x ≤ max v1 v2 := by
  have hpos : 0 < x2 - x1 := by linarith
  unfold onLine
  rw [le_div_iff₀ hpos, div_le_iff₀ hpos]
  have a1 : 0 < x2 - x := by linarith
  have a2 : 0 < x - x1 := by linarith
  have m1 := min_le_left v1 v2
  have m2 := min_le_right v1 v2
  have n1 := le_max_left v1 v2
  have n2 := le_max_right v1 v2
  constructor
  · nlinarith [mul_le_mul_of_nonneg_left m1 (le_of_lt a1), mul_le_mul_of_nonneg_left m2 (le_of_lt a2)]
  · nlinarith [mul_le_mul_of_nonneg_left n1 (le_of_lt a1), mul_le_mul_of_nonneg_left n2 (le_of_lt a2)]

/-- C34: outside of the abscissae, no value is given. -/
theorem C34_outside {p : Prof} (h : Valid p) {x : Rat} (ho : (∀ r ∈ pts p, x < r.1) ∨ (∀ r ∈ pts p, r.1 < x)) :
    atX p x = [] := by
  unfold atX
  rw [atX_list h, single_scan]
  · rcases ho with ho | ho
    · exact scan_high x _ ho
    · exact scan_low x _ ho
  · intro r hr
    rw [List.mem_map] at hr
    obtain ⟨s, hs, rfl⟩ := hr
    simp only [ne_eq, Option.some.injEq]
    intro he
    rcases ho with ho | ho
    · have := ho s hs; linarith
    · have := ho s hs; linarith

/-- C34: an array of abscissae gives, at each place, the value found there, NaN if there is none. -/
theorem C34_array (p : Prof) (vs : List Rat) :
    (atXs p vs).length = vs.length ∧ ∀ (k : Nat) x, vs[k]? = some x →
      (∀ w l, atX p x = w :: l → (atXs p vs)[k]? = some w) ∧ (atX p x = [] → (atXs p vs)[k]? = some none) := by
  refine ⟨by unfold atXs; simp, fun k x hk => ⟨fun w l he => ?_, fun he => ?_⟩⟩
  · unfold atXs
    rw [List.getElem?_map, hk]
    simp [he]
  · unfold atXs
    rw [List.getElem?_map, hk]
    simp [he]

example : (pts ex3 = [(0, none), (1, some 1), (2, none), (4, none)] ++ (5, some 9) :: (7, none) :: [] ∧ atX ex3 1 = [some 1] ∧ atX ex3 6 = [none]
    ∧ atX ex3 8 = []) := by decide +kernel

/-- A profile that goes up and down. -/
def ex4 : Prof := ⟨[0, 1, 2, 4, 5], [some 0, some 2, some (-2), none, some 1], [false, false, false, true, false], .m, .s⟩

example : Valid ex4 ∧ Inc ex4.x := by unfold Valid Inc ex4; decide +kernel

example : atX ex4 (3 / 2) = [some 0] ∧ atXs ex4 [1 / 2, 9, 3, 1] = [some 1, none, none, some 2] := by decide +kernel

/-! ### C93 -/

theorem scan_mem {v : Rat} {l : List (F × F)} {w : F} : w ∈ scan v l ↔
    ∃ A p q B, l = A ++ p :: q :: B ∧ crosses v p.1 q.1 = true ∧ w = interp v (p.1.getD 0) (q.1.getD 0) p.2 q.2 := by
  induction l with
  | nil => simp [scan]
  | cons p l ih =>
    rcases l with _ | ⟨q, l⟩
    · constructor
      · intro hc; simp [scan] at hc
      · rintro ⟨A, a, b, B, e, _⟩
        rcases A with _ | ⟨c, A⟩ <;> simp at e
    · rw [scan_cons, List.mem_append, ih]
      constructor
      · rintro (hw | ⟨A, a, b, B, e, hc, hw⟩)
        · split at hw
          · rename_i hc
            exact ⟨[], p, q, l, rfl, hc, by simpa using hw⟩
          · simp at hw
        · exact ⟨p :: A, a, b, B, by rw [e]; rfl, hc, hw⟩
      · rintro ⟨A, a, b, B, e, hc, hw⟩
        rcases A with _ | ⟨c, A⟩
        · simp only [List.nil_append, List.cons.injEq] at e
          obtain ⟨rfl, rfl, rfl⟩ := e
          left
          rw [if_pos hc, hw]
          simp
        · right
          simp only [List.cons_append, List.cons.injEq] at e
          exact ⟨A, a, b, B, e.2, hc, hw⟩

/-- The polyline of the unmasked points takes the value `v` at `x`. -/
def Takes (p : Prof) (v x : Rat) : Prop :=
  (x, some v) ∈ pts p ∨ ∃ A B x1 v1 x2 v2, pts p = A ++ (x1, some v1) :: (x2, some v2) :: B ∧ x1 < x ∧ x < x2 ∧
    v = onLine x1 v1 x2 v2 x

/-- Where a segment takes a value strictly between its ends. -/
def inv (v x1 v1 x2 v2 : Rat) : Rat := x1 + (v - v1) / (v2 - v1) * (x2 - x1)

theorem inv_spec {v x1 v1 x2 v2 : Rat} (hx : x1 < x2) (hv : (v1 > v ∧ v2 < v) ∨ (v1 < v ∧ v2 > v)) :
    x1 < inv v x1 v1 x2 v2 ∧ inv v x1 v1 x2 v2 < x2 ∧ v = onLine x1 v1 x2 v2 (inv v x1 v1 x2 v2) := by
  have hne : v2 - v1 ≠ 0 := by rcases hv with ⟨a, b⟩ | ⟨a, b⟩ <;> intro hc <;> linarith
  have hpos : 0 < x2 - x1 := by linarith
  have ht : 0 < (v - v1) / (v2 - v1) ∧ (v - v1) / (v2 - v1) < 1 := by
    rcases hv with ⟨a, b⟩ | ⟨a, b⟩
    · constructor
      · exact div_pos_of_neg_of_neg (by linarith) (by linarith)
      · rw [div_lt_one_of_neg (by linarith)]; linarith
    · constructor
      · exact div_pos (by linarith) (by linarith)
      · rw [div_lt_one (by linarith)]; linarith
  unfold inv
  refine ⟨?_, ?_, ?_⟩
  · nlinarith [mul_pos ht.1 hpos]
  · nlinarith [mul_lt_mul_of_pos_right ht.2 hpos]
  · unfold onLine
    have hne' : x2 - x1 ≠ 0 := ne_of_gt hpos
    field_simp
    ring

theorem inv_unique {v x x1 v1 x2 v2 : Rat} (h1 : x1 < x) (h2 : x < x2) (hv : v = onLine x1 v1 x2 v2 x) (hne : v1 ≠ v2) :
    x = inv v x1 v1 x2 v2 ∧ ((v1 > v ∧ v2 < v) ∨ (v1 < v ∧ v2 > v)) := by
  have hd : v2 - v1 ≠ 0 := fun hc => hne (by linarith)
  have hpos : 0 < x2 - x1 := by linarith
  have hne' : x2 - x1 ≠ 0 := ne_of_gt hpos
  have hlin : v * (x2 - x1) = (x2 - x) * v1 + (x - x1) * v2 := by
    rw [hv]; unfold onLine; field_simp
  constructor
  · unfold inv
    have : (v - v1) * (x2 - x1) = (x - x1) * (v2 - v1) := by linarith
    rw [div_mul_eq_mul_div, this, mul_div_assoc, div_self hd]
    ring
  · rcases lt_or_gt_of_ne hne with hlt | hgt
    · right
      constructor
      · by_contra hc
        nlinarith [mul_pos (by linarith : 0 < x - x1) (by linarith : 0 < v2 - v1)]
      · by_contra hc
        nlinarith [mul_pos (by linarith : 0 < x2 - x) (by linarith : 0 < v2 - v1)]
    · left
      constructor
      · by_contra hc
        nlinarith [mul_pos (by linarith : 0 < x - x1) (by linarith : 0 < v1 - v2)]
      · by_contra hc
        nlinarith [mul_pos (by linarith : 0 < x2 - x) (by linarith : 0 < v1 - v2)]

theorem interp_inv {v x1 v1 x2 v2 : Rat} (hv : (v1 > v ∧ v2 < v) ∨ (v1 < v ∧ v2 > v)) :
    interp v v1 v2 (some x1) (some x2) = some (inv v x1 v1 x2 v2) := by
  have hne : v2 - v1 ≠ 0 := by rcases hv with ⟨a, b⟩ | ⟨a, b⟩ <;> intro hc <;> linarith
  unfold interp inv
  simp only [Option.some.injEq]
  rcases hv with ⟨a, b⟩ | ⟨a, b⟩
  · rw [abs_of_neg (by linarith : v2 - v < 0), abs_of_pos (by linarith : 0 < v1 - v), abs_of_pos (by linarith : 0 < v1 - v2)]
    have : v1 - v2 ≠ 0 := fun hc => hne (by linarith)
    field_simp
    ring
  · rw [abs_of_pos (by linarith : 0 < v2 - v), abs_of_neg (by linarith : v1 - v < 0), abs_of_neg (by linarith : v1 - v2 < 0)]
    rw [neg_sub v1 v2]
    field_simp
    ring

theorem consecutive_lt {p : Prof} (h : Valid p) (hx : Inc p.x) {A B : List (Rat × F)} {r s : Rat × F}
    (hp : pts p = A ++ r :: s :: B) : r.1 < s.1 := by
  have := pts_inc h hx
  rw [hp, List.pairwise_append, List.pairwise_cons] at this
  exact this.2.1.1 s (by simp)

/-- A mapped list split. -/
theorem map_split {α β : Type} {f : α → β} {l : List α} {A : List β} {p q : β} {B : List β} (h : l.map f = A ++ p :: q :: B) :
    ∃ A' r s B', l = A' ++ r :: s :: B' ∧ f r = p ∧ f s = q := by
  rw [List.map_eq_append_iff] at h
  obtain ⟨A', l2, rfl, _, h2⟩ := h
  rw [List.map_eq_cons_iff] at h2
  obtain ⟨r, l3, rfl, e1, h3⟩ := h2
  rw [List.map_eq_cons_iff] at h3
  obtain ⟨s, B', rfl, e2, _⟩ := h3
  exact ⟨A', r, s, B', rfl, e1, e2⟩

theorem mem_atY_stored {p : Prof} (h : Valid p) {v : Rat} (hs : ∃ x, (x, some v) ∈ pts p) (w : F) :
    w ∈ atY p v ↔ ∃ x, w = some x ∧ (x, some v) ∈ pts p := by
  obtain ⟨x0, hx0⟩ := hs
  unfold atY single
  rw [atY_list h, if_pos (by rw [List.any_map, List.any_eq_true]; exact ⟨_, hx0, by simp⟩), List.mem_map]
  constructor
  · rintro ⟨r, hr, rfl⟩
    rw [List.mem_filter, List.mem_map] at hr
    obtain ⟨⟨s, hs, rfl⟩, he⟩ := hr
    refine ⟨s.1, rfl, ?_⟩
    have : s.2 = some v := by simpa using he
    rw [← this]
    exact hs
  · rintro ⟨x, rfl, hm⟩
    refine ⟨(some v, some x), ?_, rfl⟩
    rw [List.mem_filter, List.mem_map]
    exact ⟨⟨_, hm, rfl⟩, by simp⟩

theorem mem_atY_scan {p : Prof} (h : Valid p) {v : Rat} (hs : ¬ ∃ x, (x, some v) ∈ pts p) (w : F) :
    w ∈ atY p v ↔ ∃ A B x1 v1 x2 v2, pts p = A ++ (x1, some v1) :: (x2, some v2) :: B ∧
      ((v1 > v ∧ v2 < v) ∨ (v1 < v ∧ v2 > v)) ∧ w = some (inv v x1 v1 x2 v2) := by
  have hns : ∀ r ∈ (pts p).map (fun r => (r.2, (some r.1 : F))), r.1 ≠ some v := by
    intro r hr
    rw [List.mem_map] at hr
    obtain ⟨s, hs', rfl⟩ := hr
    intro he
    apply hs
    refine ⟨s.1, ?_⟩
    have he' : s.2 = some v := he
    rw [← he']
    exact hs'
  unfold atY
  rw [atY_list h, single_scan hns, scan_mem]
  constructor
  · rintro ⟨A, a, b, B, e, hc, rfl⟩
    obtain ⟨A', r, s, B', hl, rfl, rfl⟩ := map_split e
    obtain ⟨x1, w1⟩ := r
    obtain ⟨x2, w2⟩ := s
    cases w1 with
    | none => simp [crosses] at hc
    | some v1 =>
      cases w2 with
      | none => simp [crosses] at hc
      | some v2 =>
        have n1 : v1 ≠ v := fun e => hs ⟨x1, by rw [hl, e]; simp⟩
        have n2 : v2 ≠ v := fun e => hs ⟨x2, by rw [hl, e]; simp⟩
        simp only [crosses, decide_eq_true_eq] at hc
        have hv : (v1 > v ∧ v2 < v) ∨ (v1 < v ∧ v2 > v) := by
          rcases hc with ⟨g1, g2⟩ | ⟨g1, g2⟩
          · exact Or.inl ⟨lt_of_le_of_ne g1 (Ne.symm n1), g2⟩
          · exact Or.inr ⟨lt_of_le_of_ne g1 n1, g2⟩
        exact ⟨A', B', x1, v1, x2, v2, hl, hv, interp_inv hv⟩
  · rintro ⟨A, B, x1, v1, x2, v2, hl, hv, rfl⟩
    refine ⟨A.map fun r => (r.2, some r.1), (some v1, some x1), (some v2, some x2), B.map fun r => (r.2, some r.1), ?_, ?_, ?_⟩
    · rw [hl]; simp
    · simp only [crosses, decide_eq_true_eq]
      rcases hv with ⟨g1, g2⟩ | ⟨g1, g2⟩
      · exact Or.inl ⟨le_of_lt g1, g2⟩
      · exact Or.inr ⟨le_of_lt g1, g2⟩
    · exact (interp_inv hv).symm

/-- C93: every position returned by `get_interpolated_values(y=v)` is one where the polyline takes the value. -/
theorem C93_interpolated_sound {p : Prof} (h : Valid p) (hx : Inc p.x) {v : Rat} {w : F} (hw : w ∈ atY p v) :
    ∃ x, w = some x ∧ Takes p v x := by
  by_cases hs : ∃ x, (x, some v) ∈ pts p
  · obtain ⟨x, e, hm⟩ := (mem_atY_stored h hs w).mp hw
    exact ⟨x, e, Or.inl hm⟩
  · obtain ⟨A, B, x1, v1, x2, v2, hl, hv, rfl⟩ := (mem_atY_scan h hs w).mp hw
    obtain ⟨i1, i2, i3⟩ := inv_spec (consecutive_lt h hx hl) hv
    exact ⟨_, rfl, Or.inr ⟨A, B, x1, v1, x2, v2, hl, i1, i2, i3⟩⟩

/-- C93: interpolating at a returned position gives the value back. -/
theorem C93_round_trip {p : Prof} (h : Valid p) (hx : Inc p.x) {v : Rat} {w : F} (hw : w ∈ atY p v) :
    ∃ x, w = some x ∧ atX p x = [some v] := by
  obtain ⟨x, e, ht⟩ := C93_interpolated_sound h hx hw
  refine ⟨x, e, ?_⟩
  rcases ht with hm | ⟨A, B, x1, v1, x2, v2, hl, h1, h2, hv⟩
  · exact C34_node h hx hm
  · rw [C34_between h hx hl h1 h2, hv]
    rfl

/-- C93: when no stored value is the wanted one, all the positions are returned. -/
theorem C93_interpolated_complete_partial {p : Prof} (h : Valid p) {v x : Rat}
    (hs : ¬ ∃ x, (x, some v) ∈ pts p) (ht : Takes p v x) : some x ∈ atY p v := by
  rcases ht with hm | ⟨A, B, x1, v1, x2, v2, hl, h1, h2, hv⟩
  · exact absurd ⟨x, hm⟩ hs
  · have hne : v1 ≠ v2 := by
      intro he
      apply hs
      refine ⟨x1, ?_⟩
      have : v = v1 := by
        rw [hv, he]
        unfold onLine
        have : x2 - x1 ≠ 0 := by intro hc; linarith
        field_simp
        ring
      rw [hl, this]
      simp
    obtain ⟨e1, e2⟩ := inv_unique h1 h2 hv hne
    rw [mem_atY_scan h hs]
    exact ⟨A, B, x1, v1, x2, v2, hl, e2, by rw [← e1]⟩

/-- C93 fails: as soon as one stored value is the wanted one, the crossings elsewhere are not returned. -/
theorem C93_interpolated_violated {p : Prof} (h : Valid p) {v x : Rat} (hs : ∃ x, (x, some v) ∈ pts p)
    (_ht : Takes p v x) (hn : ∀ w, (x, w) ∉ pts p) : some x ∉ atY p v := by
  rw [mem_atY_stored h hs]
  rintro ⟨x', e, hm⟩
  rw [Option.some.injEq] at e
  subst e
  exact hn _ hm

/-- The hypotheses of `C93_interpolated_violated` are met: 1 is stored at 5 and crossed at 1/2. -/
example : (5, some 1) ∈ pts ex4 ∧ Takes ex4 1 (1 / 2) ∧ (∀ w, (1 / 2, w) ∉ pts ex4) ∧ atY ex4 1 = [some 5] := by
  refine ⟨by decide +kernel, Or.inr ⟨[], [(2, some (-2)), (4, none), (5, some 1)], 0, 0, 1, 2, by decide +kernel, by norm_num,
    by norm_num, by unfold onLine; norm_num⟩, ?_, by decide +kernel⟩
  intro w hw
  have : (1 / 2 : Rat) ∈ (pts ex4).map Prod.fst := List.mem_map.mpr ⟨_, hw, rfl⟩
  revert this
  decide +kernel

example : atY ex4 (1 / 2) = [some (1 / 4), some (11 / 8)] := by decide +kernel

/-! get_value_position -/

theorem positions_cons (v : Rat) (p q : Rat × F) (l : List (Rat × F)) :
    positions v (p :: q :: l) = (if changes v p.2 q.2 then
      [p.1 + |p.2.getD 0 - v| / (|p.2.getD 0 - v| + |q.2.getD 0 - v|) * (q.1 - p.1)] else []) ++ positions v (q :: l) := by
  rw [positions]
  split <;> rfl

theorem positions_mem {v x : Rat} {l : List (Rat × F)} : x ∈ positions v l ↔
    ∃ A p q B, l = A ++ p :: q :: B ∧ changes v p.2 q.2 = true ∧
      x = p.1 + |p.2.getD 0 - v| / (|p.2.getD 0 - v| + |q.2.getD 0 - v|) * (q.1 - p.1) := by
  induction l with
  | nil => simp [positions]
  | cons p l ih =>
    rcases l with _ | ⟨q, l⟩
    · constructor
      · intro hc; simp [positions] at hc
      · rintro ⟨A, a, b, B, e, _⟩
        rcases A with _ | ⟨c, A⟩ <;> simp at e
    · rw [positions_cons, List.mem_append, ih]
      constructor
      · rintro (hw | ⟨A, a, b, B, e, hc, hw⟩)
        · split at hw
          · rename_i hc
            exact ⟨[], p, q, l, rfl, hc, by simpa using hw⟩
          · simp at hw
        · exact ⟨p :: A, a, b, B, by rw [e]; rfl, hc, hw⟩
      · rintro ⟨A, a, b, B, e, hc, hw⟩
        rcases A with _ | ⟨c, A⟩
        · simp only [List.nil_append, List.cons.injEq] at e
          obtain ⟨rfl, rfl, rfl⟩ := e
          left
          rw [if_pos hc, hw]
          simp
        · right
          simp only [List.cons_append, List.cons.injEq] at e
          exact ⟨A, a, b, B, e.2, hc, hw⟩

theorem pos_inv {v x1 v1 x2 v2 : Rat} (hv : (v1 > v ∧ v2 < v) ∨ (v1 < v ∧ v2 > v)) :
    x1 + |v1 - v| / (|v1 - v| + |v2 - v|) * (x2 - x1) = inv v x1 v1 x2 v2 := by
  unfold inv
  congr 2
  rcases hv with ⟨a, b⟩ | ⟨a, b⟩
  · rw [abs_of_pos (by linarith : 0 < v1 - v), abs_of_neg (by linarith : v2 - v < 0), ← neg_div_neg_eq]
    congr 1 <;> ring
  · rw [abs_of_neg (by linarith : v1 - v < 0), abs_of_pos (by linarith : 0 < v2 - v)]
    congr 1 <;> ring

/-- The two lookups agree on values that are not stored. -/
theorem mem_valuePosition {p : Prof} (h : Valid p) {v x : Rat} (hs : ¬ ∃ x, (x, some v) ∈ pts p) :
    x ∈ valuePosition p v ↔ some x ∈ atY p v := by
  unfold valuePosition
  rw [if_neg (by
    rw [List.any_eq_true]
    rintro ⟨r, hr, he⟩
    have he' : r.2 = some v := by simpa using he
    exact hs ⟨r.1, by rw [← he']; exact hr⟩), positions_mem, mem_atY_scan h hs]
  constructor
  · rintro ⟨A, ⟨x1, w1⟩, ⟨x2, w2⟩, B, hl, hc, rfl⟩
    cases w1 with
    | none => simp [changes] at hc
    | some v1 =>
      cases w2 with
      | none => simp [changes] at hc
      | some v2 =>
        have n1 : v1 ≠ v := fun e => hs ⟨x1, by rw [hl, e]; simp⟩
        have n2 : v2 ≠ v := fun e => hs ⟨x2, by rw [hl, e]; simp⟩
        have hv : (v1 > v ∧ v2 < v) ∨ (v1 < v ∧ v2 > v) := by
          simp only [changes] at hc
          rcases lt_or_gt_of_ne n1 with a1 | a1 <;> rcases lt_or_gt_of_ne n2 with a2 | a2
          · exfalso
            rw [decide_eq_false (by linarith), decide_eq_false (by linarith)] at hc
            simp at hc
          · exact Or.inr ⟨a1, a2⟩
          · exact Or.inl ⟨a1, a2⟩
          · exfalso
            rw [decide_eq_true (by linarith), decide_eq_true (by linarith)] at hc
            simp at hc
        exact ⟨A, B, x1, v1, x2, v2, hl, hv, by simp only [Option.getD_some]; rw [pos_inv hv]⟩
  · rintro ⟨A, B, x1, v1, x2, v2, hl, hv, he⟩
    refine ⟨A, (x1, some v1), (x2, some v2), B, hl, ?_, ?_⟩
    · simp only [changes]
      rcases hv with ⟨a1, a2⟩ | ⟨a1, a2⟩
      · rw [decide_eq_true (by linarith), decide_eq_false (by linarith)]; rfl
      · rw [decide_eq_false (by linarith), decide_eq_true (by linarith)]; rfl
    · rw [Option.some.injEq] at he
      simp only [Option.getD_some]
      rw [pos_inv hv, he]

/-- C93: every position returned by `get_value_position` is one where the polyline takes the value. -/
theorem C93_position_sound {p : Prof} (h : Valid p) (hx : Inc p.x) {v x : Rat} (hw : x ∈ valuePosition p v) : Takes p v x := by
  by_cases hs : ∃ x, (x, some v) ∈ pts p
  · left
    obtain ⟨x0, hx0⟩ := hs
    unfold valuePosition at hw
    rw [if_pos (by rw [List.any_eq_true]; exact ⟨_, hx0, by simp⟩)] at hw
    have := List.mem_of_mem_take hw
    rw [List.mem_map] at this
    obtain ⟨r, hr, rfl⟩ := this
    rw [List.mem_filter] at hr
    have : r.2 = some v := by simpa using hr.2
    rw [← this]
    exact hr.1
  · rw [mem_valuePosition h hs] at hw
    obtain ⟨x', e, ht⟩ := C93_interpolated_sound h hx hw
    rw [Option.some.injEq] at e
    rw [e]
    exact ht

/-- C93: when no stored value is the wanted one, `get_value_position` returns all the positions. -/
theorem C93_position_complete_partial {p : Prof} (h : Valid p) {v x : Rat}
    (hs : ¬ ∃ x, (x, some v) ∈ pts p) (ht : Takes p v x) : x ∈ valuePosition p v := by
  rw [mem_valuePosition h hs]
  exact C93_interpolated_complete_partial h hs ht

/-- C93 fails: a value that is stored several times is only reported at the first place. -/
theorem C93_position_violated {p : Prof} (h : Valid p) (hx : Inc p.x) {v x y : Rat} (h1 : (x, some v) ∈ pts p)
    (h2 : (y, some v) ∈ pts p) (hxy : x < y) : Takes p v y ∧ y ∉ valuePosition p v := by
  refine ⟨Or.inl h2, ?_⟩
  unfold valuePosition
  rw [if_pos (by rw [List.any_eq_true]; exact ⟨_, h1, by simp⟩)]
  have hi := (pts_inc h hx).filter fun r => decide (r.2 = some v)
  have hm : (x, some v) ∈ (pts p).filter fun r => decide (r.2 = some v) := List.mem_filter.mpr ⟨h1, by simp⟩
  generalize (pts p).filter (fun r => decide (r.2 = some v)) = l at hi hm
  rcases l with _ | ⟨r, l⟩
  · simp at hm
  · rw [List.map_cons, List.take_succ_cons, List.take_zero, List.mem_singleton]
    rw [List.pairwise_cons] at hi
    rw [List.mem_cons] at hm
    rcases hm with hm | hm
    · rw [← hm]
      exact ne_of_gt hxy
    · have := hi.1 _ hm
      intro he
      simp only at this
      linarith

example : valuePosition ⟨[0, 1, 2], [some 1, some 3, some 1], [false, false, false], .m, .s⟩ 1 = [0] ∧
    valuePosition ex4 (1 / 2) = [1 / 4, 11 / 8] := by decide +kernel

end IMT.Profile
