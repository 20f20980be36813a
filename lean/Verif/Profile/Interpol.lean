import Verif.Profile.InterpolModel
import Verif.Profile.Interp

/-! Interpolators of profiles, values at indices: C364. -/

namespace IMT.Profile

variable {p : Prof} {bounds : Bool} {fillv : F}

/-! ### lemmas -/

theorem some_filter (l : List (Rat × F)) (h : ∀ r ∈ l, r.2 = none) : (l.filterMap fun r => r.2.map fun v => (r.1, v)) = [] := by
  rw [List.filterMap_eq_nil_iff]
  intro r hr
  rw [h r hr]
  rfl

theorem lin_left {a b : Rat × Rat} {l2 : List (Rat × Rat)} (l1 : List (Rat × Rat)) (hi : Inc ((l1 ++ a :: b :: l2).map Prod.fst)) :
    lin (l1 ++ a :: b :: l2) a.1 = some a.2 := by
  have hab : a.1 < b.1 := by
    unfold Inc at hi
    rw [List.map_append, List.pairwise_append, List.map_cons, List.pairwise_cons] at hi
    exact hi.2.1.1 b.1 (by simp)
  rcases List.eq_nil_or_concat l1 with rfl | ⟨l, c, rfl⟩
  · show lin (a :: b :: l2) a.1 = _
    unfold lin
    rw [if_neg (lt_irrefl _), if_pos hab.le]
    simp [line]
  · rw [List.concat_eq_append, List.append_assoc, List.cons_append, List.nil_append] at hi ⊢
    have hca : c.1 < a.1 := by
      unfold Inc at hi
      rw [List.map_append, List.pairwise_append, List.map_cons, List.pairwise_cons] at hi
      exact hi.2.1.1 a.1 (by simp)
    rw [lin_spec l hi hca le_rfl]
    unfold line
    have : a.1 - c.1 ≠ 0 := by linarith
    rw [div_mul_cancel₀ _ this]
    congr 1
    ring

theorem lin_out {l : List (Rat × Rat)} {t : Rat} (h : (∀ r ∈ l, t < r.1) ∨ ∀ r ∈ l, r.1 < t) : lin l t = none := by
  induction l with
  | nil => rfl
  | cons a l ih =>
    cases l with
    | nil => rfl
    | cons b l =>
      unfold lin
      rcases h with h | h
      · rw [if_pos (h a (by simp))]
      · rw [if_neg (not_lt.2 (h a (by simp)).le), if_neg (not_le.2 (h b (by simp)))]
        exact ih (.inr fun r hr => h r (List.mem_cons_of_mem _ hr))

theorem valid_iff (h : Valid p) {x v : Rat} : (x, v) ∈ valid p ↔ (x, some v) ∈ pts p := by
  rw [valid_eq h, List.mem_filterMap]
  constructor
  · rintro ⟨⟨a, w⟩, hr, e⟩
    cases w with
    | none => cases e
    | some w => cases e; exact hr
  · intro hr
    exact ⟨(x, some v), hr, rfl⟩

/-! ### C364 -/

/-- C364: between two points that are not masked, whatever masked points there are between them, the interpolator gives the value of the line that joins them. -/
theorem C364_between (h : Valid p) (hx : Inc p.x) {A M B : List (Rat × F)} {x1 v1 x2 v2 : Rat}
    (hp : pts p = A ++ (x1, some v1) :: (M ++ (x2, some v2) :: B)) (hM : ∀ r ∈ M, r.2 = none) {t : Rat} (h1 : x1 < t) (h2 : t < x2) :
    interpolator p bounds fillv t = .ok (some (onLine x1 v1 x2 v2 t)) := by
  have e : valid p = (A.filterMap fun r => r.2.map fun v => (r.1, v)) ++ (x1, v1) :: (x2, v2) :: B.filterMap fun r => r.2.map fun v => (r.1, v) := by
    rw [valid_eq h, hp, List.filterMap_append, List.filterMap_cons]
    simp [List.filterMap_append, some_filter M hM]
  have hi := valid_inc h hx
  unfold interpolator
  rw [e] at hi ⊢
  rw [if_neg (by simp only [List.length_append, List.length_cons]; omega), lin_spec _ hi h1 h2.le, line_onLine (lt_trans h1 h2)]

/-- C364: at a point that is not masked, the interpolator gives its value. -/
theorem C364_node (h : Valid p) (hx : Inc p.x) (h2 : ∃ r ∈ pts p, ∃ s ∈ pts p, r.1 ≠ s.1 ∧ r.2 ≠ none ∧ s.2 ≠ none) {x v : Rat} (hm : (x, some v) ∈ pts p) :
    interpolator p bounds fillv x = .ok (some v) := by
  have hi := valid_inc h hx
  obtain ⟨⟨r1, r2⟩, hr, ⟨s1, s2⟩, hs, hne, hr', hs'⟩ := h2
  obtain ⟨rv, rfl⟩ := Option.ne_none_iff_exists'.1 hr'
  obtain ⟨sv, rfl⟩ := Option.ne_none_iff_exists'.1 hs'
  have mr := (valid_iff h).2 hr
  have ms := (valid_iff h).2 hs
  have mx := (valid_iff h).2 hm
  have hl : ¬ (valid p).length < 2 := by
    intro hlt
    rcases hv : valid p with _ | ⟨a, _ | ⟨b, l⟩⟩
    · rw [hv] at mr; cases mr
    · rw [hv, List.mem_singleton] at mr ms
      exact hne (by rw [← mr] at ms; exact (Prod.mk.inj ms).1.symm)
    · rw [hv, List.length_cons, List.length_cons] at hlt; omega
  unfold interpolator
  rw [if_neg hl]
  obtain ⟨A, B, hAB⟩ := List.append_of_mem mx
  rw [hAB] at hi hl ⊢
  rcases B with _ | ⟨b, B⟩
  · rcases List.eq_nil_or_concat A with rfl | ⟨l, c, rfl⟩
    · simp at hl
    · rw [List.concat_eq_append, List.append_assoc, List.cons_append, List.nil_append] at hi ⊢
      have hca : c.1 < x := by
        unfold Inc at hi
        rw [List.map_append, List.pairwise_append, List.map_cons, List.pairwise_cons] at hi
        exact hi.2.1.1 x (by simp)
      rw [lin_spec l hi hca le_rfl]
      unfold line
      have : x - c.1 ≠ 0 := by linarith
      simp only
      rw [div_mul_cancel₀ _ this]
      congr 2
      ring
  · rw [lin_left A hi]

/-- C364: outside of the points that are not masked, a value is refused, or the wanted filling value is given. -/
theorem C364_outside (h : Valid p) (h2 : 2 ≤ (pts p).countP fun r => r.2.isSome) {t : Rat}
    (ho : (∀ x v, (x, some v) ∈ pts p → t < x) ∨ ∀ x v, (x, some v) ∈ pts p → x < t) :
    interpolator p bounds fillv t = if bounds then .error .valueError else .ok fillv := by
  unfold interpolator
  rw [if_neg (by rw [valid_length h]; omega), lin_out]
  rcases ho with ho | ho
  · exact .inl fun r hr => ho r.1 r.2 ((valid_iff h).1 hr)
  · exact .inr fun r hr => ho r.1 r.2 ((valid_iff h).1 hr)

/-- C364: the interpolator gives the value of `get_interpolated_values` between two neighbouring points, when neither is masked. -/
theorem C364_agrees (h : Valid p) (hx : Inc p.x) {A B : List (Rat × F)} {x1 x2 v1 v2 t : Rat}
    (hp : pts p = A ++ (x1, some v1) :: (x2, some v2) :: B) (h1 : x1 < t) (h2 : t < x2) :
    ∃ w, interpolator p bounds fillv t = .ok w ∧ atX p t = [w] :=
  ⟨_, C364_between h hx (M := []) hp (by simp) h1 h2, by rw [C34_between h hx hp h1 h2]; rfl⟩

/-- C364: with `ind`, the index `k` gives the value of the point `k`, masked if it is. -/
theorem C364_index (h : Valid p) {k : Nat} {x : Rat} {y : F} (hk : (pts p)[k]? = some (x, y)) : atIndX p k = [y] := by
  have hlen : (getY p).length = p.x.length := by rw [getY_valid h, h.1]
  have hkl : k < p.x.length := by
    have := List.getElem?_eq_some_iff.1 hk
    obtain ⟨h', _⟩ := this
    rwa [pts_length h] at h'
  have hy : (getY p)[k]? = some y := by
    unfold pts at hk
    rw [List.getElem?_zip_eq_some] at hk
    exact hk.2
  unfold atIndX single
  generalize getY p = Y at hlen hy
  generalize p.x.length = n at hlen hkl
  have key : ∀ (n s : Nat) (Y : List F), Y.length = n → ∀ y, Y[k - s]? = some y → s ≤ k → k < s + n →
      ((((List.range' s n).map fun k : Nat => some (k : Rat)).zip Y).filter fun q => decide (q.1 = some (k : Rat))).map Prod.snd = [y] := by
    intro n
    induction n with
    | zero => intro s Y _ y _ h1 h2; omega
    | succ n ih =>
      intro s Y hY y hy h1 h2
      rcases Y with _ | ⟨a, Y⟩
      · simp at hY
      · rw [List.range'_succ, List.map_cons, List.zip_cons_cons, List.filter_cons]
        by_cases hs : s = k
        · subst hs
          simp only [decide_true, if_true, List.map_cons, Nat.sub_self, List.getElem?_cons_zero, Option.some.injEq] at hy ⊢
          rw [hy, List.filter_eq_nil_iff.2]
          · rfl
          · intro q hq
            obtain ⟨i, hi, rfl⟩ := List.mem_iff_getElem.1 hq
            simp only [List.getElem_zip, List.getElem_map, List.getElem_range', decide_eq_true_eq, Option.some.injEq]
            intro e
            have : s + 1 + 1 * i = s := by exact_mod_cast e
            omega
        · rw [if_neg (by simpa using fun e : (s : Rat) = k => hs (by exact_mod_cast e))]
          refine ih (s + 1) Y (by simpa using hY) y ?_ (by omega) (by omega)
          rw [show k - s = (k - (s + 1)) + 1 by omega, List.getElem?_cons_succ] at hy
          exact hy
  have hf := key n 0 Y hlen y (by simpa using hy) (by omega) (by omega)
  rw [← List.range_eq_range'] at hf
  rw [if_pos, hf]
  by_contra hn
  rw [Bool.not_eq_true, List.any_eq_false] at hn
  rw [List.filter_eq_nil_iff.2 (fun q hq => by simpa using hn q hq)] at hf
  cases hf

/-- C364 fails for the index of a value: an exception, for all the profiles but those of one point. -/
theorem C364_value_violated (h : p.x.length ≠ 1) (v : Rat) : atIndY p v = .error .typeError := by
  unfold atIndY
  rw [if_pos h]

/-! ### the hypotheses are met -/

/-- A profile with a hole. -/
def holedP : Prof := { x := [0, 1, 3, 4], y := [some 0, none, some 6, some 4], m := [false, true, false, false], ux := Sym.m, uy := Sym.s }

example : interpolator holedP true none 1 = .ok (some 2) ∧ interpolator holedP true none 3 = .ok (some 6) ∧ interpolator holedP true none 5 = .error .valueError ∧
    interpolator holedP false (some 7) 5 = .ok (some 7) ∧ atX holedP 1 = [none] ∧ atIndX holedP 2 = [some 6] ∧ atIndX holedP (5 / 2) = [some 5] := by
  decide +kernel

example : Valid holedP ∧ Inc holedP.x := ⟨⟨rfl, rfl, by decide +kernel⟩, by decide +kernel⟩

end IMT.Profile
