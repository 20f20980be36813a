import Verif.Display.CursorModel
import Mathlib.Data.List.GetD

/-! C321 and C322. -/

namespace IMT.Cursor

theorem argmin_spec (l : List Rat) (h : l ≠ []) :
    argmin l < l.length ∧ (∀ b ∈ l, l.getD (argmin l) 0 ≤ b) ∧ ∀ i, i < argmin l → l.getD (argmin l) 0 < l.getD i 0 := by
  induction l with
  | nil => exact absurd rfl h
  | cons a l ih =>
    rcases l with _ | ⟨b, l⟩
    · simp [argmin]
    · obtain ⟨h1, h2, h3⟩ := ih (by simp)
      unfold argmin
      by_cases hc : a ≤ (b :: l).getD (argmin (b :: l)) 0
      · rw [if_pos hc]
        refine ⟨by simp, ?_, by omega⟩
        intro c hm
        simp only [List.getD_cons_zero]
        rcases List.mem_cons.mp hm with rfl | hm
        · exact le_rfl
        · exact hc.trans (h2 c hm)
      · rw [if_neg hc]
        push Not at hc
        refine ⟨by simp only [List.length_cons] at h1 ⊢; omega, ?_, ?_⟩
        · intro c hm
          simp only [List.getD_cons_succ]
          rcases List.mem_cons.mp hm with rfl | hm
          · exact hc.le
          · exact h2 c hm
        · intro i hi
          simp only [List.getD_cons_succ]
          rcases i with _ | i
          · exact hc
          · simp only [List.getD_cons_succ]
            exact h3 i (by omega)

theorem nearIdx_spec {l : List Rat} (h : l ≠ []) (v : Rat) :
    ∃ hk : nearIdx l v < l.length, ∀ j, ∀ hj : j < l.length, |v - l[nearIdx l v]| ≤ |v - l[j]| := by
  obtain ⟨h1, h2, -⟩ := argmin_spec (l.map fun c => |v - c|) (by simpa using h)
  have hk : nearIdx l v < l.length := by simpa [nearIdx] using h1
  refine ⟨hk, ?_⟩
  intro j hj
  have := h2 |v - l[j]| (List.mem_map.mpr ⟨_, List.getElem_mem hj, rfl⟩)
  rw [List.getD_eq_getElem _ _ h1, List.getElem_map] at this
  exact this

/-- The square of the distance between two points. -/
def dist2 (p q : Rat × Rat) : Rat := (p.1 - q.1) ^ 2 + (p.2 - q.2) ^ 2

/-- The point under the mouse is within the limits of the data. -/
def Inside (xlim ylim : Rat × Rat) (x y : Rat) : Prop := xlim.1 ≤ x ∧ x ≤ xlim.2 ∧ ylim.1 ≤ y ∧ y ≤ ylim.2

theorem dataAt_inside {xlim ylim : Rat × Rat} {x y : Rat} (h : Inside xlim ylim x y) :
    ¬ (x > xlim.2 ∨ x < xlim.1 ∨ y > ylim.2 ∨ y < ylim.1) := by
  obtain ⟨h1, h2, h3, h4⟩ := h
  push Not
  exact ⟨h2, h1, h4, h3⟩

/-- C321: out of the limits of the data nothing is shown. -/
theorem C321_outside (d : Data) {xlim ylim : Rat × Rat} {x y : Rat} (h : ¬ Inside xlim ylim x y) :
    dataAt d xlim ylim x y = none := by
  unfold dataAt
  rw [if_pos]
  by_contra hn
  push Not at hn
  exact h ⟨hn.2.1, hn.1, hn.2.2.2, hn.2.2.1⟩

/-- C321: for a field, what is shown is the node of the grid nearest to the mouse, with the value (or both components) of
that node. -/
theorem C321_field {d : Data} {xlim ylim : Rat × Rat} {x y : Rat} (h : Inside xlim ylim x y) (hx : d.x ≠ []) (hy : d.y ≠ [])
    (hk : d.kind = .field1 ∨ d.kind = .field2) :
    ∃ i j, ∃ (hi : i < d.x.length) (hj : j < d.y.length),
      (∀ i' j', ∀ (hi' : i' < d.x.length) (hj' : j' < d.y.length), dist2 (x, y) (d.x[i], d.y[j]) ≤ dist2 (x, y) (d.x[i'], d.y[j'])) ∧
      (d.kind = .field1 → dataAt d xlim ylim x y =
        some [("x", some d.x[i]), ("y", some d.y[j]), ("value", d.val 0 i j)]) ∧
      (d.kind = .field2 → dataAt d xlim ylim x y =
        some [("x", some d.x[i]), ("y", some d.y[j]), ("Vx", d.val 0 i j), ("Vy", d.val 1 i j)]) := by
  obtain ⟨hi, hxi⟩ := nearIdx_spec hx x
  obtain ⟨hj, hyj⟩ := nearIdx_spec hy y
  refine ⟨_, _, hi, hj, ?_, ?_, ?_⟩
  · intro i' j' hi' hj'
    unfold dist2
    have a := sq_le_sq.mpr (hxi i' hi')
    have b := sq_le_sq.mpr (hyj j' hj')
    simp only
    linarith
  · intro hf
    unfold dataAt
    rw [if_neg (dataAt_inside h), hf]
    simp only
    rw [List.getElem?_eq_getElem hi, List.getElem?_eq_getElem hj]
  · intro hf
    unfold dataAt
    rw [if_neg (dataAt_inside h), hf]
    simp only
    rw [List.getElem?_eq_getElem hi, List.getElem?_eq_getElem hj]

/-- C321 for a profile: what is shown is the point with the abscissa nearest to the mouse.  Missing for points: the ordinate
does not count, `C321_points_violated`. -/
theorem C321_profile_partial {d : Data} {xlim ylim : Rat × Rat} {x y : Rat} (h : Inside xlim ylim x y) (hx : d.x ≠ [])
    (hl : d.x.length = d.y.length) (hk : d.kind = .profile ∨ d.kind = .points) :
    ∃ i, ∃ (hi : i < d.x.length), (∀ j, ∀ hj : j < d.x.length, |x - d.x[i]| ≤ |x - d.x[j]|) ∧
      dataAt d xlim ylim x y = some [("x", some d.x[i]), ("y", some (d.y[i]'(hl ▸ hi)))] := by
  obtain ⟨hi, hxi⟩ := nearIdx_spec hx x
  refine ⟨_, hi, hxi, ?_⟩
  unfold dataAt
  rw [if_neg (dataAt_inside h)]
  rcases hk with hk | hk <;> rw [hk] <;> simp only <;>
    rw [List.getElem?_eq_getElem hi, List.getElem?_eq_getElem (by omega)]

/-- C321 is violated for points: when a point `k` is nearer in abscissa than all the others and a point `l` is nearer to the
mouse than `k`, the point shown is not the nearest. -/
theorem C321_points_violated {d : Data} {xlim ylim : Rat × Rat} {x y : Rat} (h : Inside xlim ylim x y)
    (hl : d.x.length = d.y.length) (hkind : d.kind = .points) {k l : Nat} (hk : k < d.x.length) (hl' : l < d.x.length)
    (hnear : ∀ j, ∀ hj : j < d.x.length, j ≠ k → |x - d.x[k]| < |x - d.x[j]|)
    (hd : dist2 (x, y) (d.x[l], d.y[l]'(hl ▸ hl')) < dist2 (x, y) (d.x[k], d.y[k]'(hl ▸ hk))) :
    ¬ ∃ p : Rat × Rat, dataAt d xlim ylim x y = some [("x", some p.1), ("y", some p.2)] ∧
      ∀ j, ∀ hj : j < d.x.length, dist2 (x, y) p ≤ dist2 (x, y) (d.x[j], d.y[j]'(hl ▸ hj)) := by
  have hne : d.x ≠ [] := by rintro h; rw [h] at hk; simp at hk
  obtain ⟨i, hi, h1, h2⟩ := C321_profile_partial h hne hl (.inr hkind)
  have : i = k := by
    by_contra hik
    have := hnear i hi hik
    have := h1 k hk
    linarith
  subst this
  rintro ⟨⟨p, q⟩, hp, hmin⟩
  rw [h2] at hp
  simp only [Option.some.injEq, List.cons.injEq, Prod.mk.injEq, true_and, and_true] at hp
  obtain ⟨rfl, rfl⟩ := hp
  have := hmin l hl'
  linarith

/-- C321: data without values are taken for a profile when one of the coordinates never decreases. -/
theorem C321_guess (x y : List Rat) :
    guess x y = .profile ↔ x.Pairwise (· ≤ ·) ∨ y.Pairwise (· ≤ ·) := by
  have key : ∀ l : List Rat, isSorted l = true ↔ l.Pairwise (· ≤ ·) := by
    intro l
    rw [← List.isChain_iff_pairwise]
    unfold isSorted
    induction l with
    | nil => simp
    | cons a l ih =>
      rcases l with _ | ⟨b, l⟩
      · simp
      · simp only [List.tail_cons, List.zip_cons_cons, List.all_cons, Bool.and_eq_true, decide_eq_true_eq,
          List.isChain_cons_cons] at ih ⊢
        rw [ih]
  unfold guess
  by_cases h : (isSorted x || isSorted y) = true
  · rw [if_pos h]
    rw [Bool.or_eq_true, key, key] at h
    simp [h]
  · rw [if_neg h]
    rw [Bool.or_eq_true, key, key] at h
    simp [h]

/-! ## The text -/

theorem spell_ok {txt : Rat → String} {l : List (String × Option Rat)} :
    (∃ s, spell txt l = .ok s) ↔ ∀ q ∈ l, q.2 ≠ none := by
  induction l with
  | nil => simp [spell]
  | cons q l ih =>
    obtain ⟨n, v⟩ := q
    rcases v with _ | v
    · simp [spell, number]
    · unfold spell number
      rcases hs : spell txt l with e | s
      · rw [hs] at ih
        simp only [reduceCtorEq, exists_false, false_iff] at ih
        push Not at ih
        obtain ⟨⟨m, w⟩, hm, rfl⟩ := ih
        simp
        exact ⟨m, hm⟩
      · rw [hs] at ih
        simp only [Except.ok.injEq, exists_eq', true_iff] at ih
        simp
        intro a b hb h
        exact ih _ hb h

/-- C322: the text under the mouse names each quantity with its number, in order; out of the data it is empty.  Missing: masked
nodes, `C322_masked_violated`. -/
theorem C322_text_partial {txt : Rat → String} {d : Data} {xlim ylim : Rat × Rat} {x y : Rat} :
    (dataAt d xlim ylim x y = none → describe txt d xlim ylim x y = .ok "") ∧
    ∀ l : List (String × Rat), dataAt d xlim ylim x y = some (l.map fun q => (q.1, some q.2)) →
      describe txt d xlim ylim x y = .ok (String.join (l.map fun q => q.1 ++ "=" ++ txt q.2 ++ "     ")) := by
  refine ⟨fun h => by unfold describe; rw [h], ?_⟩
  intro l h
  unfold describe
  rw [h]
  simp only
  clear h
  induction l with
  | nil => rfl
  | cons q l ih =>
    simp only [List.map_cons, spell, number]
    rw [ih]
    simp [String.join_cons]

/-- C322 is violated: over a node of a field that is masked, and in no other place, the text raises ValueError. -/
theorem C322_masked_violated {txt : Rat → String} {d : Data} {xlim ylim : Rat × Rat} {x y : Rat} (h : Inside xlim ylim x y)
    (hx : d.x ≠ []) (hy : d.y ≠ []) (hk : d.kind = .field1) :
    (∃ e, describe txt d xlim ylim x y = .error e) ↔ d.val 0 (nearIdx d.x x) (nearIdx d.y y) = none := by
  obtain ⟨hi, -⟩ := nearIdx_spec hx x
  obtain ⟨hj, -⟩ := nearIdx_spec hy y
  unfold describe dataAt
  rw [if_neg (dataAt_inside h), hk]
  simp only
  have hs := spell_ok (txt := txt) (l := [("x", d.x[nearIdx d.x x]?), ("y", d.y[nearIdx d.y y]?),
        ("value", d.val 0 (nearIdx d.x x) (nearIdx d.y y))])
  rw [List.getElem?_eq_getElem hi, List.getElem?_eq_getElem hj] at hs ⊢
  simp only [List.mem_cons, List.not_mem_nil, or_false, forall_eq_or_imp, forall_eq, ne_eq, reduceCtorEq, not_false_eq_true,
    true_and] at hs
  rcases hr : spell txt [("x", some d.x[nearIdx d.x x]), ("y", some d.y[nearIdx d.y y]),
        ("value", d.val 0 (nearIdx d.x x) (nearIdx d.y y))] with e | s
  · rw [hr] at hs
    simpa using hs
  · rw [hr] at hs
    simpa using hs

/-! ## Examples -/

/-- Three points. -/
def exD : Data := ⟨.points, [0, 2, 1], [0, 5, 9], fun _ _ _ => none⟩

example : Inside (0, 2) (0, 9) (1/2 + 1/10) 0 ∧
    dataAt exD (0, 2) (0, 9) (1/2 + 1/10) 0 = some [("x", some 1), ("y", some 9)] ∧ guess exD.x exD.y = .profile := by
  refine ⟨⟨by norm_num, by norm_num, by norm_num, by norm_num⟩, by decide +kernel, by decide +kernel⟩

/-- A field with a masked node. -/
def exF : Data := ⟨.field1, [0, 1], [0, 1], fun _ i j => if i = 1 ∧ j = 1 then none else some (i + 2 * j : Nat)⟩

example : dataAt exF (0, 1) (0, 1) (1/3) (2/3) = some [("x", some 0), ("y", some 1), ("value", some 2)] ∧
    describe (fun _ => "n") exF (0, 1) (0, 1) (1/3) (2/3) = .ok "x=n     y=n     value=n     " ∧
    describe (fun _ => "n") exF (0, 1) (0, 1) (2/3) (2/3) = .error .valueError := by decide +kernel

end IMT.Cursor
