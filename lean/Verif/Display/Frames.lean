import Verif.Display.FramesModel
import Mathlib.Algebra.Order.Field.Rat

/-! C373: frames and limits of a drawing. -/

namespace IMT.Frames

/-- Specification: the smallest interval with all the numbers of the list. -/
def Hull (l : List F) (a : Rat × Rat) : Prop := some a.1 ∈ l ∧ some a.2 ∈ l ∧ ∀ v, some v ∈ l → a.1 ≤ v ∧ v ≤ a.2

theorem extent_ok {l : List F} (h : ∃ v, some v ∈ l) : ∃ a, extent l = .ok a ∧ Hull l a := by
  have hne : l.filterMap id ≠ [] := by
    obtain ⟨v, hv⟩ := h
    exact List.ne_nil_of_mem (a := v) (by simpa using hv)
  unfold extent
  cases h1 : (l.filterMap id).min? with
  | none => exact absurd (List.min?_eq_none_iff.mp h1) hne
  | some a =>
    cases h2 : (l.filterMap id).max? with
    | none => exact absurd (List.max?_eq_none_iff.mp h2) hne
    | some b =>
      rw [List.min?_eq_some_iff] at h1
      rw [List.max?_eq_some_iff] at h2
      exact ⟨(a, b), rfl, by simpa using h1.1, by simpa using h2.1, fun v hv => ⟨h1.2 v (by simpa using hv), h2.2 v (by simpa using hv)⟩⟩

theorem extent_error {l : List F} (h : ∀ v, some v ∉ l) : extent l = .error .valueError := by
  have : l.filterMap id = [] := by
    rw [List.filterMap_eq_nil_iff]
    intro a ha
    cases a with
    | none => rfl
    | some v => exact absurd ha (h v)
  unfold extent
  rw [this]
  rfl

/-- C373: a drawing of a series of sets has one frame for each, that shows this set; its limits are the smallest ones with all the numbers of all the sets.  No
frame, or one that does not exist, is refused. -/
theorem C373_series_partial {s s' : Seq} {c : F} {l : List F} {xs ys : List (List F)} (hlen : ys.length = xs.length + 1)
    (hx : ∃ v, some v ∈ ((c :: l) :: xs).flatten) (hy : ∃ v, some v ∈ ys.flatten) :
    ∃ d, new (.sets s ((c :: l) :: xs)) (.sets s' ys) = .ok d ∧ d.length = xs.length + 1 ∧ Hull ((c :: l) :: xs).flatten d.xlim ∧ Hull ys.flatten d.ylim ∧
      (∀ i p q, ((c :: l) :: xs)[i]? = some p → ys[i]? = some q → getData d (some i) = .ok (.numbers .array p, .numbers .array q)) ∧
      (getData d none = .error .valueError ∧ ∀ i, xs.length < i → getData d (some i) = .error .indexError) := by
  obtain ⟨a, ea, ha⟩ := extent_ok hx
  obtain ⟨b, eb, hb⟩ := extent_ok hy
  have hm : multi (.sets s ((c :: l) :: xs)) (.sets s' ys) = .ok true := by
    cases s
    · match ys, hlen with
      | y :: ys, _ => rfl
    · rfl
  refine ⟨⟨.sets s ((c :: l) :: xs), .sets s' ys, a, b, true, xs.length + 1⟩, ?_, rfl, ha, hb, ?_, rfl, ?_⟩
  · unfold new
    rw [if_neg (by simp [Data.len])]
    simp only [Data.all, ea, eb, hm]
    rfl
  · intro i p q hp hq
    simp only [getData, Data.at, hp, hq, Bool.true_eq_false, if_false]
  · intro i hi
    have : ((c :: l) :: xs)[i]? = none := List.getElem?_eq_none (Nat.succ_le_of_lt hi)
    simp only [getData, Data.at, this, Bool.true_eq_false, if_false]

/-- C373: a drawing of one set, given as arrays, shows it in all frames, with the smallest limits. -/
theorem C373_single_partial {x y : List F} (hx : ∃ v, some v ∈ x) (hy : ∃ v, some v ∈ y) :
    ∃ d, new (.numbers .array x) (.numbers .array y) = .ok d ∧ d.length = 1 ∧ Hull x d.xlim ∧ Hull y d.ylim ∧
      ∀ i, getData d i = .ok (.numbers .array x, .numbers .array y) := by
  obtain ⟨a, ea, ha⟩ := extent_ok hx
  obtain ⟨b, eb, hb⟩ := extent_ok hy
  refine ⟨⟨_, _, a, b, false, 1⟩, ?_, rfl, ha, hb, fun i => rfl⟩
  have hne : x ≠ [] := by obtain ⟨v, hv⟩ := hx; exact List.ne_nil_of_mem hv
  obtain ⟨c, l, rfl⟩ := List.exists_cons_of_ne_nil hne
  unfold new
  rw [if_neg (by simp [Data.len])]
  simp only [Data.all, ea, eb]
  rfl

/-- C373 is violated: the same numbers in a python list are refused with a TypeError. -/
theorem C373_list_violated {x : List F} {y : Data} (hx : ∃ v, some v ∈ x) (hy : ∃ v, some v ∈ y.all) : new (.numbers .list x) y = .error .typeError := by
  obtain ⟨a, ea, -⟩ := extent_ok hx
  obtain ⟨b, eb, -⟩ := extent_ok hy
  have hne : x ≠ [] := by obtain ⟨v, hv⟩ := hx; exact List.ne_nil_of_mem hv
  obtain ⟨c, l, rfl⟩ := List.exists_cons_of_ne_nil hne
  unfold new
  rw [if_neg (by simp [Data.len])]
  have hx' : (Data.numbers .list (c :: l)).all = c :: l := rfl
  rw [hx', ea, eb]
  rfl

/-- C373 is violated: a series of arrays beginning with an empty one is taken as one frame, that shows everything at once. -/
theorem C373_empty_first_violated {xs ys : List (List F)} (hx : ∃ v, some v ∈ xs.flatten) (hy : ∃ v, some v ∈ ys.flatten) :
    ∃ d, new (.sets .array ([] :: xs)) (.sets .array ys) = .ok d ∧ d.length = 1 ∧ ∀ i, getData d i = .ok (.sets .array ([] :: xs), .sets .array ys) := by
  obtain ⟨a, ea, -⟩ := extent_ok hx
  obtain ⟨b, eb, -⟩ := extent_ok hy
  refine ⟨⟨_, _, a, b, false, 1⟩, ?_, rfl, fun i => rfl⟩
  unfold new
  rw [if_neg (by simp [Data.len])]
  have hx' : (Data.sets .array ([] :: xs)).all = xs.flatten := rfl
  have hy' : (Data.sets .array ys).all = ys.flatten := rfl
  rw [hx', hy', ea, eb]
  rfl

/-- C373 is violated: nothing but NaN, or nothing but empty sets, gives a ValueError instead of an empty drawing. -/
theorem C373_nothing_violated {x y : Data} (h0 : x.len ≠ 0) (h : ∀ v, some v ∉ x.all) : new x y = .error .valueError := by
  unfold new
  rw [if_neg h0, extent_error h]

/-- C373 is violated: without any set the error is an IndexError. -/
theorem C373_none_violated (s s' : Seq) (ys : List (List F)) : new (.sets s []) (.sets s' ys) = .error .indexError := rfl

/-- Three sets of points, one of them empty. -/
example : ∃ d, new (.sets .array [[some 1, some 3], [], [some 2]]) (.sets .array [[some 0, some 5], [], [some 7]]) = .ok d ∧ d.length = 3 ∧
    getData d (some 1) = .ok (.numbers .array [], .numbers .array []) := by
  obtain ⟨d, h1, h2, -, -, h3, -⟩ := C373_series_partial (s := .array) (s' := .array) (c := some 1) (l := [some 3]) (xs := [[], [some 2]])
    (ys := [[some 0, some 5], [], [some 7]]) rfl ⟨1, by simp⟩ ⟨0, by simp⟩
  exact ⟨d, h1, h2, h3 1 [] [] rfl rfl⟩

example : ∃ d, new (.sets .array [[], [some 1, some 3], [some 2]]) (.sets .array [[], [some 0, some 5], [some 7]]) = .ok d ∧ d.length = 1 := by
  obtain ⟨d, h1, h2, -⟩ := C373_empty_first_violated (xs := [[some 1, some 3], [some 2]]) (ys := [[], [some 0, some 5], [some 7]]) ⟨1, by simp⟩ ⟨0, by simp⟩
  exact ⟨d, h1, h2⟩

end IMT.Frames
