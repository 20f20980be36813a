import Verif.Display.BarModel
import Verif.Display.Color

/-! C375: the colour bar of a window. -/

namespace IMT.Color

/-- Specification: `lo` and `hi` are the extreme colours of the frames. -/
def Extremes (c : List (List (Option Rat))) (lo hi : Rat) : Prop := Shown c lo ∧ Shown c hi ∧ ∀ v, Shown c v → lo ≤ v ∧ v ≤ hi

theorem Extremes.unique {c : List (List (Option Rat))} {lo hi lo' hi' : Rat} (h : Extremes c lo hi) (h' : Extremes c lo' hi') : lo = lo' ∧ hi = hi' :=
  ⟨le_antisymm (h.2.2 _ h'.1).1 (h'.2.2 _ h.1).1, le_antisymm (h'.2.2 _ h.2.1).2 (h.2.2 _ h'.2.1).2⟩

/-- A displayer as made: nothing is kept yet. -/
def fresh (c : List (List (Option Rat))) (n : Option (Rat × Rat)) : Painter := ⟨some c, ⟨none, none⟩, n⟩

theorem global_fresh {c : List (List (Option Rat))} {lo hi : Rat} (h : Extremes c lo hi) (n : Option (Rat × Rat)) :
    (fresh c n).global = (⟨some c, ⟨some lo, some hi⟩, n⟩, .ok (lo, hi)) := by
  have hl : lowest c = some lo := by
    cases hl : lowest c with
    | none => exact absurd ⟨lo, h.1⟩ (lowest_none.mp hl)
    | some m =>
      obtain ⟨h1, h2⟩ := lowest_some hl
      rw [le_antisymm (h2 _ h.1) (h.2.2 _ h1).1]
  have hh : highest c = some hi := by
    cases hh : highest c with
    | none => exact absurd ⟨lo, h.1⟩ (highest_none.mp hh)
    | some m =>
      obtain ⟨h1, h2⟩ := highest_some hh
      rw [le_antisymm (h.2.2 _ h1).2 (h2 _ h.2.1)]
  simp [fresh, Painter.global, globalNorm, hl, hh]

/-- A series of displayers as made, with the extreme colours of each. -/
structure Kit where
  colors : List (List (Option Rat))
  lo : Rat
  hi : Rat
  norm : Option (Rat × Rat)
  ext : Extremes colors lo hi

theorem share_kits (l : List Kit) :
    shareNorms (l.map fun k => fresh k.colors k.norm) = (l.map fun k => ⟨some k.colors, ⟨some k.lo, some k.hi⟩, some (k.lo, k.hi)⟩, .ok ⟨⟩) := by
  induction l with
  | nil => rfl
  | cons k l ih =>
    simp only [List.map_cons, shareNorms, global_fresh k.ext, ih]

/-- C375: with a shared bar, the displayers of a window all having numbers as colours, the bounds of the bar are the extreme colours of the first displayer over
all its frames, and each displayer is drawn with its own extreme colours. -/
theorem C375_shared_partial (k : Kit) (l : List Kit) :
    ∃ ds, barNorm none true ((k :: l).map fun k => fresh k.colors k.norm) = (ds, .ok (some (k.lo, k.hi))) ∧ ds.length = l.length + 1 ∧
      ∀ (i : Nat) d q, ds[i]? = some d → (k :: l)[i]? = some q → ∀ col v, d.drawn col v = some (place q.lo q.hi v) := by
  refine ⟨(k :: l).map fun k => ⟨some k.colors, ⟨some k.lo, some k.hi⟩, some (k.lo, k.hi)⟩, ?_, by simp, ?_⟩
  · unfold barNorm
    simp only [share_kits, if_true]
    rfl
  · intro i d q hd hq col v
    rw [List.getElem?_map, hq, Option.map_some, Option.some.injEq] at hd
    rw [← hd]
    rfl

/-- C375: with one displayer the bar is right: each value of each frame is drawn with the colour that the bar gives to it. -/
theorem C375_one_partial (k : Kit) : ∃ d lo hi, barNorm none true [fresh k.colors k.norm] = ([d], .ok (some (lo, hi))) ∧ Extremes k.colors lo hi ∧
    ∀ col v, d.drawn col v = some (place lo hi v) := by
  obtain ⟨ds, h1, h2, h3⟩ := C375_shared_partial k []
  obtain ⟨d, rfl⟩ := List.length_eq_one_iff.mp h2
  exact ⟨d, k.lo, k.hi, h1, k.ext, h3 0 d k rfl rfl⟩

/-- C375: bounds that are asked for and given to the displayers too are those of the bar and of all the drawings. -/
theorem C375_given_partial (n : Rat × Rat) (share : Bool) (ds : List Painter) (h : ∀ d ∈ ds, d.norm = some n) :
    barNorm (some n) share ds = (ds, .ok (some n)) ∧ ∀ d ∈ ds, ∀ col v, d.drawn col v = some (place n.1 n.2 v) := by
  refine ⟨rfl, fun d hd col v => ?_⟩
  unfold Painter.drawn
  rw [h d hd]

/-- C375 is violated: two displayers with other lowest colours share one bar; the lowest value of the second is drawn with the first colour, to which the bar
gives another value. -/
theorem C375_two_violated (k q : Kit) (hk : k.lo < k.hi) (hq : q.lo ≠ k.lo) :
    ∃ d e, barNorm none true [fresh k.colors k.norm, fresh q.colors q.norm] = ([d, e], .ok (some (k.lo, k.hi))) ∧
      Shown q.colors q.lo ∧ ∀ col, e.drawn col q.lo = some 0 ∧ place k.lo k.hi q.lo ≠ 0 := by
  obtain ⟨ds, h1, h2, h3⟩ := C375_shared_partial k [q]
  obtain ⟨d, e, rfl⟩ := List.length_eq_two.mp h2
  refine ⟨d, e, h1, q.ext.1, fun col => ⟨?_, ?_⟩⟩
  · rw [h3 1 e q rfl rfl]
    unfold place
    rw [sub_self, zero_div, ite_self]
  · unfold place
    rw [if_neg (ne_of_lt hk)]
    exact div_ne_zero (sub_ne_zero.mpr hq) (sub_ne_zero.mpr (ne_of_gt hk))

/-- C375 is violated: a window with points or lines drawn over a field, without colours that are numbers, cannot be made with a shared bar: TypeError. -/
theorem C375_points_violated (l : List Kit) (d : Painter) (ds : List Painter) (hd : d.colors = none) :
    (barNorm none true ((l.map fun k => fresh k.colors k.norm) ++ d :: ds)).2 = .error .typeError := by
  have h : (shareNorms ((l.map fun k => fresh k.colors k.norm) ++ d :: ds)).2 = .error .typeError := by
    induction l with
    | nil =>
      simp only [List.map_nil, List.nil_append, shareNorms, Painter.global, hd]
    | cons k l ih =>
      simp only [List.map_cons, List.cons_append, shareNorms, global_fresh k.ext]
      exact ih
  unfold barNorm
  simp only [if_true]
  revert h
  generalize shareNorms ((l.map fun k => fresh k.colors k.norm) ++ d :: ds) = p
  rintro h
  obtain ⟨a, b⟩ := p
  cases h
  rfl

/-- C375 is violated: bounds asked for are those of the bar only; the lowest value of a frame is drawn with the first colour, which the bar gives to another
value. -/
theorem C375_asked_violated (c : List (List (Option Rat))) (n : Rat × Rat) (share : Bool) {col : List (Option Rat)} {m : Rat} (hm : some m ∈ col)
    (hl : ∀ v, some v ∈ col → m ≤ v) (hn : n.1 < n.2) (h : m ≠ n.1) :
    barNorm (some n) share [fresh c none] = ([fresh c none], .ok (some n)) ∧ (fresh c none).drawn col m = some 0 ∧ place n.1 n.2 m ≠ 0 := by
  refine ⟨rfl, ?_, ?_⟩
  · unfold Painter.drawn fresh
    simp only
    cases h1 : minOf (known col) with
    | none =>
      rw [minOf_none] at h1
      have := mem_known.mpr hm
      rw [h1] at this
      cases this
    | some a =>
      cases h2 : maxOf (known col) with
      | none =>
        rw [maxOf_none] at h2
        have := mem_known.mpr hm
        rw [h2] at this
        cases this
      | some b =>
        obtain ⟨a1, a2⟩ := minOf_some h1
        have : a = m := le_antisymm (a2 m (mem_known.mpr hm)) (hl a (mem_known.mp a1))
        subst this
        simp only [place, sub_self, zero_div, ite_self]
  · unfold place
    rw [if_neg (ne_of_lt hn)]
    exact div_ne_zero (sub_ne_zero.mpr h) (sub_ne_zero.mpr (ne_of_gt hn))

/-- Two frames with values from 0 to 4. -/
def warm : Kit := ⟨[[some 1, none], [some 4, some 0]], 0, 4, none, ⟨_, List.mem_cons_of_mem _ List.mem_cons_self, by simp⟩,
  ⟨_, List.mem_cons_of_mem _ List.mem_cons_self, by simp⟩, by
    rintro v ⟨col, hc, hv⟩
    simp only [List.mem_cons, List.not_mem_nil, or_false] at hc
    rcases hc with rfl | rfl <;> simp at hv
    · subst hv; norm_num
    · rcases hv with rfl | rfl <;> norm_num⟩

/-- One frame with values from 1 to 2. -/
def mild : Kit := ⟨[[some 1, some 2]], 1, 2, none, ⟨_, List.mem_cons_self, by simp⟩, ⟨_, List.mem_cons_self, by simp⟩, by
    rintro v ⟨col, hc, hv⟩
    simp only [List.mem_cons, List.not_mem_nil, or_false] at hc
    subst hc
    simp at hv
    rcases hv with rfl | rfl <;> norm_num⟩

example : (barNorm none true [fresh warm.colors none, fresh mild.colors none]).2 = .ok (some (0, 4)) := by
  obtain ⟨_, _, h, _⟩ := C375_two_violated warm mild (by norm_num [warm]) (by norm_num [warm, mild])
  exact congrArg Prod.snd h

example : (barNorm none true [fresh warm.colors none, ⟨none, ⟨none, none⟩, none⟩]).2 = .error .typeError := C375_points_violated [warm] _ [] rfl

example : (fresh warm.colors none).drawn [some 4, some 1] 1 = some 0 :=
  (C375_asked_violated warm.colors (0, 4) true (m := 1) (by simp) (by simp) (by norm_num) (by norm_num)).2.1

/-- C375: without a shared bar nor bounds asked for, the bar has no bounds, and each frame is drawn from its own lowest value to its own highest one. -/
theorem C375_unshared_partial (ds : List Painter) : barNorm none false ds = (ds, .ok none) ∧
    ∀ d ∈ ds, d.norm = none → ∀ col lo hi, Extremes [col] lo hi → ∀ v, d.drawn col v = some (if lo = hi then 0 else (v - lo) / (hi - lo)) := by
  refine ⟨rfl, fun d _ hn col lo hi h v => ?_⟩
  have hs : ∀ v, Shown [col] v ↔ v ∈ known col := fun v => by simp [Shown, mem_known]
  unfold Painter.drawn
  rw [hn]
  simp only
  cases h1 : minOf (known col) with
  | none =>
    rw [minOf_none] at h1
    have := (hs lo).mp h.1
    rw [h1] at this
    cases this
  | some a =>
    cases h2 : maxOf (known col) with
    | none =>
      rw [maxOf_none] at h2
      have := (hs lo).mp h.1
      rw [h2] at this
      cases this
    | some b =>
      obtain ⟨a1, a2⟩ := minOf_some h1
      obtain ⟨b1, b2⟩ := maxOf_some h2
      have ea : a = lo := le_antisymm (a2 lo ((hs lo).mp h.1)) (h.2.2 a ((hs a).mpr a1)).1
      have eb : b = hi := le_antisymm (h.2.2 b ((hs b).mpr b1)).2 (b2 hi ((hs hi).mp h.2.1))
      rw [ea, eb]
      rfl

example : (barNorm none false [fresh mild.colors none]).2 = .ok none ∧ (fresh mild.colors none).drawn [some 1, some 2] 2 = some 1 := by
  refine ⟨congrArg Prod.snd (C375_unshared_partial _).1, ?_⟩
  rw [(C375_unshared_partial [fresh mild.colors none]).2 _ (by simp) rfl [some 1, some 2] 1 2 mild.ext 2]
  norm_num

end IMT.Color
