import Verif.Display.LineModel
import Verif.Profile.Interpol

/-! Coloured lines: C366; colour maps made by hand: C367. -/

namespace IMT.Color

open IMT.Profile

/-! ### lemmas -/

theorem length_places (n : Nat) : (places n).length = n := by simp [places]

theorem places_get {n k : Nat} (hk : k < n) : (places n)[k]? = some ((k : Rat) / ((n : Rat) - 1)) := by
  simp [places, hk]

theorem places_inc (n : Nat) : Inc (places n) := by
  unfold Inc places
  rw [List.pairwise_map]
  refine List.Pairwise.imp_of_mem ?_ List.pairwise_lt_range
  intro a b ha hb hab
  rw [List.mem_range] at ha hb
  have h1 : (0 : Rat) < (n : Rat) - 1 := by
    have : (2 : Rat) ≤ n := by exact_mod_cast (by omega : 2 ≤ n)
    linarith
  exact div_lt_div_of_pos_right (by exact_mod_cast hab) h1

theorem zip_fst {α β : Type} : ∀ (l : List α) (m : List β), l.length ≤ m.length → (l.zip m).map Prod.fst = l := by
  intro l m h
  exact List.map_fst_zip h

/-- Two neighbours of a list, with what is before and after. -/
theorem split_two {α : Type} {l : List α} {k : Nat} {a b : α} (ha : l[k]? = some a) (hb : l[k + 1]? = some b) :
    l = l.take k ++ a :: b :: l.drop (k + 2) := by
  obtain ⟨h1, rfl⟩ := List.getElem?_eq_some_iff.1 hb
  obtain ⟨h0, rfl⟩ := List.getElem?_eq_some_iff.1 ha
  rw [← List.drop_eq_getElem_cons, ← List.drop_eq_getElem_cons, List.take_append_drop]

/-- The table of increasing places between two of its neighbours, ends included. -/
theorem lin_two {l : List (Rat × Rat)} (hi : Inc (l.map Prod.fst)) {k : Nat} {a b : Rat × Rat} (ha : l[k]? = some a) (hb : l[k + 1]? = some b) {t : Rat}
    (h1 : a.1 ≤ t) (h2 : t ≤ b.1) : lin l t = some (line a b t) := by
  have e := split_two ha hb
  rw [e] at hi ⊢
  rcases h1.lt_or_eq with h1 | rfl
  · exact lin_spec _ hi h1 h2
  · rw [lin_left _ hi]
    simp [line]

/-- Between its points `k` and `k + 1`, at the part `s` of the way. -/
theorem along_eq {l : List Rat} {k : Nat} {a b s t : Rat} (ha : l[k]? = some a) (hb : l[k + 1]? = some b) (h0 : 0 ≤ s) (h1 : s ≤ 1)
    (ht : t * ((l.length : Rat) - 1) = k + s) : along l t = (1 - s) * a + s * b := by
  have hk : k + 1 < l.length := (List.getElem?_eq_some_iff.1 hb).1
  have hn : (0 : Rat) < (l.length : Rat) - 1 := by
    have : (2 : Rat) ≤ l.length := by exact_mod_cast (by omega : 2 ≤ l.length)
    linarith
  have ha' : ((places l.length).zip l)[k]? = some ((k : Rat) / ((l.length : Rat) - 1), a) := by
    rw [List.getElem?_zip_eq_some]
    exact ⟨places_get (by omega), ha⟩
  have hb' : ((places l.length).zip l)[k + 1]? = some (((k + 1 : Nat) : Rat) / ((l.length : Rat) - 1), b) := by
    rw [List.getElem?_zip_eq_some]
    exact ⟨places_get hk, hb⟩
  have hi : Inc (((places l.length).zip l).map Prod.fst) := by
    rw [List.map_fst_zip (by rw [length_places])]
    exact places_inc _
  have t1 : (k : Rat) / ((l.length : Rat) - 1) ≤ t := by
    rw [div_le_iff₀ hn]
    linarith
  have t2 : t ≤ ((k + 1 : Nat) : Rat) / ((l.length : Rat) - 1) := by
    rw [le_div_iff₀ hn]
    push_cast
    linarith
  unfold along
  rw [lin_two hi ha' hb' t1 t2, Option.getD_some]
  unfold line
  have e : t = (k + s) / ((l.length : Rat) - 1) := by rw [eq_div_iff hn.ne']; exact ht
  rw [e]
  push_cast
  have hne := hn.ne'
  field_simp
  ring

/-- The part of the way: any place from 0 to 1 is between two neighbours. -/
theorem locate {n : Nat} (hn : 2 ≤ n) {t : Rat} (h0 : 0 ≤ t) (h1 : t ≤ 1) : ∃ k : Nat, ∃ s : Rat, k + 1 < n ∧ 0 ≤ s ∧ s ≤ 1 ∧ t * ((n : Rat) - 1) = k + s := by
  have hn' : (2 : Rat) ≤ n := by exact_mod_cast hn
  have hp : 0 ≤ t * ((n : Rat) - 1) := mul_nonneg h0 (by linarith)
  have hle : t * ((n : Rat) - 1) ≤ (n : Rat) - 1 := by nlinarith
  by_cases hk : ⌊t * ((n : Rat) - 1)⌋₊ + 1 < n
  · refine ⟨⌊t * ((n : Rat) - 1)⌋₊, t * ((n : Rat) - 1) - ⌊t * ((n : Rat) - 1)⌋₊, hk, ?_, ?_, by ring⟩
    · linarith [Nat.floor_le hp]
    · linarith [Nat.lt_floor_add_one (t * ((n : Rat) - 1))]
  · refine ⟨n - 2, 1, by omega, by norm_num, le_refl _, ?_⟩
    have h2 : (n : Rat) - 1 ≤ ⌊t * ((n : Rat) - 1)⌋₊ := by
      have : n ≤ ⌊t * ((n : Rat) - 1)⌋₊ + 1 := by omega
      have : (n : Rat) ≤ (⌊t * ((n : Rat) - 1)⌋₊ : Rat) + 1 := by exact_mod_cast this
      linarith
    have := Nat.floor_le hp
    rw [Nat.cast_sub hn]
    push_cast
    linarith

theorem le_refinedCount {n m : Nat} (hn : 0 < n) : m ≤ refinedCount n m := by
  unfold refinedCount ceilDiv
  have h := Nat.div_add_mod (m + n - 1) n
  have h2 := Nat.mod_lt (m + n - 1) hn
  generalize n * ((m + n - 1) / n) = q at *
  omega

theorem minOf_spec {l : List Rat} {a : Rat} (h : minOf l = some a) : a ∈ l ∧ ∀ b ∈ l, a ≤ b := by
  cases l with
  | nil => cases h
  | cons c l =>
    cases h
    have key : ∀ (l : List Rat) (c : Rat), (l.foldl min c = c ∨ l.foldl min c ∈ l) ∧ l.foldl min c ≤ c ∧ ∀ b ∈ l, l.foldl min c ≤ b := by
      intro l
      induction l with
      | nil => intro c; simp
      | cons d l ih =>
        intro c
        obtain ⟨h1, h2, h3⟩ := ih (min c d)
        simp only [List.foldl_cons, List.mem_cons]
        refine ⟨?_, h2.trans (min_le_left _ _), ?_⟩
        · rcases h1 with h1 | h1
          · rw [h1]
            rcases min_choice c d with h | h
            · exact .inl h
            · exact .inr (.inl h)
          · exact .inr (.inr h1)
        · rintro b (rfl | hb)
          · exact h2.trans (min_le_right _ _)
          · exact h3 b hb
    obtain ⟨h1, h2, h3⟩ := key l c
    refine ⟨by rw [List.mem_cons]; exact h1, ?_⟩
    intro b hb
    rcases List.mem_cons.1 hb with rfl | hb
    · exact h2
    · exact h3 b hb

theorem maxOf_spec {l : List Rat} {a : Rat} (h : maxOf l = some a) : a ∈ l ∧ ∀ b ∈ l, b ≤ a := by
  cases l with
  | nil => cases h
  | cons c l =>
    cases h
    have key : ∀ (l : List Rat) (c : Rat), (l.foldl max c = c ∨ l.foldl max c ∈ l) ∧ c ≤ l.foldl max c ∧ ∀ b ∈ l, b ≤ l.foldl max c := by
      intro l
      induction l with
      | nil => intro c; simp
      | cons d l ih =>
        intro c
        obtain ⟨h1, h2, h3⟩ := ih (max c d)
        simp only [List.foldl_cons, List.mem_cons]
        refine ⟨?_, (le_max_left _ _).trans h2, ?_⟩
        · rcases h1 with h1 | h1
          · rw [h1]
            rcases max_choice c d with h | h
            · exact .inl h
            · exact .inr (.inl h)
          · exact .inr (.inr h1)
        · rintro b (rfl | hb)
          · exact (le_max_right _ _).trans h2
          · exact h3 b hb
    obtain ⟨h1, h2, h3⟩ := key l c
    refine ⟨by rw [List.mem_cons]; exact h1, ?_⟩
    intro b hb
    rcases List.mem_cons.1 hb with rfl | hb
    · exact h2
    · exact h3 b hb

/-! ### specification of C366 -/

/-- The point `p` is at `w` along the broken line `l`: between its points `k` and `k + 1`, `k` being the whole part of `w` (or the end of the part before). -/
def Way (l : List (Rat × Rat × Rat)) (w : Rat) (p : Rat × Rat × Rat) : Prop :=
  ∃ (k : Nat) (s : Rat) (a b : Rat × Rat × Rat), l[k]? = some a ∧ l[k + 1]? = some b ∧ 0 ≤ s ∧ s ≤ 1 ∧ w = k + s ∧
    p = ((1 - s) * a.1 + s * b.1, (1 - s) * a.2.1 + s * b.2.1, (1 - s) * a.2.2 + s * b.2.2)

/-- The points that have no NaN, in order. -/
def Complete (x y z : List (Option Rat)) (l : List (Rat × Rat × Rat)) : Prop :=
  (x.zip (y.zip z)).filter (fun p => p.1.isSome && p.2.1.isSome && p.2.2.isSome) = l.map fun p => (some p.1, some p.2.1, some p.2.2)

/-- The drawing is the line through the points of `l`: one segment from each to the next one, coloured by the values of `l`, the bounds being the extreme ones. -/
structure Draws (d : Drawn) (log : Scale) (l : List (Rat × Rat × Rat)) : Prop where
  pts : d.pts = l.map fun p => (some p.1, some p.2.1)
  colors : d.colors = l.map fun p => p.2.2
  count : d.segs.length = l.length - 1
  segs : ∀ (k : Nat) (a b : Rat × Rat × Rat), l[k]? = some a → l[k + 1]? = some b → d.segs[k]? = some ((a.1, a.2.1), (b.1, b.2.1))
  xlog : d.xlog = true ↔ log = .semilogx ∨ log = .loglog
  ylog : d.ylog = true ↔ log = .semilogy ∨ log = .loglog
  norm : ∃ lo hi, d.norm = some (lo, hi) ∧ (∃ p ∈ l, p.2.2 = lo) ∧ (∃ p ∈ l, p.2.2 = hi) ∧ ∀ p ∈ l, lo ≤ p.2.2 ∧ p.2.2 ≤ hi

theorem drawLine_spec {log : Scale} {l : List (Rat × Rat × Rat)} (hl : l ≠ []) : ∃ d, drawLine log l = .ok d ∧ Draws d log l := by
  obtain ⟨p, l', rfl⟩ := List.exists_cons_of_ne_nil hl
  obtain ⟨lo, h1⟩ : ∃ lo, minOf ((p :: l').map fun p => p.2.2) = some lo := ⟨_, rfl⟩
  obtain ⟨hi, h2⟩ : ∃ hi, maxOf ((p :: l').map fun p => p.2.2) = some hi := ⟨_, rfl⟩
  generalize p :: l' = l at h1 h2 hl ⊢
  unfold drawLine
  rw [h1, h2]
  obtain ⟨m1, m2⟩ := minOf_spec h1
  obtain ⟨M1, M2⟩ := maxOf_spec h2
  have ez : ((l.map fun p => p.1).zip (l.map fun p => p.2.1)) = l.map fun p => (p.1, p.2.1) := by
    rw [List.zip_map']
  refine ⟨_, rfl, rfl, rfl, ?_, ?_, by simp, by simp, ⟨lo, hi, rfl, ?_, ?_, ?_⟩⟩
  · simp [segments, ez]
  · intro k a b ha hb
    have hk := (List.getElem?_eq_some_iff.1 hb).1
    simp only [segments, ez, List.getElem?_zip_eq_some]
    refine ⟨?_, ?_⟩
    · rw [List.getElem?_dropLast, if_pos (by simp only [List.length_map]; omega), List.getElem?_map, ha]
      rfl
    · rw [List.getElem?_tail, List.getElem?_map, hb]
      rfl
  · exact List.mem_map.1 m1
  · exact List.mem_map.1 M1
  · intro p hp
    exact ⟨m2 _ (List.mem_map_of_mem hp), M2 _ (List.mem_map_of_mem hp)⟩

theorem knownPts_eq {x y z : List (Option Rat)} {l : List (Rat × Rat × Rat)} (h : Complete x y z l) : knownPts (zipPts x y z) = l := by
  unfold Complete at h
  unfold knownPts zipPts
  rw [List.filterMap_map]
  have key : ∀ (m : List (Option Rat × Option Rat × Option Rat)) (l : List (Rat × Rat × Rat)),
      m.filter (fun p => p.1.isSome && p.2.1.isSome && p.2.2.isSome) = (l.map fun p => (some p.1, some p.2.1, some p.2.2)) →
      m.filterMap (fun p => match p.1, p.2.1, p.2.2 with
        | some a, some b, some c => some (a, b, c)
        | _, _, _ => none) = l := by
    intro m
    induction m with
    | nil => intro l h; cases l with
      | nil => rfl
      | cons a l => cases h
    | cons p m ih =>
      obtain ⟨a, b, c⟩ := p
      intro l h
      cases a with
      | none => exact ih l (by simpa using h)
      | some a => cases b with
        | none => exact ih l (by simpa using h)
        | some b => cases c with
          | none => exact ih l (by simpa using h)
          | some c =>
            rw [List.filter_cons_of_pos (by simp)] at h
            cases l with
            | nil => cases h
            | cons q l =>
              rw [List.map_cons] at h
              obtain ⟨h1, h2⟩ := List.cons.inj h
              rw [List.filterMap_cons]
              simp only
              rw [ih l h2]
              obtain ⟨q1, q2, q3⟩ := q
              simp only [Prod.mk.injEq, Option.some.injEq] at h1
              obtain ⟨rfl, rfl, rfl⟩ := h1
              rfl
  exact key _ l h

theorem colored_eq {fc : Bool} {x y z : List (Option Rat)} {log : Scale} {m : Nat} (hxy : x.length = y.length) (hxz : z.length = x.length) (h2 : 2 ≤ x.length)
    {l : List (Rat × Rat × Rat)} (hl : Complete x y z l) :
    coloredPlot fc x y (some z) log m = match vertices fc l m with
      | .error e => .error e
      | .ok l => drawLine log l := by
  unfold coloredPlot
  rw [if_neg (by simpa using hxy), if_neg (by omega)]
  simp only
  rw [if_neg (by simpa using hxz), knownPts_eq hl]
  cases vertices fc l m <;> rfl

/-! ### C366 -/

section
variable {fc : Bool} {x y z : List (Option Rat)} {log : Scale} {m : Nat} {l : List (Rat × Rat × Rat)}

/-- C366: with as many complete points as wanted colours, the line through these points is drawn, whatever points with NaN there are between them. -/
theorem C366_line (hxy : x.length = y.length) (hxz : z.length = x.length) (h2 : 2 ≤ x.length) (hl : Complete x y z l) (hm : m ≤ l.length) (hne : l ≠ []) :
    ∃ d, coloredPlot fc x y (some z) log m = .ok d ∧ Draws d log l := by
  rw [colored_eq hxy hxz h2 hl]
  unfold vertices
  rw [if_neg (by omega)]
  exact drawLine_spec hne

/-- C366: with fewer points, the line is drawn through at least as many points as wanted colours; they are on the line through the given points, at equal
distances along it (each part of the line counting for one), from its first point to its last one.  Needs a version of numpy that takes floats as numbers of points. -/
theorem C366_refined_partial (hxy : x.length = y.length) (hxz : z.length = x.length) (h2 : 2 ≤ x.length) (hl : Complete x y z l) (hn : 2 ≤ l.length)
    (hm : l.length < m) :
    ∃ d L, coloredPlot true x y (some z) log m = .ok d ∧ Draws d log L ∧ m ≤ L.length ∧ l.length ∣ L.length ∧
      ∀ (j : Nat) (p : Rat × Rat × Rat), L[j]? = some p → Way l ((j : Rat) * ((l.length : Rat) - 1) / ((L.length : Rat) - 1)) p := by
  rw [colored_eq hxy hxz h2 hl]
  unfold vertices
  rw [if_pos hm, if_neg (by omega), if_pos rfl]
  have hc : m ≤ refinedCount l.length m := le_refinedCount (by omega)
  have hlen : (refined l m).length = refinedCount l.length m := by simp [refined, length_places]
  obtain ⟨d, e, hd⟩ := drawLine_spec (log := log) (l := refined l m) (by intro h; rw [h] at hlen; simp only [List.length_nil] at hlen; omega)
  refine ⟨d, refined l m, e, hd, by omega, by rw [hlen]; exact ⟨_, rfl⟩, ?_⟩
  intro j p hp
  have hj : j < refinedCount l.length m := by rw [← hlen]; exact (List.getElem?_eq_some_iff.1 hp).1
  unfold refined at hp
  rw [List.getElem?_map, places_get hj] at hp
  simp only [Option.map_some, Option.some.injEq] at hp
  have hN : (0 : Rat) < (refinedCount l.length m : Rat) - 1 := by
    have : (2 : Rat) ≤ (refinedCount l.length m : Rat) := by exact_mod_cast (by omega : 2 ≤ refinedCount l.length m)
    linarith
  have t0 : 0 ≤ (j : Rat) / ((refinedCount l.length m : Rat) - 1) := div_nonneg (by positivity) hN.le
  have t1 : (j : Rat) / ((refinedCount l.length m : Rat) - 1) ≤ 1 := by
    rw [div_le_one hN]
    have : (j : Rat) + 1 ≤ (refinedCount l.length m : Rat) := by exact_mod_cast hj
    linarith
  obtain ⟨k, s, hk, s0, s1, hks⟩ := locate hn t0 t1
  have ga : l[k]? = some l[k] := List.getElem?_eq_getElem (by omega)
  have gb : l[k + 1]? = some l[k + 1] := List.getElem?_eq_getElem hk
  refine ⟨k, s, l[k], l[k + 1], ga, gb, s0, s1, ?_, ?_⟩
  · rw [hlen, ← hks]
    ring
  · rw [← hp]
    congr 1
    · exact along_eq (k := k) (by rw [List.getElem?_map, ga]; rfl) (by rw [List.getElem?_map, gb]; rfl) s0 s1 (by rw [List.length_map]; exact hks)
    · congr 1
      · exact along_eq (k := k) (by rw [List.getElem?_map, ga]; rfl) (by rw [List.getElem?_map, gb]; rfl) s0 s1 (by rw [List.length_map]; exact hks)
      · exact along_eq (k := k) (by rw [List.getElem?_map, ga]; rfl) (by rw [List.getElem?_map, gb]; rfl) s0 s1 (by rw [List.length_map]; exact hks)

/-- C366 fails with numpy from its version 1.18 on: every line with fewer complete points than wanted colours (1000 by default) is refused. -/
theorem C366_count_violated (hxy : x.length = y.length) (hxz : z.length = x.length) (h2 : 2 ≤ x.length) (hl : Complete x y z l) (hn : 2 ≤ l.length)
    (hm : l.length < m) : coloredPlot false x y (some z) log m = .error .typeError := by
  rw [colored_eq hxy hxz h2 hl]
  unfold vertices
  rw [if_pos hm, if_neg (by omega), if_neg (by simp)]

/-- C366 fails at the corners: of a line made of two parts, refined by an even factor (as with 1000 colours), the corner is not drawn. -/
theorem C366_corner_violated (hxy : x.length = y.length) (hxz : z.length = x.length) (h2 : 2 ≤ x.length) {a b c : Rat × Rat × Rat}
    (hl : Complete x y z [a, b, c]) (hm : 3 < m) (hf : 2 ∣ ceilDiv m 3) (hab : (a.1, a.2.1) ≠ (b.1, b.2.1)) (hbc : (b.1, b.2.1) ≠ (c.1, c.2.1)) :
    ∃ d, coloredPlot true x y (some z) log m = .ok d ∧ (some b.1, some b.2.1) ∉ d.pts := by
  obtain ⟨d, L, e, hd, hmL, -, hway⟩ := C366_refined_partial (log := log) hxy hxz h2 hl (by simp) (by simpa using hm)
  refine ⟨d, e, ?_⟩
  have hlen : ∃ q, L.length = 6 * q := by
    rw [colored_eq hxy hxz h2 hl] at e
    unfold vertices at e
    rw [if_pos (by simpa using hm), if_neg (by simp), if_pos rfl] at e
    obtain ⟨d', e', hd'⟩ := drawLine_spec (log := log) (l := refined [a, b, c] m) (by
      intro h
      have hlen : (refined [a, b, c] m).length = refinedCount 3 m := by simp [refined, length_places]
      have := le_refinedCount (n := 3) (m := m) (by omega)
      rw [h] at hlen
      simp only [List.length_nil] at hlen
      omega)
    simp only at e
    rw [e'] at e
    cases e
    have h3 := congrArg List.length (hd.pts.symm.trans hd'.pts)
    rw [List.length_map, List.length_map] at h3
    obtain ⟨q, hq⟩ := hf
    refine ⟨q, ?_⟩
    rw [h3]
    simp only [refined, List.length_map, length_places, refinedCount, List.length_cons, List.length_nil]
    rw [hq]
    omega
  obtain ⟨q, hq⟩ := hlen
  rw [hd.pts]
  intro hmem
  obtain ⟨p, hp, hpe⟩ := List.mem_map.1 hmem
  obtain ⟨j, hj⟩ := List.getElem?_of_mem hp
  obtain ⟨k, s, u, v, hu, hv, s0, s1, hw, rfl⟩ := hway j p hj
  have hN : (0 : Rat) < (L.length : Rat) - 1 := by
    have : (4 : Rat) ≤ (L.length : Rat) := by exact_mod_cast (by omega : 4 ≤ L.length)
    linarith
  have hw' : (j : Rat) * 2 = (k + s) * (6 * q - 1) := by
    rw [hq] at hw hN
    push_cast at hw hN
    rw [div_eq_iff hN.ne'] at hw
    norm_num at hw
    linarith
  have hodd : ∀ r : Nat, (j : Rat) * 2 ≠ r * (6 * q - 1) ∨ r % 2 = 0 := by
    intro r
    by_cases hr : r % 2 = 0
    · exact .inr hr
    · left
      intro h
      have h' : ((j * 2 + r : Nat) : Rat) = ((r * (6 * q) : Nat) : Rat) := by push_cast; linarith
      have h'' : j * 2 + r = r * (6 * q) := by exact_mod_cast h'
      have : r * (6 * q) = 2 * (r * (3 * q)) := by ring
      omega
  simp only [Prod.mk.injEq, Option.some.injEq] at hpe
  have kc : k = 0 ∨ k = 1 := by
    have := (List.getElem?_eq_some_iff.1 hv).1
    simp only [List.length_cons, List.length_nil] at this
    omega
  rcases kc with rfl | rfl
  · simp only [List.getElem?_cons_zero, Option.some.injEq, Nat.zero_add, List.getElem?_cons_succ] at hu hv
    subst hu hv
    have hs : s ≠ 1 := by
      rintro rfl
      rcases hodd 1 with h | h
      · exact h (by push_cast; push_cast at hw'; linarith)
      · cases h
    have h0 : 1 - s ≠ 0 := fun h => hs (by linarith)
    apply hab
    have e1 : (1 - s) * (a.1 - b.1) = 0 := by linarith [hpe.1]
    have e2 : (1 - s) * (a.2.1 - b.2.1) = 0 := by linarith [hpe.2]
    rw [mul_eq_zero] at e1 e2
    rw [Prod.mk.injEq]
    exact ⟨by linarith [e1.resolve_left h0], by linarith [e2.resolve_left h0]⟩
  · simp only [List.getElem?_cons_zero, Option.some.injEq, List.getElem?_cons_succ] at hu hv
    subst hu hv
    have hs : s ≠ 0 := by
      rintro rfl
      rcases hodd 1 with h | h
      · exact h (by push_cast; push_cast at hw'; linarith)
      · cases h
    apply hbc
    have e1 : s * (b.1 - c.1) = 0 := by linarith [hpe.1]
    have e2 : s * (b.2.1 - c.2.1) = 0 := by linarith [hpe.2]
    rw [mul_eq_zero] at e1 e2
    rw [Prod.mk.injEq]
    exact ⟨by linarith [e1.resolve_left hs], by linarith [e2.resolve_left hs]⟩

/-- C366 fails without colours: the axes stay linear whatever is asked for. -/
theorem C366_log_violated (hxy : x.length = y.length) (h2 : 2 ≤ x.length) (log : Scale) :
    ∃ d, coloredPlot fc x y none log m = .ok d ∧ d.pts = x.zip y ∧ d.xlog = false ∧ d.ylog = false := by
  unfold coloredPlot
  rw [if_neg (by simpa using hxy), if_neg (by omega)]
  exact ⟨_, rfl, rfl, rfl, rfl⟩

/-- C366: arrays of different lengths, and lines of fewer than two points, are refused. -/
theorem C366_refused (h : x.length ≠ y.length ∨ x.length < 2 ∨ z.length ≠ x.length) : coloredPlot fc x y (some z) log m = .error .valueError := by
  unfold coloredPlot
  by_cases h1 : x.length ≠ y.length
  · rw [if_pos h1]
  · rw [if_neg h1]
    by_cases h2 : x.length < 2
    · rw [if_pos h2]
    · rw [if_neg h2]
      simp only
      rw [if_pos ((h.resolve_left h1).resolve_left h2)]

/-- C366: with fewer than two complete points the line is refused, unless no more colours are wanted than there are. -/
theorem C366_alone (hxy : x.length = y.length) (hxz : z.length = x.length) (h2 : 2 ≤ x.length) (hl : Complete x y z l) (hn : l.length < 2)
    (hm : l.length < m) : coloredPlot fc x y (some z) log m = .error .valueError := by
  rw [colored_eq hxy hxz h2 hl]
  unfold vertices
  rw [if_pos hm, if_pos hn]

end

/-! ### specification of C367 -/

/-- The 256 values `tab` of a colour map go, on straight lines, through the values `v` at the places `p`. -/
def Maps (tab p v : List Rat) : Prop :=
  tab.length = 256 ∧ ∀ (k i : Nat) (a b u w : Rat), k < 256 → p[i]? = some a → p[i + 1]? = some b → v[i]? = some u → v[i + 1]? = some w →
    a ≤ (k : Rat) / 255 → (k : Rat) / 255 ≤ b → tab[k]? = some (onLine a u b w ((k : Rat) / 255))

theorem lut_maps {p v : List Rat} (hl : p.length = v.length) (hn : 2 ≤ p.length) (hi : Inc p) (h0 : p[0]? = some 0) (h1 : p[p.length - 1]? = some 1)
    (hv : ∀ a ∈ v, 0 ≤ a ∧ a ≤ 1) : ∃ tab, lut (p.zip v) = .ok tab ∧ Maps tab p v := by
  have hlen : (p.zip v).length = p.length := by rw [List.length_zip]; omega
  have hi' : Inc ((p.zip v).map Prod.fst) := by rw [List.map_fst_zip (by omega)]; exact hi
  have gz : ∀ i, i < p.length → (p.zip v)[i]? = some (p.getD i 0, v.getD i 0) := by
    intro i hi
    rw [List.getElem?_zip_eq_some]
    simp [hi, (by omega : i < v.length)]
  have hh : (p.zip v).head? = some (0, v.getD 0 0) := by
    rw [List.head?_eq_getElem?, gz 0 (by omega)]
    simp [List.getD_eq_getElem?_getD, h0]
  have hz : (p.zip v).getLast? = some (1, v.getD (p.length - 1) 0) := by
    rw [List.getLast?_eq_getElem?, hlen, gz _ (by omega)]
    simp [List.getD_eq_getElem?_getD, h1]
  have hp : ((p.zip v).map Prod.fst).Pairwise (· ≤ ·) := hi'.imp fun h => le_of_lt h
  unfold lut
  rw [hh, hz]
  simp only
  rw [if_neg (by push Not; exact ⟨rfl, rfl, hp⟩)]
  refine ⟨_, rfl, by simp, ?_⟩
  intro k i a b u w hk ha hb hu hw h1' h2'
  have hib : i + 1 < p.length := (List.getElem?_eq_some_iff.1 hb).1
  have hab : a < b := by
    have := List.pairwise_iff_getElem.1 hi i (i + 1) (by omega) hib (by omega)
    rw [(List.getElem?_eq_some_iff.1 ha).2, (List.getElem?_eq_some_iff.1 hb).2] at this
    exact this
  have ga : (p.zip v)[i]? = some (a, u) := by rw [List.getElem?_zip_eq_some]; exact ⟨ha, hu⟩
  have gb : (p.zip v)[i + 1]? = some (b, w) := by rw [List.getElem?_zip_eq_some]; exact ⟨hb, hw⟩
  obtain ⟨u0, u1⟩ := hv u (List.mem_of_getElem? hu)
  obtain ⟨w0, w1⟩ := hv w (List.mem_of_getElem? hw)
  have hon : 0 ≤ onLine a u b w ((k : Rat) / 255) ∧ onLine a u b w ((k : Rat) / 255) ≤ 1 := by
    unfold onLine
    have hd : 0 < b - a := by linarith
    constructor
    · apply div_nonneg _ hd.le
      have := mul_nonneg (sub_nonneg.2 h2') u0
      have := mul_nonneg (sub_nonneg.2 h1') w0
      linarith
    · rw [div_le_one hd]
      have := mul_le_mul_of_nonneg_left u1 (sub_nonneg.2 h2')
      have := mul_le_mul_of_nonneg_left w1 (sub_nonneg.2 h1')
      linarith
  rw [List.getElem?_map, List.getElem?_range hk, Option.map_some]
  congr 1
  have main : (if k = 0 then v.getD 0 0 else if k = 255 then v.getD (p.length - 1) 0 else (lin (p.zip v) ((k : Rat) / 255)).getD 0) =
      onLine a u b w ((k : Rat) / 255) := by
    by_cases k0 : k = 0
    · rw [if_pos k0]
      subst k0
      have hi0 : i = 0 := by
        by_contra hne
        have := List.pairwise_iff_getElem.1 hi 0 i (by omega) (by omega) (by omega)
        rw [(List.getElem?_eq_some_iff.1 h0).2, (List.getElem?_eq_some_iff.1 ha).2] at this
        simp at h1'
        linarith
      subst hi0
      rw [h0] at ha
      cases ha
      unfold onLine
      rw [List.getD_eq_getElem?_getD, hu]
      simp [hab.ne']
    · rw [if_neg k0]
      by_cases k1 : k = 255
      · rw [if_pos k1]
        subst k1
        have hi1 : i + 1 = p.length - 1 := by
          by_contra hne
          have := List.pairwise_iff_getElem.1 hi (i + 1) (p.length - 1) hib (by omega) (by omega)
          rw [(List.getElem?_eq_some_iff.1 h1).2, (List.getElem?_eq_some_iff.1 hb).2] at this
          norm_num at h2'
          linarith
        rw [← hi1, hb] at h1
        cases h1
        rw [← hi1, List.getD_eq_getElem?_getD, hw]
        unfold onLine
        norm_num
        rw [mul_div_cancel_left₀ _ (by linarith)]
      · rw [if_neg k1, lin_two hi' ga gb h1' h2', Option.getD_some, line_onLine hab]
  rw [main, min_eq_right hon.2, max_eq_right hon.1]

theorem rgbs_rows (cs : List Rgb) (h : cs ≠ []) : rgbs (cs.map fun c => [c.1, c.2.1, c.2.2]) = some cs := by
  unfold rgbs
  rw [if_neg (by simpa using h)]
  clear h
  induction cs with
  | nil => rfl
  | cons c cs ih =>
    rw [List.map_cons, List.mapM_cons, ih]
    rfl

theorem cmap_some {rows : List (List Rat)} {cs : List Rgb} {p : List Rat} (h : rgbs rows = some cs) :
    makeCmap rows (some p) = if p.length ≠ cs.length then .error .valueError
      else .ok ⟨p.zip (cs.map fun c => c.1), p.zip (cs.map fun c => c.2.1), p.zip (cs.map fun c => c.2.2)⟩ := by
  unfold makeCmap
  rw [h]
  rfl

/-! ### C367 -/

/-- C367: the colour map made from two colours or more, at places going from 0 to 1, gives at each place the mixture of the two neighbouring colours, for red, green
and blue. -/
theorem C367_map_partial {cs : List Rgb} {p : List Rat} (hl : p.length = cs.length) (hn : 2 ≤ p.length) (hi : Inc p) (h0 : p[0]? = some 0)
    (h1 : p[p.length - 1]? = some 1) (hv : ∀ c ∈ cs, (0 ≤ c.1 ∧ c.1 ≤ 1) ∧ (0 ≤ c.2.1 ∧ c.2.1 ≤ 1) ∧ 0 ≤ c.2.2 ∧ c.2.2 ≤ 1) :
    ∃ d R G B, makeCmap (cs.map fun c => [c.1, c.2.1, c.2.2]) (some p) = .ok d ∧ lut d.red = .ok R ∧ lut d.green = .ok G ∧ lut d.blue = .ok B ∧
      Maps R p (cs.map fun c => c.1) ∧ Maps G p (cs.map fun c => c.2.1) ∧ Maps B p (cs.map fun c => c.2.2) := by
  have hne : cs ≠ [] := by rintro rfl; rw [List.length_nil] at hl; omega
  obtain ⟨R, r1, r2⟩ := lut_maps (v := cs.map fun c => c.1) (by simpa using hl) hn hi h0 h1 (by
    intro a ha; obtain ⟨c, hc, rfl⟩ := List.mem_map.1 ha; exact (hv c hc).1)
  obtain ⟨G, g1, g2⟩ := lut_maps (v := cs.map fun c => c.2.1) (by simpa using hl) hn hi h0 h1 (by
    intro a ha; obtain ⟨c, hc, rfl⟩ := List.mem_map.1 ha; exact (hv c hc).2.1)
  obtain ⟨B, b1, b2⟩ := lut_maps (v := cs.map fun c => c.2.2) (by simpa using hl) hn hi h0 h1 (by
    intro a ha; obtain ⟨c, hc, rfl⟩ := List.mem_map.1 ha; exact (hv c hc).2.2)
  refine ⟨⟨p.zip (cs.map fun c => c.1), p.zip (cs.map fun c => c.2.1), p.zip (cs.map fun c => c.2.2)⟩, R, G, B, ?_, r1, g1, b1, r2, g2, b2⟩
  rw [cmap_some (rgbs_rows cs hne), if_neg (by simpa using hl)]

/-- C367: by default the colours are evenly spread from 0 to 1, the one of rank `i` among `n` being at `i/(n - 1)`. -/
theorem C367_even {cs : List Rgb} (hn : 2 ≤ cs.length) :
    ∃ p : List Rat, makeCmap (cs.map fun c => [c.1, c.2.1, c.2.2]) none = makeCmap (cs.map fun c => [c.1, c.2.1, c.2.2]) (some p) ∧ p.length = cs.length ∧
      Inc p ∧ p[0]? = some 0 ∧ p[p.length - 1]? = some 1 ∧ ∀ i < cs.length, p[i]? = some ((i : Rat) / ((cs.length : Rat) - 1)) := by
  have hne : cs ≠ [] := by rintro rfl; simp at hn
  have h2 : (cs.length : Rat) - 1 ≠ 0 := by
    have : (2 : Rat) ≤ cs.length := by exact_mod_cast hn
    intro h
    linarith
  refine ⟨places cs.length, ?_, length_places _, places_inc _, ?_, ?_, fun i hi => places_get hi⟩
  · unfold makeCmap
    rw [rgbs_rows cs hne]
    rfl
  · rw [places_get (by omega)]
    simp
  · rw [length_places, places_get (by omega), Nat.cast_sub (by omega)]
    push_cast
    rw [div_self h2]

/-- C367 fails with one colour: a map is returned, but none of its tables can be made. -/
theorem C367_one_violated (c : Rgb) : ∃ d, makeCmap [[c.1, c.2.1, c.2.2]] none = .ok d ∧
    lut d.red = .error .valueError ∧ lut d.green = .error .valueError ∧ lut d.blue = .error .valueError := by
  refine ⟨⟨[(0, c.1)], [(0, c.2.1)], [(0, c.2.2)]⟩, ?_, by simp [lut], by simp [lut], by simp [lut]⟩
  have := rgbs_rows [c] (by simp)
  simp only [List.map_cons, List.map_nil] at this
  unfold makeCmap
  rw [this]
  simp [positionsOf, places]

/-- C367 fails with places that do not start at 0, do not end at 1, or go back: a map is returned, but none of its tables can be made. -/
theorem C367_places_violated {cs : List Rgb} {p : List Rat} (hl : p.length = cs.length) (hn : cs ≠ [])
    (h : p[0]? ≠ some 0 ∨ p[p.length - 1]? ≠ some 1 ∨ ¬ p.Pairwise (· ≤ ·)) : ∃ d, makeCmap (cs.map fun c => [c.1, c.2.1, c.2.2]) (some p) = .ok d ∧
    lut d.red = .error .valueError ∧ lut d.green = .error .valueError ∧ lut d.blue = .error .valueError := by
  have hpos : 0 < p.length := by rw [hl]; exact List.length_pos_iff.2 hn
  have bad : ∀ v : List Rat, v.length = p.length → lut (p.zip v) = .error .valueError := by
    intro v hv
    have hlen : (p.zip v).length = p.length := by rw [List.length_zip]; omega
    have gz : ∀ i, i < p.length → ∃ w, (p.zip v)[i]? = some (p.getD i 0, w) := by
      intro i hi
      refine ⟨v.getD i 0, ?_⟩
      rw [List.getElem?_zip_eq_some]
      simp [hi, (by omega : i < v.length)]
    obtain ⟨w0, e0⟩ := gz 0 hpos
    obtain ⟨w1, e1⟩ := gz (p.length - 1) (by omega)
    unfold lut
    rw [List.head?_eq_getElem?, List.getLast?_eq_getElem?, hlen, e0, e1]
    simp only
    rw [if_pos]
    rcases h with h | h | h
    · left
      intro h'
      rw [List.getD_eq_getElem?_getD, List.getElem?_eq_getElem hpos] at h'
      exact h (by rw [List.getElem?_eq_getElem hpos]; simpa using h')
    · right; left
      intro h'
      rw [List.getD_eq_getElem?_getD, List.getElem?_eq_getElem (by omega)] at h'
      exact h (by rw [List.getElem?_eq_getElem (by omega)]; simpa using h')
    · right; right
      rw [List.map_fst_zip (by omega)]
      exact h
  refine ⟨⟨p.zip (cs.map fun c => c.1), p.zip (cs.map fun c => c.2.1), p.zip (cs.map fun c => c.2.2)⟩, ?_, bad _ (by simp [hl]), bad _ (by simp [hl]),
    bad _ (by simp [hl])⟩
  rw [cmap_some (rgbs_rows cs hn), if_neg (by simpa using hl)]

/-- C367: as many places as colours are needed, at least one colour, and three values for each. -/
theorem C367_refused {rows : List (List Rat)} {p : Option (List Rat)} (h : rows = [] ∨ (∃ r ∈ rows, r.length ≠ 3) ∨ ∃ q, p = some q ∧ q.length ≠ rows.length) :
    makeCmap rows p = .error .valueError := by
  have key : ∀ cs, rgbs rows = some cs → rows ≠ [] ∧ rows = cs.map fun c => [c.1, c.2.1, c.2.2] := by
    intro cs hc
    unfold rgbs at hc
    by_cases h0 : rows = []
    · rw [if_pos h0] at hc; cases hc
    · rw [if_neg h0] at hc
      refine ⟨h0, ?_⟩
      clear h h0
      induction rows generalizing cs with
      | nil => simp at hc; subst hc; rfl
      | cons r rows ih =>
        rw [List.mapM_cons] at hc
        match r, hc with
        | [], hc => cases hc
        | [a], hc => cases hc
        | [a, b], hc => cases hc
        | [a, b, c], hc =>
          simp only [Option.pure_def, Option.bind_eq_bind, Option.bind_some] at hc
          obtain ⟨cs', e, hcs⟩ := Option.bind_eq_some_iff.1 hc
          cases hcs
          rw [List.map_cons, ← ih cs' e]
        | a :: b :: c :: d :: l, hc => cases hc
  cases hc : rgbs rows with
  | none => unfold makeCmap; rw [hc]
  | some cs =>
    obtain ⟨h1, h2⟩ := key cs hc
    rcases h with h | ⟨r, hr, h⟩ | ⟨q, rfl, h⟩
    · exact absurd h h1
    · rw [h2] at hr
      obtain ⟨c, -, rfl⟩ := List.mem_map.1 hr
      exact absurd rfl h
    · rw [cmap_some hc, if_pos]
      intro h'
      exact h (by rw [h', h2, List.length_map])

/-! ### examples -/

example : (coloredPlot true [some 0, some 1, none, some 1] [some 0, some 0, some 5, some 1] (some [some 2, some 3, some 4, some 5]) .loglog 2).toOption.map
    (fun d => (d.segs, d.norm)) = some ([((0, 0), (1, 0)), ((1, 0), (1, 1))], some (2, 5)) := by decide +kernel

/-- Two parts refined to six points: the corner (1, 0) is cut. -/
example : (coloredPlot true [some 0, some 1, some 1] [some 0, some 0, some 1] (some [some 0, some 0, some 1]) .plot 4).toOption.map (fun d => d.pts) =
    some [(some 0, some 0), (some (2/5), some 0), (some (4/5), some 0), (some 1, some (1/5)), (some 1, some (3/5)), (some 1, some 1)] := by decide +kernel

example : Complete [some 0, some 1, none, some 1] [some 0, some 0, some 5, some 1] [some 2, some 3, some 4, some 5] [(0, 0, 2), (1, 0, 3), (1, 1, 5)] := by
  unfold Complete; decide +kernel

example : 2 ∣ ceilDiv 1000 3 := by decide

example : ∃ d R G B, makeCmap [[1, 0, 0], [0, 1, 0], [0, 0, 1]] (some [0, 1/4, 1]) = .ok d ∧ lut d.red = .ok R ∧ lut d.green = .ok G ∧ lut d.blue = .ok B ∧
    Maps R [0, 1/4, 1] [1, 0, 0] ∧ Maps G [0, 1/4, 1] [0, 1, 0] ∧ Maps B [0, 1/4, 1] [0, 0, 1] := by
  have h := C367_map_partial (cs := [(1, 0, 0), (0, 1, 0), (0, 0, 1)]) (p := [0, 1/4, 1]) rfl (by decide) (by unfold Inc; norm_num) rfl rfl (by norm_num)
  exact h

end IMT.Color
