import Verif.Profile.History

/-! Cropping a profile by values: C31 and C90. -/

namespace IMT.Profile

variable {srt : List Rat → List Nat}

/-! ### the loop -/

/-- The first component changes at the index `k` only. -/
theorem fold_fst {xs : List Rat} {a b : Rat} (L : List Nat) (k c : Nat) (hk : k ∈ L)
    (h1 : ∀ s, (cropStep xs a b s k).1 = c) (h2 : ∀ i ∈ L, i ≠ k → ∀ s, (cropStep xs a b s i).1 = s.1)
    (s : Nat × Option Nat) : (L.foldl (cropStep xs a b) s).1 = c := by
  have keep : ∀ (M : List Nat) (s : Nat × Option Nat), (∀ i ∈ M, i ≠ k → ∀ s, (cropStep xs a b s i).1 = s.1) → s.1 = c →
      (M.foldl (cropStep xs a b) s).1 = c := by
    intro M
    induction M with
    | nil => intro s _ h; exact h
    | cons i M ih =>
      intro s hM h
      rw [List.foldl_cons]
      apply ih _ fun j hj => hM j (by simp [hj])
      by_cases hik : i = k
      · rw [hik]; exact h1 s
      · rw [hM i (by simp) hik]; exact h
  induction L generalizing s with
  | nil => simp at hk
  | cons i L ih =>
    rw [List.foldl_cons]
    by_cases hik : i = k
    · apply keep L _ fun j hj => h2 j (by simp [hj])
      rw [hik]; exact h1 s
    · exact ih (by simpa [Ne.symm hik] using hk) (fun j hj => h2 j (by simp [hj])) _

theorem fold_fst_none {xs : List Rat} {a b : Rat} (L : List Nat) (h2 : ∀ i ∈ L, ∀ s, (cropStep xs a b s i).1 = s.1)
    (s : Nat × Option Nat) : (L.foldl (cropStep xs a b) s).1 = s.1 := by
  induction L generalizing s with
  | nil => rfl
  | cons i L ih => rw [List.foldl_cons, ih (fun j hj => h2 j (by simp [hj])), h2 i (by simp)]

theorem fold_snd {xs : List Rat} {a b : Rat} (L : List Nat) (k : Nat) (c : Option Nat) (hk : k ∈ L)
    (h1 : ∀ s, (cropStep xs a b s k).2 = c) (h2 : ∀ i ∈ L, i ≠ k → ∀ s, (cropStep xs a b s i).2 = s.2)
    (s : Nat × Option Nat) : (L.foldl (cropStep xs a b) s).2 = c := by
  have keep : ∀ (M : List Nat) (s : Nat × Option Nat), (∀ i ∈ M, i ≠ k → ∀ s, (cropStep xs a b s i).2 = s.2) → s.2 = c →
      (M.foldl (cropStep xs a b) s).2 = c := by
    intro M
    induction M with
    | nil => intro s _ h; exact h
    | cons i M ih =>
      intro s hM h
      rw [List.foldl_cons]
      apply ih _ fun j hj => hM j (by simp [hj])
      by_cases hik : i = k
      · rw [hik]; exact h1 s
      · rw [hM i (by simp) hik]; exact h
  induction L generalizing s with
  | nil => simp at hk
  | cons i L ih =>
    rw [List.foldl_cons]
    by_cases hik : i = k
    · apply keep L _ fun j hj => h2 j (by simp [hj])
      rw [hik]; exact h1 s
    · exact ih (by simpa [Ne.symm hik] using hk) (fun j hj => h2 j (by simp [hj])) _

theorem fold_snd_none {xs : List Rat} {a b : Rat} (L : List Nat) (h2 : ∀ i ∈ L, ∀ s, (cropStep xs a b s i).2 = s.2)
    (s : Nat × Option Nat) : (L.foldl (cropStep xs a b) s).2 = s.2 := by
  induction L generalizing s with
  | nil => rfl
  | cons i L ih => rw [List.foldl_cons, ih (fun j hj => h2 j (by simp [hj])), h2 i (by simp)]

theorem mem_loop {n i : Nat} : i ∈ ((List.range (n - 1)).map (· + 1)).reverse ↔ 1 ≤ i ∧ i < n := by
  rw [List.mem_reverse, List.mem_map]
  constructor
  · rintro ⟨k, hk, rfl⟩
    rw [List.mem_range] at hk
    omega
  · rintro ⟨h1, h2⟩
    exact ⟨i - 1, by rw [List.mem_range]; omega, by omega⟩

/-- The value of an in-range index. -/
theorem get_some {xs : List Rat} {i : Nat} (h : i < xs.length) : (xs[i]?).getD 0 = xs[i] := by
  rw [List.getElem?_eq_getElem h]; rfl

theorem inc_lt {xs : List Rat} (h : Inc xs) {i j : Nat} (hi : i < xs.length) (hj : j < xs.length) (hij : i < j) :
    xs[i] < xs[j] := List.pairwise_iff_getElem.mp h i j hi hj hij

theorem inc_le {xs : List Rat} (h : Inc xs) {i j : Nat} (hi : i < xs.length) (hj : j < xs.length) (hij : i ≤ j) :
    xs[i] ≤ xs[j] := by
  rcases Nat.lt_or_eq_of_le hij with h' | h'
  · exact le_of_lt (inc_lt h hi hj h')
  · subst h'; exact le_refl _

theorem inc_lt_iff {xs : List Rat} (h : Inc xs) {i j : Nat} (hi : i < xs.length) (hj : j < xs.length) :
    xs[i] < xs[j] ↔ i < j := by
  constructor
  · intro hl
    by_contra hc
    have := inc_le h hj hi (by omega)
    linarith
  · exact inc_lt h hi hj

theorem inc_inj {xs : List Rat} (h : Inc xs) {i j : Nat} (hi : i < xs.length) (hj : j < xs.length) (he : xs[i] = xs[j]) :
    i = j := by
  rcases Nat.lt_trichotomy i j with hlt | heq | hlt
  · have := inc_lt h hi hj hlt; rw [he] at this; exact absurd this (lt_irrefl _)
  · exact heq
  · have := inc_lt h hj hi hlt; rw [he] at this; exact absurd this (lt_irrefl _)

/-- One turn on in-range indices of an increasing axis: the comparisons the other way round never hold. -/
theorem cropStep_eq {xs : List Rat} (hx : Inc xs) {a b : Rat} {i : Nat} (h1 : 1 ≤ i) (h2 : i < xs.length) (s : Nat × Option Nat) :
    cropStep xs a b s i =
      if xs[i] = a then (i, s.2)
      else if xs[i] = b then (s.1, some (i + 1))
      else if xs[i] > a ∧ xs[i - 1] < a then (i + 1, s.2)
      else if xs[i] > b ∧ xs[i - 1] < b then (s.1, some i)
      else s := by
  have hlt := inc_lt hx (i := i - 1) (j := i) (by omega) h2 (by omega)
  unfold cropStep
  rw [get_some h2, get_some (show i - 1 < xs.length by omega)]
  have n1 : ¬ (xs[i] < a ∧ xs[i - 1] > a) := fun h => by linarith [h.1, h.2]
  have n2 : ¬ (xs[i] < b ∧ xs[i - 1] > b) := fun h => by linarith [h.1, h.2]
  simp only [n1, n2, or_false]

/-! ### C31 -/

theorem cropX_ok {p : Prof} (h : Valid p) {a b : Rat} (hr : ¬ refused p.x a b) :
    cropX p (some (a, b)) = .ok (pySlice p.x (cropLoop p.x a b), pySlice p.y (cropLoop p.x a b), pySlice p.m (cropLoop p.x a b)) := by
  unfold cropX
  simp only
  rw [if_neg hr, getY_valid h]

theorem not_refused {xs : List Rat} {a b v : Rat} (hab : a < b) (hv : v ∈ xs) (h1 : a ≤ v ∨ b ≤ v) (h2 : v ≤ a ∨ v ≤ b) :
    ¬ refused xs a b := by
  unfold refused
  push Not
  refine ⟨hab, fun h => by simp [h] at hv, ⟨v, hv, fun h => ?_⟩, ⟨v, hv, fun h => ?_⟩⟩
  · rcases h2 with h2 | h2
    · linarith
    · exact h2
  · rcases h1 with h1 | h1
    · linarith
    · exact h1

/-- C31, intervals that start on a stored abscissa or at the beginning of the profile, and end inside it: exactly the
points of the closed interval, in order. -/
theorem C31_crop_partial (hs : IsArgsort srt) {p : Prof} (h : Valid p) (hx : Inc p.x) {a b x0 xn : Rat} (hab : a < b)
    (h0 : p.x.head? = some x0) (hn : p.x.getLast? = some xn) (ha : a ≤ x0 ∨ a ∈ p.x) (hb : x0 < b) (hb' : b ≤ xn) :
    ∃ q, crop srt p (some (a, b)) none = .ok q ∧ Valid q ∧ q.ux = p.ux ∧ q.uy = p.uy ∧
      pts q = (pts p).filter fun r => a ≤ r.1 ∧ r.1 ≤ b := by
  have hpos : 0 < p.x.length := by
    rcases hpx : p.x with _ | ⟨c, l⟩
    · rw [hpx] at h0; simp at h0
    · simp
  have e0 : p.x[0] = x0 := by
    rw [List.head?_eq_getElem?, List.getElem?_eq_getElem hpos] at h0
    simpa using h0
  have en : p.x[p.x.length - 1] = xn := by
    rw [List.getLast?_eq_getElem?, List.getElem?_eq_getElem (by omega)] at hn
    simpa using hn
  have hb2 : b ≤ p.x[p.x.length - 1] := by rw [en]; exact hb'
  -- the first index at or beyond b
  have hex : ∃ l, ∃ hl : l < p.x.length, b ≤ p.x[l] := ⟨p.x.length - 1, by omega, hb2⟩
  classical
  obtain ⟨hll, hlb⟩ := Nat.find_spec hex
  have hmin : ∀ i (hi : i < p.x.length), i < Nat.find hex → p.x[i] < b := by
    intro i hi hil
    by_contra hc
    exact Nat.find_min hex hil ⟨hi, not_lt.mp hc⟩
  set l := Nat.find hex with hl
  have hl1 : 1 ≤ l := by
    by_contra hc
    have : l = 0 := by omega
    have h00 : b ≤ p.x[0] := le_trans hlb (inc_le hx hll hpos (by omega))
    rw [e0] at h00
    linarith
  have nogap : ∀ i (h1 : 1 ≤ i) (h2 : i < p.x.length), ¬ (p.x[i] > a ∧ p.x[i - 1] < a) := by
    rintro i h1 h2 ⟨g1, g2⟩
    rcases ha with ha | ha
    · have := inc_le hx hpos (j := i - 1) (by omega) (by omega)
      rw [e0] at this
      linarith
    · obtain ⟨k, hk, hk'⟩ := List.mem_iff_getElem.mp ha
      rw [← hk'] at g1 g2
      have := (inc_lt_iff hx hk h2).mp g1
      have := (inc_lt_iff hx (i := i - 1) (by omega) hk).mp g2
      omega
  -- second index
  have hsnd : (cropLoop p.x a b).2 = some (if p.x[l] = b then l + 1 else l) := by
    unfold cropLoop
    apply fold_snd _ l _ (mem_loop.mpr ⟨hl1, hll⟩)
    · intro s
      rw [cropStep_eq hx hl1 hll]
      have na : ¬ p.x[l] = a := fun e => by rw [e] at hlb; linarith
      rw [if_neg na]
      by_cases he : p.x[l] = b
      · rw [if_pos he, if_pos he]
      · rw [if_neg he, if_neg he, if_neg (nogap l hl1 hll), if_pos]
        exact ⟨lt_of_le_of_ne hlb (Ne.symm he), hmin (l - 1) (by omega) (by omega)⟩
    · intro i hi hil s
      rw [mem_loop] at hi
      rw [cropStep_eq hx hi.1 hi.2]
      split
      · rfl
      · split
        · rename_i _ he
          exfalso
          have h1 : l ≤ i := Nat.find_min' hex ⟨hi.2, le_of_eq he.symm⟩
          have h2 := inc_lt hx hll hi.2 (by omega)
          rw [he] at h2; linarith
        · split
          · rfl
          · split
            · rename_i _ _ _ hg
              exfalso
              have h1 : l ≤ i := Nat.find_min' hex ⟨hi.2, le_of_lt hg.1⟩
              have h2 := inc_le hx hll (j := i - 1) (by omega) (by omega)
              linarith [hg.2]
            · rfl
  -- first index
  have hfst : ∀ i (hi : i < p.x.length), (cropLoop p.x a b).1 ≤ i ↔ a ≤ p.x[i] := by
    by_cases hx0 : a ≤ x0
    · have hf : (cropLoop p.x a b).1 = 0 := by
        unfold cropLoop
        rw [fold_fst_none]
        intro i hi s
        rw [mem_loop] at hi
        rw [cropStep_eq hx hi.1 hi.2]
        have na : ¬ p.x[i] = a := by
          intro e
          have := inc_lt hx hpos hi.2 (by omega)
          rw [e0, e] at this
          linarith
        rw [if_neg na]
        split
        · rfl
        · rw [if_neg (nogap i hi.1 hi.2)]
          split <;> rfl
      intro i hi
      rw [hf]
      have := inc_le hx hpos hi (Nat.zero_le _)
      rw [e0] at this
      constructor
      · intro _; linarith
      · intro _; omega
    · obtain ⟨k, hk, hk'⟩ := List.mem_iff_getElem.mp (ha.resolve_left hx0)
      have hk1 : 1 ≤ k := by
        by_contra hc
        have : k = 0 := by omega
        subst this
        rw [e0] at hk'
        exact hx0 (le_of_eq hk'.symm)
      have hf : (cropLoop p.x a b).1 = k := by
        unfold cropLoop
        apply fold_fst _ k k (mem_loop.mpr ⟨hk1, hk⟩)
        · intro s
          rw [cropStep_eq hx hk1 hk, if_pos hk']
        · intro i hi hik s
          rw [mem_loop] at hi
          rw [cropStep_eq hx hi.1 hi.2]
          rw [if_neg (fun e => hik (inc_inj hx hi.2 hk (by rw [e, hk'])))]
          split
          · rfl
          · rw [if_neg (nogap i hi.1 hi.2)]
            split <;> rfl
      intro i hi
      rw [hf, ← hk']
      constructor
      · exact inc_le hx hk hi
      · intro hle
        by_contra hc
        have := inc_lt hx hi hk (by omega)
        linarith
  have hlast : ∀ i (hi : i < p.x.length), i < (if p.x[l] = b then l + 1 else l) ↔ p.x[i] ≤ b := by
    intro i hi
    by_cases he : p.x[l] = b
    · rw [if_pos he]
      constructor
      · intro hil
        rw [← he]
        exact inc_le hx hi hll (by omega)
      · intro hib
        by_contra hc
        have := inc_lt hx hll hi (by omega)
        rw [he] at this
        linarith
    · rw [if_neg he]
      constructor
      · intro hil
        exact le_of_lt (hmin i hi hil)
      · intro hib
        by_contra hc
        have h1 := inc_le hx hll hi (by omega)
        have h2 : b < p.x[l] := lt_of_le_of_ne hlb (Ne.symm he)
        linarith
  have hnr : ¬ refused p.x a b := by
    by_cases hax : a ≤ x0
    · exact not_refused hab (v := x0) (by rw [← e0]; exact List.getElem_mem _) (Or.inl hax) (Or.inr (le_of_lt hb))
    · exact not_refused hab (ha.resolve_left hax) (Or.inl (le_refl _)) (Or.inl (le_refl _))
  have hd : cropData p (some (a, b)) none =
      .ok (pySlice p.x (cropLoop p.x a b), pySlice p.y (cropLoop p.x a b), pySlice p.m (cropLoop p.x a b)) := by
    unfold cropData
    rw [cropX_ok h hnr]
    rfl
  obtain ⟨a1, a2, a3⟩ := cropData_aligned h hd
  obtain ⟨q, e1, e2, _, e4, e5, e6⟩ := finishNew_spec (srt := srt) hs p a1 a2
  refine ⟨q, ?_, e2, e4, e5, ?_⟩
  · unfold crop
    rw [hd]; exact e1
  · rw [(e6 (hx.sublist a3)).1]
    show (pySlice p.x _).zip (pySlice p.y _) = _
    unfold pySlice
    rw [hsnd]
    simp only [Option.getD_some]
    rw [slice_zip, pts_valid h]
    apply slice_filter
    intro i hi
    have hi' : i < p.x.length := by simp [h.1] at hi; exact hi
    simp only [List.getElem_zip, decide_eq_true_eq]
    rw [← hfst i hi', ← hlast i hi']

example : ((crop argsort ⟨[0, 1, 2, 3, 4], [some 0, some 1, none, some 3, some 4], [false, false, true, false, false], .m, .s⟩
    (some (1, 7 / 2)) none).toOption.map pts) = some [(1, some 1), (2, none), (3, some 3)] := by decide +kernel

/-- C31 fails: when the lower bound lies strictly between two neighbouring abscissae, the first point of the interval is
lost. -/
theorem C31_lower_violated (hs : IsArgsort srt) {p : Prof} (h : Valid p) (hx : Inc p.x) {a b : Rat} {k : Nat} (hk1 : 1 ≤ k)
    (hk : k < p.x.length) (h1 : p.x[k - 1] < a) (h2 : a < p.x[k]) (h3 : p.x[k] < b) :
    ∃ q, crop srt p (some (a, b)) none = .ok q ∧ p.x[k] ∈ p.x ∧ (a ≤ p.x[k] ∧ p.x[k] ≤ b) ∧ p.x[k] ∉ q.x := by
  have hnr : ¬ refused p.x a b :=
    not_refused (by linarith) (List.getElem_mem hk) (Or.inl (le_of_lt h2)) (Or.inr (le_of_lt h3))
  have hd : cropData p (some (a, b)) none =
      .ok (pySlice p.x (cropLoop p.x a b), pySlice p.y (cropLoop p.x a b), pySlice p.m (cropLoop p.x a b)) := by
    unfold cropData
    rw [cropX_ok h hnr]
    rfl
  have hf : (cropLoop p.x a b).1 = k + 1 := by
    unfold cropLoop
    apply fold_fst _ k (k + 1) (mem_loop.mpr ⟨hk1, hk⟩)
    · intro s
      rw [cropStep_eq hx hk1 hk, if_neg (by intro e; linarith), if_neg (by intro e; linarith), if_pos ⟨h2, h1⟩]
    · intro i hi hik s
      rw [mem_loop] at hi
      rw [cropStep_eq hx hi.1 hi.2]
      have na : ¬ p.x[i] = a := by
        intro e
        rw [← e] at h1 h2
        have := (inc_lt_iff hx (i := k - 1) (by omega) hi.2).mp h1
        have := (inc_lt_iff hx hi.2 hk).mp h2
        omega
      rw [if_neg na]
      split
      · rfl
      · rw [if_neg]
        · split <;> rfl
        · rintro ⟨g1, g2⟩
          have h4 : p.x[k - 1] < p.x[i] := by linarith
          have h5 : p.x[i - 1] < p.x[k] := by linarith
          have := (inc_lt_iff hx (i := k - 1) (by omega) hi.2).mp h4
          have := (inc_lt_iff hx (i := i - 1) (by omega) hk).mp h5
          omega
  obtain ⟨a1, a2, a3⟩ := cropData_aligned h hd
  obtain ⟨q, e1, _, _, _, _, e6⟩ := finishNew_spec (srt := srt) hs p a1 a2
  refine ⟨q, ?_, List.getElem_mem hk, ⟨le_of_lt h2, le_of_lt h3⟩, ?_⟩
  · unfold crop
    rw [hd]; exact e1
  · rw [(e6 (hx.sublist a3)).2]
    show p.x[k] ∉ pySlice p.x _
    unfold pySlice slice
    rw [hf]
    intro hm
    obtain ⟨i, hi, he⟩ := List.mem_iff_getElem.mp hm
    simp only [List.getElem_drop, List.getElem_take] at he
    rw [List.length_drop, List.length_take] at hi
    have := inc_inj hx (by omega) hk he
    omega

example : ((crop argsort ⟨[0, 1, 2, 3], [some 0, some 1, some 2, some 3], [false, false, false, false], .m, .s⟩
    (some (1 / 2, 3)) none).toOption.map pts) = some [(2, some 2), (3, some 3)] := by decide +kernel

/-- C31 fails: when the upper bound lies beyond the last abscissa, the last point is lost. -/
theorem C31_upper_violated (hs : IsArgsort srt) {p : Prof} (h : Valid p) (hx : Inc p.x) {a b xn : Rat} (hab : a < b)
    (hn : p.x.getLast? = some xn) (ha : a ≤ xn) (hb : xn < b) :
    ∃ q, crop srt p (some (a, b)) none = .ok q ∧ xn ∈ p.x ∧ (a ≤ xn ∧ xn ≤ b) ∧ xn ∉ q.x := by
  have hpos : 0 < p.x.length := by
    rcases hpx : p.x with _ | ⟨c, l⟩
    · rw [hpx] at hn; simp at hn
    · simp
  have en : p.x[p.x.length - 1] = xn := by
    rw [List.getLast?_eq_getElem?, List.getElem?_eq_getElem (by omega)] at hn
    simpa using hn
  have hmem : xn ∈ p.x := by rw [← en]; exact List.getElem_mem _
  have hnr : ¬ refused p.x a b := not_refused hab hmem (Or.inl ha) (Or.inr (le_of_lt hb))
  have hd : cropData p (some (a, b)) none =
      .ok (pySlice p.x (cropLoop p.x a b), pySlice p.y (cropLoop p.x a b), pySlice p.m (cropLoop p.x a b)) := by
    unfold cropData
    rw [cropX_ok h hnr]
    rfl
  have hf : (cropLoop p.x a b).2 = none := by
    unfold cropLoop
    rw [fold_snd_none]
    intro i hi s
    rw [mem_loop] at hi
    rw [cropStep_eq hx hi.1 hi.2]
    have hle : p.x[i] ≤ xn := by rw [← en]; exact inc_le hx hi.2 (by omega) (by omega)
    split
    · rfl
    · rw [if_neg (by intro e; linarith)]
      split
      · rfl
      · rw [if_neg]
        rintro ⟨g1, _⟩
        linarith
  obtain ⟨a1, a2, a3⟩ := cropData_aligned h hd
  obtain ⟨q, e1, _, _, _, _, e6⟩ := finishNew_spec (srt := srt) hs p a1 a2
  refine ⟨q, ?_, hmem, ⟨ha, le_of_lt hb⟩, ?_⟩
  · unfold crop
    rw [hd]; exact e1
  · rw [(e6 (hx.sublist a3)).2]
    show xn ∉ pySlice p.x _
    unfold pySlice slice
    rw [hf]
    intro hm
    obtain ⟨i, hi, he⟩ := List.mem_iff_getElem.mp hm
    simp only [List.getElem_drop, List.getElem_take, Option.getD_none] at he
    rw [List.length_drop, List.length_take] at hi
    simp only [Option.getD_none] at hi
    have := inc_inj hx (by omega) (by omega) (he.trans en.symm)
    omega

example : ((crop argsort ⟨[0, 1, 2], [some 0, some 1, some 2], [false, false, false], .m, .s⟩
    (some (0, 100)) none).toOption.map pts) = some [(0, some 0), (1, some 1)] := by decide +kernel

/-- C31 fails: giving both intervals raises IndexError as soon as the interval along x removes a point. -/
theorem C31_both_violated (hs : IsArgsort srt) {p q : Prof} (h : Valid p) {a b lo hi : Rat} (hy : lo < hi)
    (hc : crop srt p (some (a, b)) none = .ok q) (hl : (pts q).length ≠ (pts p).length) :
    crop srt p (some (a, b)) (some (lo, hi)) = .error .indexError := by
  have hpl : (pts p).length = p.x.length := by rw [pts_valid h]; simp [h.1]
  cases hX : cropX p (some (a, b)) with
  | error e =>
    unfold crop cropData at hc
    rw [hX] at hc
    simp [finishNew] at hc
  | ok d =>
    have hd : cropData p (some (a, b)) none = .ok d := by unfold cropData; rw [hX]; rfl
    obtain ⟨a1, a2, a3⟩ := cropData_aligned h hd
    obtain ⟨q', e1, e2, e3, _⟩ := finishNew_spec (srt := srt) hs p a1 a2
    have hq : q' = q := by
      have : crop srt p (some (a, b)) none = .ok q' := by unfold crop; rw [hd]; exact e1
      rw [hc] at this
      simpa using this.symm
    subst hq
    have hlen : d.1.length ≠ p.x.length := by
      intro he
      apply hl
      rw [hpl, e3.length_eq]
      simp [← a1, he]
    unfold crop cropData
    rw [hX]
    simp only [cropY]
    rw [if_neg (not_le.mpr hy), if_pos (by rw [getY_valid h, h.1]; exact fun e => hlen e.symm)]
    rfl

example : (crop argsort ⟨[0, 1, 2], [some 0, some 1, some 2], [false, false, false], .m, .s⟩ (some (1, 2)) (some (0, 5))).toOption =
    none := by decide +kernel

/-- C31: an interval that is empty, reversed, or entirely before or after the profile is refused. -/
theorem C31_refused {p : Prof} {a b : Rat} (hr : b ≤ a ∨ p.x = [] ∨ (∀ v ∈ p.x, b < v) ∨ (∀ v ∈ p.x, v < a)) :
    crop srt p (some (a, b)) none = .error .valueError := by
  have : refused p.x a b := by
    unfold refused
    rcases hr with hr | hr | hr | hr
    · exact Or.inl hr
    · exact Or.inr (Or.inl hr)
    · by_cases hab : b ≤ a
      · exact Or.inl hab
      · refine Or.inr (Or.inr (Or.inl fun v hv => ⟨?_, hr v hv⟩))
        have := hr v hv
        push Not at hab
        linarith
    · by_cases hab : b ≤ a
      · exact Or.inl hab
      · refine Or.inr (Or.inr (Or.inr fun v hv => ⟨hr v hv, ?_⟩))
        have := hr v hv
        push Not at hab
        show v < b
        linarith
  unfold crop cropData cropX
  simp only
  rw [if_pos this]
  rfl

/-! ### C90 -/

/-- C90: `crop(intervy=[lo, hi])` keeps exactly the points whose value lies strictly between the bounds. -/
theorem C90_crop_y (hs : IsArgsort srt) {p : Prof} (h : Valid p) {lo hi : Rat} (hlh : lo < hi) :
    ∃ q, crop srt p none (some (lo, hi)) = .ok q ∧ Valid q ∧ q.ux = p.ux ∧ q.uy = p.uy ∧
      (∀ x y, (x, y) ∈ pts q ↔ (x, y) ∈ pts p ∧ ∃ v, y = some v ∧ lo < v ∧ v < hi) ∧
      (Inc p.x → pts q = (pts p).filter fun r => inY lo hi r.2) := by
  have hd : cropData p none (some (lo, hi)) = .ok (sel p.x (p.y.map (inY lo hi)), sel p.y (p.y.map (inY lo hi)),
      sel p.m (p.y.map (inY lo hi))) := by
    unfold cropData cropX cropY
    simp only [getY_valid h]
    rw [if_neg (not_le.mpr hlh), if_neg (by rw [h.1]; simp)]
  obtain ⟨a1, a2, a3⟩ := cropData_aligned h hd
  obtain ⟨q, e1, e2, e3, e4, e5, e6⟩ := finishNew_spec (srt := srt) hs p a1 a2
  have hz : (sel p.x (p.y.map (inY lo hi))).zip (sel p.y (p.y.map (inY lo hi))) = (pts p).filter fun r => inY lo hi r.2 := by
    rw [sel_zip _ _ _ h.1.symm, pts_valid h, sel_filter _ _ _ h.1.symm]
  refine ⟨q, ?_, e2, e4, e5, ?_, ?_⟩
  · unfold crop
    rw [hd]; exact e1
  · intro x y
    rw [e3.mem_iff]
    show (x, y) ∈ (sel p.x (p.y.map (inY lo hi))).zip (sel p.y (p.y.map (inY lo hi))) ↔ _
    rw [hz, List.mem_filter]
    apply and_congr_right
    intro _
    cases y with
    | none => simp [inY]
    | some v => simp [inY]
  · intro hx
    rw [(e6 (hx.sublist a3)).1]
    exact hz

/-- C90: a reversed interval is refused. -/
theorem C90_crop_y_refused {p : Prof} {lo hi : Rat} (hlh : hi ≤ lo) :
    crop srt p none (some (lo, hi)) = .error .valueError := by
  unfold crop cropData cropX cropY
  simp only
  rw [if_pos hlh]
  rfl

example : ((crop argsort ex1 none (some (3, 10))).toOption.map pts) = some [(2, some 4), (5, some 7)] := by decide +kernel

end IMT.Profile
