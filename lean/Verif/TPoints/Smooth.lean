import Verif.TPoints.SmoothModel
import Verif.Reshape.Smooth

/-! Smoothing of sets of points: C358, C359. -/

namespace IMT.TPoints

open IMT.Points (P)
open Reshape (windowMean)

variable {s : Scipy} {p q : P} {tos : Tos}

/-- Specification: the coordinates of the points, with the values if there are. -/
structure Made (p : P) (xs ys vs : List Rat) : Prop where
  xy : p.xy = (xs.map some).zip (ys.map some)
  v : p.v = vs.map some
  same : xs.length = ys.length
  sized : vs = [] ∨ vs.length = xs.length

/-- Specification: `w` holds the means of the elements of `l` over `size` neighbours, the ends being repeated. -/
def Means (size : Nat) (l w : List Rat) : Prop :=
  w.length = l.length ∧ ∀ k < l.length, w[k]? = some (windowMean l.length size (fun j => l.getD j 0) k)

/-- Specification: `q` is `p` with each coordinate, and the values, replaced by their means. -/
def Averaged (size : Nat) (p q : P) : Prop :=
  ∃ xs ys vs xs' ys' vs', Made p xs ys vs ∧ Made q xs' ys' vs' ∧ Means size xs xs' ∧ Means size ys ys' ∧ Means size vs vs' ∧
    q.ux = p.ux ∧ q.uy = p.uy ∧ q.uv = p.uv

theorem nums_some (l : List Rat) : Reshape.nums (l.map some) = l := by
  unfold Reshape.nums
  rw [List.map_map]
  exact (List.map_congr_left fun a _ => rfl).trans (List.map_id l)

theorem Made.fst {xs ys vs : List Rat} (h : Made p xs ys vs) : Reshape.nums (p.xy.map Prod.fst) = xs := by
  rw [h.xy, List.map_fst_zip (by simp [h.same]), nums_some]

theorem Made.snd {xs ys vs : List Rat} (h : Made p xs ys vs) : Reshape.nums (p.xy.map Prod.snd) = ys := by
  rw [h.xy, List.map_snd_zip (by simp [h.same]), nums_some]

theorem clamp_self {n k : Nat} (h : k < n) : Reshape.clamp n ((k : Int) + (0 : Nat) - (1 / 2 : Nat)) = k := by
  unfold Reshape.clamp
  simp only [Nat.reduceDiv]
  omega

theorem means_filter {l w : List Rat} {size : Option Nat} (h0 : size ≠ some 0) (h : filterArray s l (.uniform size) = .ok w) : Means (size.getD 3) l w := by
  simp only [filterArray, Except.ok.injEq] at h
  subst h
  by_cases h1 : size.getD 3 ≤ 1
  · rw [if_pos h1]
    have e : size.getD 3 = 1 := by
      cases size with
      | none => simp at h1
      | some n => simp at h1 h0 ⊢; omega
    rw [e]
    refine ⟨rfl, fun k hk => ?_⟩
    unfold windowMean
    rw [Finset.sum_range_one, clamp_self hk]
    simp [List.getD_eq_getElem?_getD, List.getElem?_eq_getElem hk]
  · rw [if_neg h1]
    exact ⟨Reshape.uniform_length _ _, fun k hk => Reshape.uniform_get _ _ hk⟩

theorem smoothed_uniform {xs ys vs : List Rat} (h : Made p xs ys vs) {size : Option Nat} (h0 : size ≠ some 0) :
    ∃ q, smoothed s false (.uniform size) p = .ok q ∧ Averaged (size.getD 3) p q := by
  unfold smoothed
  rw [h.fst, h.snd]
  have hx : ∃ x, filterArray s xs (.uniform size) = .ok x := ⟨_, rfl⟩
  have hy : ∃ x, filterArray s ys (.uniform size) = .ok x := ⟨_, rfl⟩
  have hv : ∃ x, filterArray s vs (.uniform size) = .ok x := ⟨_, rfl⟩
  obtain ⟨x, ex⟩ := hx
  obtain ⟨y, ey⟩ := hy
  obtain ⟨v, ev⟩ := hv
  have mx := means_filter h0 ex
  have my := means_filter h0 ey
  have mv := means_filter h0 ev
  simp only [ex, ey]
  by_cases hp : p.v = []
  · have v0 : vs = [] := by have := h.v; rw [hp] at this; exact List.map_eq_nil_iff.1 this.symm
    have v1 : v = [] := by have := mv.1; rw [v0] at this; exact List.length_eq_zero_iff.1 this
    refine ⟨_, if_pos hp, xs, ys, vs, x, y, v, h, ⟨rfl, by simp [hp, v1], ?_, .inl v1⟩, mx, my, mv, rfl, rfl, rfl⟩
    rw [mx.1, my.1, h.same]
  · rw [if_neg hp, h.v, nums_some]
    simp only [filterValues, ev]
    refine ⟨_, rfl, xs, ys, vs, x, y, v, h, ⟨rfl, rfl, ?_, .inr ?_⟩, mx, my, mv, rfl, rfl, rfl⟩
    · rw [mx.1, my.1, h.same]
    · rw [mx.1, mv.1]
      rcases h.sized with hs | hs
      · exact absurd (by rw [h.v, hs]; rfl) hp
      · exact hs

/-! ### C358 -/

/-- C358: with 'uniform', each coordinate and the values are replaced by their means over `size` neighbours (3 by default), in the order of the set;
the set itself is changed only if `inplace` is true. -/
theorem C358_uniform_partial {xs ys vs : List Rat} (h : Made p xs ys vs) {size : Option Nat} (h0 : size ≠ some 0) (inplace : Bool) :
    ∃ q, Averaged (size.getD 3) p q ∧ smoothPts s false (.uniform size) p inplace = if inplace then (q, .ok none) else (p, .ok (some q)) := by
  obtain ⟨q, hq, ha⟩ := smoothed_uniform (s := s) h h0
  exact ⟨q, ha, by unfold smoothPts; rw [hq]⟩

theorem windowMean_bounds {n size : Nat} (hn : 0 < n) (h0 : size ≠ 0) {w : Nat → Rat} {a b : Rat} (h : ∀ k < n, a ≤ w k ∧ w k ≤ b) (i : Nat) :
    a ≤ windowMean n size w i ∧ windowMean n size w i ≤ b := by
  unfold windowMean
  have hs : (0 : Rat) < size := by exact_mod_cast Nat.pos_of_ne_zero h0
  constructor
  · rw [le_div_iff₀ hs]
    have := Finset.card_nsmul_le_sum (Finset.range size) (fun j => w (Reshape.clamp n ((i : Int) + j - (size / 2 : Nat)))) a
      fun j _ => (h _ (Reshape.clamp_lt hn _)).1
    rw [Finset.card_range, nsmul_eq_mul] at this
    linarith
  · rw [div_le_iff₀ hs]
    have := Finset.sum_le_card_nsmul (Finset.range size) (fun j => w (Reshape.clamp n ((i : Int) + j - (size / 2 : Nat)))) b
      fun j _ => (h _ (Reshape.clamp_lt hn _)).2
    rw [Finset.card_range, nsmul_eq_mul] at this
    linarith

/-- C358: the means stay between the bounds of what is averaged: smoothed points stay in any box that holds the points. -/
theorem C358_box {size : Nat} (h0 : size ≠ 0) {l w : List Rat} (h : Means size l w) {a b : Rat} (hl : ∀ r ∈ l, a ≤ r ∧ r ≤ b) : ∀ r ∈ w, a ≤ r ∧ r ≤ b := by
  intro r hr
  obtain ⟨k, hk, rfl⟩ := List.getElem_of_mem hr
  have hk' : k < l.length := by rw [← h.1]; exact hk
  have := h.2 k hk'
  rw [List.getElem?_eq_getElem hk, Option.some.injEq] at this
  rw [this]
  refine windowMean_bounds (by omega) h0 (fun j hj => ?_) k
  rw [List.getD_eq_getElem?_getD, List.getElem?_eq_getElem hj]
  exact hl _ (List.getElem_mem hj)

/-- C358: equal coordinates are kept, whatever the size. -/
theorem C358_constant {size : Nat} (h0 : size ≠ 0) {l w : List Rat} (h : Means size l w) {a : Rat} (hl : ∀ r ∈ l, r = a) : w = l := by
  have hw : ∀ r ∈ w, r = a := by
    intro r hr
    have := C358_box h0 h (a := a) (b := a) (fun r hr => by rw [hl r hr]; exact ⟨le_refl _, le_refl _⟩) r hr
    linarith [this.1, this.2]
  rw [List.eq_replicate_of_mem hw, List.eq_replicate_of_mem hl, h.1]

/-- C358: another kind of smoothing is refused, and the set is left unchanged. -/
theorem C358_refused (isInt inplace : Bool) : smoothPts s isInt .other p inplace = (p, .error .valueError) := rfl

/-- C358 fails for values that are whole numbers: their means are truncated. -/
theorem C358_integers_violated {xs ys vs : List Rat} (h : Made p xs ys vs) (hv : vs ≠ []) {size : Option Nat} (h0 : size ≠ some 0) :
    ∃ q w, smoothPts s true (.uniform size) p false = (p, .ok (some q)) ∧ Means (size.getD 3) vs w ∧ q.v = w.map fun r => some (truncated r) := by
  have hp : p.v ≠ [] := by rw [h.v]; simpa using hv
  obtain ⟨v, ev⟩ : ∃ x, filterArray s vs (.uniform size) = .ok x := ⟨_, rfl⟩
  obtain ⟨x, ex⟩ : ∃ x, filterArray s xs (.uniform size) = .ok x := ⟨_, rfl⟩
  obtain ⟨y, ey⟩ : ∃ x, filterArray s ys (.uniform size) = .ok x := ⟨_, rfl⟩
  refine ⟨{ p with xy := (x.map some).zip (y.map some), v := (v.map truncated).map some }, v, ?_, means_filter h0 ev, ?_⟩
  · unfold smoothPts smoothed
    rw [h.fst, h.snd]
    simp only [ex, ey]
    rw [if_neg hp, h.v, nums_some]
    simp only [filterValues, ev]
    rfl
  · simp

/-- C358 fails with 'lowpass' for nine points or less: an exception. -/
theorem C358_few_violated {size : Option Rat} (h : p.xy.length ≤ 9) (isInt inplace : Bool) :
    smoothPts s isInt (.lowpass size) p inplace = (p, .error .valueError) := by
  have e : filterArray s (Reshape.nums (p.xy.map Prod.fst)) (.lowpass size) = .error .valueError := by
    simp only [filterArray]
    rw [if_pos (.inr (.inr (by simpa [Reshape.nums] using h)))]
  unfold smoothPts smoothed
  rw [e]

/-! ### C359 -/

/-- Specification: the set at this address, made of numbers. -/
def Whole (m : Heap) (a : Nat) : Prop := ∃ p, m[a]? = some p ∧ ∃ xs ys vs, Made p xs ys vs

theorem smoothCells_nodup {size : Option Nat} (h0 : size ≠ some 0) : ∀ (l : List Nat) (m : Heap), l.Nodup → (∀ a ∈ l, Whole m a) →
    ∃ m', smoothCells s (.uniform size) m l = (m', .ok ⟨⟩) ∧ m'.length = m.length ∧
      (∀ a ∈ l, ∃ p q, m[a]? = some p ∧ m'[a]? = some q ∧ Averaged (size.getD 3) p q) ∧ ∀ a, a ∉ l → m'[a]? = m[a]? := by
  intro l
  induction l with
  | nil => exact fun m _ _ => ⟨m, rfl, rfl, fun a ha => absurd ha List.not_mem_nil, fun _ _ => rfl⟩
  | cons b l ih =>
    intro m hn hw
    obtain ⟨hb, hn'⟩ := List.nodup_cons.1 hn
    obtain ⟨p, hp, xs, ys, vs, hm⟩ := hw b List.mem_cons_self
    obtain ⟨q, ha, hq⟩ := C358_uniform_partial (s := s) hm h0 true
    rw [if_pos rfl] at hq
    have hset : ∀ a ∈ l, (m.set b q)[a]? = m[a]? := fun a h => List.getElem?_set_ne (fun e : b = a => hb (e ▸ h))
    obtain ⟨m', h1, h2, h3, h4⟩ := ih (m.set b q) hn' (fun a h => by
      obtain ⟨r, hr, hx⟩ := hw a (List.mem_cons_of_mem _ h)
      exact ⟨r, by rw [hset a h]; exact hr, hx⟩)
    have hbl : b < m.length := by
      rcases Nat.lt_or_ge b m.length with h | h
      · exact h
      · rw [List.getElem?_eq_none h] at hp; cases hp
    refine ⟨m', ?_, by simpa using h2, ?_, ?_⟩
    · rw [smoothCells]
      simp only [hp, hq]
      exact h1
    · intro a h
      rcases List.mem_cons.1 h with rfl | h
      · exact ⟨p, q, hp, by rw [h4 _ hb, List.getElem?_set_self hbl], ha⟩
      · obtain ⟨p', q', e1, e2, e3⟩ := h3 a h
        exact ⟨p', q', by rw [← hset a h]; exact e1, e2, e3⟩
    · intro a h
      rw [h4 a (fun h' => h (List.mem_cons_of_mem _ h')), List.getElem?_set_ne (fun e : b = a => h (e ▸ List.mem_cons_self))]

/-- C359, for a collection of distinct sets, in place: each set is smoothed once, and the other objects are left. -/
theorem C359_inplace_partial {size : Option Nat} (h0 : size ≠ some 0) {m : Heap} {t : TP} (hn : t.sets.Nodup) (hw : ∀ a ∈ t.sets, Whole m a) :
    ∃ m', smoothAll s (.uniform size) m t true = (m', .ok t) ∧
      (∀ a ∈ t.sets, ∃ p q, m[a]? = some p ∧ m'[a]? = some q ∧ Averaged (size.getD 3) p q) ∧ ∀ a, a ∉ t.sets → m'[a]? = m[a]? := by
  obtain ⟨m', h1, -, h3, h4⟩ := smoothCells_nodup (s := s) h0 t.sets m hn hw
  refine ⟨m', ?_, h3, h4⟩
  unfold smoothAll
  simp only [if_true, h1]

/-- C359, for a collection of distinct sets, not in place: the objects that there were are left unchanged, and the collection that is returned has
the same times and units, its `k`-th set being the smoothed `k`-th set. -/
theorem C359_copy_partial {size : Option Nat} (h0 : size ≠ some 0) {m : Heap} {t : TP} (hn : t.sets.Nodup) (hw : ∀ a ∈ t.sets, Whole m a) :
    ∃ m' r, smoothAll s (.uniform size) m t false = (m', .ok r) ∧ (∀ a < m.length, m'[a]? = m[a]?) ∧
      r.times = t.times ∧ r.ut = t.ut ∧ r.ux = t.ux ∧ r.uy = t.uy ∧ r.sets.length = t.sets.length ∧
      ∀ (k a b : Nat), t.sets[k]? = some a → r.sets[k]? = some b → ∃ p q, m[a]? = some p ∧ m'[b]? = some q ∧ Averaged (size.getD 3) p q := by
  have hlt : ∀ a ∈ t.sets, a < m.length := by
    intro a ha
    obtain ⟨p, hp, -⟩ := hw a ha
    rcases Nat.lt_or_ge a m.length with h | h
    · exact h
    · rw [List.getElem?_eq_none h] at hp; cases hp
  have hcp : ∀ a, (m ++ m)[a + m.length]? = m[a]? := fun a => by
    rw [List.getElem?_append_right (by omega), Nat.add_sub_cancel]
  obtain ⟨m', h1, -, h3, h4⟩ := smoothCells_nodup (s := s) h0 (t.sets.map (· + m.length)) (m ++ m)
    (hn.map fun a b h => Nat.add_right_cancel h) (by
      intro a ha
      obtain ⟨b, hb, rfl⟩ := List.mem_map.1 ha
      obtain ⟨p, hp, hx⟩ := hw b hb
      exact ⟨p, by rw [hcp]; exact hp, hx⟩)
  refine ⟨m', { t with sets := t.sets.map (· + m.length) }, ?_, ?_, rfl, rfl, rfl, rfl, by simp, ?_⟩
  · unfold smoothAll deepCopy
    simp only [Bool.false_eq_true, if_false, h1]
  · intro a ha
    rw [h4 a (fun h => by obtain ⟨b, -, e⟩ := List.mem_map.1 h; omega), List.getElem?_append_left ha]
  · intro k a b ea eb
    simp only [List.getElem?_map, ea, Option.map_some, Option.some.injEq] at eb
    subst eb
    obtain ⟨p, q, e1, e2, e3⟩ := h3 (a + m.length) (List.mem_map.2 ⟨a, List.mem_of_getElem? ea, rfl⟩)
    exact ⟨p, q, by rw [← hcp]; exact e1, e2, e3⟩

/-- C359 fails when the same set is held at two times: it is smoothed twice. -/
theorem C359_shared_violated {size : Option Nat} (h0 : size ≠ some 0) {m : Heap} {t : TP} {a : Nat} (ht : t.sets = [a, a]) (hw : Whole m a) :
    ∃ m' p q r, smoothAll s (.uniform size) m t true = (m', .ok t) ∧ m[a]? = some p ∧ m'[a]? = some r ∧
      Averaged (size.getD 3) p q ∧ Averaged (size.getD 3) q r := by
  obtain ⟨p, hp, xs, ys, vs, hm⟩ := hw
  have hal : a < m.length := by
    rcases Nat.lt_or_ge a m.length with h | h
    · exact h
    · rw [List.getElem?_eq_none h] at hp; cases hp
  obtain ⟨q, ha, hq⟩ := C358_uniform_partial (s := s) hm h0 true
  obtain ⟨_, _, _, xs', ys', vs', _, hm', _⟩ := id ha
  obtain ⟨r, hb, hr⟩ := C358_uniform_partial (s := s) hm' h0 true
  rw [if_pos rfl] at hq hr
  refine ⟨(m.set a q).set a r, p, q, r, ?_, hp, ?_, ha, hb⟩
  · have e : (m.set a q)[a]? = some q := List.getElem?_set_self hal
    unfold smoothAll
    simp only [if_true, ht, smoothCells, hp, hq, e, hr]
  · rw [List.getElem?_set_self (by simpa using hal)]

/-- C359 fails with 'lowpass' when a set has nine points or less: an exception, after the sets before have been smoothed. -/
theorem C359_halfway_violated {size : Option Rat} {m : Heap} {t : TP} {a b : Nat} {r : List Nat} (ht : t.sets = a :: b :: r) (hab : a ≠ b) {p q pb : P}
    (hp : m[a]? = some p) (hq : smoothed s false (.lowpass size) p = .ok q) (hb : m[b]? = some pb) (h9 : pb.xy.length ≤ 9) :
    ∃ m', smoothAll s (.lowpass size) m t true = (m', .error .valueError) ∧ m'[a]? = some q := by
  have hal : a < m.length := by
    rcases Nat.lt_or_ge a m.length with h | h
    · exact h
    · rw [List.getElem?_eq_none h] at hp; cases hp
  have e : (m.set a q)[b]? = some pb := by rw [List.getElem?_set_ne hab]; exact hb
  have hs : smoothPts s false (.lowpass size) p true = (q, .ok none) := by unfold smoothPts; rw [hq]; rfl
  refine ⟨(m.set a q).set b pb, ?_, ?_⟩
  · unfold smoothAll
    simp only [if_true, ht, smoothCells, hp, hs, e, C358_few_violated h9]
  · rw [List.getElem?_set_ne (Ne.symm hab), List.getElem?_set_self hal]

/-! ### the hypotheses are met -/

/-- A peak. -/
def peak : P := ⟨[(some 0, some 0), (some 1, some 3), (some 2, some 0), (some 3, some 0)], [some 1, some 2, some 3, some 5], .one, .one, .one⟩

theorem peak_made : Made peak [0, 1, 2, 3] [0, 3, 0, 0] [1, 2, 3, 5] := ⟨rfl, rfl, rfl, .inr rfl⟩

example : ∃ q, Averaged 3 peak q ∧ smoothPts ⟨fun _ l => l, fun _ l => l⟩ false (.uniform none) peak false = (peak, .ok (some q)) := by
  obtain ⟨q, h1, h2⟩ := C358_uniform_partial (s := ⟨fun _ l => l, fun _ l => l⟩) peak_made (size := none) (by simp) false
  exact ⟨q, h1, h2⟩

example : smoothed ⟨fun _ l => l, fun _ l => l⟩ false (.uniform none) peak =
    .ok ⟨[(some (1 / 3), some 1), (some 1, some 1), (some 2, some 1), (some (8 / 3), some 0)], [some (4 / 3), some 2, some (10 / 3), some (13 / 3)], .one, .one, .one⟩ := by
  decide +kernel

/-- The whole values are truncated. -/
example : smoothed ⟨fun _ l => l, fun _ l => l⟩ true (.uniform none) peak =
    .ok ⟨[(some (1 / 3), some 1), (some 1, some 1), (some 2, some 1), (some (8 / 3), some 0)], [some 1, some 2, some 3, some 4], .one, .one, .one⟩ := by
  decide +kernel

/-- Smoothing twice is another thing. -/
example : (smoothed ⟨fun _ l => l, fun _ l => l⟩ false (.uniform none) peak).bind (smoothed ⟨fun _ l => l, fun _ l => l⟩ false (.uniform none)) ≠
    smoothed ⟨fun _ l => l, fun _ l => l⟩ false (.uniform none) peak := by
  decide +kernel

example : Whole [peak, peak] 1 := ⟨peak, rfl, _, _, _, peak_made⟩

example : ∃ m', smoothAll ⟨fun _ l => l, fun _ l => l⟩ (.uniform none) [peak, peak] ⟨[0, 1], .one, .one, .one, [1, 0], false⟩ true =
    (m', .ok ⟨[0, 1], .one, .one, .one, [1, 0], false⟩) := by
  obtain ⟨m', h, -⟩ := C359_inplace_partial (s := ⟨fun _ l => l, fun _ l => l⟩) (size := none) (by simp) (m := [peak, peak])
    (t := ⟨[0, 1], .one, .one, .one, [1, 0], false⟩) (by decide) (by
      intro a ha
      simp only [List.mem_cons, List.not_mem_nil, or_false] at ha
      rcases ha with rfl | rfl
      · exact ⟨peak, rfl, _, _, _, peak_made⟩
      · exact ⟨peak, rfl, _, _, _, peak_made⟩)
  exact ⟨m', h⟩

/-- Ten points on a line. -/
def ten : P := ⟨(List.range 10).map fun k => (some (k : Rat), some 0), [], .one, .one, .one⟩

example : ∃ m', smoothAll ⟨fun _ l => l, fun _ l => l⟩ (.lowpass none) [ten, peak] ⟨[0, 1], .one, .one, .one, [0, 1], false⟩ true =
    (m', .error .valueError) := by
  obtain ⟨m', h, -⟩ := C359_halfway_violated (s := ⟨fun _ l => l, fun _ l => l⟩) (size := none) (m := [ten, peak])
    (t := ⟨[0, 1], .one, .one, .one, [0, 1], false⟩) (a := 0) (b := 1) (r := []) rfl (by decide) (p := ten) (q := ten) (pb := peak) rfl
    (by decide +kernel) rfl (by decide)
  exact ⟨m', h⟩

end IMT.TPoints
