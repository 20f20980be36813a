import Verif.Path.Lemmas

/-! Velocities along a trajectory: C223 and C224. -/

namespace IMT.Path

open IMT.Profile (Prof F take new IsArgsort pts Valid)

variable {srt : List Rat → List Nat} {t : T}

/-! ### C223 -/

/-- C223: whatever the order in which the points are stored, the abscissae of the two profiles of `get_velocity(incr)` are
the middles of the steps of `incr` instants, in increasing order, and the values the displacements over the durations. -/
theorem C223_increment (hs : IsArgsort srt) (ht : Timed t) {k : Nat} (hk : k ≠ 0) :
    ∃ px py, getVelocity srt t k .time = .ok (px, py) ∧ Valid px ∧ Valid py ∧ Inc px.x ∧ px.x = py.x ∧
      px.ux = t.uv ∧ py.ux = t.uv ∧ px.uy = t.ux.div t.uv ∧ py.uy = t.uy.div t.uv ∧
      ∃ S : List (Rat × (Rat × Rat)), S.Perm (t.v.zip t.xy) ∧ Inc (S.map Prod.fst) ∧
        (∀ i : Nat, (pts px)[i]? = match S[i * k]?, S[(i + 1) * k]? with
          | some r, some s => some ((r.1 + s.1) / 2, some ((s.2.1 - r.2.1) / (s.1 - r.1)))
          | _, _ => none) ∧
        (∀ i : Nat, (pts py)[i]? = match S[i * k]?, S[(i + 1) * k]? with
          | some r, some s => some ((r.1 + s.1) / 2, some ((s.2.2 - r.2.2) / (s.1 - r.1)))
          | _, _ => none) := by
  have hsorted := sorted_inc hs ht
  have hE : Inc ((thin k (sorted srt t)).map Prod.fst) := by
    rw [← thin_map]
    exact thin_inc hk hsorted
  have ev : thin k (take t.v (srt t.v)) = (thin k (sorted srt t)).map Prod.fst := by
    rw [← sorted_fst ht, thin_map]
  have exy : thin k (take t.xy (srt t.v)) = (thin k (sorted srt t)).map Prod.snd := by
    rw [← sorted_snd ht, thin_map]
  have ex : (thin k (take t.xy (srt t.v))).map Prod.fst = (thin k (sorted srt t)).map fun r => r.2.1 := by
    rw [exy, List.map_map]; rfl
  have ey : (thin k (take t.xy (srt t.v))).map Prod.snd = (thin k (sorted srt t)).map fun r => r.2.2 := by
    rw [exy, List.map_map]; rfl
  have hl1 : (rates ((thin k (sorted srt t)).map fun r => r.2.1) ((thin k (sorted srt t)).map Prod.fst)).length =
      (mids ((thin k (sorted srt t)).map Prod.fst)).length := by
    rw [mids_length, rates_length (by simp)]
  have hl2 : (rates ((thin k (sorted srt t)).map fun r => r.2.2) ((thin k (sorted srt t)).map Prod.fst)).length =
      (mids ((thin k (sorted srt t)).map Prod.fst)).length := by
    rw [mids_length, rates_length (by simp)]
  obtain ⟨px, e1, v1, x1, p1, u1, w1⟩ := new_inc hs t.uv (t.ux.div t.uv) (mids_inc hE) hl1
  obtain ⟨py, e2, v2, x2, p2, u2, w2⟩ := new_inc hs t.uv (t.uy.div t.uv) (mids_inc hE) hl2
  have key : ∀ (g : Rat × (Rat × Rat) → Rat) (i : Nat),
      ((mids ((thin k (sorted srt t)).map Prod.fst)).zip
        (rates ((thin k (sorted srt t)).map g) ((thin k (sorted srt t)).map Prod.fst)))[i]? =
        match (sorted srt t)[i * k]?, (sorted srt t)[(i + 1) * k]? with
          | some r, some s => some ((r.1 + s.1) / 2, some ((g s - g r) / (s.1 - r.1)))
          | _, _ => none := by
    intro g i
    rw [zip_get, mids_get, rates_get, List.getElem?_map, List.getElem?_map, pair_map, thin_get hk, thin_get hk]
    rcases hr : (sorted srt t)[i * k]? with _ | r
    · rfl
    · rcases hq : (sorted srt t)[(i + 1) * k]? with _ | s
      · rfl
      · have hlt : r.1 < s.1 := by
          refine inc_get.1 hsorted (i * k) ((i + 1) * k) _ _ (by rw [List.getElem?_map, hr]; rfl)
            (by rw [List.getElem?_map, hq]; rfl) ?_
          exact Nat.mul_lt_mul_of_pos_right (by omega) (Nat.pos_of_ne_zero hk)
        simp only [pair]
        rw [quot_pos (by linarith)]
  refine ⟨px, py, ?_, v1, v2, ?_, by rw [x1, x2], u1, u2, w1, w2, sorted srt t, sorted_perm hs ht, hsorted, ?_, ?_⟩
  · unfold getVelocity
    rw [if_neg ht.2.2, if_neg (by rw [ht.1]; omega), if_neg hk]
    unfold profiles abscissae
    rw [ex, ey, ev, e1, e2]
  · rw [x1]; exact mids_inc hE
  · intro i
    rw [p1]
    exact key (fun r => r.2.1) i
  · intro i
    rw [p2]
    exact key (fun r => r.2.2) i

theorem next_of {S : List (Rat × (Rat × Rat))} (hS : S.Perm (rows t)) (hI : Inc (S.map Prod.fst))
    (r s : Rat × (Rat × Rat)) : Next t r s ↔ ∃ i : Nat, S[i]? = some r ∧ S[i + 1]? = some s := by
  have get : ∀ {i : Nat} {r : Rat × (Rat × Rat)}, S[i]? = some r → (S.map Prod.fst)[i]? = some r.1 := by
    intro i r h
    rw [List.getElem?_map, h]; rfl
  constructor
  · rintro ⟨hr, hq, hlt, hno⟩
    obtain ⟨i, hi⟩ := List.mem_iff_getElem?.1 (hS.mem_iff.2 hr)
    obtain ⟨j, hj⟩ := List.mem_iff_getElem?.1 (hS.mem_iff.2 hq)
    have hij : i < j := by
      by_contra hc
      rcases Nat.lt_or_eq_of_le (Nat.le_of_not_lt hc) with hc | hc
      · have := inc_get.1 hI j i _ _ (get hj) (get hi) hc
        linarith
      · subst hc
        rw [hi] at hj
        cases hj
        exact lt_irrefl _ hlt
    rcases Nat.lt_or_eq_of_le (Nat.succ_le_of_lt hij) with hc | hc
    · exfalso
      have hlen := getElem?_some_lt hj
      have hm : S[i + 1]? = some (S[i + 1]'(by omega)) := List.getElem?_eq_getElem (by omega)
      refine hno (S[i + 1]'(by omega)) (hS.mem_iff.1 (List.getElem_mem _)) ⟨?_, ?_⟩
      · exact inc_get.1 hI i (i + 1) _ _ (get hi) (get hm) (by omega)
      · exact inc_get.1 hI (i + 1) j _ _ (get hm) (get hj) hc
    · refine ⟨i, hi, ?_⟩
      rw [← hj, ← hc]
  · rintro ⟨i, hi, hj⟩
    refine ⟨hS.mem_iff.1 (List.mem_iff_getElem?.2 ⟨i, hi⟩), hS.mem_iff.1 (List.mem_iff_getElem?.2 ⟨_, hj⟩),
      inc_get.1 hI i (i + 1) _ _ (get hi) (get hj) (by omega), ?_⟩
    rintro q hq ⟨ha, hb⟩
    obtain ⟨m, hm⟩ := List.mem_iff_getElem?.1 (hS.mem_iff.2 hq)
    rcases Nat.lt_or_ge m (i + 1) with hc | hc
    · rcases Nat.lt_or_eq_of_le (Nat.le_of_lt_succ hc) with hc | hc
      · have := inc_get.1 hI m i _ _ (get hm) (get hi) hc
        linarith
      · subst hc
        rw [hm] at hi
        cases hi
        exact lt_irrefl _ ha
    · rcases Nat.lt_or_eq_of_le hc with hc | hc
      · have := inc_get.1 hI (i + 1) m _ _ (get hj) (get hm) hc
        linarith
      · subst hc
        rw [hm] at hj
        cases hj
        exact lt_irrefl _ hb

theorem next_iff (hs : IsArgsort srt) (ht : Timed t) (r s : Rat × (Rat × Rat)) :
    Next t r s ↔ ∃ i : Nat, (sorted srt t)[i]? = some r ∧ (sorted srt t)[i + 1]? = some s :=
  next_of (sorted_perm hs ht) (sorted_inc hs ht) r s

/-- C223: with the default increment, the points of the profiles are exactly the pairs of instants that follow each
other. -/
theorem C223_velocity (hs : IsArgsort srt) (ht : Timed t) :
    ∃ px py, getVelocity srt t 1 .time = .ok (px, py) ∧
      (∀ a c, (a, c) ∈ pts px ↔
        ∃ r s, Next t r s ∧ a = (r.1 + s.1) / 2 ∧ c = some ((s.2.1 - r.2.1) / (s.1 - r.1))) ∧
      (∀ a c, (a, c) ∈ pts py ↔
        ∃ r s, Next t r s ∧ a = (r.1 + s.1) / 2 ∧ c = some ((s.2.2 - r.2.2) / (s.1 - r.1))) := by
  obtain ⟨px, py, e, -, -, -, -, -, -, -, -, S, hS, hI, h1, h2⟩ := C223_increment hs ht (k := 1) (by omega)
  have get : ∀ {i : Nat} {r : Rat × (Rat × Rat)}, S[i]? = some r → (S.map Prod.fst)[i]? = some r.1 := by
    intro i r h
    rw [List.getElem?_map, h]; rfl
  have fin : ∀ (p : Prof) (g : Rat × (Rat × Rat) → Rat),
      (∀ i : Nat, (pts p)[i]? = match S[i * 1]?, S[(i + 1) * 1]? with
          | some r, some s => some ((r.1 + s.1) / 2, some ((g s - g r) / (s.1 - r.1)))
          | _, _ => none) →
      ∀ a c, (a, c) ∈ pts p ↔
        ∃ r s, Next t r s ∧ a = (r.1 + s.1) / 2 ∧ c = some ((g s - g r) / (s.1 - r.1)) := by
    intro p g hp a c
    rw [List.mem_iff_getElem?]
    constructor
    · rintro ⟨i, hi⟩
      rw [hp i, Nat.mul_one, Nat.mul_one] at hi
      rcases hr : S[i]? with _ | r
      · simp [hr] at hi
      · rcases hq : S[i + 1]? with _ | s
        · simp [hr, hq] at hi
        · rw [hr, hq] at hi
          have hi := Option.some.inj hi
          exact ⟨r, s, (next_of hS hI r s).2 ⟨i, hr, hq⟩, (congrArg Prod.fst hi).symm, (congrArg Prod.snd hi).symm⟩
    · rintro ⟨r, s, hn, rfl, rfl⟩
      obtain ⟨i, hr, hq⟩ := (next_of hS hI r s).1 hn
      refine ⟨i, ?_⟩
      rw [hp i, Nat.mul_one, Nat.mul_one, hr, hq]
  exact ⟨px, py, e, fin px (fun r => r.2.1) h1, fin py (fun r => r.2.2) h2⟩

/-- Three points stored out of order. -/
def walk : T where
  xy := [(4, 1), (0, 0), (1, 2)]
  v := [3, 0, 1]
  ux := Sym.one
  uy := Sym.one
  uv := Sym.one

example : Timed walk ∧ getVelocity Profile.argsort walk 1 .time =
    .ok (⟨[1 / 2, 2], [some 1, some (3 / 2)], [false, false], Sym.one, Sym.one.div Sym.one⟩,
      ⟨[1 / 2, 2], [some 2, some (-1 / 2)], [false, false], Sym.one, Sym.one.div Sym.one⟩) := by
  unfold Timed
  decide +kernel

example : IsArgsort Profile.argsort := Profile.argsort_ok

/-! ### C224 -/

/-- C224: a bound on all the velocities bounds the displacement between any two instants. -/
theorem C224_bound (hs : IsArgsort srt) (ht : Timed t) :
    ∃ px py, getVelocity srt t 1 .time = .ok (px, py) ∧
      (∀ M, (∀ a w, (a, some w) ∈ pts px → w ≤ M) → ∀ r ∈ rows t, ∀ s ∈ rows t, r.1 ≤ s.1 →
        s.2.1 - r.2.1 ≤ M * (s.1 - r.1)) ∧
      (∀ M, (∀ a w, (a, some w) ∈ pts px → M ≤ w) → ∀ r ∈ rows t, ∀ s ∈ rows t, r.1 ≤ s.1 →
        M * (s.1 - r.1) ≤ s.2.1 - r.2.1) ∧
      (∀ M, (∀ a w, (a, some w) ∈ pts py → w ≤ M) → ∀ r ∈ rows t, ∀ s ∈ rows t, r.1 ≤ s.1 →
        s.2.2 - r.2.2 ≤ M * (s.1 - r.1)) ∧
      (∀ M, (∀ a w, (a, some w) ∈ pts py → M ≤ w) → ∀ r ∈ rows t, ∀ s ∈ rows t, r.1 ≤ s.1 →
        M * (s.1 - r.1) ≤ s.2.2 - r.2.2) := by
  obtain ⟨px, py, e, -, -, -, -, -, -, -, -, S, hS, hI, h1, h2⟩ := C223_increment hs ht (k := 1) (by omega)
  have get : ∀ {i : Nat} {r : Rat × (Rat × Rat)}, S[i]? = some r → (S.map Prod.fst)[i]? = some r.1 := by
    intro i r h
    rw [List.getElem?_map, h]; rfl
  have fin : ∀ (p : Prof) (g : Rat × (Rat × Rat) → Rat) (σ : Rat),
      (∀ i : Nat, (pts p)[i]? = match S[i * 1]?, S[(i + 1) * 1]? with
          | some r, some s => some ((r.1 + s.1) / 2, some ((g s - g r) / (s.1 - r.1)))
          | _, _ => none) →
      ∀ M, (∀ a w, (a, some w) ∈ pts p → σ * w ≤ σ * M) → ∀ r ∈ rows t, ∀ s ∈ rows t, r.1 ≤ s.1 →
        σ * (g s - g r) ≤ σ * (M * (s.1 - r.1)) := by
    intro p g σ hp M hM
    have main : ∀ (n i : Nat) (r s : Rat × (Rat × Rat)), S[i]? = some r → S[i + n]? = some s →
        σ * (g s - g r) ≤ σ * (M * (s.1 - r.1)) := by
      intro n
      induction n with
      | zero =>
        intro i r s hr hq
        rw [Nat.add_zero, hr] at hq
        cases hq
        simp
      | succ n ih =>
        intro i r s hr hq
        have hlen := getElem?_some_lt hq
        have hm : S[i + n]? = some (S[i + n]'(by omega)) := List.getElem?_eq_getElem (by omega)
        have h3 := ih i r _ hr hm
        generalize S[i + n]'(by omega) = m at hm h3
        have hlt := inc_get.1 hI (i + n) (i + (n + 1)) _ _ (get hm) (get hq) (by omega)
        have h4 : σ * ((g s - g m) / (s.1 - m.1)) ≤ σ * M := by
          apply hM ((m.1 + s.1) / 2)
          refine List.mem_iff_getElem?.2 ⟨i + n, ?_⟩
          rw [hp, Nat.mul_one, Nat.mul_one, hm, show i + n + 1 = i + (n + 1) from rfl, hq]
        have h5 : σ * (g s - g m) ≤ σ * M * (s.1 - m.1) := by
          have hd : 0 < s.1 - m.1 := by linarith
          rw [← mul_div_assoc, div_le_iff₀ hd] at h4
          exact h4
        nlinarith
    intro r hr s hq hle
    obtain ⟨i, hi⟩ := List.mem_iff_getElem?.1 (hS.mem_iff.2 hr)
    obtain ⟨j, hj⟩ := List.mem_iff_getElem?.1 (hS.mem_iff.2 hq)
    have hij : i ≤ j := by
      by_contra hc
      have := inc_get.1 hI j i _ _ (get hj) (get hi) (by omega)
      linarith
    exact main (j - i) i r s hi (by rw [Nat.add_sub_cancel' hij]; exact hj)
  refine ⟨px, py, e, ?_, ?_, ?_, ?_⟩
  · intro M hM r hr s hq hle
    have := fin px (fun r => r.2.1) 1 h1 M (fun a w h => by have := hM a w h; linarith) r hr s hq hle
    simpa using this
  · intro M hM r hr s hq hle
    have := fin px (fun r => r.2.1) (-1) h1 M (fun a w h => by have := hM a w h; linarith) r hr s hq hle
    linarith
  · intro M hM r hr s hq hle
    have := fin py (fun r => r.2.2) 1 h2 M (fun a w h => by have := hM a w h; linarith) r hr s hq hle
    simpa using this
  · intro M hM r hr s hq hle
    have := fin py (fun r => r.2.2) (-1) h2 M (fun a w h => by have := hM a w h; linarith) r hr s hq hle
    linarith

/-- C224: the velocity profiles are constant exactly for uniform motions, and then give the speed. -/
theorem C224_uniform (hs : IsArgsort srt) (ht : Timed t) :
    ∃ px py, getVelocity srt t 1 .time = .ok (px, py) ∧ ∀ b c : Rat,
      ((∀ a w, (a, w) ∈ pts px → w = some b) ∧ (∀ a w, (a, w) ∈ pts py → w = some c)) ↔
        ∀ r ∈ rows t, ∀ s ∈ rows t, s.2.1 - r.2.1 = b * (s.1 - r.1) ∧ s.2.2 - r.2.2 = c * (s.1 - r.1) := by
  obtain ⟨px, py, e, hx, hy⟩ := C223_velocity hs ht
  obtain ⟨px', py', e', b1, b2, b3, b4⟩ := C224_bound hs ht
  rw [e] at e'
  cases e'
  refine ⟨px, py, e, fun b c => ⟨?_, ?_⟩⟩
  · rintro ⟨h1, h2⟩ 
    have le : ∀ r ∈ rows t, ∀ s ∈ rows t, r.1 ≤ s.1 →
        s.2.1 - r.2.1 = b * (s.1 - r.1) ∧ s.2.2 - r.2.2 = c * (s.1 - r.1) := by
      intro r hr s hq hle
      refine ⟨le_antisymm (b1 b ?_ r hr s hq hle) (b2 b ?_ r hr s hq hle),
        le_antisymm (b3 c ?_ r hr s hq hle) (b4 c ?_ r hr s hq hle)⟩
      · intro a w h; exact le_of_eq (Option.some.inj (h1 a _ h))
      · intro a w h; exact le_of_eq (Option.some.inj (h1 a _ h)).symm
      · intro a w h; exact le_of_eq (Option.some.inj (h2 a _ h))
      · intro a w h; exact le_of_eq (Option.some.inj (h2 a _ h)).symm
    intro r hr s hq
    rcases le_total r.1 s.1 with h | h
    · exact le r hr s hq h
    · obtain ⟨h3, h4⟩ := le s hq r hr h
      constructor <;> linarith
  · intro h
    constructor
    · intro a w hw
      obtain ⟨r, s, ⟨hr, hq, hlt, -⟩, -, rfl⟩ := (hx a w).1 hw
      rw [(h r hr s hq).1, mul_div_cancel_right₀ _ (by linarith)]
    · intro a w hw
      obtain ⟨r, s, ⟨hr, hq, hlt, -⟩, -, rfl⟩ := (hy a w).1 hw
      rw [(h r hr s hq).2, mul_div_cancel_right₀ _ (by linarith)]

/-- A uniform motion of speed (2, -1). -/
def glide : T where
  xy := [(2, 3), (0, 4), (6, 1)]
  v := [1, 0, 3]
  ux := Sym.one
  uy := Sym.one
  uv := Sym.one

example : Timed glide ∧ ∀ r ∈ rows glide, ∀ s ∈ rows glide,
    s.2.1 - r.2.1 = 2 * (s.1 - r.1) ∧ s.2.2 - r.2.2 = -1 * (s.1 - r.1) := by
  unfold Timed
  decide +kernel

/-! ### C223: refusals and other abscissae -/

/-- C223: no instants, no velocity. -/
theorem C223_no_times (k : Nat) (a : Xaxis) (h : t.v = []) : getVelocity srt t k a = .error .exception := by
  unfold getVelocity
  rw [if_pos h]

/-- C223: with `xaxis='x'` or `'y'`, the same velocities stand at the middles of the positions. -/
theorem C223_positions (hs : IsArgsort srt) (ht : Timed t) {a : Xaxis} {g : Rat × (Rat × Rat) → Rat}
    (hg : (a = .x ∧ g = fun r => r.2.1) ∨ (a = .y ∧ g = fun r => r.2.2)) :
    ∃ px py, getVelocity srt t 1 a = .ok (px, py) ∧ px.uy = t.ux.div t.uv ∧ py.uy = t.uy.div t.uv ∧
      (∀ b c, (b, c) ∈ pts px ↔
        ∃ r s, Next t r s ∧ b = (g r + g s) / 2 ∧ c = some ((s.2.1 - r.2.1) / (s.1 - r.1))) ∧
      (∀ b c, (b, c) ∈ pts py ↔
        ∃ r s, Next t r s ∧ b = (g r + g s) / 2 ∧ c = some ((s.2.2 - r.2.2) / (s.1 - r.1))) := by
  have ex : (take t.xy (srt t.v)).map Prod.fst = (sorted srt t).map fun r => r.2.1 := by
    rw [← sorted_snd ht, List.map_map]; rfl
  have ey : (take t.xy (srt t.v)).map Prod.snd = (sorted srt t).map fun r => r.2.2 := by
    rw [← sorted_snd ht, List.map_map]; rfl
  have ea : abscissae a ((sorted srt t).map fun r => r.2.1) ((sorted srt t).map fun r => r.2.2)
      ((sorted srt t).map Prod.fst) = mids ((sorted srt t).map g) := by
    rcases hg with ⟨rfl, rfl⟩ | ⟨rfl, rfl⟩ <;> rfl
  have hl : ∀ h : Rat × (Rat × Rat) → Rat, (rates ((sorted srt t).map h) ((sorted srt t).map Prod.fst)).length =
      (mids ((sorted srt t).map g)).length := by
    intro h
    rw [mids_length, rates_length (by simp)]
    simp
  obtain ⟨px, e1, -, p1, -, w1⟩ := Profile.new_flag_perm hs false t.uv (t.ux.div t.uv) (hl fun r => r.2.1)
  obtain ⟨py, e2, -, p2, -, w2⟩ := Profile.new_flag_perm hs false t.uv (t.uy.div t.uv) (hl fun r => r.2.2)
  have key : ∀ (h : Rat × (Rat × Rat) → Rat) (b : Rat) (c : F),
      (b, c) ∈ (mids ((sorted srt t).map g)).zip (rates ((sorted srt t).map h) ((sorted srt t).map Prod.fst)) ↔
        ∃ r s, Next t r s ∧ b = (g r + g s) / 2 ∧ c = some ((h s - h r) / (s.1 - r.1)) := by
    intro h b c
    have hi : ∀ i : Nat, ((mids ((sorted srt t).map g)).zip
        (rates ((sorted srt t).map h) ((sorted srt t).map Prod.fst)))[i]? =
          pair (fun r s => ((g r + g s) / 2, quot (h s - h r) (s.1 - r.1))) (sorted srt t)[i]? (sorted srt t)[i + 1]? := by
      intro i
      rw [zip_get, mids_get, rates_get, List.getElem?_map, List.getElem?_map, pair_map]
      rcases (sorted srt t)[i]? with _ | r
      · rfl
      · rcases (sorted srt t)[i + 1]? with _ | s <;> rfl
    rw [List.mem_iff_getElem?]
    constructor
    · rintro ⟨i, h0⟩
      rw [hi] at h0
      obtain ⟨r, s, hr, hq, hrs⟩ := pair_some h0
      have hn := (next_iff hs ht r s).2 ⟨i, hr, hq⟩
      rw [quot_pos (by linarith [hn.2.2.1])] at hrs
      exact ⟨r, s, hn, (congrArg Prod.fst hrs).symm, (congrArg Prod.snd hrs).symm⟩
    · rintro ⟨r, s, hn, rfl, rfl⟩
      obtain ⟨i, hr, hq⟩ := (next_iff hs ht r s).1 hn
      refine ⟨i, ?_⟩
      rw [hi, hr, hq]
      simp only [pair]
      rw [quot_pos (by linarith [hn.2.2.1])]
  refine ⟨px, py, ?_, w1, w2, fun b c => ?_, fun b c => ?_⟩
  · unfold getVelocity
    rw [if_neg ht.2.2, if_neg (by rw [ht.1]; omega), if_neg (by omega)]
    unfold profiles thin
    simp only [ne_eq, not_true_eq_false, if_false]
    rw [ex, ey, ← sorted_fst ht, ea, e1, e2]
  · rw [p1.mem_iff]; exact key _ b c
  · rw [p2.mem_iff]; exact key _ b c

/-- C223: but these positions are labelled with the unit of the instants. -/
theorem C223_unit_violated (hs : IsArgsort srt) (ht : Timed t) {a : Xaxis} (ha : a ≠ .time)
    (hu : t.ux ≠ t.uv ∧ t.uy ≠ t.uv) :
    ∃ px py, getVelocity srt t 1 a = .ok (px, py) ∧ px.ux ≠ t.ux ∧ px.ux ≠ t.uy ∧ py.ux ≠ t.ux ∧ py.ux ≠ t.uy := by
  have hl : ∀ (l k : List Rat), l.length = (sorted srt t).length → k.length = (sorted srt t).length →
      (rates l ((sorted srt t).map Prod.fst)).length = (mids k).length := by
    intro l k h1 h2
    rw [mids_length, rates_length (by simp [h1]), h2]
    simp
  have h1 : (take t.xy (srt t.v)).length = (sorted srt t).length := by
    rw [← sorted_snd ht, List.length_map]
  have h2 : (take t.v (srt t.v)).length = (sorted srt t).length := by
    rw [← sorted_fst ht, List.length_map]
  have key : ∀ k : List Rat, k.length = (sorted srt t).length →
      abscissae a ((take t.xy (srt t.v)).map Prod.fst) ((take t.xy (srt t.v)).map Prod.snd) (take t.v (srt t.v)) = mids k →
      ∃ px py, getVelocity srt t 1 a = .ok (px, py) ∧ px.ux = t.uv ∧ py.ux = t.uv := by
    intro k hk he
    obtain ⟨px, e1, -, -, u1, -⟩ := Profile.new_flag_perm hs false t.uv (t.ux.div t.uv)
      (hl ((take t.xy (srt t.v)).map Prod.fst) k (by simp [h1]) hk)
    obtain ⟨py, e2, -, -, u2, -⟩ := Profile.new_flag_perm hs false t.uv (t.uy.div t.uv)
      (hl ((take t.xy (srt t.v)).map Prod.snd) k (by simp [h1]) hk)
    refine ⟨px, py, ?_, u1, u2⟩
    unfold getVelocity
    rw [if_neg ht.2.2, if_neg (by rw [ht.1]; omega), if_neg (by omega)]
    unfold profiles thin
    simp only [ne_eq, not_true_eq_false, if_false]
    rw [he, ← sorted_fst ht, e1, e2]
  have : ∃ px py, getVelocity srt t 1 a = .ok (px, py) ∧ px.ux = t.uv ∧ py.ux = t.uv := by
    cases a with
    | time => exact absurd rfl ha
    | x => exact key _ (by simp [h1]) rfl
    | y => exact key _ (by simp [h1]) rfl
  obtain ⟨px, py, e, u1, u2⟩ := this
  exact ⟨px, py, e, by rw [u1]; exact hu.1.symm, by rw [u1]; exact hu.2.symm, by rw [u2]; exact hu.1.symm,
    by rw [u2]; exact hu.2.symm⟩

/-- The walk with metres and seconds. -/
def measured : T := { walk with ux := ⟨1, 0, 0, 1⟩, uy := ⟨1, 0, 0, 1⟩, uv := ⟨0, 1, 0, 1⟩ }

example : Timed measured ∧ measured.ux ≠ measured.uv ∧ measured.uy ≠ measured.uv := by
  unfold Timed
  decide +kernel

end IMT.Path
