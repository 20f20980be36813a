import Verif.Weird.Lemmas

/-! C239: weird fields of a record.  The specification is in `Verif/Weird/Spec.lean`. -/

namespace IMT.Weird

open Temporal (TF pyIdx deleteAll)
open Turb (TVF Record)

variable {t r : TVF} {u : Sym} {c : ℝ}

/-- `f` shows at each point the mean of what `a` and `b` show there, on the same grid and in the same units. -/
def Between (f a b : VF) : Prop :=
  f.WF ∧ f.ax = a.ax ∧ f.ay = a.ay ∧ f.ux = a.ux ∧ f.uy = a.uy ∧ f.uv = a.uv ∧
    ∀ x y v, f.Reads x y v ↔ ∃ p q, a.Reads x y p ∧ b.Reads x y q ∧ v = middle p q

theorem between {a b h : VF} (ha : Turb.OnV t u a) (hb : Turb.OnV t u b) (hu : u.size ≠ 0) (hadd : a.add b = .ok h) : Between (h.mulNum (1 / 2)) a b := by
  obtain ⟨h', e, w, h1, h2, h3, h4⟩ := VF.C112_add_pointwise ha.wf hb.wf (ha.ax.trans hb.ax.symm) (ha.ay.trans hb.ay.symm)
    (by rw [ha.uv, hb.uv]; exact ⟨rfl, rfl, rfl⟩) (ha.ux.trans hb.ux.symm) (ha.uy.trans hb.uy.symm)
  rw [hadd] at e
  cases e
  have hax : h.ax = a.ax ∧ h.ay = a.ay := by
    unfold VF.add at hadd
    split_ifs at hadd with c1 c2
    · cases hadd; exact ⟨rfl, rfl⟩
    · exact absurd ⟨ha.ax.trans hb.ax.symm, ha.ay.trans hb.ay.symm⟩ c2
  obtain ⟨m1, m2, m3, m4, m5⟩ := VF.C114_mulNum w (1 / 2)
  refine ⟨m1, hax.1, hax.2, m3.trans h2, m4.trans h3, m5.trans h4, fun x y v => ?_⟩
  rw [m2]
  have hr : b.uv.size / a.uv.size = 1 := by rw [ha.uv, hb.uv]; exact div_self hu
  constructor
  · rintro ⟨s, hs, rfl⟩
    obtain ⟨p, q, hp, hq, rfl⟩ := (h1 x y s).1 hs
    refine ⟨p, q, hp, hq, ?_⟩
    rw [hr]
    cases p <;> cases q <;> simp [VF.sumVec, middle, VF.smul, div_eq_mul_inv]
  · rintro ⟨p, q, hp, hq, rfl⟩
    refine ⟨_, (h1 x y _).2 ⟨p, q, hp, hq, rfl⟩, ?_⟩
    rw [hr]
    cases p <;> cases q <;> simp [VF.sumVec, middle, VF.smul, div_eq_mul_inv]

theorem on (h : Record t u) {f : VF} (hf : f ∈ t.fields) : Turb.OnV t u f := by
  constructor <;> first
    | exact h.wf f hf | exact h.ax f hf | exact h.ay f hf | exact h.ux f hf | exact h.uy f hf | exact h.uv f hf

theorem ok_iff {r : TVF} : removeWeird t c .interpolate = .ok r ↔
    ∃ fs, replaceAll (weird c t.fields) t.fields (weird c t.fields) = .ok fs ∧ r = { t with fields := fs } := by
  unfold removeWeird
  simp only
  cases h : replaceAll (weird c t.fields) t.fields (weird c t.fields) with
  | error e => simp
  | ok fs => simp [eq_comm]

/-- C239, weird fields with a partner on both sides: each is replaced by the mean of the nearest pair of fields around it which are not weird, and
the other fields and the times are kept.  Missing: a weird field without such a pair (`C239_first_violated`, `C239_last_violated`), and the times
are not looked at (`C239_times_violated`). -/
theorem C239_interpolated_partial (h : Record t u)
    (hin : ∀ k e, Strange t c k → Reach t c k e → e ≤ k ∧ k + e < t.fields.length) :
    ∃ r, removeWeird t c .interpolate = .ok r ∧ r.times = t.times ∧ r.ut = t.ut ∧ r.fields.length = t.fields.length ∧
      (∀ k, ¬ Strange t c k → r.fields[k]? = t.fields[k]?) ∧
      ∀ k e, Strange t c k → Reach t c k e →
        ∃ f a b, r.fields[k]? = some f ∧ t.fields[k + e]? = some a ∧ t.fields[k - e]? = some b ∧ Between f a b := by
  have key : ∀ k ∈ weird c t.fields, reach t.fields.length (weird c t.fields) k ≤ k ∧
      k + reach t.fields.length (weird c t.fields) k < t.fields.length ∧
      k + reach t.fields.length (weird c t.fields) k ∉ weird c t.fields ∧
      k - reach t.fields.length (weird c t.fields) k ∉ weird c t.fields := by
    intro k hk
    have hR := (reach_iff (c := c) h (weird_lt hk) _).1 rfl
    obtain ⟨h1, h2⟩ := hin k _ ((mem_weird h k).1 hk) hR
    exact ⟨h1, h2, fun hm => hR.2.1.1 ((mem_weird h _).1 hm), fun hm => hR.2.1.2 ⟨h1, (mem_weird h _).1 hm⟩⟩
  obtain ⟨fs, hfs⟩ := replaceAll_ok (t := t) (u := u) (weird c t.fields) t.fields
    (fun i f _ hf => on h (List.mem_of_getElem? hf)) (fun w hw => ⟨hw, key w hw⟩)
  obtain ⟨k1, k2⟩ := replaceAll_keep _ _ _ _ hfs
  refine ⟨_, ok_iff.2 ⟨fs, hfs, rfl⟩, rfl, rfl, k1, fun k hk => k2 k (fun hm => hk ((mem_weird h k).1 hm)), fun k e hk he => ?_⟩
  have hm := (mem_weird h k).2 hk
  have hr := (reach_iff h hk.1 e).2 he
  obtain ⟨q1, q2, q3, q4⟩ := key k hm
  obtain ⟨a, b, s, p1, p2, p3, p4⟩ := replaceAll_at _ _ _ _ hfs
    ((weird_sorted c t.fields).imp fun hlt => Nat.ne_of_lt hlt) (fun w hw => hw) k hm q1 q3 q4
  rw [hr] at p1 p2
  exact ⟨_, a, b, p4, p1, p2, between (on h (List.mem_of_getElem? p1)) (on h (List.mem_of_getElem? p2)) h.size p3⟩

/-- C239, no weird field: the record is returned as it is. -/
theorem C239_none (h : Record t u) (hn : ∀ k, ¬ Strange t c k) : removeWeird t c .interpolate = .ok t ∧ removeWeird t c .remove = .ok t := by
  have hw : weird c t.fields = [] := List.eq_nil_iff_forall_not_mem.2 fun k hk => hn k ((mem_weird h k).1 hk)
  constructor
  · exact ok_iff.2 ⟨t.fields, by rw [hw]; rfl, rfl⟩
  · unfold removeWeird
    rw [hw]; rfl

theorem weird_head (h : Record t u) {k : Nat} (hk : Strange t c k) (hmin : ∀ i < k, ¬ Strange t c i) : ∃ ws, weird c t.fields = k :: ws := by
  have hs := weird_sorted c t.fields
  have hm := (mem_weird h k).2 hk
  cases hw : weird c t.fields with
  | nil => rw [hw] at hm; cases hm
  | cons v ws =>
    rw [hw] at hm hs
    rw [List.pairwise_cons] at hs
    rcases List.mem_cons.1 hm with e | hm'
    · exact ⟨ws, by rw [e]⟩
    · exact absurd ((mem_weird h v).1 (by rw [hw]; simp)) (hmin v (hs.1 k hm'))

/-- C239 fails when the first field is weird: it is replaced by the mean of a field after it and of a field counted from the end of the record. -/
theorem C239_first_violated (h : Record t u) (h0 : Strange t c 0) {e : Nat} (he : Reach t c 0 e) (hr : removeWeird t c .interpolate = .ok r) :
    ∃ f a b, r.fields[0]? = some f ∧ t.fields[e]? = some a ∧ t.fields[t.fields.length - e]? = some b ∧ Between f a b := by
  obtain ⟨fs, hfs, rfl⟩ := ok_iff.1 hr
  obtain ⟨ws, hw⟩ := weird_head h h0 (by simp)
  have hre := (reach_iff h h0.1 e).2 he
  have hnd := weird_sorted c t.fields
  rw [hw, List.pairwise_cons] at hnd
  rw [hw] at hre
  rw [hw] at hfs
  unfold replaceAll at hfs
  rw [hre] at hfs
  split at hfs
  · cases hfs
  · rename_i fs1 h1
    have hk := (replaceAll_keep _ _ _ _ hfs).2 0 (fun hm => Nat.lt_irrefl 0 (hnd.1 0 hm))
    unfold replace at h1
    split at h1
    · rename_i a b ha hb
      split at h1
      · cases h1
      · rename_i s hadd
        cases h1
        rw [Nat.zero_add] at ha
        have hlt : e < t.fields.length := (List.getElem?_eq_some_iff.1 ha).1
        have he1 : 1 ≤ e := he.1
        have hp : pyIdx t.fields.length (((0 : Nat) : Int) - e) = some (t.fields.length - e) := by
          unfold pyIdx
          rw [if_neg (by omega), if_pos (by omega)]; congr 1; omega
        rw [hp] at hb
        have hb' : t.fields[t.fields.length - e]? = some b := hb
        refine ⟨_, a, b, ?_, ha, hb', between (on h (List.mem_of_getElem? ha)) (on h (List.mem_of_getElem? hb')) h.size hadd⟩
        show fs[0]? = _
        rw [hk, List.getElem?_set_self (by omega)]
    · cases h1

/-- C239 fails when the last field is weird: there is no result, whatever the record. -/
theorem C239_last_violated (h : Record t u) (hl : Strange t c (t.fields.length - 1)) (r : TVF) : removeWeird t c .interpolate ≠ .ok r := by
  intro hr
  obtain ⟨fs, hfs, -⟩ := ok_iff.1 hr
  have hm := (mem_weird h _).2 hl
  have hpos := hl.1
  obtain ⟨hR, -, -⟩ := (reach_iff h hl.1 _).1 rfl
  generalize weird c t.fields = inds at hm hfs hR
  suffices H : ∀ (ws : List Nat) (fs fs' : List VF), fs.length = t.fields.length → replaceAll inds fs ws = .ok fs' → t.fields.length - 1 ∉ ws by
    exact H _ _ _ rfl hfs hm
  intro ws
  induction ws with
  | nil => intro _ _ _ _ hm; cases hm
  | cons w ws ih =>
    intro fs fs' hlen hok hm
    unfold replaceAll at hok
    split at hok
    · cases hok
    · rename_i fs1 h1
      rcases List.mem_cons.1 hm with e | hm'
      · unfold replace at h1
        split at h1
        · rename_i a b ha hb
          have := (List.getElem?_eq_some_iff.1 ha).1
          rw [hlen, ← e] at this
          omega
        · cases h1
      · exact ih fs1 fs' ((replace_length h1).1.trans hlen) hok hm'

/-- C239, the times play no part: with other times the new fields are the same, so that on uneven times they are not interpolations in time. -/
theorem C239_times_violated (ts : List Rat) (hr : removeWeird t c .interpolate = .ok r) :
    removeWeird { t with times := ts } c .interpolate = .ok { r with times := ts } := by
  obtain ⟨fs, hfs, rfl⟩ := ok_iff.1 hr
  exact ok_iff.2 ⟨fs, hfs, rfl⟩

open Classical in
/-- C239, how many: with `c` standard deviations at most one field in `c ^ 2` is weird. -/
theorem C239_few (h : Record t u) (hc : 0 ≤ c) :
    (((Finset.range t.fields.length).filter (Strange t c)).card : ℝ) * c ^ 2 ≤ t.fields.length := by
  set T : Nat → ℝ := fun k => (t.fields.map total).getD k 0 with hT
  set n := t.fields.length with hn
  have hS : ∀ k, Strange t c k ↔ k < n ∧ |T k - avg n T| > c * dev n T := fun k => (mem_weird h k).symm.trans (mem_raw t k)
  have hnpos : (0 : ℝ) < n := Nat.cast_pos.2 (List.length_pos_iff.2 h.ne)
  have hsum0 : 0 ≤ ∑ k ∈ Finset.range n, (T k - avg n T) ^ 2 := Finset.sum_nonneg fun _ _ => sq_nonneg _
  have hd0 : 0 ≤ dev n T := Real.sqrt_nonneg _
  have hd2 : dev n T ^ 2 * n = ∑ k ∈ Finset.range n, (T k - avg n T) ^ 2 := by
    unfold dev
    rw [Real.sq_sqrt (div_nonneg hsum0 hnpos.le), div_mul_cancel₀ _ hnpos.ne']
  have hle : (((Finset.range n).filter (Strange t c)).card : ℝ) * (c * dev n T) ^ 2 ≤ ∑ k ∈ Finset.range n, (T k - avg n T) ^ 2 := by
    calc (((Finset.range n).filter (Strange t c)).card : ℝ) * (c * dev n T) ^ 2
        = ∑ k ∈ (Finset.range n).filter (Strange t c), (c * dev n T) ^ 2 := by rw [Finset.sum_const, nsmul_eq_mul]
      _ ≤ ∑ k ∈ (Finset.range n).filter (Strange t c), (T k - avg n T) ^ 2 := by
          apply Finset.sum_le_sum
          intro k hk
          have := ((hS k).1 (Finset.mem_filter.1 hk).2).2
          rw [← sq_abs (T k - avg n T)]
          exact pow_le_pow_left₀ (mul_nonneg hc hd0) this.le 2
      _ ≤ _ := Finset.sum_le_sum_of_subset_of_nonneg (Finset.filter_subset _ _) fun _ _ _ => sq_nonneg _
  rcases hd0.eq_or_lt with hz | hp
  · have hzero : ∑ k ∈ Finset.range n, (T k - avg n T) ^ 2 = 0 := by rw [← hd2, ← hz]; simp
    have hempty : (Finset.range n).filter (Strange t c) = ∅ := by
      rw [Finset.filter_eq_empty_iff]
      intro k hk hs
      have h1 := (Finset.sum_eq_zero_iff_of_nonneg fun _ _ => sq_nonneg _).1 hzero k hk
      have h2 := ((hS k).1 hs).2
      rw [← hz, mul_zero, pow_eq_zero_iff (by norm_num)] at *
      rw [h1] at h2
      simp at h2
    rw [hempty]; simp
  · rw [← hd2, mul_pow, ← mul_assoc, mul_comm _ (n : ℝ)] at hle
    exact le_of_mul_le_mul_right hle (pow_pos hp 2)

/-- C239 fails on short records: with the default coefficient a record of at most ten fields has no weird field, whatever the fields are. -/
theorem C239_short_violated (h : Record t u) (hn : t.fields.length ≤ 10) :
    removeWeird t (329 / 100) .interpolate = .ok t ∧ removeWeird t (329 / 100) .remove = .ok t := by
  classical
  apply C239_none h
  intro k hk
  have hf := C239_few h (c := 329 / 100) (by norm_num)
  have h1 : (1 : ℝ) ≤ ((Finset.range t.fields.length).filter (Strange t (329 / 100))).card := by
    rw [← Nat.cast_one, Nat.cast_le]
    exact Finset.card_pos.2 ⟨k, Finset.mem_filter.2 ⟨Finset.mem_range.2 hk.1, hk⟩⟩
  have h2 : (t.fields.length : ℝ) ≤ 10 := by exact_mod_cast hn
  nlinarith

/-- C239, `treatment='remove'` with one weird field: this field and its time are removed, and nothing else. -/
theorem C239_remove_one (h : Record t u) {k : Nat} (hk : Strange t c k) (hone : ∀ i, Strange t c i → i = k) :
    ∃ r, removeWeird t c .remove = .ok r ∧ r.times = t.times.eraseIdx k ∧ r.fields = t.fields.eraseIdx k := by
  obtain ⟨ws, hw⟩ := weird_head h hk (fun i hi hs => Nat.ne_of_lt hi (hone i hs))
  have hs := weird_sorted c t.fields
  have hws : ws = [] := by
    rw [List.eq_nil_iff_forall_not_mem]
    intro v hv
    have := hone v ((mem_weird h v).1 (by rw [hw]; simp [hv]))
    rw [hw, List.pairwise_cons] at hs
    have := hs.1 v hv
    omega
  have hp : pyIdx t.fields.length (k : Int) = some k := by
    unfold pyIdx; rw [if_pos ⟨by omega, by exact_mod_cast hk.1⟩]; simp
  refine ⟨{ t with times := t.times.eraseIdx k, fields := t.fields.eraseIdx k }, ?_, rfl, rfl⟩
  unfold removeWeird
  rw [hw, hws]
  simp only [List.map_cons, List.map_nil, deleteAll, h.paired]
  simp only [Int.ofNat_eq_natCast, hp]

theorem deleteAll_keep {α : Type} {m : Nat} : ∀ (is : List Nat) (l : List α), (∀ i ∈ is, m < i) → (deleteAll l (is.map Int.ofNat)).1[m]? = l[m]? := by
  intro is
  induction is with
  | nil => intro l _; rfl
  | cons i is ih =>
    intro l hi
    have h1 := hi i (by simp)
    rw [List.map_cons]
    unfold deleteAll
    split
    · rfl
    · rename_i k hk
      have hki : k = i := by
        unfold pyIdx at hk
        split_ifs at hk with c1 c2
        · simp at hk; omega
        · have := c2.2; simp at this; omega
      subst hki
      rw [ih _ fun j hj => hi j (by simp [hj])]
      rw [List.getElem?_eraseIdx_of_lt h1]

/-- C239 fails for `treatment='remove'` as soon as two fields are weird: the second of them is still there, with its time. -/
theorem C239_remove_violated (h : Record t u) {i j : Nat} (hij : i < j) (hi : Strange t c i) (hj : Strange t c j)
    (hmin : ∀ k < j, Strange t c k → k = i) (hr : removeWeird t c .remove = .ok r) :
    r.fields[j - 1]? = t.fields[j]? ∧ r.times[j - 1]? = t.times[j]? := by
  obtain ⟨ws, hw⟩ := weird_head h hi (fun k hk hs => Nat.ne_of_lt hk (hmin k (by omega) hs))
  have hs := weird_sorted c t.fields
  rw [hw, List.pairwise_cons] at hs
  have hws : ∃ ws', ws = j :: ws' := by
    have hm := (mem_weird h j).2 hj
    rw [hw] at hm
    rcases List.mem_cons.1 hm with e | hm'
    · omega
    · cases ws with
      | nil => cases hm'
      | cons v ws' =>
        rcases List.mem_cons.1 hm' with e | hm''
        · exact ⟨ws', by rw [e]⟩
        · have h1 := (List.pairwise_cons.1 hs.2).1 j hm''
          have h2 := hmin v h1 ((mem_weird h v).1 (by rw [hw]; simp))
          have h3 := hs.1 v (by simp)
          omega
  obtain ⟨ws', rfl⟩ := hws
  have hs2 := List.pairwise_cons.1 hs.2
  have aux : ∀ {α : Type} (l : List α), l.length = t.fields.length → (deleteAll l ((weird c t.fields).map Int.ofNat)).1[j - 1]? = l[j]? := by
    intro α l hl
    have hp : pyIdx l.length (Int.ofNat i) = some i := by
      unfold pyIdx; rw [hl, if_pos ⟨by simp, by simp; exact hi.1⟩]; simp
    rw [hw, List.map_cons]
    unfold deleteAll
    rw [hp]
    simp only
    rw [deleteAll_keep]
    · rw [List.getElem?_eraseIdx_of_ge (by omega)]
      congr 1; omega
    · intro k hk
      rcases List.mem_cons.1 hk with e | hk'
      · omega
      · have := hs2.1 k hk'; omega
  have a1 := aux t.fields rfl
  have a2 := aux t.times h.paired
  unfold removeWeird at hr
  generalize e1 : deleteAll t.times _ = p1 at hr a2
  generalize e2 : deleteAll t.fields _ = p2 at hr a1
  obtain ⟨ts, b1⟩ := p1
  obtain ⟨fs, b2⟩ := p2
  cases b1 <;> cases b2 <;> simp only at hr <;> cases hr
  exact ⟨a1, a2⟩

/-- C239, an unknown treatment is refused. -/
theorem C239_refused (t : TVF) (c : ℝ) : removeWeird t c .other = .error .valueError := rfl

/-- C239 fails on scalar fields: they have no magnitude, so that every record with a field is refused. -/
theorem C239_scalar_violated (t : TF) (h : t.fields ≠ []) : removeWeirdS t = .error .attributeError := by
  unfold removeWeirdS
  rw [if_neg h]

open Classical in
/-- C239 fails as a look at the mean magnitude: on fields of vectors of length 1, whose mean magnitude is always 1, a field is weird when the number
of points that it shows is unusual. -/
theorem C239_mean_violated (h : Record t u) (hone : ∀ f ∈ t.fields, ∀ x y v, f.Reads x y (some v) → v.1 ^ 2 + v.2 ^ 2 = 1)
    (N : Nat → ℝ) (hN : ∀ (k : Nat) f, t.fields[k]? = some f →
      N k = ((f.ax.toFinset ×ˢ f.ay.toFinset).filter fun q => ∃ v, f.Reads q.1 q.2 (some v)).card) (k : Nat) :
    Strange t c k ↔ k < t.fields.length ∧ |N k - avg t.fields.length N| > c * dev t.fields.length N := by
  have htot : ∀ (k : Nat) f, t.fields[k]? = some f → total f = N k := by
    intro k f hf
    have hm := List.mem_of_getElem? hf
    apply total_eq (h.wf f hm)
    refine ⟨fun q => if hq : ∃ v, f.Reads q.1 q.2 (some v) then hq.choose else (0, 0), ?_, ?_⟩
    · intro x y v hv
      have uniq : ∀ w, f.Reads x y w → w = v := by
        rintro w ⟨i, j, e1, e2, e3⟩
        obtain ⟨i', j', e1', e2', e3'⟩ := hv
        rw [← e3, ← e3', (h.wf f hm).incx.idx_inj' e1 e1', (h.wf f hm).incy.idx_inj' e2 e2']
      by_cases hq : ∃ w, f.Reads x y (some w)
      · show (if hq : ∃ v, f.Reads x y (some v) then hq.choose else (0, 0)) = _
        rw [dif_pos hq, ← uniq _ hq.choose_spec]; rfl
      · show (if hq : ∃ v, f.Reads x y (some v) then hq.choose else (0, 0)) = _
        rw [dif_neg hq]
        cases v with
        | none => rfl
        | some v => exact absurd ⟨v, hv⟩ hq
    · rw [hN k f hf, Finset.card_filter, Nat.cast_sum]
      apply Finset.sum_congr rfl
      intro q _
      by_cases hq : ∃ v, f.Reads q.1 q.2 (some v)
      · rw [if_pos hq]
        simp only [dif_pos hq]
        rw [hone f hm q.1 q.2 _ hq.choose_spec]
        simp
      · rw [if_neg hq]
        simp only [dif_neg hq]
        simp
  have e : ∀ k < t.fields.length, (t.fields.map total).getD k 0 = N k := by
    intro k hk
    have := htot k _ (List.getElem?_eq_getElem hk)
    simp [hk, this]
  have ea : avg t.fields.length (fun k => (t.fields.map total).getD k 0) = avg t.fields.length N := by
    unfold avg
    rw [Finset.sum_congr rfl fun k hk => e k (Finset.mem_range.1 hk)]
  have ed : dev t.fields.length (fun k => (t.fields.map total).getD k 0) = dev t.fields.length N := by
    unfold dev
    rw [ea]
    congr 2
    apply Finset.sum_congr rfl
    intro k hk
    show ((t.fields.map total).getD k 0 - _) ^ 2 = _
    rw [e k (Finset.mem_range.1 hk)]
  rw [← mem_weird h k, mem_raw, ea, ed]
  apply and_congr_right
  intro hk
  rw [e k hk]

/-! ### the hypotheses hold on a record -/

/-- A uniform field of velocity `(v, 0)` on a grid of four points. -/
def demoF (v : Rat) : VF :=
  { ax := [0, 1], ay := [0, 1], cx := ⟨2, 2, fun _ _ => some v⟩, cy := ⟨2, 2, fun _ _ => some 0⟩, mask := ⟨2, 2, fun _ _ => false⟩,
    ux := Sym.one, uy := Sym.one, uv := Sym.one }

/-- Three fields, the second of which is ten times larger. -/
def demo : TVF := { ax := [0, 1], ay := [0, 1], ux := Sym.one, uy := Sym.one, times := [0, 1, 5], ut := Sym.one, fields := [demoF 1, demoF 10, demoF 1] }

theorem demo_wf (v : Rat) : (demoF v).WF :=
  ⟨by unfold Inc demoF; simp, by unfold Inc demoF; simp, by simp [demoF], by simp [demoF], rfl, rfl, rfl, rfl, rfl, rfl,
    by intro i j _ _ h; simp [demoF] at h, by intro i j _ _ h; simp [demoF] at h⟩

theorem demo_record : Record demo Sym.one := by
  constructor
  all_goals first
    | rfl
    | decide
    | skip
  · intro f hf
    simp only [demo, List.mem_cons, List.not_mem_nil, or_false] at hf
    rcases hf with rfl | rfl | rfl <;> exact demo_wf _
  all_goals simp [demo, demoF, Sym.one]

theorem demo_total (v : Rat) : Total (demoF v) (4 * |(v : ℝ)|) := by
  refine ⟨fun _ => (v, 0), ?_, ?_⟩
  · rintro x y w ⟨i, j, -, -, rfl⟩
    simp [VF.cell, demoF]
  · have e : (demoF v).ax.toFinset ×ˢ (demoF v).ay.toFinset = ({0, 1} : Finset Rat) ×ˢ ({0, 1} : Finset Rat) := rfl
    rw [e, Finset.sum_const]
    simp [Finset.card_product, Real.sqrt_sq_eq_abs]

theorem demo_dev : dev 3 (fun k => if k = 1 then 40 else 4) < 24 ∧ avg 3 (fun k => if k = 1 then 40 else 4) = 16 ∧
    12 < dev 3 (fun k => if k = 1 then 40 else 4) := by
  have h : avg 3 (fun k => if k = 1 then 40 else 4) = 16 := by
    unfold avg
    simp [Finset.sum_range_succ]; norm_num
  have hd : dev 3 (fun k => if k = 1 then 40 else 4) = Real.sqrt 288 := by
    unfold dev
    rw [h]
    congr 1
    simp [Finset.sum_range_succ]; norm_num
  rw [hd]
  refine ⟨?_, h, ?_⟩
  · rw [Real.sqrt_lt' (by norm_num)]; norm_num
  · rw [Real.lt_sqrt (by norm_num)]; norm_num

theorem demo_strange (k : Nat) : Strange demo 1 k ↔ k = 1 := by
  have tot : ∀ (i : Nat) f, demo.fields[i]? = some f → Total f (if i = 1 then 40 else 4) := by
    intro i f hf
    match i, hf with
    | 0, hf => cases hf; have := demo_total 1; simpa using this
    | 1, hf => cases hf; have := demo_total 10; norm_num at this; simpa using this
    | 2, hf => cases hf; have := demo_total 1; simpa using this
    | i + 3, hf => simp [demo] at hf
  obtain ⟨d1, d2, d3⟩ := demo_dev
  constructor
  · rintro ⟨hk, s, hs, h⟩
    by_contra hne
    have e : ∀ i < 3, s i = if i = 1 then 40 else 4 := by
      intro i hi
      have hf : demo.fields[i]? = some (demo.fields[i]'hi) := List.getElem?_eq_getElem hi
      have hw := demo_record.wf _ (List.mem_of_getElem? hf)
      rw [← total_eq hw (hs i _ hf), ← total_eq hw (tot i _ hf)]
    have ea : avg 3 s = 16 := by
      rw [← d2]; unfold avg
      rw [Finset.sum_congr rfl fun i hi => e i (Finset.mem_range.1 hi)]
    have ed : dev 3 s = dev 3 (fun k => if k = 1 then 40 else 4) := by
      unfold dev
      rw [ea, d2]
      congr 2
      apply Finset.sum_congr rfl
      intro i hi
      rw [e i (Finset.mem_range.1 hi)]
    have hk' : k < 3 := hk
    have h' : |s k - avg 3 s| > 1 * dev 3 s := h
    rw [ea, ed, e k hk', if_neg hne] at h'
    norm_num at h'
    linarith
  · rintro rfl
    refine ⟨by decide, _, tot, ?_⟩
    show |(if 1 = 1 then (40 : ℝ) else 4) - avg 3 (fun k => if k = 1 then 40 else 4)| > 1 * dev 3 (fun k => if k = 1 then 40 else 4)
    rw [d2]
    norm_num
    linarith

/-- The large field of the demonstration record is replaced by the mean of its neighbours; its neighbours are kept. -/
example : ∃ r f, removeWeird demo 1 .interpolate = .ok r ∧ r.fields[0]? = some (demoF 1) ∧ r.fields[1]? = some f ∧
    Between f (demoF 1) (demoF 1) := by
  have hreach : Reach demo 1 1 1 := by
    refine ⟨le_refl _, ⟨?_, ?_⟩, fun d h1 h2 => absurd h1 (by omega)⟩ <;> rw [demo_strange] <;> simp
  have huniq : ∀ k e, Strange demo 1 k → Reach demo 1 k e → k = 1 ∧ e = 1 := by
    intro k e hk he
    have := (demo_strange k).1 hk
    subst this
    refine ⟨rfl, ?_⟩
    rw [← (reach_iff demo_record (show 1 < demo.fields.length by decide) e).2 he,
      (reach_iff demo_record (show 1 < demo.fields.length by decide) 1).2 hreach]
  obtain ⟨r, h1, -, -, -, h2, h3⟩ := C239_interpolated_partial (c := 1) demo_record (by
    intro k e hk he
    obtain ⟨rfl, rfl⟩ := huniq k e hk he
    decide)
  obtain ⟨f, a, b, e1, e2, e3, e4⟩ := h3 1 1 ((demo_strange 1).2 rfl) hreach
  have ea : a = demoF 1 := by cases e2; rfl
  have eb : b = demoF 1 := by cases e3; rfl
  subst ea; subst eb
  exact ⟨r, f, h1, h2 0 (by rw [demo_strange]; simp), e1, e4⟩

/-- Removing takes away the large field and its time. -/
example : ∃ r, removeWeird demo 1 .remove = .ok r ∧ r.times = [0, 5] ∧ r.fields = [demoF 1, demoF 1] :=
  C239_remove_one demo_record ((demo_strange 1).2 rfl) fun i hi => (demo_strange i).1 hi

end IMT.Weird
