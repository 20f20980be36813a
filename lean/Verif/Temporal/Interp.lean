import Verif.Temporal.Mean

/-! Properties C43 and C45: interpolation and finer resolution in time. -/

namespace IMT.Temporal

/-- The field attached to a time. -/
def At (t : TF) (x : Rat) (f : SF) : Prop := ∃ i : Nat, t.times[i]? = some x ∧ t.fields[i]? = some f

/-- What linear interpolation in time shows between two readings: masked as soon as one of them is. -/
def between (t0 t1 time : Rat) : Option Rat → Option Rat → Option Rat
  | some a, some b => some (a + (time - t0) / (t1 - t0) * (b - a))
  | _, _ => none

/-- What a field shows at a cell, in SI base units. -/
def phys (f : SF) (i j : Nat) : Option Rat := (f.cell i j).map (· * f.uv.size)

theorem head_le {l : List Rat} (h : l.Pairwise (· ≤ ·)) {a x : Rat} (ha : l.head? = some a) (hx : x ∈ l) : a ≤ x := by
  cases l with
  | nil => simp at hx
  | cons b l =>
    obtain rfl : b = a := by simpa using ha
    rcases List.mem_cons.mp hx with rfl | hx
    · exact le_refl _
    · exact (List.pairwise_cons.mp h).1 x hx

theorem le_last {l : List Rat} (h : l.Pairwise (· ≤ ·)) {b x : Rat} (hb : l.getLast? = some b) (hx : x ∈ l) : x ≤ b := by
  obtain ⟨l', rfl⟩ := List.getLast?_eq_some_iff.mp hb
  rw [List.pairwise_append] at h
  rcases List.mem_append.mp hx with hx | hx
  · exact h.2.2 x hx b (by simp)
  · rw [List.mem_singleton.mp hx]

theorem ends {l : List Rat} (h : l ≠ []) : ∃ a b, l.head? = some a ∧ l.getLast? = some b := by
  cases l with
  | nil => exact absurd rfl h
  | cons a l => exact ⟨a, _, rfl, List.getLast?_eq_some_getLast (by simp)⟩

/-! ### C43 -/

/-- C43: at a stored time, a field stored with this time. -/
theorem C43_stored {t : TF} (hp : Paired t) (hs : Sorted t) (hnd : t.nd = true) {x : Rat} (h : x ∈ t.times) :
    ∃ f, interpField t x = .ok f ∧ At t x f := by
  obtain ⟨a, b, ha, hb⟩ := ends (List.ne_nil_of_mem h)
  have h1 := head_le hs ha h
  have h2 := le_last hs hb h
  have hlt : (t.times.findIdx fun y => decide (y = x)) < t.times.length := List.findIdx_lt_length.mpr ⟨x, h, by simp⟩
  have hf : (t.times.findIdx fun y => decide (y = x)) < t.fields.length := by rw [← hp]; exact hlt
  have hx : t.times[t.times.findIdx fun y => decide (y = x)]? = some x := by
    rw [List.getElem?_eq_getElem hlt]
    have := List.findIdx_getElem (w := hlt)
    exact congrArg some (of_decide_eq_true this)
  refine ⟨_, ?_, _, hx, List.getElem?_eq_getElem hf⟩
  unfold interpField
  rw [ha, hb]
  simp only
  rw [if_neg (by rintro (c | c) <;> linarith), if_pos h, if_pos hnd, List.getElem?_eq_getElem hf]

/-- C43: at a stored time, the stored field, when all times differ. -/
theorem C43_stored_unique {t : TF} (hp : Paired t) (hi : Inc t.times) (hnd : t.nd = true) {x : Rat} {f : SF} (h : At t x f) :
    interpField t x = .ok f := by
  obtain ⟨i, h1, h2⟩ := h
  obtain ⟨g, e, j, h3, h4⟩ := C43_stored hp (hi.imp fun h => le_of_lt h) hnd (List.mem_of_getElem? h1)
  obtain rfl := hi.idx_inj' h1 h3
  rw [h2] at h4
  cases h4
  exact e

theorem mulNum_cell {f : SF} (q : Rat) (i j : Nat) : (f.mulNum q).cell i j = (f.cell i j).map (· * q) := by
  unfold SF.mulNum SF.setMask SF.setValues SF.values Grid.map SF.cell
  simp only
  split <;> rfl

theorem mulNum_WF {f : SF} (hf : f.WF) (q : Rat) : (f.mulNum q).WF := by
  refine ⟨hf.incx, hf.incy, hf.nex, hf.ney, hf.vx, hf.vy, hf.mx, hf.my, ?_⟩
  intro i j hi hj h
  have h : (f.cell i j).map (· * q) = none := h
  have := SF.Reads.cellMask hf hi hj
  show f.mask.get i j = true
  rw [this]
  cases hc : f.cell i j with
  | none => rfl
  | some v => rw [hc] at h; cases h

/-- The blend of two fields on one grid. -/
theorem blend_spec {f0 f1 : SF} (h0 : f0.WF) (h1 : f1.WF) (hx : f0.ax = f1.ax) (hy : f0.ay = f1.ay) (hux : f0.ux = f1.ux)
    (huy : f0.uy = f1.uy) (hv : f1.uv.Compat f0.uv) (hpos : f1.uv.size ≠ 0) {t0 t1 time : Rat} (ht : t0 < t1) :
    ∃ m, blend t0 t1 f0 f1 time = .ok m ∧ m.WF ∧ m.ax = f0.ax ∧ m.ay = f0.ay ∧ m.ux = f0.ux ∧ m.uy = f0.uy ∧ m.uv = f1.uv ∧
      ∀ i j, i < f0.ax.length → j < f0.ay.length → phys m i j = between t0 t1 time (phys f0 i j) (phys f1 i j) := by
  have w1 := mulNum_WF h1 ((time - t0) / (t1 - t0))
  have w0 := mulNum_WF h0 ((t1 - time) / (t1 - t0))
  obtain ⟨e, w⟩ := add_same_ok (f := f1.mulNum ((time - t0) / (t1 - t0))) (g := f0.mulNum ((t1 - time) / (t1 - t0))) w1 w0
    hx.symm hy.symm hv hux.symm huy.symm
  refine ⟨_, e, w, hx.symm, hy.symm, hux.symm, huy.symm, rfl, ?_⟩
  intro i j hi hj
  have hc := addSame_cell (f := f1.mulNum ((time - t0) / (t1 - t0))) (g := f0.mulNum ((t1 - time) / (t1 - t0))) w1 w0
    hx.symm hy.symm (i := i) (j := j) (by show i < f1.ax.length; rw [← hx]; exact hi) (by show j < f1.ay.length; rw [← hy]; exact hj)
  unfold phys
  rw [hc, mulNum_cell, mulNum_cell]
  show Option.map (· * f1.uv.size) (nanOp (· + ·) _ (Option.map (· * (f0.uv.size / f1.uv.size)) _)) = _
  have hd : t1 - t0 ≠ 0 := by intro c; linarith
  cases f0.cell i j with
  | none => cases f1.cell i j <;> rfl
  | some a =>
    cases f1.cell i j with
    | none => rfl
    | some b =>
      simp only [Option.map_some, nanOp, between, Option.some.injEq]
      field_simp
      ring

/-- C43: strictly between two consecutive stored times, the linear interpolation of the two fields, cell by cell. -/
theorem C43_between {t : TF} (ht : Consistent t) (hs : Sorted t) (hu : ∀ f ∈ t.fields, ∀ g ∈ t.fields, f.uv.Compat g.uv)
    (hpos : ∀ f ∈ t.fields, f.uv.size ≠ 0) {k : Nat} {t0 t1 time : Rat} {f0 f1 : SF} (h0 : t.times[k]? = some t0)
    (h1 : t.times[k + 1]? = some t1) (g0 : t.fields[k]? = some f0) (g1 : t.fields[k + 1]? = some f1) (hlt0 : t0 < time)
    (hlt1 : time < t1) :
    ∃ m, interpField t time = .ok m ∧ m.WF ∧ m.ax = t.ax ∧ m.ay = t.ay ∧ m.ux = t.ux ∧ m.uy = t.uy ∧ m.uv = f1.uv ∧
      ∀ i j, i < t.ax.length → j < t.ay.length → phys m i j = between t0 t1 time (phys f0 i j) (phys f1 i j) := by
  have hk1 := getElem?_some_lt h1
  have hk0 := getElem?_some_lt h0
  have e0 : t.times[k] = t0 := by rw [List.getElem?_eq_getElem hk0] at h0; exact Option.some.inj h0
  have e1 : t.times[k + 1] = t1 := by rw [List.getElem?_eq_getElem hk1] at h1; exact Option.some.inj h1
  have m0 : t0 ∈ t.times := List.mem_of_getElem? h0
  have m1 : t1 ∈ t.times := List.mem_of_getElem? h1
  have mf0 : f0 ∈ t.fields := List.mem_of_getElem? g0
  have mf1 : f1 ∈ t.fields := List.mem_of_getElem? g1
  obtain ⟨a, b, ha, hb⟩ := ends (List.ne_nil_of_mem m0)
  have h1' := head_le hs ha m0
  have h2' := le_last hs hb m1
  have hmono : ∀ (i j : Nat) (hi : i < t.times.length) (hj : j < t.times.length), i ≤ j → t.times[i] ≤ t.times[j] := by
    intro i j hi hj hij
    rcases Nat.lt_or_eq_of_le hij with h | h
    · exact List.pairwise_iff_getElem.mp hs i j hi hj h
    · subst h; exact le_refl _
  have hidx : (t.times.findIdx fun x => decide (x > time)) = k + 1 := by
    rw [List.findIdx_eq hk1]
    refine ⟨by simp only [gt_iff_lt, decide_eq_true_eq]; rw [e1]; exact hlt1, ?_⟩
    intro j hj
    simp only [gt_iff_lt, decide_eq_false_iff_not, not_lt]
    exact le_trans (hmono j k (by omega) hk0 (by omega)) (by rw [e0]; exact hlt0.le)
  have hnot : time ∉ t.times := by
    intro hm
    obtain ⟨i, hi, e⟩ := List.getElem_of_mem hm
    rcases Nat.lt_or_ge k i with h | h
    · have := hmono (k + 1) i hk1 hi h
      rw [e1, e] at this
      linarith
    · have := hmono i k hi hk0 h
      rw [e0, e] at this
      linarith
  obtain ⟨m, e, w, ax, ay, ux, uy, uv, hc⟩ := blend_spec (time := time) (ht.wf f0 mf0) (ht.wf f1 mf1)
    ((ht.ax f0 mf0).trans (ht.ax f1 mf1).symm) ((ht.ay f0 mf0).trans (ht.ay f1 mf1).symm)
    ((ht.ux f0 mf0).trans (ht.ux f1 mf1).symm) ((ht.uy f0 mf0).trans (ht.uy f1 mf1).symm) (hu f1 mf1 f0 mf0)
    (hpos f1 mf1) (lt_trans hlt0 hlt1)
  refine ⟨m, ?_, w, ax.trans (ht.ax f0 mf0), ay.trans (ht.ay f0 mf0), ux.trans (ht.ux f0 mf0), uy.trans (ht.uy f0 mf0), uv, ?_⟩
  · unfold interpField
    rw [ha, hb]
    simp only
    rw [if_neg (by rintro (c | c) <;> linarith), if_neg hnot, hidx, Nat.add_sub_cancel, h0, h1, g0, g1]
    exact e
  · intro i j hi hj
    exact hc i j (by rw [ht.ax f0 mf0]; exact hi) (by rw [ht.ay f0 mf0]; exact hj)

/-- C43: hence the interpolated value lies between the two neighbouring values. -/
theorem C43_convex {t0 t1 time a b : Rat} (h0 : t0 < time) (h1 : time < t1) :
    ∃ v, between t0 t1 time (some a) (some b) = some v ∧ min a b ≤ v ∧ v ≤ max a b := by
  have hd : 0 < t1 - t0 := by linarith
  have hw : 0 < (time - t0) / (t1 - t0) := div_pos (by linarith) hd
  have hw1 : (time - t0) / (t1 - t0) < 1 := by rw [div_lt_one hd]; linarith
  refine ⟨_, rfl, ?_, ?_⟩
  · rcases le_total a b with h | h
    · rw [min_eq_left h]; nlinarith
    · rw [min_eq_right h]; nlinarith
  · rcases le_total a b with h | h
    · rw [max_eq_right h]; nlinarith
    · rw [max_eq_left h]; nlinarith

/-- C43: a time out of range is refused. -/
theorem C43_out {t : TF} {a b time : Rat} (ha : t.times.head? = some a) (hb : t.times.getLast? = some b)
    (h : time < a ∨ b < time) : interpField t time = .error .exception := by
  unfold interpField
  rw [ha, hb]
  simp only
  rw [if_pos h]

example : Consistent rec3 ∧ Sorted rec3 ∧ rec3.nd = true ∧
    ((interpField rec3 3).toOption.map fun m => [m.cell 1 0, m.cell 1 1, m.cell 2 1]) = some [some 0, none, some 0] ∧
    ((interpField rec3 (5 / 4)).toOption.map fun m => [m.cell 1 0, m.cell 1 1, m.cell 2 1]) = some [some 5, none, some (21 / 2)] :=
  ⟨rec3_consistent, by unfold Sorted; decide +kernel, rfl, by decide +kernel, by decide +kernel⟩

/-! ### C45 -/

theorem linspaceCut_mem {a b : Rat} (h : a < b) {n : Nat} (hn : 0 < n) {x : Rat} (hx : x ∈ linspaceCut a b n) : a ≤ x ∧ x < b := by
  obtain ⟨k, hk, rfl⟩ := List.mem_map.mp hx
  have hk := List.mem_range.mp hk
  have hn' : (0 : Rat) < n := by exact_mod_cast hn
  have hkn : (k : Rat) < n := by exact_mod_cast hk
  have hk0 : (0 : Rat) ≤ k := by exact_mod_cast Nat.zero_le k
  have hd : 0 < (b - a) / n := div_pos (by linarith) hn'
  constructor
  · nlinarith
  · have : (b - a) / n * n = b - a := by field_simp
    nlinarith

theorem linspaceCut_inc {a b : Rat} (h : a < b) {n : Nat} (hn : 0 < n) : Inc (linspaceCut a b n) := by
  unfold linspaceCut Inc
  rw [List.pairwise_map]
  refine List.pairwise_lt_range.imp ?_
  intro i j hij
  have hn' : (0 : Rat) < n := by exact_mod_cast hn
  have hij' : (i : Rat) < j := by exact_mod_cast hij
  have hd : 0 < (b - a) / n := div_pos (by linarith) hn'
  nlinarith

theorem linspaceCut_first {a b : Rat} {n : Nat} (hn : 0 < n) : a ∈ linspaceCut a b n := by
  unfold linspaceCut
  exact List.mem_map.mpr ⟨0, List.mem_range.mpr hn, by simp⟩

theorem finer_length (n : Nat) (l : List Rat) : (finerTimes n l).length = (l.length - 1) * n := by
  induction l with
  | nil => simp [finerTimes]
  | cons a l ih =>
    cases l with
    | nil => simp [finerTimes]
    | cons b l =>
      simp only [finerTimes, List.length_append, ih, linspaceCut, List.length_map, List.length_range, List.length_cons,
        Nat.add_sub_cancel]
      ring

/-- The new times: increasing, with every old time, and only times of the old interval. -/
theorem finer_spec {n : Nat} (hn : 0 < n) {l : List Rat} (hl : Inc l) {last : Rat} (hlast : l.getLast? = some last) :
    Inc (finerTimes n l ++ [last]) ∧ (∀ x ∈ l, x ∈ finerTimes n l ++ [last]) ∧
      (∀ a, l.head? = some a → ∀ x ∈ finerTimes n l ++ [last], a ≤ x ∧ x ≤ last) := by
  induction l with
  | nil => simp at hlast
  | cons a l ih =>
    cases l with
    | nil =>
      obtain rfl : a = last := by simpa using hlast
      simp [finerTimes, Inc]
    | cons b l =>
      have hab : a < b := (List.pairwise_cons.mp hl).1 b (by simp)
      obtain ⟨i1, i2, i3⟩ := ih (List.pairwise_cons.mp hl).2 (by simpa using hlast)
      have hb := i3 b rfl
      have hbl : b ≤ last := (hb _ (i2 b (by simp))).2
      refine ⟨?_, ?_, ?_⟩
      · show Inc (linspaceCut a b n ++ finerTimes n (b :: l) ++ [last])
        rw [List.append_assoc]
        unfold Inc
        rw [List.pairwise_append]
        refine ⟨linspaceCut_inc hab hn, i1, ?_⟩
        intro x hx y hy
        exact lt_of_lt_of_le (linspaceCut_mem hab hn hx).2 (hb y hy).1
      · intro x hx
        show x ∈ linspaceCut a b n ++ finerTimes n (b :: l) ++ [last]
        rw [List.append_assoc]
        rcases List.mem_cons.mp hx with rfl | hx
        · exact List.mem_append_left _ (linspaceCut_first hn)
        · exact List.mem_append_right _ (i2 x hx)
      · intro c hc x hx
        obtain rfl : a = c := by simpa using hc
        have hx : x ∈ linspaceCut a b n ++ finerTimes n (b :: l) ++ [last] := hx
        rw [List.append_assoc] at hx
        rcases List.mem_append.mp hx with hx | hx
        · have := linspaceCut_mem hab hn hx
          exact ⟨this.1, by linarith⟩
        · have := hb x hx
          exact ⟨by linarith, this.2⟩

/-- Every time of the range is a stored time, or strictly between two consecutive ones. -/
theorem locate {l : List Rat} (hl : Inc l) {a last x : Rat} (ha : l.head? = some a) (hlast : l.getLast? = some last) (h1 : a ≤ x)
    (h2 : x ≤ last) : x ∈ l ∨ ∃ (k : Nat) (t0 t1 : Rat), l[k]? = some t0 ∧ l[k + 1]? = some t1 ∧ t0 < x ∧ x < t1 := by
  induction l generalizing a with
  | nil => simp at ha
  | cons c l ih =>
    obtain rfl : c = a := by simpa using ha
    cases l with
    | nil =>
      obtain rfl : c = last := by simpa using hlast
      exact Or.inl (by simp [le_antisymm h2 h1])
    | cons b l =>
      rcases lt_trichotomy x b with h | h | h
      · rcases eq_or_lt_of_le h1 with e | e
        · exact Or.inl (by simp [e])
        · exact Or.inr ⟨0, c, b, rfl, rfl, e, h⟩
      · exact Or.inl (by simp [h])
      · rcases ih (List.pairwise_cons.mp hl).2 rfl (by simpa using hlast) h.le with m | ⟨k, t0, t1, e0, e1, h⟩
        · exact Or.inl (by simp [m])
        · exact Or.inr ⟨k + 1, t0, t1, by simpa using e0, by simpa using e1, h⟩

/-- Inside the range the interpolation succeeds. -/
theorem interp_ok {t : TF} (ht : Consistent t) (hi : Inc t.times) (hnd : t.nd = true)
    (hu : ∀ f ∈ t.fields, ∀ g ∈ t.fields, f.uv.Compat g.uv) (hpos : ∀ f ∈ t.fields, f.uv.size ≠ 0) {a last x : Rat}
    (ha : t.times.head? = some a) (hlast : t.times.getLast? = some last) (h1 : a ≤ x) (h2 : x ≤ last) :
    ∃ m, interpField t x = .ok m := by
  have hs : Sorted t := hi.imp fun h => le_of_lt h
  rcases locate hi ha hlast h1 h2 with m | ⟨k, t0, t1, e0, e1, l0, l1⟩
  · obtain ⟨f, e, _⟩ := C43_stored ht.paired hs hnd m
    exact ⟨f, e⟩
  · have k0 := getElem?_some_lt e0
    have k1 := getElem?_some_lt e1
    rw [ht.paired] at k0 k1
    obtain ⟨m, e, _⟩ := C43_between ht hs hu hpos e0 e1 (List.getElem?_eq_getElem k0) (List.getElem?_eq_getElem k1) l0 l1
    exact ⟨m, e⟩

/-- C45, for a container that was not itself obtained by this function: `(n - 1) * fact + 1` strictly increasing times between
the first and the last, among which every original time, at which the original field is found; at every other time the
field is the interpolated one. -/
theorem C45_augment_partial {t : TF} (ht : Consistent t) (hi : Inc t.times) (hnd : t.nd = true) (hne : t.times ≠ [])
    (hu : ∀ f ∈ t.fields, ∀ g ∈ t.fields, f.uv.Compat g.uv) (hpos : ∀ f ∈ t.fields, f.uv.size ≠ 0) {fact : Nat} (hf : 1 ≤ fact) :
    ∃ t', augment t fact = .ok t' ∧ t'.times.length = (t.times.length - 1) * fact + 1 ∧ Inc t'.times ∧ Paired t' ∧
      t'.ut = t.ut ∧ (∀ x f, At t x f → At t' x f) ∧ (∀ x f, At t' x f → interpField t x = .ok f) := by
  by_cases h1 : fact = 1
  · subst h1
    refine ⟨t, rfl, ?_, hi, ht.paired, rfl, fun x f h => h, fun x f h => C43_stored_unique ht.paired hi hnd h⟩
    have : 0 < t.times.length := List.length_pos_iff.mpr hne
    omega
  · obtain ⟨a, last, ha, hlast⟩ := ends hne
    obtain ⟨s1, s2, s3⟩ := finer_spec (show 0 < fact by omega) hi hlast
    have hok : ∀ x ∈ finerTimes fact t.times ++ [last], ∃ m, interpField t x = .ok m := fun x hx =>
      interp_ok ht hi hnd hu hpos ha hlast (s3 a ha x hx).1 (s3 a ha x hx).2
    obtain ⟨fs, e⟩ := mapRes_exists hok
    have hmap := mapRes_get e
    refine ⟨{ t with fields := fs, times := finerTimes fact t.times ++ [last], nd := false }, ?_, ?_, s1, ?_, rfl, ?_, ?_⟩
    · unfold augment
      rw [if_neg (by omega), if_neg (by omega), hlast]
      simp only
      rw [Int.toNat_natCast, e]
    · simp only [List.length_append, List.length_singleton, finer_length]
    · exact (hmap.1).symm
    · intro x f h
      have hx : x ∈ t.times := by obtain ⟨i, h, _⟩ := h; exact List.mem_of_getElem? h
      obtain ⟨k, hk⟩ := List.getElem?_of_mem (s2 x hx)
      have hk' := getElem?_some_lt hk
      rw [← hmap.1] at hk'
      refine ⟨k, hk, ?_⟩
      have := hmap.2 k x fs[k] hk (List.getElem?_eq_getElem hk')
      rw [C43_stored_unique ht.paired hi hnd h] at this
      cases this
      exact List.getElem?_eq_getElem hk'
    · rintro x f ⟨k, hk, hfk⟩
      exact hmap.2 k x f hk hfk

example : Inc rec3.times ∧ (augment rec3 2).toOption.map (fun t => t.times) = some [1, 3 / 2, 2, 3, 4] := by
  constructor
  · show Inc [1, 2, 4]; decide +kernel
  · decide +kernel

/-- C45 fails on its own results: a container obtained by `augment_temporal_resolution(fact)`, `fact ≥ 2`, cannot be augmented
again, for its fields became a python list: TypeError. -/
theorem C45_again_violated {t t' : TF} {fact fact' : Nat} (h2 : 2 ≤ fact) (h2' : 2 ≤ fact') (h : augment t fact = .ok t')
    (hi : Inc t.times) : augment t' fact' = .error .typeError := by
  unfold augment at h
  rw [if_neg (by omega), if_neg (by omega)] at h
  cases hlast : t.times.getLast? with
  | none => rw [hlast] at h; cases h
  | some last =>
    rw [hlast] at h
    simp only [Int.toNat_natCast] at h
    cases hm : mapRes (interpField t) (finerTimes fact t.times ++ [last]) with
    | error e => rw [hm] at h; cases h
    | ok fs =>
      rw [hm] at h
      cases h
      obtain ⟨s1, _, _⟩ := finer_spec (show 0 < fact by omega) hi hlast
      obtain ⟨a, b, ha, hb⟩ := ends (l := finerTimes fact t.times ++ [last]) (by simp)
      obtain ⟨s1', s2', s3'⟩ := finer_spec (n := fact') (by omega) s1 hb
      unfold augment
      rw [if_neg (by omega), if_neg (by omega)]
      simp only [Int.toNat_natCast]
      rw [hb]
      simp only
      have hhead : ∃ l, finerTimes fact' (finerTimes fact t.times ++ [last]) ++ [b] = a :: l := by
        cases hl : finerTimes fact t.times ++ [last] with
        | nil => simp at hl
        | cons c l =>
          rw [hl] at ha hb
          obtain rfl : c = a := by simpa using ha
          cases l with
          | nil =>
            obtain rfl : c = b := by simpa using hb
            exact ⟨[], rfl⟩
          | cons d l =>
            obtain ⟨n, rfl⟩ : ∃ n, fact' = n + 1 := ⟨fact' - 1, by omega⟩
            simp only [finerTimes, linspaceCut, List.range_succ_eq_map, List.map_cons, Nat.cast_zero, zero_mul, add_zero,
              List.cons_append]
            exact ⟨_, rfl⟩
      obtain ⟨l, hl⟩ := hhead
      rw [hl]
      have hmem : a ∈ finerTimes fact t.times ++ [last] := List.mem_of_mem_head? ha
      have hs : (finerTimes fact t.times ++ [last]).Pairwise (· ≤ ·) := s1.imp fun h => le_of_lt h
      have herr : interpField { t with fields := fs, times := finerTimes fact t.times ++ [last], nd := false } a = .error .typeError := by
        unfold interpField
        simp only
        rw [ha, hb]
        simp only
        rw [if_neg (by rintro (c | c); exacts [lt_irrefl _ c, absurd (le_last hs hb hmem) (not_le.mpr c)]), if_pos hmem]
        rfl
      unfold mapRes
      rw [herr]

example : (augment rec3 2).toOption.isSome = true ∧ ((augment rec3 2).toOption.map fun t => (augment t 3).toOption.isNone) = some true := by
  decide +kernel

end IMT.Temporal
