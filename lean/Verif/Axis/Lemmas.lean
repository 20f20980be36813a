import Verif.Axis.Model

namespace IMT

theorem Inc.get_lt {l : List Rat} (h : Inc l) {i j : Nat} {a b : Rat} (hi : l[i]? = some a)
    (hj : l[j]? = some b) (hij : i < j) : a < b := by
  obtain ⟨hi', rfl⟩ := List.getElem?_eq_some_iff.mp hi
  obtain ⟨hj', rfl⟩ := List.getElem?_eq_some_iff.mp hj
  exact List.pairwise_iff_getElem.mp h i j hi' hj' hij

theorem Inc.get_le {l : List Rat} (h : Inc l) {i j : Nat} {a b : Rat} (hi : l[i]? = some a)
    (hj : l[j]? = some b) (hij : i ≤ j) : a ≤ b := by
  rcases Nat.lt_or_eq_of_le hij with h' | h'
  · exact le_of_lt (h.get_lt hi hj h')
  · subst h'; rw [hi] at hj; exact le_of_eq (Option.some.inj hj)

theorem Inc.idx_lt {l : List Rat} (h : Inc l) {i j : Nat} {a b : Rat} (hi : l[i]? = some a)
    (hj : l[j]? = some b) (hab : a < b) : i < j := by
  by_contra hc
  have := h.get_le hj hi (by omega)
  linarith

theorem Inc.idx_inj {l : List Rat} (h : Inc l) {i j : Nat} {a : Rat} (hi : l[i]? = some a)
    (hj : l[j]? = some a) : i = j := by
  rcases Nat.lt_trichotomy i j with h1 | h1 | h1
  · have := h.get_lt hi hj h1; linarith
  · exact h1
  · have := h.get_lt hj hi h1; linarith

theorem mem_of_getElem? {α : Type} {l : List α} {i : Nat} {a : α} (h : l[i]? = some a) : a ∈ l := by
  exact List.mem_of_getElem? h

theorem head?_eq_get0 {α : Type} (l : List α) : l.head? = l[0]? := by
  cases l <;> simp

theorem getLast?_eq_get {α : Type} (l : List α) : l.getLast? = l[l.length - 1]? := by
  rw [List.getLast?_eq_getElem?]

/-- On an increasing axis, keeping the elements `≥ a` is dropping a prefix. -/
theorem Inc.filter_ge {l : List Rat} (h : Inc l) (a : Rat) :
    l.filter (fun c => decide (a ≤ c)) = l.drop (l.findIdx (fun c => decide (a ≤ c))) := by
  induction l with
  | nil => simp
  | cons x xs ih =>
    have h' := List.pairwise_cons.mp h
    by_cases hx : a ≤ x
    · have : ∀ c ∈ xs, a ≤ c := fun c hc => le_trans hx (le_of_lt (h'.1 c hc))
      have hf : xs.filter (fun c => decide (a ≤ c)) = xs :=
        List.filter_eq_self.mpr (fun c hc => by simpa using this c hc)
      simp [hx, List.findIdx_cons, hf]
    · simp [hx, List.findIdx_cons, ih h'.2]

/-- On an increasing axis, keeping the elements `≤ b` is taking a prefix. -/
theorem Inc.filter_le {l : List Rat} (h : Inc l) (b : Rat) :
    l.filter (fun c => decide (c ≤ b)) = l.take (l.findIdx (fun c => decide (b < c))) := by
  induction l with
  | nil => simp
  | cons x xs ih =>
    have h' := List.pairwise_cons.mp h
    by_cases hx : b < x
    · have : ∀ c ∈ xs, ¬ c ≤ b := fun c hc => not_le.mpr (lt_trans hx (h'.1 c hc))
      have hf : xs.filter (fun c => decide (c ≤ b)) = [] :=
        List.filter_eq_nil_iff.mpr (fun c hc => by simpa using this c hc)
      simp [not_le.mpr hx, hx, List.findIdx_cons, hf]
    · simp [hx, not_lt.mp hx, List.findIdx_cons, ih h'.2]

theorem Inc.filter {l : List Rat} (h : Inc l) (p : Rat → Bool) : Inc (l.filter p) := by
  unfold Inc at *; exact List.Pairwise.filter p h

end IMT

namespace IMT.Axis

theorem searchLeft_lt {l : List Rat} {v : Rat} {i : Nat} {c : Rat} (hi : i < searchLeft l v)
    (hc : l[i]? = some c) : c < v := by
  have := List.not_of_lt_findIdx hi
  obtain ⟨hi', rfl⟩ := List.getElem?_eq_some_iff.mp hc
  simpa using this

theorem searchLeft_ge {l : List Rat} {v c : Rat} (hc : l[searchLeft l v]? = some c) : v ≤ c := by
  obtain ⟨hi', rfl⟩ := List.getElem?_eq_some_iff.mp hc
  have := @List.findIdx_getElem _ (fun a => decide (v ≤ a)) l hi'
  exact of_decide_eq_true this

theorem searchLeft_lt_length {l : List Rat} {v last : Rat} (hl : l.getLast? = some last)
    (hv : v ≤ last) : searchLeft l v < l.length := by
  unfold searchLeft
  rw [List.findIdx_lt_length]
  exact ⟨last, List.mem_of_getLast? hl, by simpa using hv⟩

/-- Everything about a successful look-up. -/
theorem bounds_ok {l : List Rat} {v first last : Rat} (_h : Inc l) (hf : l.head? = some first)
    (hl : l.getLast? = some last) (h1 : first ≤ v) (h2 : v ≤ last) :
    (∃ i, bounds l v = .ok (i, i) ∧ l[i]? = some v ∧ i = searchLeft l v) ∨
    (∃ i lo hi, bounds l v = .ok (i, i + 1) ∧ l[i]? = some lo ∧ l[i + 1]? = some hi ∧
      lo < v ∧ v < hi ∧ i + 1 = searchLeft l v) := by
  have hlen := searchLeft_lt_length hl h2
  obtain ⟨c, hc⟩ : ∃ c, l[searchLeft l v]? = some c := ⟨_, List.getElem?_eq_getElem hlen⟩
  have hge := searchLeft_ge hc
  have hno : ¬ (v < first ∨ v > last) := by
    rintro (h | h) <;> linarith
  unfold bounds
  simp only [hf, hl, hno, if_false, hc]
  by_cases hcv : c = v
  · left; subst hcv
    exact ⟨searchLeft l c, by simp, hc, rfl⟩
  · right
    have hpos : 0 < searchLeft l v := by
      by_contra h0
      have h0 : searchLeft l v = 0 := by omega
      rw [h0, ← head?_eq_get0, hf] at hc
      have := Option.some.inj hc
      apply hcv; linarith
    obtain ⟨lo, hlo⟩ : ∃ lo, l[searchLeft l v - 1]? = some lo :=
      ⟨_, List.getElem?_eq_getElem (by omega)⟩
    refine ⟨searchLeft l v - 1, lo, c, ?_, hlo, ?_, searchLeft_lt (by omega) hlo, ?_, by omega⟩
    · simp [hcv, Nat.sub_add_cancel hpos]
    · rw [Nat.sub_add_cancel hpos]; exact hc
    · exact lt_of_le_of_ne hge (fun h => hcv h.symm)

theorem head_le_last {l : List Rat} (h : Inc l) {first last : Rat} (hf : l.head? = some first)
    (hl : l.getLast? = some last) : first ≤ last := by
  rw [head?_eq_get0] at hf
  rw [getLast?_eq_get] at hl
  exact h.get_le hf hl (Nat.zero_le _)

theorem findIdx_gt_eq {l : List Rat} (_h : Inc l) {b : Rat} {i : Nat}
    (hlt : ∀ k c, k < i → l[k]? = some c → c ≤ b) (hi : i = l.length ∨ ∃ c, l[i]? = some c ∧ b < c) :
    l.findIdx (fun c => decide (b < c)) = i := by
  rcases hi with hi | ⟨c, hc, hbc⟩
  · subst hi
    rw [List.findIdx_eq_length]
    intro x hx
    obtain ⟨k, hk, rfl⟩ := List.mem_iff_getElem.mp hx
    simpa using hlt k _ hk (List.getElem?_eq_getElem hk)
  · obtain ⟨hi', rfl⟩ := List.getElem?_eq_some_iff.mp hc
    rw [List.findIdx_eq hi']
    refine ⟨by simpa using hbc, ?_⟩
    intro k hk
    simpa using hlt k _ hk (List.getElem?_eq_getElem (by omega))

theorem findIdx_ge_eq {l : List Rat} {a : Rat} {i : Nat}
    (hlt : ∀ k c, k < i → l[k]? = some c → c < a) (hi : ∃ c, l[i]? = some c ∧ a ≤ c) :
    l.findIdx (fun c => decide (a ≤ c)) = i := by
  obtain ⟨c, hc, hbc⟩ := hi
  obtain ⟨hi', rfl⟩ := List.getElem?_eq_some_iff.mp hc
  rw [List.findIdx_eq hi']
  refine ⟨by simpa using hbc, ?_⟩
  intro k hk
  simpa using hlt k _ hk (List.getElem?_eq_getElem (by omega))

/-- The window of indices computed by the value crop: first index `≥ a`, one past the last `≤ b`. -/
theorem cropInds_ok {l : List Rat} {a b first last : Rat} (h : Inc l) (hf : l.head? = some first)
    (hl : l.getLast? = some last) (hab : a ≤ b) (h1 : first ≤ b) (h2 : a ≤ last) :
    ∃ lo hi, cropInds l a b = .ok (lo, hi) ∧ lo = l.findIdx (fun c => decide (a ≤ c)) ∧
      hi + 1 = l.findIdx (fun c => decide (b < c)) := by
  have hfl := head_le_last h hf hl
  have hlen : 0 < l.length := by
    cases l with
    | nil => simp at hf
    | cons => simp
  have e1 : ∃ lo, (if a ≤ first then .ok 0 else (bounds l a).map (·.2) : Res Nat) = .ok lo ∧
      lo = l.findIdx (fun c => decide (a ≤ c)) := by
    by_cases ha : a ≤ first
    · refine ⟨0, by simp [ha], (findIdx_ge_eq (by omega) ⟨first, ?_, ha⟩).symm⟩
      rw [← head?_eq_get0]; exact hf
    · rcases bounds_ok h hf hl (le_of_lt (not_le.mp ha)) h2 with ⟨i, e, hi, hs⟩ | ⟨i, lo, hi, e, _, _, _, _, hs⟩
      · exact ⟨i, by simp [ha, e, Except.map], hs⟩
      · exact ⟨i + 1, by simp [ha, e, Except.map], hs⟩
  have e2 : ∃ hi, (if b ≥ last then .ok (l.length - 1) else (bounds l b).map (·.1) : Res Nat) = .ok hi ∧
      hi + 1 = l.findIdx (fun c => decide (b < c)) := by
    by_cases hb : b ≥ last
    · refine ⟨l.length - 1, by simp [hb], ?_⟩
      rw [Nat.sub_add_cancel hlen]
      refine (findIdx_gt_eq h ?_ (Or.inl rfl)).symm
      intro k c hk hc
      rw [getLast?_eq_get] at hl
      exact le_trans (h.get_le hc hl (by omega)) hb
    · rcases bounds_ok h hf hl h1 (le_of_lt (not_le.mp hb)) with ⟨i, e, hi, hs⟩ | ⟨i, lo, hi, e, hlo, hhi, hl1, hl2, hs⟩
      · refine ⟨i, by simp [hb, e, Except.map], (findIdx_gt_eq h ?_ ?_).symm⟩
        · intro k c hk hc
          exact h.get_le hc hi (by omega)
        · by_cases hii : i + 1 = l.length
          · left; exact hii
          · right
            have : i < l.length := (List.getElem?_eq_some_iff.mp hi).1
            have hc : l[i+1]? = some l[i+1] := List.getElem?_eq_getElem (by omega)
            exact ⟨_, hc, h.get_lt hi hc (by omega)⟩
      · refine ⟨i, by simp [hb, e, Except.map], (findIdx_gt_eq h ?_ ?_).symm⟩
        · intro k c hk hc
          exact le_of_lt (lt_of_le_of_lt (h.get_le hc hlo (by omega)) hl1)
        · right; exact ⟨hi, hhi, hl2⟩
  obtain ⟨lo, e1, e1'⟩ := e1
  obtain ⟨hi, e2, e2'⟩ := e2
  refine ⟨lo, hi, ?_, e1', e2'⟩
  unfold cropInds
  have n1 : ¬ a > b := not_lt.mpr hab
  have n2 : ¬ ((a < first ∧ b < first) ∨ (a > last ∧ b > last)) := by
    rintro (h | h) <;> linarith [h.1, h.2]
  simp only [n1, if_false, hf, hl, n2]
  rw [e1, e2]

theorem slice_filter {l : List Rat} (h : Inc l) (a b : Rat) :
    slice l (l.findIdx (fun c => decide (a ≤ c))) (l.findIdx (fun c => decide (b < c)))
      = l.filter (fun c => decide (a ≤ c ∧ c ≤ b)) := by
  unfold slice
  have h1 := h.filter_le b
  have h2 := (h.filter (fun c => decide (c ≤ b))).filter_ge a
  rw [List.filter_filter] at h2
  have e : l.filter (fun c => decide (a ≤ c ∧ c ≤ b)) = l.filter (fun c => decide (a ≤ c) && decide (c ≤ b)) := by
    congr 1; funext c; simp
  rw [e, h2, h1]
  by_cases hk : l.findIdx (fun c => decide (a ≤ c)) ≤ l.findIdx (fun c => decide (b < c))
  · rcases Nat.lt_or_eq_of_le hk with hk' | hk'
    · congr 1
      symm
      set i := l.findIdx (fun c => decide (a ≤ c))
      have hlen : i < l.length := lt_of_lt_of_le hk' List.findIdx_le_length
      refine findIdx_ge_eq ?_ ⟨l[i], ?_, ?_⟩
      · intro k c hk2 hc
        rw [List.getElem?_take] at hc
        split at hc
        · obtain ⟨hi', rfl⟩ := List.getElem?_eq_some_iff.mp hc
          simpa using List.not_of_lt_findIdx hk2
        · cases hc
      · rw [List.getElem?_take, if_pos hk', List.getElem?_eq_getElem hlen]
      · have := @List.findIdx_getElem _ (fun c => decide (a ≤ c)) l hlen
        simpa using this
    · rw [hk']
      have e3 : (l.take (l.findIdx (fun c => decide (b < c)))).findIdx (fun c => decide (a ≤ c))
          = (l.take (l.findIdx (fun c => decide (b < c)))).length := by
        rw [List.findIdx_eq_length]
        intro x hx
        obtain ⟨k, hk2, rfl⟩ := List.mem_iff_getElem.mp hx
        rw [List.length_take] at hk2
        rw [List.getElem_take]
        have := @List.not_of_lt_findIdx _ (fun c => decide (a ≤ c)) l k (by omega)
        simpa using this
      rw [e3, List.drop_length, List.drop_eq_nil_iff]
      simp
  · rw [List.drop_eq_nil_of_le (by rw [List.length_take]; omega)]
    symm
    rw [List.drop_eq_nil_iff, List.length_take]
    have e3 : (l.take (l.findIdx (fun c => decide (b < c)))).findIdx (fun c => decide (a ≤ c))
        = (l.take (l.findIdx (fun c => decide (b < c)))).length := by
      rw [List.findIdx_eq_length]
      intro x hx
      obtain ⟨k, hk2, rfl⟩ := List.mem_iff_getElem.mp hx
      rw [List.length_take] at hk2
      rw [List.getElem_take]
      have := @List.not_of_lt_findIdx _ (fun c => decide (a ≤ c)) l k (by omega)
      simpa using this
    rw [e3, List.length_take]

end IMT.Axis
