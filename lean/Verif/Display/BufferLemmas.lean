import Verif.Display.BufferModel
import Mathlib.Data.List.Dedup
import Mathlib.Data.List.Perm.Basic
import Mathlib.Data.List.Nodup
import Mathlib.Tactic.Linarith

/-!
Lemmas on the drawings kept by a displayer.
-/

namespace IMT.Browse

/-- The `m` frames drawn last, most recent first, each once. -/
def recent (m : Nat) (js : List Nat) : List Nat := js.dedup.reverse.take m

theorem dedup_snoc (js : List Nat) (i : Nat) :
    (js ++ [i]).dedup = js.dedup.filter (· ≠ i) ++ [i] := by
  induction js with
  | nil => simp
  | cons a js ih =>
    rw [List.cons_append]
    by_cases ha : a ∈ js ++ [i]
    · rw [List.dedup_cons_of_mem ha, ih]
      rcases List.mem_append.mp ha with h | h
      · rw [List.dedup_cons_of_mem h]
      · have : a = i := by simpa using h
        subst this
        by_cases h : a ∈ js
        · rw [List.dedup_cons_of_mem h]
        · rw [List.dedup_cons_of_notMem h, List.filter_cons]
          simp
    · rw [List.dedup_cons_of_notMem ha, ih]
      have h1 : a ∉ js := fun h => ha (List.mem_append.mpr (.inl h))
      have h2 : a ≠ i := fun h => ha (List.mem_append.mpr (.inr (by simp [h])))
      rw [List.dedup_cons_of_notMem h1, List.filter_cons]
      simp [h2]

theorem length_filter_ne {l : List Nat} (h : l.Nodup) (i : Nat) :
    l.length ≤ (l.filter (· ≠ i)).length + 1 := by
  induction l with
  | nil => simp
  | cons a l ih =>
    rw [List.nodup_cons] at h
    rw [List.filter_cons]
    by_cases ha : a = i
    · subst ha
      have : l.filter (· ≠ a) = l := by
        rw [List.filter_eq_self]
        intro b hb
        simp only [ne_eq, decide_not, Bool.not_eq_true', decide_eq_false_iff_not]
        rintro rfl
        exact h.1 hb
      simp only [ne_eq, not_true, decide_false, Bool.false_eq_true, if_false]
      rw [this]
      simp
    · have := ih h.2
      simp only [ne_eq] at this
      simp only [ne_eq, ha, not_false_iff, decide_true, if_true, List.length_cons]
      omega

theorem recent_snoc (m : Nat) (js : List Nat) (i : Nat) :
    recent m (js ++ [i]) = (i :: (recent m js).filter (· ≠ i)).take m := by
  unfold recent
  rw [dedup_snoc, List.reverse_append, ← List.filter_reverse]
  simp only [List.reverse_cons, List.reverse_nil, List.nil_append, List.cons_append]
  cases m with
  | zero => simp
  | succ m =>
    rw [List.take_succ_cons, List.take_succ_cons]
    congr 1
    have hn : (js.dedup.reverse).Nodup := List.nodup_reverse.mpr (List.nodup_dedup js)
    generalize js.dedup.reverse = L at hn
    by_cases hl : L.length ≤ m + 1
    · rw [List.take_of_length_le hl]
    · conv_lhs => rw [← List.take_append_drop (m + 1) L, List.filter_append]
      rw [List.take_append_of_le_length]
      have h1 := length_filter_ne (hn.sublist (List.take_sublist (m + 1) L)) i
      rw [List.length_take] at h1
      omega

theorem recent_nodup (m : Nat) (js : List Nat) : (recent m js).Nodup :=
  (List.nodup_reverse.mpr (List.nodup_dedup js)).sublist (List.take_sublist _ _)

theorem mem_recent {m : Nat} {js : List Nat} {j : Nat} (h : j ∈ recent m js) : j ∈ js :=
  List.mem_dedup.mp (List.mem_reverse.mp (List.mem_of_mem_take h))

theorem length_recent (m : Nat) (js : List Nat) : (recent m js).length ≤ m := by
  unfold recent
  rw [List.length_take]
  omega

/-- What holds of a displayer of `n` frames and buffer `m` after drawing the
frames `js`. -/
structure Inv (n m : Nat) (blank : Nat → Bool) (d : Disp) (js : List Nat) : Prop where
  length : d.length = n
  buf : d.buf = some m
  blank_eq : d.blank = blank
  lt : ∀ j ∈ js, j < n
  saved_iff : ∀ j, d.saved j ≠ 0 ↔ j ∈ recent m js
  order : (recent m js).Pairwise (fun a b => d.saved b < d.saved a)
  stamps : ∀ j, d.saved j < d.stamp
  frame : ∀ j a, d.draws j = some a → a.frame = j
  draws_iff : ∀ j, d.draws j ≠ none ↔ j ∈ recent m js ∧ blank j = false
  cur : d.cur = js.getLast?
  visible : d.visible = match js.getLast? with | none => [] | some j => (d.draws j).toList

theorem inv_init (n m : Nat) (blank : Nat → Bool) : Inv n m blank (Disp.init n (some m) blank) [] where
  length := rfl
  buf := rfl
  blank_eq := rfl
  lt := by simp
  saved_iff := by simp [Disp.init, recent]
  order := by simp [recent]
  stamps := by simp [Disp.init]
  frame := by simp [Disp.init]
  draws_iff := by simp [Disp.init, recent]
  cur := rfl
  visible := rfl

/-- Dropping the lowest stamp keeps the `m` most recent frames. -/
theorem evict_spec (d : Disp) (m : Nat) (R : List Nat) (hR : R.Nodup)
    (hlt : ∀ j ∈ R, j < d.length) (hm : ∀ j, d.saved j ≠ 0 ↔ j ∈ R)
    (ho : R.Pairwise (fun a b => d.saved b < d.saved a)) (hlen : R.length ≤ m + 1) :
    ∃ D S, evict d m = { d with draws := D, saved := S } ∧
      (∀ j, j ∈ R.take m → D j = d.draws j ∧ S j = d.saved j) ∧
      (∀ j, j ∉ R.take m → (S j = 0 ∧ (j ∈ R → D j = none) ∧ (j ∉ R → D j = d.draws j))) := by
  have hperm : (live d).Perm R := by
    unfold live
    rw [List.perm_ext_iff_of_nodup (List.Nodup.filter _ List.nodup_range) hR]
    intro j
    simp only [List.mem_filter, List.mem_range, ne_eq, decide_not, Bool.not_eq_true',
      decide_eq_false_iff_not]
    rw [← hm j]
    constructor
    · exact fun h => h.2
    · exact fun h => ⟨hlt j ((hm j).mp h), h⟩
  unfold evict
  rw [hperm.length_eq]
  by_cases hc : R.length > m
  · rw [if_pos hc]
    have hRl : R.length = m + 1 := by omega
    obtain ⟨x, hx⟩ : ∃ x, R[m]? = some x := by
      rw [List.getElem?_eq_getElem (by omega)]; exact ⟨_, rfl⟩
    have hsplit : R = R.take m ++ [x] := by
      conv_lhs => rw [← List.take_append_drop m R]
      congr 1
      rw [List.drop_eq_getElem_cons (by omega), List.drop_of_length_le (by omega)]
      rw [List.getElem?_eq_getElem (by omega), Option.some.injEq] at hx
      rw [hx]
    have hxR : x ∈ R := List.mem_of_getElem? hx
    have hlo : ∀ j ∈ R.take m, d.saved x < d.saved j := by
      intro j hj
      rw [hsplit] at ho
      exact (List.pairwise_append.mp ho).2.2 j hj x (by simp)
    have hmin : ((live d).map d.saved).min? = some (d.saved x) := by
      rw [List.min?_eq_some_iff]
      constructor
      · exact List.mem_map.mpr ⟨x, hperm.mem_iff.mpr hxR, rfl⟩
      · intro b hb
        obtain ⟨j, hj, rfl⟩ := List.mem_map.mp hb
        have hjR := hperm.mem_iff.mp hj
        rw [hsplit, List.mem_append] at hjR
        rcases hjR with h | h
        · exact le_of_lt (hlo j h)
        · rw [List.mem_singleton.mp h]
    rw [hmin]
    have hfind : (List.range d.length).find? (fun j => d.saved j = d.saved x) = some x := by
      have huniq : ∀ j, d.saved j = d.saved x → j = x := by
        intro j hj
        have hjR : j ∈ R := (hm j).mp (by rw [hj]; exact (hm x).mpr hxR)
        rw [hsplit, List.mem_append] at hjR
        rcases hjR with h | h
        · have := hlo j h; omega
        · exact List.mem_singleton.mp h
      cases hf : (List.range d.length).find? (fun j => decide (d.saved j = d.saved x)) with
      | none =>
        have := List.find?_eq_none.mp hf x (List.mem_range.mpr (hlt x hxR))
        simp at this
      | some j =>
        have := List.find?_some hf
        rw [huniq j (by simpa using this)]
    simp only [hfind]
    have hxT : x ∉ R.take m := by
      intro h
      have := hlo x h
      omega
    refine ⟨_, _, rfl, ?_, ?_⟩
    · intro j hj
      have : j ≠ x := fun h => hxT (h ▸ hj)
      simp [this]
    · intro j hj
      by_cases hjx : j = x
      · subst hjx
        simp [hxR]
      · have hjR : j ∉ R := by
          rw [hsplit, List.mem_append]
          rintro (h | h)
          · exact hj h
          · exact hjx (List.mem_singleton.mp h)
        have h0 : d.saved j = 0 := by
          by_contra h
          exact hjR ((hm j).mp h)
        simp [hjx, h0, hjR]
  · rw [if_neg hc]
    have ht : R.take m = R := List.take_of_length_le (by omega)
    refine ⟨d.draws, d.saved, rfl, ?_, ?_⟩
    · intro j _; exact ⟨rfl, rfl⟩
    · intro j hj
      rw [ht] at hj
      refine ⟨?_, fun h => absurd h hj, fun _ => rfl⟩
      by_contra h
      exact hj ((hm j).mp h)

/-- The index a draw stands for. -/
def norm (n : Nat) (i : Int) : Nat := (if i < 0 then i + n else i).toNat

theorem hideCurrent_nil {n m : Nat} {blank : Nat → Bool} {d : Disp} {js : List Nat}
    (h : Inv n m blank d js) : hideCurrent d true = [] := by
  unfold hideCurrent
  rw [h.cur, h.visible]
  cases js.getLast? with
  | none => rfl
  | some c =>
    simp only
    cases d.draws c with
    | none => rfl
    | some a => simp [toggle]

theorem inv_draw {n m : Nat} (hm : 0 < m) {blank : Nat → Bool} {d : Disp} {js : List Nat}
    (h : Inv n m blank d js) (i : Int) (h1 : i < n) (h2 : -(n : Int) ≤ i) :
    ∃ d1, draw d i true = .ok d1 ∧ Inv n m blank d1 (js ++ [norm n i]) ∧
      d1.fresh = d.fresh + (if blank (norm n i) ∨ norm n i ∈ recent m js then 0 else 1) := by
  unfold draw
  rw [h.length, if_neg (by omega), if_neg (by omega)]
  have hk : (if i < 0 then i + (n : Int) else i).toNat = norm n i := rfl
  have hkn : norm n i < n := by unfold norm; split <;> omega
  simp only [hk]
  generalize norm n i = k at hkn
  rw [hideCurrent_nil h, h.buf]
  simp only
  -- the state before the stamps
  obtain ⟨d1, hd1, hlen, hbl, hsv, hst, hcu, hvis, hdr, hfr, hbuf⟩ : ∃ d1 : Disp,
      put { d with length := n, buf := some m, visible := [] } k = d1 ∧
      d1.length = n ∧ d1.blank = blank ∧ d1.saved = d.saved ∧ d1.stamp = d.stamp ∧
      d1.cur = some k ∧ d1.visible = (d1.draws k).toList ∧
      (∀ j, (j ≠ k → d1.draws j = d.draws j) ∧ (∀ a, d1.draws j = some a → a.frame = j) ∧
        (j = k → (d1.draws j ≠ none ↔ blank j = false))) ∧
      d1.fresh = d.fresh + (if blank k ∨ k ∈ recent m js then 0 else 1) ∧
      d1.buf = some m := by
    unfold put
    cases hdk : d.draws k with
    | some a =>
      have hin := (h.draws_iff k).mp (by rw [hdk]; simp)
      refine ⟨_, rfl, rfl, h.blank_eq, rfl, rfl, rfl, ?_, ?_, ?_, rfl⟩
      · simp [toggle, hdk]
      · intro j
        refine ⟨fun _ => rfl, fun a ha => h.frame j a ha, ?_⟩
        rintro rfl
        rw [h.draws_iff]
        exact ⟨fun x => x.2, fun x => ⟨hin.1, x⟩⟩
      · simp [hin.1]
    | none =>
      simp only [drawNew, h.blank_eq]
      by_cases hb : blank k = true
      · refine ⟨_, rfl, ?_⟩
        simp only [hb, if_true]
        refine ⟨by trivial, by trivial, by trivial, by trivial, by trivial, by simp, ?_, by simp, by trivial⟩
        intro j
        by_cases hj : j = k
        · subst hj; simp [hb]
        · simp only [hj, if_false]
          exact ⟨fun _ => by trivial, fun a ha => h.frame j a ha, fun x => absurd x (by simp)⟩
      · have hnr : k ∉ recent m js := by
          intro hr
          have := (h.draws_iff k).mpr ⟨hr, by simpa using hb⟩
          exact this hdk
        refine ⟨_, rfl, ?_⟩
        simp only [hb, if_false, Bool.false_eq_true]
        refine ⟨by trivial, by trivial, by trivial, by trivial, by trivial, by simp, ?_, by simp [hnr],
          by trivial⟩
        intro j
        by_cases hj : j = k
        · subst hj; simp [hb]
        · simp only [hj, if_false]
          exact ⟨fun _ => by trivial, fun a ha => h.frame j a ha, fun x => absurd x (by simp)⟩
  rw [hd1]
  have hRlen : (k :: (recent m js).filter (· ≠ k)).length ≤ m + 1 := by
    have := length_recent m js
    have := List.length_filter_le (fun x => decide (x ≠ k)) (recent m js)
    simp only [List.length_cons]
    omega
  have hRmem : ∀ j, j ∈ k :: (recent m js).filter (· ≠ k) ↔ j = k ∨ j ∈ recent m js := by
    intro j
    simp only [List.mem_cons, List.mem_filter, ne_eq, decide_not, Bool.not_eq_true',
      decide_eq_false_iff_not]
    by_cases hj : j = k <;> simp [hj]
  obtain ⟨D, S, he, hin, hout⟩ := evict_spec
    (mark d1 k) m
    (k :: (recent m js).filter (· ≠ k))
    (by
      rw [List.nodup_cons]
      exact ⟨by simp, (recent_nodup m js).filter _⟩)
    (by
      intro j hj
      simp only [mark, hlen]
      rcases (hRmem j).mp hj with rfl | hj
      · exact hkn
      · exact h.lt j (mem_recent hj))
    (by
      intro j
      simp only [mark, hRmem j]
      by_cases hj : j = k
      · have := h.stamps k
        simp only [hj, if_true, hst, true_or, iff_true]
        omega
      · simp only [hj, if_false, false_or, hsv]
        exact h.saved_iff j)
    (by
      rw [List.pairwise_cons]
      constructor
      · intro j hj
        simp only [List.mem_filter, ne_eq, decide_not, Bool.not_eq_true',
          decide_eq_false_iff_not] at hj
        simp only [mark, hj.2, if_false, if_true, hsv, hst]
        exact h.stamps j
      · refine List.Pairwise.imp_of_mem ?_ (h.order.filter _)
        intro a b ha hb hab
        simp only [List.mem_filter, ne_eq, decide_not, Bool.not_eq_true',
          decide_eq_false_iff_not] at ha hb
        simp only [mark, ha.2, hb.2, if_false, hsv]
        exact hab)
    hRlen
  rw [← recent_snoc] at hin hout
  simp only [mark] at hin hout
  refine ⟨_, rfl, ?_, ?_⟩
  · rw [he]
    simp only [mark]
    have hlast : (js ++ [k]).getLast? = some k := by simp
    have hkr : k ∈ recent m (js ++ [k]) := by
      rw [recent_snoc]
      obtain ⟨m', rfl⟩ : ∃ m', m = m' + 1 := ⟨m - 1, by omega⟩
      simp
    have hsub : ∀ j, j ∈ recent m (js ++ [k]) → j = k ∨ j ∈ recent m js := by
      intro j hj
      rw [recent_snoc] at hj
      exact (hRmem j).mp (List.mem_of_mem_take hj)
    refine ⟨hlen, hbuf, hbl, ?_, ?_, ?_, ?_, ?_, ?_, ?_, ?_⟩
    · intro j hj
      rcases List.mem_append.mp hj with hj | hj
      · exact h.lt j hj
      · rw [List.mem_singleton.mp hj]; exact hkn
    · intro j
      try simp only
      by_cases hj : j ∈ recent m (js ++ [k])
      · simp only [hj, iff_true]
        rw [(hin j hj).2]
        by_cases hjk : j = k
        · have := h.stamps k
          simp only [hjk, if_true, hst]
          omega
        · simp only [hjk, if_false, hsv]
          rcases hsub j hj with h' | h'
          · exact absurd h' hjk
          · exact (h.saved_iff j).mpr h'
      · simp only [hj, iff_false, not_not]
        exact (hout j hj).1
    · have hp : (k :: (recent m js).filter (· ≠ k)).Pairwise (fun a b =>
          (if b = k then d1.stamp else d1.saved b) < (if a = k then d1.stamp else d1.saved a)) := by
        rw [List.pairwise_cons]
        constructor
        · intro j hj
          simp only [List.mem_filter, ne_eq, decide_not, Bool.not_eq_true',
            decide_eq_false_iff_not] at hj
          simp only [hj.2, if_false, if_true, hsv, hst]
          exact h.stamps j
        · refine List.Pairwise.imp_of_mem ?_ (h.order.filter _)
          intro a b ha hb hab
          simp only [List.mem_filter, ne_eq, decide_not, Bool.not_eq_true',
            decide_eq_false_iff_not] at ha hb
          simp only [ha.2, hb.2, if_false, hsv]
          exact hab
      have hp2 := hp.sublist (List.take_sublist m _)
      rw [← recent_snoc] at hp2
      refine List.Pairwise.imp_of_mem ?_ hp2
      intro a b ha hb hab
      try simp only
      rw [(hin a ha).2, (hin b hb).2]
      exact hab
    · intro j
      try simp only
      by_cases hj : j ∈ recent m (js ++ [k])
      · rw [(hin j hj).2]
        have := h.stamps j
        by_cases hjk : j = k
        · simp only [hjk, if_true]; omega
        · simp only [hjk, if_false, hsv, hst]; omega
      · rw [(hout j hj).1]; omega
    · intro j a ha
      simp only at ha
      by_cases hj : j ∈ recent m (js ++ [k])
      · rw [(hin j hj).1] at ha
        exact (hdr j).2.1 a ha
      · have := hout j hj
        by_cases hjr : j ∈ k :: (recent m js).filter (· ≠ k)
        · rw [this.2.1 hjr] at ha; cases ha
        · rw [this.2.2 hjr] at ha
          exact (hdr j).2.1 a ha
    · intro j
      try simp only
      by_cases hj : j ∈ recent m (js ++ [k])
      · rw [(hin j hj).1]
        simp only [hj, true_and]
        by_cases hjk : j = k
        · exact (hdr j).2.2 hjk
        · rw [(hdr j).1 hjk, h.draws_iff]
          rcases hsub j hj with h' | h'
          · exact absurd h' hjk
          · simp [h']
      · simp only [hj, false_and, iff_false, not_not]
        have := hout j hj
        by_cases hjr : j ∈ k :: (recent m js).filter (· ≠ k)
        · exact this.2.1 hjr
        · rw [this.2.2 hjr]
          have hjk : j ≠ k := fun e => hjr ((hRmem j).mpr (.inl e))
          have hjn : j ∉ recent m js := fun e => hjr ((hRmem j).mpr (.inr e))
          try simp only
          rw [(hdr j).1 hjk]
          by_contra hne
          exact hjn ((h.draws_iff j).mp hne).1
    · rw [hlast]; exact hcu
    · rw [hlast]
      simp only
      rw [(hin k hkr).1]
      exact hvis
  · rw [he]
    exact hfr

end IMT.Browse
