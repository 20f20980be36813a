import Verif.Display.MarksModel
import Verif.Display.BufferLemmas
import Verif.Display.Buffer

/-! Marks of the buffered frames on the slider: C363. -/

namespace IMT.Browse

/-! ### lemmas -/

theorem lt_of_getElem? {α : Type} {l : List α} {k : Nat} {a : α} (h : l[k]? = some a) : k < l.length := by
  rcases Nat.lt_or_ge k l.length with h' | h'
  · exact h'
  · rw [List.getElem?_eq_none h'] at h; cases h

/-- Each frame of `R` has one face, whose span is at this frame, and each span on the slider is that of a face. -/
structure Marked (s : Marks) (R : List Nat) : Prop where
  keys : (s.faces.map Prod.fst).Perm R
  spans : (s.faces.map Prod.snd).Perm (List.range s.spans.length)
  at_key : ∀ p ∈ s.faces, s.spans[p.2]? = some p.1

theorem Marked.all {s : Marks} {R : List Nat} (h : Marked s R) : s.spans.Perm R := by
  have e : s.spans = (List.range s.spans.length).map fun k => s.spans.getD k 0 := by
    apply List.ext_getElem?
    intro k
    rcases Nat.lt_or_ge k s.spans.length with hk | hk
    · simp [hk]
    · simp [hk]
  rw [e]
  refine ((h.spans.symm.map _).trans ?_).trans h.keys
  rw [List.map_map]
  refine List.Perm.of_eq (List.map_congr_left fun p hp => ?_)
  simp [List.getD_eq_getElem?_getD, h.at_key p hp]

theorem update_marked {d : Disp} {s : Marks} {R A B : List Nat} {i : Nat} (hb : d.buf ≠ none) (h : Marked s R) (hR : R.Nodup) (hi : i ∉ R)
    (hAB : R = A ++ B) (hl : B.length ≤ 1) (hlive : ∀ j, j ∈ live d ↔ j = i ∨ j ∈ A) : Marked (updateFaces d i s) (i :: A) := by
  have hA : ∀ j ∈ R, j ∈ live d ↔ j ∈ A := by
    intro j hj
    rw [hlive]
    exact ⟨fun h' => h'.resolve_left fun e => hi (e ▸ hj), .inr⟩
  have nd : (A ++ B).Nodup := hAB ▸ hR
  have split : (keptFaces d s ++ s.faces.filter fun p => p.1 ∉ live d).Perm s.faces := by
    unfold keptFaces
    simpa using List.filter_append_perm (fun p : Nat × Nat => decide (p.1 ∈ live d)) s.faces
  have km : ((keptFaces d s).map Prod.fst).Perm A := by
    have h1 := h.keys.filter (fun j => decide (j ∈ live d))
    rw [List.filter_map] at h1
    refine h1.trans (List.Perm.of_eq ?_)
    rw [hAB, List.filter_append, List.filter_eq_self.2, List.filter_eq_nil_iff.2, List.append_nil]
    · intro j hj
      have : j ∉ A := fun hja => (List.nodup_append.1 nd).2.2 j hja j hj rfl
      simpa [hA j (by rw [hAB]; exact List.mem_append_right _ hj)] using this
    · intro j hj
      simpa [hA j (by rw [hAB]; exact List.mem_append_left _ hj)] using hj
  have om : ((s.faces.filter fun p => p.1 ∉ live d).map Prod.fst).Perm B := by
    have h1 := h.keys.filter (fun j => decide (j ∉ live d))
    rw [List.filter_map] at h1
    refine h1.trans (List.Perm.of_eq ?_)
    rw [hAB, List.filter_append, List.filter_eq_nil_iff.2, List.nil_append, List.filter_eq_self.2]
    · intro j hj
      have : j ∉ A := fun hja => (List.nodup_append.1 nd).2.2 j hja j hj rfl
      simpa [hA j (by rw [hAB]; exact List.mem_append_right _ hj)] using this
    · intro j hj
      simpa [hA j (by rw [hAB]; exact List.mem_append_left _ hj)] using hj
  have hk : i ∉ (keptFaces d s).map Prod.fst := fun h' => hi (by rw [hAB]; exact List.mem_append_left _ (km.mem_iff.1 h'))
  unfold updateFaces
  rw [if_neg hb, if_neg hk]
  unfold oldSpans
  cases e : s.faces.filter fun p => p.1 ∉ live d with
  | nil =>
    rw [e, List.append_nil] at split
    simp only [List.map_nil]
    refine ⟨?_, ?_, ?_⟩
    · rw [List.map_append]
      exact (km.append_right _).trans (by simpa using List.perm_append_singleton i A)
    · rw [List.map_append, List.length_append, List.length_singleton, List.range_succ]
      exact ((split.map _).trans h.spans).append_right _
    · intro p hp
      rcases List.mem_append.1 hp with hp | hp
      · have := h.at_key p (split.mem_iff.1 hp)
        rw [List.getElem?_append_left (lt_of_getElem? this)]
        exact this
      · simp only [List.mem_singleton] at hp
        subst hp
        simp
  | cons b l =>
    have hl0 : l = [] := by
      have := om.length_eq
      rw [e] at this
      simp only [List.map_cons, List.length_cons, List.length_map] at this
      exact List.length_eq_zero_iff.1 (by omega)
    subst hl0
    rw [e] at split
    simp only [List.map_cons]
    have hbm : b ∈ s.faces := split.mem_iff.1 (by simp)
    have hbk := h.at_key b hbm
    have hsp : ((keptFaces d s).map Prod.snd ++ [b.2]).Perm (List.range s.spans.length) := by
      have := (split.map Prod.snd).trans h.spans
      simpa using this
    have hne : ∀ p ∈ keptFaces d s, p.2 ≠ b.2 := by
      intro p hp
      have := (List.nodup_append.1 (hsp.nodup_iff.2 List.nodup_range)).2.2 p.2 (List.mem_map_of_mem hp) b.2 (by simp)
      exact this
    refine ⟨?_, ?_, ?_⟩
    · rw [List.map_append]
      exact (km.append_right _).trans (by simpa using List.perm_append_singleton i A)
    · rw [List.map_append, List.length_set]
      exact hsp
    · intro p hp
      rcases List.mem_append.1 hp with hp | hp
      · have := h.at_key p (split.mem_iff.1 (List.mem_append_left _ hp))
        rw [List.getElem?_set_ne (Ne.symm (hne p hp))]
        exact this
      · simp only [List.mem_singleton] at hp
        subst hp
        simp only
        rw [List.getElem?_set_self (lt_of_getElem? hbk)]

theorem update_same {d : Disp} {s : Marks} {R R' : List Nat} {i : Nat} (hb : d.buf ≠ none) (h : Marked s R) (hi : i ∈ R) (hp : R.Perm R')
    (hlive : ∀ j, j ∈ live d ↔ j ∈ R') : Marked (updateFaces d i s) R' := by
  have hk : keptFaces d s = s.faces := by
    unfold keptFaces
    rw [List.filter_eq_self]
    intro p hpf
    simpa [hlive] using hp.mem_iff.1 (h.keys.mem_iff.1 (List.mem_map_of_mem hpf))
  unfold updateFaces
  rw [if_neg hb, hk, if_pos (h.keys.mem_iff.2 hi)]
  exact ⟨h.keys.trans hp, h.spans, h.at_key⟩

theorem live_iff {n m : Nat} {blank : Nat → Bool} {d : Disp} {js : List Nat} (h : Inv n m blank d js) (j : Nat) : j ∈ live d ↔ j ∈ recent m js := by
  unfold live
  rw [List.mem_filter, List.mem_range, h.length]
  constructor
  · rintro ⟨_, h'⟩
    exact (h.saved_iff j).1 (by simpa using h')
  · intro h'
    exact ⟨h.lt j (mem_recent h'), by simpa using (h.saved_iff j).2 h'⟩

theorem show_marked {n m : Nat} (hm : 0 < m) {blank : Nat → Bool} {d : Disp} {s : Marks} {js : List Nat} (h : Inv n m blank d js)
    (hs : Marked s (recent m js)) {i : Nat} (hi : i < n) :
    ∃ d1 s1, showFrame (d, s) i = .ok (d1, s1) ∧ Inv n m blank d1 (js ++ [i]) ∧ Marked s1 (recent m (js ++ [i])) := by
  obtain ⟨d1, e, h1, -⟩ := inv_draw hm h (i : Int) (by exact_mod_cast hi) (by omega)
  rw [norm_nat] at h1
  refine ⟨d1, updateFaces d1 i s, by unfold showFrame; rw [e], h1, ?_⟩
  have hb : d1.buf ≠ none := by rw [h1.buf]; simp
  have hlv := live_iff h1
  rw [recent_snoc] at hlv ⊢
  have nd := recent_nodup m js
  have hlen := length_recent m js
  by_cases hr : i ∈ recent m js
  · have hlf : ((recent m js).filter (· ≠ i)).length < (recent m js).length :=
      List.length_filter_lt_length_iff_exists.2 ⟨i, hr, by simp⟩
    have hpos := List.length_pos_of_mem hr
    have e' : (i :: (recent m js).filter (· ≠ i)).take m = i :: (recent m js).filter (· ≠ i) :=
      List.take_of_length_le (by simp only [List.length_cons]; omega)
    rw [e'] at hlv ⊢
    refine update_same hb hs hr ?_ hlv
    rw [List.perm_ext_iff_of_nodup nd]
    · intro j
      by_cases hj : j = i
      · subst hj; simp [hr]
      · simp [hj]
    · exact List.nodup_cons.2 ⟨by simp, nd.filter _⟩
  · have hf : (recent m js).filter (· ≠ i) = recent m js := by
      rw [List.filter_eq_self]
      intro j hj
      simpa using fun e : j = i => hr (e ▸ hj)
    rw [hf] at hlv ⊢
    obtain ⟨m', rfl⟩ : ∃ m', m = m' + 1 := ⟨m - 1, by omega⟩
    rw [List.take_succ_cons] at hlv ⊢
    exact update_marked hb hs nd hr (List.take_append_drop m' _).symm (by rw [List.length_drop]; omega) fun j => by rw [hlv, List.mem_cons]

/-! ### C363 -/

/-- C363: whatever frames are shown, the marks on the slider are those of the frames in the buffer, that is of the `m` distinct frames shown last, one mark for
each of them.  Needs a buffer of at least one drawing. -/
theorem C363_marks_partial (n m : Nat) (hm : 0 < m) (blank : Nat → Bool) (js : List Nat) (hjs : ∀ j ∈ js, j < n) :
    ∃ d s, showAll (Disp.init n (some m) blank, Marks.init) js = .ok (d, s) ∧ s.spans.Perm (js.dedup.reverse.take m) ∧
      ∀ j, d.draws j ≠ none ↔ j ∈ s.spans ∧ blank j = false := by
  have key : ∀ (l js : List Nat) (d : Disp) (s : Marks), Inv n m blank d js → Marked s (recent m js) → (∀ j ∈ l, j < n) →
      ∃ d1 s1, showAll (d, s) l = .ok (d1, s1) ∧ Inv n m blank d1 (js ++ l) ∧ Marked s1 (recent m (js ++ l)) := by
    intro l
    induction l with
    | nil => exact fun js d s h1 h2 _ => ⟨d, s, rfl, by simpa using h1, by simpa using h2⟩
    | cons i l ih =>
      intro js d s h1 h2 hl
      obtain ⟨d1, s1, e, g1, g2⟩ := show_marked hm h1 h2 (hl i List.mem_cons_self)
      obtain ⟨d2, s2, e2, k1, k2⟩ := ih (js ++ [i]) d1 s1 g1 g2 fun j hj => hl j (List.mem_cons_of_mem _ hj)
      refine ⟨d2, s2, by simp only [showAll, e]; exact e2, ?_, ?_⟩
      · simpa using k1
      · simpa using k2
  obtain ⟨d, s, e, h1, h2⟩ := key js [] _ Marks.init (inv_init n m blank) ⟨by simp [Marks.init, recent], by simp [Marks.init], by simp [Marks.init]⟩ hjs
  rw [List.nil_append] at h1 h2
  refine ⟨d, s, e, h2.all, fun j => ?_⟩
  rw [h1.draws_iff, h2.all.mem_iff]

theorem update_count (d : Disp) (i : Nat) (s : Marks) : s.spans.length + (updateFaces d i s).faces.length ≤ (updateFaces d i s).spans.length + s.faces.length := by
  unfold updateFaces
  by_cases hb : d.buf = none
  · rw [if_pos hb]
  · rw [if_neg hb]
    have hk : (keptFaces d s).length + (oldSpans d s).length = s.faces.length := by
      unfold keptFaces oldSpans
      rw [List.length_map, ← List.length_append]
      have := (List.filter_append_perm (fun p : Nat × Nat => decide (p.1 ∈ live d)) s.faces).length_eq
      simpa using this
    by_cases hi : i ∈ (keptFaces d s).map Prod.fst
    · rw [if_pos hi]
      dsimp only
      omega
    · rw [if_neg hi]
      cases e : oldSpans d s with
      | nil => rw [e] at hk; simp only [List.length_append, List.length_singleton, List.length_nil] at hk ⊢; omega
      | cons k l => rw [e] at hk; simp only [List.length_append, List.length_cons, List.length_set, List.length_nil] at hk ⊢; omega

/-- C363 fails when two marked frames have left the buffer since the marks were last updated, as when the displayer is also drawn elsewhere: only one of the spans
is used again, and from then on, whatever is shown, there are more marks on the slider than marked frames. -/
theorem C363_leftover_violated {d : Disp} {i : Nat} {s : Marks} (hb : d.buf ≠ none) (hs : s.faces.length ≤ s.spans.length) {a b : Nat} {x y : Nat × Nat}
    (hab : a ≠ b) (ha : s.faces[a]? = some x) (hb' : s.faces[b]? = some y) (hx : x.1 ∉ live d) (hy : y.1 ∉ live d) (later : List (Disp × Nat)) :
    ((later.foldl (fun s p => updateFaces p.1 p.2 s) (updateFaces d i s)).faces.length <
      (later.foldl (fun s p => updateFaces p.1 p.2 s) (updateFaces d i s)).spans.length) := by
  have h2 : 2 ≤ (oldSpans d s).length := by
    unfold oldSpans
    rw [List.length_map]
    rcases Nat.lt_or_gt_of_ne hab with h | h
    · have e1 : s.faces = s.faces.take b ++ s.faces.drop b := (List.take_append_drop b _).symm
      rw [e1, List.filter_append, List.length_append]
      have p1 : 0 < ((s.faces.take b).filter fun p => p.1 ∉ live d).length :=
        List.length_pos_of_mem (List.mem_filter.2 ⟨List.mem_of_getElem? (i := a) (a := x) (by rw [List.getElem?_take, if_pos h]; exact ha), by simpa using hx⟩)
      have p2 : 0 < ((s.faces.drop b).filter fun p => p.1 ∉ live d).length :=
        List.length_pos_of_mem (List.mem_filter.2 ⟨List.mem_of_getElem? (i := 0) (by rw [List.getElem?_drop]; simpa using hb'), by simpa using hy⟩)
      omega
    · have e1 : s.faces = s.faces.take a ++ s.faces.drop a := (List.take_append_drop a _).symm
      rw [e1, List.filter_append, List.length_append]
      have p1 : 0 < ((s.faces.take a).filter fun p => p.1 ∉ live d).length :=
        List.length_pos_of_mem (List.mem_filter.2 ⟨List.mem_of_getElem? (i := b) (a := y) (by rw [List.getElem?_take, if_pos h]; exact hb'), by simpa using hy⟩)
      have p2 : 0 < ((s.faces.drop a).filter fun p => p.1 ∉ live d).length :=
        List.length_pos_of_mem (List.mem_filter.2 ⟨List.mem_of_getElem? (i := 0) (by rw [List.getElem?_drop]; simpa using ha), by simpa using hx⟩)
      omega
  have hk : (keptFaces d s).length + (oldSpans d s).length = s.faces.length := by
    unfold keptFaces oldSpans
    rw [List.length_map, ← List.length_append]
    have := (List.filter_append_perm (fun p : Nat × Nat => decide (p.1 ∈ live d)) s.faces).length_eq
    simpa using this
  have h0 : (updateFaces d i s).faces.length < (updateFaces d i s).spans.length := by
    unfold updateFaces
    rw [if_neg hb]
    by_cases hi : i ∈ (keptFaces d s).map Prod.fst
    · rw [if_pos hi]
      dsimp only
      omega
    · rw [if_neg hi]
      cases e : oldSpans d s with
      | nil => rw [e] at h2; simp at h2
      | cons k l => simp only [List.length_append, List.length_singleton, List.length_set]; omega
  generalize updateFaces d i s = t at h0
  induction later generalizing t with
  | nil => exact h0
  | cons p l ih =>
    simp only [List.foldl_cons]
    refine ih _ ?_
    have := update_count p.1 p.2 t
    omega

/-- C363 fails with a buffer of no drawing: the frame that is shown first is marked, although nothing is kept. -/
theorem C363_none_violated (n : Nat) (blank : Nat → Bool) {i : Nat} (hi : i < n) :
    ∃ d s, showFrame (Disp.init n (some 0) blank, Marks.init) i = .ok (d, s) ∧ s.spans = [i] ∧ ∀ j, d.saved j = 0 := by
  obtain ⟨p, hp⟩ : ∃ p, p = mark (put { Disp.init n (some 0) blank with visible := hideCurrent (Disp.init n (some 0) blank) true } i) i := ⟨_, rfl⟩
  have hd : draw (Disp.init n (some 0) blank) i true = .ok (evict p 0) := by
    unfold draw
    have h1 : (Disp.init n (some 0) blank).length = n := rfl
    have h2 : (Disp.init n (some 0) blank).buf = some 0 := rfl
    rw [h1, h2, if_neg (by omega), if_neg (by omega)]
    have h3 : (if (i : Int) < 0 then (i : Int) + n else i).toNat = i := by rw [if_neg (by omega)]; rfl
    simp only [h3, hp]
    rfl
  have hs : ∀ j, p.saved j = if j = i then 1 else 0 := by
    intro j
    rw [hp]
    cases hb : blank i <;> simp [put, drawNew, Disp.init, mark, hb]
  have hl : p.length = n ∧ p.buf = some 0 := by
    rw [hp]
    cases hb : blank i <;> simp [put, drawNew, Disp.init, mark, hb]
  obtain ⟨D, S, e, -, hS⟩ := evict_spec p 0 [i] (by simp) (by simpa [hl.1] using hi) (by intro j; rw [hs]; by_cases h : j = i <;> simp [h]) (by simp) (by simp)
  refine ⟨evict p 0, updateFaces (evict p 0) i Marks.init, by unfold showFrame; simp only [hd], ?_, ?_⟩
  · unfold updateFaces
    rw [if_neg (by rw [e, hl.2]; simp)]
    simp [keptFaces, oldSpans, Marks.init]
  · intro j
    rw [e]
    exact (hS j (by simp)).1

/-! ### examples -/

example : ((showAll (Disp.init 5 (some 2) (fun _ => false), Marks.init) [0, 1, 4, 0, 3, 1]).toOption.map fun r => r.2.spans) = some [3, 1] := by
  decide +kernel

/-- The marks of the frames 0 and 1, then the frames 2 and 3 drawn elsewhere: the mark of frame 1 stays. -/
example : ((showAll (Disp.init 5 (some 2) (fun _ => false), Marks.init) [0, 1]).toOption.map fun r =>
    ((drawAll r.1 true [2, 3]).toOption.map fun d => ((updateFaces d 3 r.2).spans, live d))) = some (some ([3, 1], [2, 3])) := by
  decide +kernel

example : ((showAll (Disp.init 3 (some 0) (fun _ => false), Marks.init) [0, 2]).toOption.map fun r => (r.2.spans, live r.1)) = some ([2], []) := by
  decide +kernel

end IMT.Browse
