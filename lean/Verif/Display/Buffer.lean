import Verif.Display.BufferLemmas
import Verif.Display.Limits

/-!
# What a figure shows while it is browsed
-/

namespace IMT.Browse

/-! ## C303: one drawing at a time -/

/-- The frames a list of indices asks for: indices beyond the last frame are
ignored, negative ones count from the end. -/
def asked (n : Nat) (is : List Int) : List Nat := (is.filter (fun i : Int => i < n)).map (norm n)

theorem norm_nat (n j : Nat) : norm n (j : Int) = j := by
  unfold norm
  rw [if_neg (by omega)]
  rfl

theorem drawAll_inv {n m : Nat} (hm : 0 < m) {blank : Nat → Bool} {d : Disp} {js : List Nat}
    (h : Inv n m blank d js) (is : List Int) (his : ∀ i ∈ is, -(n : Int) ≤ i) :
    ∃ d1, drawAll d true is = .ok d1 ∧ Inv n m blank d1 (js ++ asked n is) := by
  induction is generalizing d js with
  | nil => exact ⟨d, rfl, by simpa [asked] using h⟩
  | cons i is ih =>
    have hrest : ∀ x ∈ is, -(n : Int) ≤ x := fun x hx => his x (by simp [hx])
    by_cases hi : i < n
    · obtain ⟨d1, h1, hinv, _⟩ := inv_draw hm h i hi (his i (by simp))
      obtain ⟨d2, h2, hinv2⟩ := ih hinv hrest
      refine ⟨d2, by simp only [drawAll, h1]; exact h2, ?_⟩
      have : asked n (i :: is) = norm n i :: asked n is := by simp [asked, hi]
      rw [this]
      simpa using hinv2
    · have h1 : draw d i true = .ok d := by
        unfold draw
        rw [h.length, if_pos (by omega)]
      obtain ⟨d2, h2, hinv2⟩ := ih h hrest
      refine ⟨d2, by simp only [drawAll, h1]; exact h2, ?_⟩
      have : asked n (i :: is) = asked n is := by simp [asked, hi]
      rwa [this]

/-- **C303.**  Whatever frames a displayer was asked to draw, the axes hold the
drawing of the last one and no other (nothing, when that frame is empty).
Needs a buffer of at least one drawing. -/
theorem C303_one_drawing_partial (n m : Nat) (hm : 0 < m) (blank : Nat → Bool) (is : List Int)
    (his : ∀ i ∈ is, -(n : Int) ≤ i) (j : Nat) (hj : (asked n is).getLast? = some j) :
    ∃ d, drawAll (Disp.init n (some m) blank) true is = .ok d ∧
      (blank j = true → d.visible = []) ∧
      (blank j = false → ∃ id, d.visible = [⟨j, id⟩]) := by
  obtain ⟨d, hd, hinv⟩ := drawAll_inv hm (inv_init n m blank) is his
  rw [List.nil_append] at hinv
  refine ⟨d, hd, ?_, ?_⟩
  · intro hb
    rw [hinv.visible, hj]
    have : d.draws j = none := by
      by_contra h
      have := ((hinv.draws_iff j).mp h).2
      rw [hb] at this
      cases this
    simp [this]
  · intro hb
    obtain ⟨l, hl⟩ : ∃ l, asked n is = l ++ [j] := by
      obtain ⟨l, hl⟩ := List.getLast?_eq_some_iff.mp hj
      exact ⟨l, hl⟩
    have hr : j ∈ recent m (asked n is) := by
      rw [hl, recent_snoc]
      obtain ⟨m', rfl⟩ : ∃ m', m = m' + 1 := ⟨m - 1, by omega⟩
      simp
    have hne := (hinv.draws_iff j).mpr ⟨hr, hb⟩
    obtain ⟨a, ha⟩ := Option.ne_none_iff_exists'.mp hne
    refine ⟨a.id, ?_⟩
    rw [hinv.visible, hj]
    simp only [ha, Option.toList_some]
    rw [← hinv.frame j a ha]

/-- **C303 fails** without a buffer, or with a buffer of no drawing: nothing is
ever removed, the drawings of all the frames asked for are on the axes
together. -/
theorem C303_pile_violated (n : Nat) (buf : Option Nat) (hb : buf = none ∨ buf = some 0)
    (blank : Nat → Bool) (is : List Int) (his : ∀ i ∈ is, -(n : Int) ≤ i) :
    ∃ d, drawAll (Disp.init n buf blank) true is = .ok d ∧
      d.visible.map Art.frame = (asked n is).filter (fun j => !blank j) := by
  suffices H : ∀ (d : Disp), d.length = n → d.buf = buf → d.blank = blank →
      (∀ j, d.draws j = none) → (∀ j, d.saved j = 0) → d.stamp ≠ 0 →
      ∃ d1, drawAll d true is = .ok d1 ∧ d1.visible.map Art.frame
        = d.visible.map Art.frame ++ (asked n is).filter (fun j => !blank j) by
    have := H (Disp.init n buf blank) rfl rfl rfl (fun _ => rfl) (fun _ => rfl) (by simp [Disp.init])
    simpa [Disp.init] using this
  induction is with
  | nil => intro d _ _ _ _ _ _; exact ⟨d, rfl, by simp [asked]⟩
  | cons i is ih =>
    intro d hlen hbuf hbl hdr hsv hst
    have hrest : ∀ x ∈ is, -(n : Int) ≤ x := fun x hx => his x (by simp [hx])
    by_cases hi : i < n
    · have hge : -(n : Int) ≤ i := his i (by simp)
      have hask : asked n (i :: is) = norm n i :: asked n is := by simp [asked, hi]
      have hvis : hideCurrent d true = d.visible := by
        unfold hideCurrent
        cases d.cur with
        | none => rfl
        | some c => simp only [hdr c]
      have hk : (if i < 0 then i + (n : Int) else i).toNat = norm n i := rfl
      have hkn : norm n i < n := by unfold norm; split <;> omega
      obtain ⟨d1, h1, hl1, hb1, hbl1, hd1, hs1, ht1, hv1⟩ : ∃ d1, draw d i true = .ok d1 ∧
          d1.length = n ∧ d1.buf = buf ∧ d1.blank = blank ∧ (∀ j, d1.draws j = none) ∧
          (∀ j, d1.saved j = 0) ∧ d1.stamp ≠ 0 ∧
          d1.visible.map Art.frame
            = d.visible.map Art.frame ++ (if blank (norm n i) then [] else [norm n i]) := by
        unfold draw
        rw [hlen, if_neg (by omega), if_neg (by omega)]
        simp only [hk, hvis]
        generalize norm n i = k at hkn
        rcases hb with rfl | rfl
        · rw [hbuf]
          simp only [drawNew, hbl]
          by_cases hbk : blank k = true
          · simp only [hbk, if_true]
            exact ⟨_, rfl, rfl, rfl, rfl, hdr, hsv, hst, by simp⟩
          · simp only [hbk]
            exact ⟨_, rfl, rfl, rfl, rfl, hdr, hsv, hst, by simp⟩
        · rw [hbuf]
          simp only
          obtain ⟨d2, hd2, g1, g2, g3, g4, g5, g6, g7⟩ : ∃ d2, put { d with
              length := n, buf := some 0, visible := d.visible } k = d2 ∧
              d2.length = n ∧ d2.buf = some 0 ∧ d2.blank = blank ∧
              (∀ j, j ≠ k → d2.draws j = none) ∧ (∀ j, d2.saved j = 0) ∧ d2.stamp ≠ 0 ∧
              d2.visible.map Art.frame
                = d.visible.map Art.frame ++ (if blank k then [] else [k]) := by
            unfold put
            simp only [hdr k, drawNew, hbl]
            by_cases hbk : blank k = true
            · simp only [hbk, if_true]
              exact ⟨_, rfl, rfl, rfl, rfl, fun j hj => by simp [hdr], hsv, hst, by simp⟩
            · simp only [hbk]
              exact ⟨_, rfl, rfl, rfl, rfl, fun j hj => by simp [hj, hdr], hsv, hst, by simp⟩
          rw [hd2]
          obtain ⟨D, S, he, _, hout⟩ := evict_spec (mark d2 k) 0 [k] (by simp)
            (by intro j hj; simp only [mark, g1]; rw [List.mem_singleton.mp hj]; exact hkn)
            (by
              intro j
              by_cases hj : j = k
              · simp [mark, hj, g6]
              · simp [mark, hj, g5])
            (by simp) (by simp)
          refine ⟨_, rfl, ?_⟩
          rw [he]
          refine ⟨g1, g2, g3, ?_, ?_, ?_, g7⟩
          · intro j
            by_cases hj : j = k
            · exact (hout j (by simp)).2.1 (by simp [hj])
            · exact ((hout j (by simp)).2.2 (by simp [hj])).trans (g4 j hj)
          · exact fun j => (hout j (by simp)).1
          · simp [mark]
      obtain ⟨d2, h2, hv2⟩ := ih hrest d1 hl1 hb1 hbl1 hd1 hs1 ht1
      refine ⟨d2, by simp only [drawAll, h1]; exact h2, ?_⟩
      rw [hv2, hv1, hask, List.filter_cons]
      by_cases hbk : blank (norm n i) = true
      · simp [hbk]
      · simp [hbk]
    · have h1 : draw d i true = .ok d := by
        unfold draw
        rw [hlen, if_pos (by omega)]
      obtain ⟨d2, h2, hv2⟩ := ih hrest d hlen hbuf hbl hdr hsv hst
      refine ⟨d2, by simp only [drawAll, h1]; exact h2, ?_⟩
      have : asked n (i :: is) = asked n is := by simp [asked, hi]
      rw [this, hv2]

/-- **C303 fails** when a displayer is asked twice for the same frame without
removing the current drawing (what `draw` and `draw_multiple` do by default):
the frame disappears. -/
theorem C303_twice_violated (n m : Nat) (hm : 0 < m) (blank : Nat → Bool) (i : Nat)
    (hi : i < n) (hb : blank i = false) :
    ∃ d, drawAll (Disp.init n (some m) blank) false [(i : Int), (i : Int)] = .ok d ∧
      d.visible = [] := by
  have hnorm : (if (i : Int) < 0 then (i : Int) + n else i).toNat = i := by
    rw [if_neg (by omega)]; simp
  have hlive : ∀ d : Disp, d.length = n → (∀ j, j ≠ i → d.saved j = 0) → (live d).length ≤ 1 := by
    intro d hd hs
    have : (live d).Sublist ((List.range n).filter (· = i)) := by
      unfold live
      rw [hd]
      refine List.monotone_filter_right _ ?_
      intro j hj
      simp only [ne_eq, decide_not, Bool.not_eq_true', decide_eq_false_iff_not] at hj
      by_contra hne
      exact hj (hs j (by simpa using hne))
    refine this.length_le.trans ?_
    have hnd : ((List.range n).filter (· = i)).Nodup := List.Nodup.filter _ List.nodup_range
    have hall : ∀ x ∈ (List.range n).filter (· = i), x = i := by
      intro x hx
      simpa using (List.mem_filter.mp hx).2
    generalize (List.range n).filter (· = i) = l at hnd hall
    match l, hnd, hall with
    | [], _, _ => simp
    | [_], _, _ => simp
    | a :: b :: l, hnd, hall =>
      have h1 := hall a (by simp)
      have h2 := hall b (by simp)
      simp only [List.nodup_cons, List.mem_cons, not_or] at hnd
      exact absurd (h1.trans h2.symm) hnd.1.1
  have hev : ∀ d : Disp, d.length = n → (∀ j, j ≠ i → d.saved j = 0) → evict d m = d := by
    intro d hd hs
    unfold evict
    rw [if_neg]
    have := hlive d hd hs
    omega
  have h1 : draw (Disp.init n (some m) blank) i false = .ok (mark (put { Disp.init n (some m) blank
      with visible := [] } i) i) := by
    unfold draw
    rw [if_neg (by simp [Disp.init]; omega), if_neg (by simp only [Disp.init]; omega)]
    simp only [Disp.init, hideCurrent, hnorm]
    rw [hev]
    · simp [mark, put, drawNew, hb]
    · intro j hj
      simp [mark, put, drawNew, hb, hj]
  have hp : put { Disp.init n (some m) blank with visible := [] } i
      = { Disp.init n (some m) blank with
          cur := some i, fresh := 1, visible := [⟨i, 0⟩],
          draws := fun x => if x = i then some ⟨i, 0⟩ else none } := by
    simp [put, drawNew, Disp.init, hb]
  rw [hp] at h1
  simp only [drawAll, h1]
  unfold draw
  rw [if_neg (by simp [mark, Disp.init]; omega), if_neg (by simp only [mark, Disp.init]; omega)]
  simp only [mark, Disp.init, hideCurrent, hnorm, if_true, Bool.false_eq_true, if_false]
  rw [hev]
  · exact ⟨_, rfl, by simp [put, toggle]⟩
  · simp [put]
  · intro j hj
    simp [put, hj]

/-- An event leaves the index and the drawings, or draws its new index. -/
theorem shown_step {s s1 : Bm} {e : Event} (hs : step s e = .ok s1) :
    (s1.shown = s.shown ∧ s1.ind = s.ind) ∨ s1.shown = s.shown ++ [s1.ind] := by
  have hnext : ((nextf s).shown = s.shown ∧ (nextf s).ind = s.ind) ∨ (nextf s).shown = s.shown ++ [(nextf s).ind] := by
    unfold nextf
    simp only
    split
    · exact .inl ⟨rfl, rfl⟩
    · exact .inr rfl
  have hprev : ((prevf s).shown = s.shown ∧ (prevf s).ind = s.ind) ∨ (prevf s).shown = s.shown ++ [(prevf s).ind] := by
    unfold prevf
    simp only
    split
    · exact .inl ⟨rfl, rfl⟩
    · exact .inr rfl
  have hplay : ((playf s).shown = s.shown ∧ (playf s).ind = s.ind) ∨ (playf s).shown = s.shown ++ [(playf s).ind] := by
    unfold playf updInterv
    cases s.num <;> exact .inl ⟨rfl, rfl⟩
  cases e with
  | key k =>
    obtain ⟨s2, ha, o, rfl⟩ := keyf_num (show keyf s (Key.ofString k) = .ok s1 from hs)
    show (s2.shown = s.shown ∧ s2.ind = s.ind) ∨ s2.shown = s.shown ++ [s2.ind]
    cases hk : Key.ofString k with
    | next => rw [hk] at ha; cases ha; exact hnext
    | prev => rw [hk] at ha; cases ha; exact hprev
    | last =>
      rw [hk] at ha; cases ha
      unfold gotoEnd
      simp only
      split
      · exact .inl ⟨rfl, rfl⟩
      · exact .inr rfl
    | first =>
      rw [hk] at ha; cases ha
      unfold gotoBeg
      simp only
      split
      · exact .inl ⟨rfl, rfl⟩
      · exact .inr rfl
    | goto =>
      rw [hk] at ha; cases ha
      unfold goto
      cases s.num with
      | none => exact .inl ⟨rfl, rfl⟩
      | some n =>
        simp only
        split
        · exact .inl ⟨rfl, rfl⟩
        · exact .inr rfl
    | play => rw [hk] at ha; cases ha; exact hplay
    | incr => rw [hk] at ha; cases ha; unfold updIncr; cases s.num <;> exact .inl ⟨rfl, rfl⟩
    | interv => rw [hk] at ha; cases ha; unfold updInterv; cases s.num <;> exact .inl ⟨rfl, rfl⟩
    | quit =>
      rw [hk] at ha; cases ha
      unfold close
      split
      · exact hplay
      · exact .inl ⟨rfl, rfl⟩
    | save => rw [hk] at ha; cases ha; exact .inl ⟨rfl, rfl⟩
    | lim =>
      rw [hk] at ha
      have key : ∀ (t u : Bm) (j : Int), setLimsAt t j = .ok u →
          u.shown = t.shown ∧ u.ind = t.ind := by
        intro t u j hu
        unfold setLimsAt at hu
        split at hu
        · split at hu
          · unfold del1 at hu; split at hu <;> cases hu; exact ⟨rfl, rfl⟩
          · unfold del2 at hu; split at hu <;> cases hu; exact ⟨rfl, rfl⟩
        · split at hu
          · unfold del1 del2 at hu
            by_cases h1 : t.faces.1 = true
            · simp only [h1, if_true] at hu
              split at hu <;> cases hu
              exact ⟨rfl, rfl⟩
            · simp only [h1, Bool.false_eq_true, if_false] at hu
              cases hu
          · split at hu
            · cases hu; exact ⟨rfl, rfl⟩
            · unfold set2 at hu
              split at hu
              · cases hu
              · split at hu <;> (cases hu; exact ⟨rfl, rfl⟩)
      have := key _ _ _ (show setLimsAt { s with num := none } (limIndex s) = .ok s2 from ha)
      exact .inl this
    | golim =>
      rw [hk] at ha; cases ha
      unfold gotoLims
      simp only
      split
      · exact .inl ⟨rfl, rfl⟩
      · split
        · exact .inr rfl
        · exact .inl ⟨rfl, rfl⟩
      · split
        · exact .inr rfl
        · exact .inl ⟨rfl, rfl⟩
      · split
        · exact .inr rfl
        · split
          · exact .inr rfl
          · exact .inl ⟨rfl, rfl⟩
    | digit d => rw [hk] at ha; cases ha; exact .inl ⟨rfl, rfl⟩
    | other => rw [hk] at ha; cases ha; exact .inl ⟨rfl, rfl⟩
  | clickNext => cases hs; exact hnext
  | clickPrev => cases hs; exact hprev
  | clickPlay => cases hs; exact hplay
  | slide v =>
    cases hs
    unfold slid
    split
    · exact .inl ⟨rfl, rfl⟩
    · exact .inr rfl
  | tick =>
    obtain ⟨M, i, inc, num, ⟨l1, l2⟩, fc, op, iv, sh⟩ := s
    cases op with
    | false => cases hs; exact .inl ⟨rfl, rfl⟩
    | true =>
    simp only [step, if_true, timerPlay] at hs
    cases l2 with
    | none =>
      simp only at hs
      split at hs
      · cases hs; exact .inr rfl
      · split at hs <;> (cases hs; exact .inr rfl)
    | some b =>
      simp only at hs
      split at hs
      · cases l1 with
        | none => cases hs
        | some a => cases hs; exact .inr rfl
      · split at hs <;> (cases hs; exact .inr rfl)

theorem run_shown {s s1 : Bm} (es : List Event) (h : InRange s) (hf : Fair s es)
    (hl : s.shown.getLast? = some s.ind) (hp : ∀ i ∈ s.shown, 0 ≤ i)
    (hs : run s es = .ok s1) :
    s1.shown.getLast? = some s1.ind ∧ ∀ i ∈ s1.shown, 0 ≤ i := by
  induction es generalizing s with
  | nil => cases hs; exact ⟨hl, hp⟩
  | cons e es ih =>
    simp only [run] at hs
    cases he : step s e with
    | error x => rw [he] at hs; cases hs
    | ok s2 =>
      rw [he] at hs
      have h2 := step_range h hf.1 he
      rcases shown_step he with ⟨g1, g2⟩ | g
      · exact ih h2.1 (hf.2 s2 he) (by rw [g1, g2]; exact hl) (by rw [g1]; exact hp) hs
      · refine ih h2.1 (hf.2 s2 he) (by rw [g]; simp) ?_ hs
        intro i hi
        rw [g, List.mem_append] at hi
        rcases hi with hi | hi
        · exact hp i hi
        · rw [List.mem_singleton.mp hi]; exact h2.1.1.1

/-- **C303.**  Whatever fair history of keys, clicks, slider moves and timer
callbacks, each displayer of the figure holds on the axes the drawing of the
current frame and no other. -/
theorem C303_current (lengths : List Nat) (N : Nat) (hN : 0 < N) (hl : ∀ n ∈ lengths, n = N)
    (es : List Event) (s0 s : Bm) (h0 : create lengths = .ok s0) (hf : Fair s0 es)
    (hs : run s0 es = .ok s) (m : Nat) (hm : 0 < m) (blank : Nat → Bool) :
    ∃ (j : Nat) (d : Disp), s.ind = j ∧ j < N ∧
      drawAll (Disp.init N (some m) blank) true s.shown = .ok d ∧
      (blank j = true → d.visible = []) ∧ (blank j = false → ∃ id, d.visible = [⟨j, id⟩]) := by
  have hr := C297_range_partial lengths N hN hl es s0 s h0 hf hs
  obtain ⟨hlast, hpos⟩ : s.shown.getLast? = some s.ind ∧ ∀ i ∈ s.shown, 0 ≤ i := by
    obtain ⟨n, _, _, rfl⟩ := create_spec h0
    exact run_shown es ⟨⟨le_refl 0, by simp⟩, by simp, by simp⟩ hf rfl (by simp) hs
  have hge : ∀ i ∈ s.shown, -(N : Int) ≤ i := fun i hi => by have := hpos i hi; omega
  obtain ⟨j, hj⟩ := Int.eq_ofNat_of_zero_le hr.1
  obtain ⟨l, hl'⟩ := List.getLast?_eq_some_iff.mp hlast
  have hask : (asked N s.shown).getLast? = some j := by
    rw [hl', asked, List.filter_append, List.map_append]
    have : (s.ind : Int) < N := hr.2
    simp [norm, hj] at this ⊢
    simp [this]
    omega
  obtain ⟨d, hd, h1, h2⟩ := C303_one_drawing_partial N m hm blank s.shown hge j hask
  exact ⟨j, d, hj, by omega, hd, h1, h2⟩

/-! ## C304: the drawings kept -/

/-- **C304.**  A displayer keeps exactly the drawings of the `m` distinct frames
drawn last (those with something to draw), and each kept drawing is the one of
its frame. -/
theorem C304_kept (n m : Nat) (hm : 0 < m) (blank : Nat → Bool) (js : List Nat)
    (hjs : ∀ j ∈ js, j < n) :
    ∃ d, drawAll (Disp.init n (some m) blank) true (js.map (fun j : Nat => (j : Int))) = .ok d ∧
      (∀ j, d.draws j ≠ none ↔ j ∈ js.dedup.reverse.take m ∧ blank j = false) ∧
      ∀ j a, d.draws j = some a → a.frame = j := by
  have hask : asked n (js.map (fun j : Nat => (j : Int))) = js := by
    unfold asked
    rw [List.filter_eq_self.mpr]
    · rw [List.map_map]
      conv_rhs => rw [← List.map_id js]
      refine List.map_congr_left fun j _ => ?_
      exact norm_nat n j
    · intro x hx
      obtain ⟨j, hj, rfl⟩ := List.mem_map.mp hx
      have := hjs j hj
      simpa using this
  obtain ⟨d, hd, hinv⟩ := drawAll_inv hm (inv_init n m blank) (js.map (fun j : Nat => (j : Int)))
    (by intro i hi; obtain ⟨j, _, rfl⟩ := List.mem_map.mp hi; omega)
  rw [List.nil_append, hask] at hinv
  exact ⟨d, hd, hinv.draws_iff, hinv.frame⟩

/-- **C304.**  Drawing again one of the `m` distinct frames drawn last makes no
new drawing; drawing any other frame makes one. -/
theorem C304_reuse (n m : Nat) (hm : 0 < m) (blank : Nat → Bool) (js : List Nat)
    (hjs : ∀ j ∈ js, j < n) (k : Nat) (hk : k < n) (hb : blank k = false) :
    ∃ d d1, drawAll (Disp.init n (some m) blank) true (js.map (fun j : Nat => (j : Int))) = .ok d ∧
      draw d k true = .ok d1 ∧
      d1.fresh = d.fresh + (if k ∈ js.dedup.reverse.take m then 0 else 1) := by
  have hask : asked n (js.map (fun j : Nat => (j : Int))) = js := by
    unfold asked
    rw [List.filter_eq_self.mpr]
    · rw [List.map_map]
      conv_rhs => rw [← List.map_id js]
      refine List.map_congr_left fun j _ => ?_
      exact norm_nat n j
    · intro x hx
      obtain ⟨j, hj, rfl⟩ := List.mem_map.mp hx
      have := hjs j hj
      simpa using this
  obtain ⟨d, hd, hinv⟩ := drawAll_inv hm (inv_init n m blank) (js.map (fun j : Nat => (j : Int)))
    (by intro i hi; obtain ⟨j, _, rfl⟩ := List.mem_map.mp hi; omega)
  rw [List.nil_append, hask] at hinv
  obtain ⟨d1, h1, _, h3⟩ := inv_draw hm hinv k (by exact_mod_cast hk) (by omega)
  have hn : norm n (k : Int) = k := norm_nat n k
  rw [hn, hb] at h3
  refine ⟨d, d1, hd, h1, ?_⟩
  simpa [recent] using h3

example : ((drawAll (Disp.init 5 (some 2) (fun j => j = 3)) true [0, 1, 4, 0, 3, 1]).toOption.map
    fun d => (d.visible.map Art.frame, (List.range 5).filter (fun j => (d.draws j).isSome), d.fresh))
    = some ([1], [1], 5) := by
  decide +kernel

end IMT.Browse
