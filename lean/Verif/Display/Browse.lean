import Verif.Display.BrowseLemmas

/-!
# Properties of the browsing of frames

A figure shows the frames `0 .. indMax` of a series, one at a time.  `typed n`
are the digit keys that write the number `n`; frames are numbered from one for
the user.
-/

namespace IMT.Browse

/-! ## C297: the frame shown is one of the frames -/

/-- The events the range can be trusted for: no `0` before the keys that go to
a frame by its number, a number of frame before the key that sets a limit, and
the slider inside its own bounds. -/
def FairEvent (s : Bm) : Event → Prop
  | .key k => (k ∈ ["up", "k", "down", "j"] → s.num ≠ some 0) ∧
      (k ∈ ["pagedown", "a"] → ∀ n, s.num = some n → 1 ≤ n ∧ n ≤ s.indMax + 1)
  | .slide v => 1 ≤ v ∧ v ≤ s.indMax + 1
  | _ => True

/-- Every event of the history is fair in the state it meets. -/
def Fair (s : Bm) : List Event → Prop
  | [] => True
  | e :: es => FairEvent s e ∧ ∀ s1, step s e = .ok s1 → Fair s1 es

/-- The index and the limits are those of frames. -/
def InRange (s : Bm) : Prop :=
  (0 ≤ s.ind ∧ s.ind ≤ s.indMax) ∧
    (∀ a, s.lims.1 = some a → 0 ≤ a ∧ a ≤ s.indMax) ∧
    (∀ b, s.lims.2 = some b → 0 ≤ b ∧ b ≤ s.indMax)

theorem inRange_num {s : Bm} (h : InRange s) (o : Option Nat) : InRange { s with num := o } := h

theorem inRange_ind {s : Bm} (h : InRange s) {i : Int} (h0 : 0 ≤ i) (h1 : i ≤ s.indMax) :
    InRange (update { s with num := none, ind := i }) := ⟨⟨h0, h1⟩, h.2⟩

theorem nextf_range {s : Bm} (h : InRange s) :
    InRange (nextf s) ∧ (nextf s).indMax = s.indMax := by
  unfold nextf
  simp only
  split
  · exact ⟨h, rfl⟩
  · refine ⟨?_, rfl⟩
    refine inRange_ind h ?_ ?_ <;> split <;> have := h.1 <;> omega

theorem prevf_range {s : Bm} (h : InRange s) :
    InRange (prevf s) ∧ (prevf s).indMax = s.indMax := by
  unfold prevf
  simp only
  split
  · exact ⟨h, rfl⟩
  · refine ⟨?_, rfl⟩
    refine inRange_ind h ?_ ?_ <;> split <;> have := h.1 <;> omega

theorem playf_range {s : Bm} (h : InRange s) :
    InRange (playf s) ∧ (playf s).indMax = s.indMax := by
  unfold playf updInterv
  cases s.num <;> exact ⟨h, rfl⟩

theorem setLims_range {s s1 : Bm} (h : InRange s)
    (hn : ∀ n, s.num = some n → 1 ≤ n ∧ n ≤ s.indMax + 1) (hs : setLims s = .ok s1) :
    InRange s1 ∧ s1.indMax = s.indMax := by
  have hk : 0 ≤ limIndex s ∧ limIndex s ≤ s.indMax := by
    unfold limIndex
    cases hnum : s.num with
    | none => exact h.1
    | some n =>
      have := hn n hnum
      simp only
      omega
  unfold setLims setLimsAt at hs
  simp only at hs
  generalize limIndex s = k at hs hk
  split at hs
  · split at hs
    · unfold del1 at hs
      split at hs
      · cases hs
        exact ⟨⟨h.1, by simp, h.2.2⟩, rfl⟩
      · cases hs
    · unfold del2 at hs
      split at hs
      · cases hs
        exact ⟨⟨h.1, h.2.1, by simp⟩, rfl⟩
      · cases hs
  · split at hs
    · unfold del1 del2 at hs
      simp only at hs
      split at hs
      · cases hs
      · rename_i s2 hs2
        split at hs2
        · cases hs2
          simp only at hs
          split at hs
          · cases hs
            exact ⟨⟨h.1, by simp, by simp⟩, rfl⟩
          · cases hs
        · cases hs2
    · split at hs
      · cases hs
        refine ⟨⟨h.1, ?_, h.2.2⟩, rfl⟩
        intro a ha
        simp only [set1, Option.some.injEq] at ha
        subst ha
        exact hk
      · unfold set2 at hs
        cases ha : s.lims.1 with
        | none => simp only [ha] at hs; cases hs
        | some a =>
          simp only [ha] at hs
          have hb := h.2.1 a ha
          split at hs
          · cases hs
            refine ⟨⟨h.1, ?_, ?_⟩, rfl⟩
            · intro x hx
              simp only [Option.some.injEq] at hx
              subst hx
              exact hk
            · intro x hx
              simp only [Option.some.injEq] at hx
              subst hx
              exact hb
          · cases hs
            refine ⟨⟨h.1, ?_, ?_⟩, rfl⟩
            · intro x hx
              simp only [Option.some.injEq] at hx
              subst hx
              exact hb
            · intro x hx
              simp only [Option.some.injEq] at hx
              subst hx
              exact hk

theorem gotoLims_range {s : Bm} (h : InRange s) :
    InRange (gotoLims s) ∧ (gotoLims s).indMax = s.indMax := by
  obtain ⟨M, i, inc, num, ⟨l1, l2⟩, fc, op, iv, sh⟩ := s
  cases l1 with
  | none =>
    cases l2 with
    | none => exact ⟨h, rfl⟩
    | some b =>
      have hb := h.2.2 b rfl
      simp only [gotoLims]
      split
      · exact ⟨⟨hb, h.2⟩, rfl⟩
      · exact ⟨h, rfl⟩
  | some a =>
    have ha := h.2.1 a rfl
    cases l2 with
    | none =>
      simp only [gotoLims]
      split
      · exact ⟨⟨ha, h.2⟩, rfl⟩
      · exact ⟨h, rfl⟩
    | some b =>
      have hb := h.2.2 b rfl
      simp only [gotoLims]
      split
      · exact ⟨⟨ha, h.2⟩, rfl⟩
      · split
        · exact ⟨⟨hb, h.2⟩, rfl⟩
        · exact ⟨h, rfl⟩

theorem keyf_num {s s1 : Bm} {k : Key} (h : keyf s k = .ok s1) :
    ∃ s2, act s k = .ok s2 ∧ ∃ o, s1 = { s2 with num := o } := by
  unfold keyf at h
  cases ha : act s k with
  | error e => rw [ha] at h; cases h
  | ok s2 =>
    rw [ha] at h
    refine ⟨s2, rfl, ?_⟩
    cases k <;> (simp only [Except.ok.injEq] at h; exact ⟨_, h.symm⟩)

theorem step_range {s s1 : Bm} {e : Event} (h : InRange s) (hf : FairEvent s e)
    (hs : step s e = .ok s1) : InRange s1 ∧ s1.indMax = s.indMax := by
  cases e with
  | key k =>
    obtain ⟨s2, ha, o, rfl⟩ := keyf_num (show keyf s (Key.ofString k) = .ok s1 from hs)
    suffices H : InRange s2 ∧ s2.indMax = s.indMax from ⟨inRange_num H.1 o, H.2⟩
    cases hk : Key.ofString k with
    | next => rw [hk] at ha; cases ha; exact nextf_range h
    | prev => rw [hk] at ha; cases ha; exact prevf_range h
    | last =>
      rw [hk] at ha
      have hz : s.num ≠ some 0 := hf.1 (by
        have := name_of_last hk
        simp only [List.mem_cons, List.not_mem_nil, or_false] at this ⊢
        tauto)
      cases ha
      unfold gotoEnd
      simp only
      split
      · exact ⟨h, rfl⟩
      · rename_i hle
        refine ⟨inRange_ind h ?_ ?_, rfl⟩
        · cases hn : s.num with
          | none => simp
          | some n =>
            have : n ≠ 0 := fun h0 => hz (by rw [hn, h0])
            simp only [Option.getD_some]
            omega
        · omega
    | first =>
      rw [hk] at ha
      have hz : s.num ≠ some 0 := hf.1 (by
        have := name_of_first hk
        simp only [List.mem_cons, List.not_mem_nil, or_false] at this ⊢
        tauto)
      cases ha
      unfold gotoBeg
      simp only
      split
      · exact ⟨h, rfl⟩
      · rename_i hle
        refine ⟨inRange_ind h ?_ ?_, rfl⟩
        · cases hn : s.num with
          | none => simp
          | some n =>
            have : n ≠ 0 := fun h0 => hz (by rw [hn, h0])
            simp only [Option.getD_some]
            omega
        · omega
    | goto =>
      rw [hk] at ha
      cases ha
      unfold goto
      cases hn : s.num with
      | none => exact ⟨h, rfl⟩
      | some n =>
        simp only
        split
        · exact ⟨h, rfl⟩
        · exact ⟨inRange_ind h (by omega) (by omega), rfl⟩
    | play => rw [hk] at ha; cases ha; exact playf_range h
    | incr =>
      rw [hk] at ha; cases ha
      unfold updIncr
      cases s.num <;> exact ⟨h, rfl⟩
    | interv =>
      rw [hk] at ha; cases ha
      unfold updInterv
      cases s.num <;> exact ⟨h, rfl⟩
    | quit =>
      rw [hk] at ha; cases ha
      unfold close
      split
      · exact playf_range h
      · exact ⟨h, rfl⟩
    | save => rw [hk] at ha; cases ha; exact ⟨h, rfl⟩
    | lim => rw [hk] at ha; exact setLims_range h (hf.2 (name_of_lim hk)) ha
    | golim => rw [hk] at ha; cases ha; exact gotoLims_range h
    | digit d => rw [hk] at ha; cases ha; exact ⟨h, rfl⟩
    | other => rw [hk] at ha; cases ha; exact ⟨h, rfl⟩
  | clickNext => cases hs; exact nextf_range h
  | clickPrev => cases hs; exact prevf_range h
  | clickPlay => cases hs; exact playf_range h
  | slide v =>
    simp only [step, Except.ok.injEq] at hs
    subst hs
    unfold slid
    split
    · exact ⟨h, rfl⟩
    · have hv : ¬ v < 0 := by have := hf.1; linarith
      have h1 : (1 : Int) ≤ v.floor := by
        rw [Rat.le_floor_iff]; exact_mod_cast hf.1
      have h2 : v.floor ≤ (s.indMax : Int) + 1 := by
        have := Rat.floor_le v
        have h3 : (v.floor : Rat) ≤ (s.indMax : Rat) + 1 := le_trans this hf.2
        exact_mod_cast h3
      refine ⟨⟨⟨?_, ?_⟩, h.2⟩, rfl⟩
      · simp only [trunc, if_neg hv, update]; omega
      · simp only [trunc, if_neg hv, update]; omega
  | tick =>
    obtain ⟨M, i, inc, num, ⟨l1, l2⟩, fc, op, iv, sh⟩ := s
    cases op with
    | false => cases hs; exact ⟨h, rfl⟩
    | true =>
    have hi := h.1
    simp only [step, if_true, timerPlay] at hs
    simp only at hi
    cases l2 with
    | none =>
      simp only at hs
      split at hs
      · cases hs
        exact ⟨⟨⟨le_refl 0, by simp [update]⟩, h.2⟩, rfl⟩
      · split at hs
        · cases hs
          exact ⟨⟨⟨le_refl 0, by simp [update]⟩, h.2⟩, rfl⟩
        · cases hs
          exact ⟨⟨⟨by simp only [update]; omega, by simp only [update]; omega⟩, h.2⟩, rfl⟩
    | some b =>
      simp only at hs
      split at hs
      · cases l1 with
        | none => cases hs
        | some a =>
          cases hs
          exact ⟨⟨h.2.1 a rfl, h.2⟩, rfl⟩
      · split at hs
        · cases hs
          exact ⟨⟨⟨le_refl 0, by simp [update]⟩, h.2⟩, rfl⟩
        · cases hs
          exact ⟨⟨⟨by simp only [update]; omega, by simp only [update]; omega⟩, h.2⟩, rfl⟩

theorem run_range {s s1 : Bm} (es : List Event) (h : InRange s) (hf : Fair s es)
    (hs : run s es = .ok s1) : InRange s1 ∧ s1.indMax = s.indMax := by
  induction es generalizing s with
  | nil => cases hs; exact ⟨h, rfl⟩
  | cons e es ih =>
    simp only [run] at hs
    cases he : step s e with
    | error x => rw [he] at hs; cases hs
    | ok s2 =>
      rw [he] at hs
      have h2 := step_range h hf.1 he
      have h3 := ih h2.1 (hf.2 s2 he) hs
      exact ⟨h3.1, h3.2.trans h2.2⟩

theorem create_spec {lengths : List Nat} {s : Bm} (h : create lengths = .ok s) :
    ∃ n, lengths ≠ [] ∧ (∀ m ∈ lengths, m = n) ∧ s =
      { indMax := n - 1, ind := 0, incr := 1, num := none, lims := (none, none),
        faces := (false, false), onPlay := false, interv := 2, shown := [0] } := by
  unfold create indMaxOf at h
  cases lengths with
  | nil => cases h
  | cons n rest =>
    by_cases hc : (n :: rest).any (· ≠ n) = true
    · simp only [hc, if_true] at h; cases h
    · simp only [hc] at h
      refine ⟨n, by simp, ?_, ?_⟩
      · intro m hm
        by_contra hne
        exact hc (List.any_eq_true.mpr ⟨m, hm, by simpa using hne⟩)
      · simp only [Bool.false_eq_true, if_false, Except.ok.injEq] at h
        exact h.symm

/-- **C297.**  Whatever fair sequence of keys, clicks, slider moves and timer
callbacks follows the creation of a figure of `N` frames, the index shown is
that of a frame. -/
theorem C297_range_partial (lengths : List Nat) (N : Nat) (hN : 0 < N)
    (hl : ∀ m ∈ lengths, m = N) (es : List Event) (s0 s : Bm)
    (h0 : create lengths = .ok s0) (hf : Fair s0 es) (hs : run s0 es = .ok s) :
    0 ≤ s.ind ∧ s.ind < N := by
  obtain ⟨n, hne, hn, rfl⟩ := create_spec h0
  obtain ⟨m, hm⟩ := List.exists_mem_of_ne_nil _ hne
  have : n = N := (hn m hm).symm.trans (hl m hm)
  subst this
  have h := run_range es (s := _) ⟨⟨le_refl 0, by simp⟩, by simp, by simp⟩ hf hs
  have h1 := h.1.1
  have h2 := h.2
  simp only at h2
  rw [h2] at h1
  omega

/-- **C297 fails** on a zero: in any state, `0` then `up` or `down` leaves the
index at minus one. -/
theorem C297_zero_violated (s : Bm) (hs : s.num = none) (k : String)
    (hk : k ∈ ["up", "k", "down", "j"]) :
    ∃ s1, run s [.key "0", .key k] = .ok s1 ∧ s1.ind = -1 := by
  have h0 : step s (.key "0") = .ok { s with num := some 0 } := by
    have := step_digit s (d := 0) (by norm_num)
    rw [hs] at this
    exact this
  rw [run_cons_ok _ h0, run_one]
  simp only [List.mem_cons, List.not_mem_nil, or_false] at hk
  have hk' : Key.ofString k = .last ∨ Key.ofString k = .first := by
    rcases hk with h | h | h | h
    · exact .inl (ofString_last (by simp [h]))
    · exact .inl (ofString_last (by simp [h]))
    · exact .inr (ofString_first (by simp [h]))
    · exact .inr (ofString_first (by simp [h]))
  rcases hk' with h | h
  · exact ⟨_, step_key h (by simp) rfl, by simp [gotoEnd, update]⟩
  · exact ⟨_, step_key h (by simp) rfl, by simp [gotoBeg, update]⟩

/-- **C297 fails** on limits: the number of no frame is accepted as a limit,
and going to the limit leaves the frames. -/
theorem C297_limit_violated (s : Bm) (hs : s.num = none) (hl : s.lims = (none, none))
    (hi : s.ind ≤ s.indMax) (n : Nat) (hn : s.indMax + 1 < n) :
    ∃ s1, run s (typed n ++ [.key "a", .key "b"]) = .ok s1 ∧ s1.ind = n - 1 ∧
      s1.indMax = s.indMax ∧ s1.ind > s1.indMax := by
  rw [run_typed_then s hs (by omega)]
  have ha : Key.ofString "a" = .lim := ofString_lim (by simp)
  have hb : Key.ofString "b" = .golim := ofString_golim (by simp)
  have hne : s.ind ≠ (n : Int) - 1 := by omega
  refine ⟨_, by simp only [run, step, ha, hb, keyf, act, setLims, setLimsAt, limIndex, hl, set1, gotoLims]; rfl, ?_⟩
  simp [update, hne]
  omega

example : ∃ s0, create [5, 5] = .ok s0 ∧
    Fair s0 [.key "right", .key "3", .key "up", .key "a", .slide (7/2), .key "p", .tick] ∧
    (run s0 [.key "right", .key "3", .key "up", .key "a", .slide (7/2), .key "p",
      .tick]).toOption.map (·.ind) = some 3 := by
  refine ⟨_, rfl, ?_, ?_⟩
  · have h1 : Key.ofString "right" = .next := by decide +kernel
    have h2 : Key.ofString "3" = .digit 3 := by decide +kernel
    have h3 : Key.ofString "up" = .last := by decide +kernel
    have h4 : Key.ofString "a" = .lim := by decide +kernel
    refine ⟨⟨by simp, by simp⟩, ?_⟩
    intro s1 hs1
    simp only [step, h1, keyf, act, Except.ok.injEq] at hs1
    subst hs1
    refine ⟨⟨by simp, by simp⟩, ?_⟩
    intro s2 hs2
    simp only [step, h2, keyf, act, Except.ok.injEq] at hs2
    subst hs2
    refine ⟨⟨by simp, by simp⟩, ?_⟩
    intro s3 hs3
    simp only [step, h3, keyf, act, Except.ok.injEq] at hs3
    subst hs3
    refine ⟨⟨by simp, by simp⟩, ?_⟩
    intro s4 hs4
    have hm : s4.indMax = 4 := by
      refine (step_range (e := .key "a") ?_ ⟨by simp, by simp⟩ hs4).2.trans (by rfl)
      refine ⟨⟨by decide, by decide⟩, ?_, ?_⟩
      · intro a h; cases h
      · intro a h; cases h
    refine ⟨⟨by norm_num, by rw [hm]; norm_num⟩, ?_⟩
    intro s5 _
    refine ⟨⟨by simp, by simp⟩, ?_⟩
    intro s6 _
    exact ⟨trivial, fun _ _ => trivial⟩
  · decide +kernel

end IMT.Browse
