import Verif.Display.Moves

/-!
# Limits of the frames played, and animations
-/

namespace IMT.Browse

/-! ## C301: setting, removing and visiting limits -/

/-- A limit is drawn on the slider exactly when it is set. -/
def FacesOk (s : Bm) : Prop := s.faces = (s.lims.1.isSome, s.lims.2.isSome)

/-- What is pressed before the key of the limits, and the frame it stands for:
nothing for the frame shown, or the number of a frame. -/
def Picks (s : Bm) (pre : List Event) (j : Int) : Prop :=
  (pre = [] ∧ j = s.ind) ∨ ∃ n : Nat, 0 < n ∧ pre = typed n ∧ j = n - 1

theorem picks_run {s : Bm} {pre : List Event} {j : Int} (hs : s.num = none)
    (h : Picks s pre j) :
    ∃ o, run s pre = .ok { s with num := o } ∧ limIndex { s with num := o } = j := by
  rcases h with ⟨rfl, rfl⟩ | ⟨n, hn, rfl, rfl⟩
  · exact ⟨none, by rw [set_num_none hs]; rfl, rfl⟩
  · exact ⟨some n, run_typed s hs hn, rfl⟩

theorem picks_lim {s s2 : Bm} {pre : List Event} {j : Int} {k : String} (hs : s.num = none)
    (h : Picks s pre j) (hk : k ∈ ["pagedown", "a"])
    (hset : setLimsAt { s with num := none } j = .ok s2) :
    run s (pre ++ [.key k]) = .ok { s2 with num := none } := by
  obtain ⟨o, hr, hj⟩ := picks_run hs h
  rw [run_append_ok _ hr, run_one, step_key (ofString_lim hk) (by simp)
    (show act _ .lim = .ok s2 from by rw [← hset, ← hj]; rfl)]

/-- **C301.**  With no limit set, the key of the limits sets the first one on
the frame picked. -/
theorem C301_first (s : Bm) (hs : s.num = none) (hl : s.lims = (none, none))
    (hf : FacesOk s) (pre : List Event) (j : Int) (hp : Picks s pre j) (k : String)
    (hk : k ∈ ["pagedown", "a"]) :
    run s (pre ++ [.key k]) = .ok { s with lims := (some j, none), faces := (true, false) } := by
  have hf' : s.faces = (false, false) := by rw [hf, hl]; rfl
  rw [picks_lim (s2 := { s with lims := (some j, none), faces := (true, false), num := none })
    hs hp hk]
  · rw [hs]
  · simp [setLimsAt, hl, set1, hf']

/-- **C301.**  With one limit set, the key of the limits on another frame sets
the second one, and the limits are kept in order. -/
theorem C301_second (s : Bm) (hs : s.num = none) (a : Int) (hl : s.lims = (some a, none))
    (hf : FacesOk s) (pre : List Event) (j : Int) (hp : Picks s pre j) (hj : j ≠ a)
    (k : String) (hk : k ∈ ["pagedown", "a"]) :
    run s (pre ++ [.key k])
      = .ok { s with lims := (some (min a j), some (max a j)), faces := (true, true) } := by
  have hf' : s.faces = (true, false) := by rw [hf, hl]; rfl
  rw [picks_lim (s2 := { s with
    lims := (some (min a j), some (max a j)), faces := (true, true), num := none }) hs hp hk]
  · rw [hs]
  · simp only [setLimsAt, hl]
    have h1 : ¬ (some j = some a ∨ some j = none) := by simp [hj]
    rw [if_neg h1]
    simp only [Option.isSome_none, Bool.false_eq_true, false_and, if_false, set2, hl, reduceCtorEq]
    by_cases hlt : j < a
    · rw [if_pos hlt, min_eq_right (le_of_lt hlt), max_eq_left (le_of_lt hlt), hf']
    · rw [if_neg hlt, min_eq_left (not_lt.mp hlt), max_eq_right (not_lt.mp hlt), hf']

/-- **C301.**  On a limit, the key of the limits removes that limit and keeps
the other. -/
theorem C301_remove (s : Bm) (hs : s.num = none) (hf : FacesOk s) (pre : List Event) (j : Int)
    (hp : Picks s pre j) (k : String) (hk : k ∈ ["pagedown", "a"]) :
    (s.lims.1 = some j → ∃ s1, run s (pre ++ [.key k]) = .ok s1 ∧
      s1.lims = (none, s.lims.2) ∧ s1.ind = s.ind ∧ FacesOk s1) ∧
    (s.lims.1 ≠ some j → s.lims.2 = some j → ∃ s1, run s (pre ++ [.key k]) = .ok s1 ∧
      s1.lims = (s.lims.1, none) ∧ s1.ind = s.ind ∧ FacesOk s1) := by
  constructor
  · intro h
    have hf1 : s.faces.1 = true := by rw [hf, h]; rfl
    refine ⟨_, picks_lim (s2 := { s with
      lims := (none, s.lims.2), faces := (false, s.faces.2), num := none }) hs hp hk ?_, rfl, rfl, ?_⟩
    · simp [setLimsAt, h, del1, hf1]
    · simp only [FacesOk, Option.isSome_none]
      rw [show s.faces.2 = s.lims.2.isSome from by rw [hf]]
  · intro h1 h2
    have hf2 : s.faces.2 = true := by rw [hf, h2]; rfl
    refine ⟨_, picks_lim (s2 := { s with
      lims := (s.lims.1, none), faces := (s.faces.1, false), num := none }) hs hp hk ?_, rfl, rfl, ?_⟩
    · simp only [setLimsAt]
      rw [if_pos (Or.inr h2.symm), if_neg (Ne.symm h1)]
      simp [del2, hf2]
    · simp only [FacesOk, Option.isSome_none]
      rw [show s.faces.1 = s.lims.1.isSome from by rw [hf]]

/-- **C301.**  With both limits set, the key of the limits on a third frame
removes both. -/
theorem C301_clear (s : Bm) (hs : s.num = none) (hf : FacesOk s) (a b : Int)
    (hl : s.lims = (some a, some b)) (pre : List Event) (j : Int)
    (hp : Picks s pre j) (ha : j ≠ a) (hb : j ≠ b) (k : String) (hk : k ∈ ["pagedown", "a"]) :
    run s (pre ++ [.key k]) = .ok { s with lims := (none, none), faces := (false, false) } := by
  have hf' : s.faces = (true, true) := by rw [hf, hl]; rfl
  rw [picks_lim (s2 := { s with lims := (none, none), faces := (false, false), num := none })
    hs hp hk]
  · rw [hs]
  · simp only [setLimsAt, hl]
    rw [if_neg (by simp [ha, hb])]
    simp [del1, del2, hf']

/-- **C301.**  With both limits set, the key that visits them goes to the first
one, then to the second, and so on by turns. -/
theorem C301_visit (s : Bm) (a b : Int) (hab : a ≠ b)
    (hl : s.lims = (some a, some b)) (hi : s.ind ≠ a) (k : String) (hk : k ∈ ["pageup", "b"])
    (n : Nat) :
    ∃ s1, run s (List.replicate (n + 1) (.key k)) = .ok s1 ∧
      s1.ind = (if n % 2 = 0 then a else b) ∧ OnlyMoved s s1 := by
  have hstep : ∀ s : Bm, s.lims = (some a, some b) → ∃ s1, step s (.key k) = .ok s1 ∧
      s1.ind = (if s.ind ≠ a then a else b) ∧ OnlyMoved s s1 := by
    intro s hl
    refine ⟨_, step_key (ofString_golim hk) (by simp) rfl, ?_, ?_⟩
    · simp only [gotoLims, hl]
      by_cases h1 : s.ind ≠ a
      · simp [h1, update]
      · by_cases h2 : s.ind ≠ b
        · simp [h1, h2, update]
        · simp only [ne_eq, not_not] at h1 h2
          exact absurd (h1.symm.trans h2) hab
    · simp only [gotoLims, hl]
      split
      · simp [OnlyMoved, update, hl]
      · split <;> simp [OnlyMoved, update, hl]
  induction n with
  | zero =>
    obtain ⟨s1, h1, h2, h3⟩ := hstep s hl
    exact ⟨s1, by rw [List.replicate_one, run_one, h1], by rw [h2, if_pos hi]; simp, h3⟩
  | succ n ih =>
    obtain ⟨s1, h1, h2, h3⟩ := ih
    obtain ⟨s2, g1, g2, g3⟩ := hstep s1 (by rw [h3.2.2.1, hl])
    refine ⟨s2, ?_, ?_, h3.trans g3⟩
    · rw [List.replicate_succ', run_append_ok _ h1, run_one, g1]
    · rw [g2, h2]
      by_cases hn : n % 2 = 0
      · have : (n + 1) % 2 ≠ 0 := by omega
        simp [hn, this]
      · have : (n + 1) % 2 = 0 := by omega
        simp [hn, this, Ne.symm hab]

/-- The three presses that leave the second limit alone. -/
theorem alone_run (s : Bm) (hs : s.num = none) (hl : s.lims = (none, none)) (hf : FacesOk s)
    (a b : Nat) (hab : a < b) :
    ∃ s1, run s (typed (a + 1) ++ [.key "a"] ++ (typed (b + 1) ++ [.key "a"])
        ++ (typed (a + 1) ++ [.key "a"])) = .ok s1 ∧ s1.lims = (none, some (b : Int)) ∧
      s1.faces = (false, true) ∧ s1.num = none ∧ s1.ind = s.ind ∧ s1.incr = s.incr ∧
      s1.indMax = s.indMax ∧ s1.onPlay = s.onPlay := by
  have hpk : ∀ (t : Bm) (c : Nat), Picks t (typed (c + 1)) (c : Int) := fun t c =>
    .inr ⟨c + 1, by omega, rfl, by push_cast; ring⟩
  have h1 := C301_first s hs hl hf _ _ (hpk s a) "a" (by simp)
  have h2 := C301_second { s with lims := (some (a : Int), none), faces := (true, false) } hs a rfl
    rfl _ _ (hpk _ b) (by omega) "a" (by simp)
  rw [min_eq_left (by omega), max_eq_right (by omega)] at h2
  obtain ⟨s3, h3, hl3, hi3, hf3⟩ := (C301_remove
    { s with lims := (some (a : Int), some (b : Int)), faces := (true, true) } hs rfl _ _
    (hpk _ a) "a" (by simp)).1 rfl
  have h4 : run s (typed (a + 1) ++ [.key "a"] ++ (typed (b + 1) ++ [.key "a"])
        ++ (typed (a + 1) ++ [.key "a"])) = .ok s3 := by
    rw [run_append_ok _ (by rw [run_append_ok _ h1]; exact h2)]
    exact h3
  have h5 := picks_lim (s := { s with lims := (some (a : Int), some (b : Int)), faces := (true, true) })
    (s2 := { s with lims := (none, some (b : Int)), faces := (false, true), num := none })
    (k := "a") hs (hpk _ a) (by simp) (by simp [setLimsAt, del1])
  rw [h5] at h3
  cases h3
  exact ⟨_, h4, rfl, rfl, rfl, rfl, rfl, rfl, rfl⟩

/-- **C301 fails** when the first limit is removed and set again beyond the
second one: the limits are then out of order. -/
theorem C301_order_violated (s : Bm) (hs : s.num = none) (hl : s.lims = (none, none))
    (hf : FacesOk s) (a b c : Nat) (hab : a < b) (hbc : b < c) :
    ∃ s1, run s (typed (a + 1) ++ [.key "a"] ++ (typed (b + 1) ++ [.key "a"])
        ++ (typed (a + 1) ++ [.key "a"]) ++ (typed (c + 1) ++ [.key "a"])) = .ok s1 ∧
      s1.lims = (some (c : Int), some (b : Int)) ∧ s1.ind = s.ind ∧ s1.incr = s.incr ∧
      s1.onPlay = s.onPlay := by
  obtain ⟨s1, h1, hl1, hf1, hn1, hi1, hc1, _, hp1⟩ := alone_run s hs hl hf a b hab
  refine ⟨_, (run_append_ok _ h1).trans (picks_lim
    (s2 := { s1 with lims := (some (c : Int), some (b : Int)), faces := (true, true), num := none })
    hn1 (.inr ⟨c + 1, by omega, rfl, by push_cast; ring⟩) (by simp) ?_), rfl, hi1, hc1, hp1⟩
  have hne : (c : Int) ≠ b := by omega
  simp [setLimsAt, set1, hl1, hf1, hne]

/-- **C301 fails**: with limits out of order, playing shows the same frame over
and over, once it is past the second limit. -/
theorem C301_stuck_violated (s : Bm) (hp : s.onPlay = true) (b c : Int)
    (hl : s.lims = (some c, some b)) (hbc : b < c) (hi : b ≤ s.ind + s.incr) (n : Nat) :
    ∃ s1, run s (List.replicate (n + 1) .tick) = .ok s1 ∧ s1.ind = c ∧ OnlyMoved s s1 := by
  have hstep : ∀ s : Bm, s.onPlay = true → s.lims = (some c, some b) → b ≤ s.ind + s.incr →
      ∃ s1, step s .tick = .ok s1 ∧ s1.ind = c ∧ OnlyMoved s s1 := by
    intro s hp hl hi
    refine ⟨update { s with ind := c }, ?_, rfl, OnlyMoved.refl s⟩
    simp only [step, hp, if_true, timerPlay, hl]
    rw [if_pos hi]
  induction n with
  | zero =>
    obtain ⟨s1, h1, h2, h3⟩ := hstep s hp hl hi
    exact ⟨s1, by rw [List.replicate_one, run_one, h1], h2, h3⟩
  | succ n ih =>
    obtain ⟨s1, h1, h2, h3⟩ := ih
    obtain ⟨s2, g1, g2, g3⟩ := hstep s1 (by rw [h3.2.2.2.2.1, hp]) (by rw [h3.2.2.1, hl])
      (by rw [h2]; omega)
    exact ⟨s2, by rw [List.replicate_succ', run_append_ok _ h1, run_one, g1], g2, h3.trans g3⟩

/-- **C300 fails** when the first of two limits was removed: playing then stops
on an error as soon as the second limit is reached. -/
theorem C300_alone_violated (s : Bm) (hs : s.num = none) (hl : s.lims = (none, none))
    (hf : FacesOk s) (hp : s.onPlay = false) (hc : s.incr = 1) (hi : s.ind = 0)
    (a b : Nat) (hab : a < b) (hb : b ≤ s.indMax) :
    run s (typed (a + 1) ++ [.key "a"] ++ (typed (b + 1) ++ [.key "a"])
        ++ (typed (a + 1) ++ [.key "a"]) ++ ([.key "p"] ++ List.replicate b .tick))
      = .error .typeError := by
  obtain ⟨s1, h1, hl1, hf1, hn1, hi1, hc1, hm1, hp1⟩ := alone_run s hs hl hf a b hab
  rw [run_append_ok _ h1]
  have hplay : run s1 [.key "p"] = .ok { s1 with onPlay := true } := by
    rw [run_one, step_key (ofString_play (by simp)) (by simp) rfl]
    simp only [playf, updInterv, hn1, hp1, hp, Bool.not_false]
  rw [run_append_ok _ hplay]
  have key : ∀ (k : Nat) (t : Bm), t.onPlay = true → t.lims = (none, some (b : Int)) →
      t.incr = 1 → t.indMax = s.indMax → 0 ≤ t.ind → t.ind + (k + 1 : Nat) = b →
      run t (List.replicate (k + 1) .tick) = .error .typeError := by
    intro k
    induction k with
    | zero =>
      intro t ht hlt hct hmt h0 hk
      rw [List.replicate_one, run_one]
      simp only [step, ht, if_true, timerPlay, hlt, hct]
      rw [if_pos (by push_cast at hk ⊢; omega)]
    | succ k ih =>
      intro t ht hlt hct hmt h0 hk
      have hst : step t .tick = .ok (update { t with ind := t.ind + (t.incr : Int) }) := by
        simp only [step, ht, if_true, timerPlay, hlt, hct]
        rw [if_neg (by push_cast at hk ⊢; omega), if_neg (by rw [hmt]; push_cast at hk ⊢; omega)]
      rw [List.replicate_succ, run_cons_ok _ hst]
      refine ih _ ht hlt hct hmt ?_ ?_
      · simp only [update]; omega
      · simp only [update, hct]; push_cast at hk ⊢; omega
  obtain ⟨k, rfl⟩ : ∃ k, b = k + 1 := ⟨b - 1, by omega⟩
  exact key k _ rfl (by exact_mod_cast hl1) (hc1.trans hc) hm1 (by simp only [hi1, hi]; omega)
    (by simp only [hi1, hi]; omega)

/-- Without the timer no event fails. -/
theorem facesOk_step {s : Bm} (hf : FacesOk s) (e : Event) :
    (∃ s1, step s e = .ok s1 ∧ FacesOk s1) ∨ (e = .tick ∧ s.onPlay = true ∧ s.lims.1 = none ∧
      s.lims.2.isSome ∧ step s e = .error .typeError) := by
  obtain ⟨M, i, inc, num, ⟨l1, l2⟩, fc, op, iv, sh⟩ := s
  simp only [FacesOk] at hf
  subst hf
  cases e with
  | key k =>
    left
    cases hk : Key.ofString k with
    | lim =>
      suffices H : ∃ s1, setLims ⟨M, i, inc, num, ⟨l1, l2⟩, (l1.isSome, l2.isSome), op, iv, sh⟩
          = .ok s1 ∧ FacesOk s1 by
        obtain ⟨s1, h1, h2⟩ := H
        exact ⟨_, step_key hk (by simp) h1, h2⟩
      unfold setLims
      generalize limIndex _ = j
      unfold setLimsAt
      cases l1 with
      | none =>
        cases l2 with
        | none => exact ⟨_, rfl, by simp [FacesOk, set1]⟩
        | some b =>
          by_cases h : j = b
          · subst h
            exact ⟨⟨M, i, inc, none, (none, none), (false, false), op, iv, sh⟩, by simp [del2], rfl⟩
          · exact ⟨⟨M, i, inc, none, (some j, some b), (true, true), op, iv, sh⟩,
              by simp [h, set1], rfl⟩
      | some a =>
        cases l2 with
        | none =>
          by_cases h : j = a
          · subst h
            exact ⟨⟨M, i, inc, none, (none, none), (false, false), op, iv, sh⟩, by simp [del1], rfl⟩
          · by_cases hlt : j < a
            · exact ⟨⟨M, i, inc, none, (some j, some a), (true, true), op, iv, sh⟩,
                by simp [h, set2, hlt], rfl⟩
            · exact ⟨⟨M, i, inc, none, (some a, some j), (true, true), op, iv, sh⟩,
                by simp [h, set2, hlt], rfl⟩
        | some b =>
          by_cases h : j = a
          · subst h
            exact ⟨⟨M, i, inc, none, (none, some b), (false, true), op, iv, sh⟩,
              by simp [del1], rfl⟩
          · by_cases h2 : j = b
            · subst h2
              exact ⟨⟨M, i, inc, none, (some a, none), (true, false), op, iv, sh⟩,
                by simp [h, del2], rfl⟩
            · exact ⟨⟨M, i, inc, none, (none, none), (false, false), op, iv, sh⟩,
                by simp [h, h2, del1, del2], rfl⟩
    | next =>
      refine ⟨_, step_key hk (by simp) rfl, ?_⟩
      have := (nextf_moved ⟨M, i, inc, num, ⟨l1, l2⟩, (l1.isSome, l2.isSome), op, iv, sh⟩).1
      simp only [FacesOk]; rw [this.2.2.2.1, this.2.2.1]
    | prev =>
      refine ⟨_, step_key hk (by simp) rfl, ?_⟩
      have := (prevf_moved ⟨M, i, inc, num, ⟨l1, l2⟩, (l1.isSome, l2.isSome), op, iv, sh⟩).1
      simp only [FacesOk]; rw [this.2.2.2.1, this.2.2.1]
    | last =>
      refine ⟨_, step_key hk (by simp) rfl, ?_⟩
      simp only [FacesOk, gotoEnd]; split <;> rfl
    | first =>
      refine ⟨_, step_key hk (by simp) rfl, ?_⟩
      simp only [FacesOk, gotoBeg]; split <;> rfl
    | goto =>
      refine ⟨_, step_key hk (by simp) rfl, ?_⟩
      cases num with
      | none => rfl
      | some n => simp only [FacesOk, goto]; split <;> rfl
    | play =>
      refine ⟨_, step_key hk (by simp) rfl, ?_⟩
      cases num <;> rfl
    | incr =>
      refine ⟨_, step_key hk (by simp) rfl, ?_⟩
      cases num <;> rfl
    | interv =>
      refine ⟨_, step_key hk (by simp) rfl, ?_⟩
      cases num <;> rfl
    | quit =>
      refine ⟨_, step_key hk (by simp) rfl, ?_⟩
      cases op <;> cases num <;> rfl
    | save => exact ⟨_, step_key hk (by simp) rfl, rfl⟩
    | golim =>
      refine ⟨_, step_key hk (by simp) rfl, ?_⟩
      cases l1 <;> cases l2 <;> simp only [FacesOk, gotoLims] <;> repeat' split
      all_goals rfl
    | digit d => simp only [step, hk, keyf, act]; exact ⟨_, rfl, rfl⟩
    | other => exact ⟨_, step_key hk (by simp) rfl, rfl⟩
  | clickNext =>
    refine .inl ⟨_, rfl, ?_⟩
    have := (nextf_moved ⟨M, i, inc, num, ⟨l1, l2⟩, (l1.isSome, l2.isSome), op, iv, sh⟩).1
    simp only [FacesOk]; rw [this.2.2.2.1, this.2.2.1]
  | clickPrev =>
    refine .inl ⟨_, rfl, ?_⟩
    have := (prevf_moved ⟨M, i, inc, num, ⟨l1, l2⟩, (l1.isSome, l2.isSome), op, iv, sh⟩).1
    simp only [FacesOk]; rw [this.2.2.2.1, this.2.2.1]
  | clickPlay => refine .inl ⟨_, rfl, ?_⟩; cases num <;> rfl
  | slide v => refine .inl ⟨_, rfl, ?_⟩; simp only [FacesOk, slid]; split <;> rfl
  | tick =>
    cases op with
    | false => exact .inl ⟨_, rfl, rfl⟩
    | true =>
      simp only [step, if_true, timerPlay]
      cases l2 with
      | none =>
        left
        simp only
        split
        · exact ⟨_, rfl, rfl⟩
        · split <;> exact ⟨_, rfl, rfl⟩
      | some b =>
        simp only
        split
        · cases l1 with
          | none => right; simp
          | some a => exact .inl ⟨_, rfl, rfl⟩
        · left
          split <;> exact ⟨_, rfl, rfl⟩

/-- **C301.**  No key, click or move of the slider ever fails, whatever came
before. -/
theorem C301_no_error (lengths : List Nat) (s0 : Bm) (h0 : create lengths = .ok s0)
    (es : List Event) (he : ∀ e ∈ es, e ≠ .tick) : ∃ s, run s0 es = .ok s ∧ FacesOk s := by
  have hf0 : FacesOk s0 := by
    obtain ⟨n, _, _, rfl⟩ := create_spec h0
    rfl
  clear h0
  induction es generalizing s0 with
  | nil => exact ⟨s0, rfl, hf0⟩
  | cons e es ih =>
    rcases facesOk_step hf0 e with ⟨s1, h1, hf1⟩ | ⟨h, _⟩
    · rw [run_cons_ok _ h1]
      exact ih s1 (fun x hx => he x (by simp [hx])) hf1
    · exact absurd h (he e (by simp))

example : ((create [9]).toOption.bind fun s => (run s [.key "7", .key "a", .key "3", .key "a",
    .key "b", .key "b", .key "b"]).toOption).map (fun s => (s.lims, s.shown))
      = some ((some 2, some 6), [0, 2, 6, 2]) := by
  decide +kernel

/-! ## C302: animations -/

theorem grab_spec (s : Bm) (hs : s.num = none) (hc : s.incr = 1) (n : Nat)
    (hi : s.ind + n ≤ s.indMax) :
    (grab s n).2 = (List.range n).map (fun i : Nat => s.ind + 1 + (i : Int)) ∧
      OnlyMoved s (grab s n).1 := by
  induction n generalizing s with
  | zero => exact ⟨rfl, OnlyMoved.refl s⟩
  | succ n ih =>
    have hm := nextf_moved s
    have hind := nextf_ind s (by push_cast at hi; omega)
    rw [hs, hc] at hind
    simp only [Option.getD_none] at hind
    have hj : (nextf s).ind = s.ind + 1 := by rw [hind]; push_cast at hi ⊢; omega
    obtain ⟨h1, h2⟩ := ih (nextf s) hm.2 (hm.1.2.1.trans hc)
      (by rw [hj, hm.1.1]; push_cast at hi ⊢; omega)
    refine ⟨?_, hm.1.trans h2⟩
    simp only [grab, h1, hj, List.range_succ_eq_map, List.map_cons, List.map_map,
      List.cons.injEq]
    refine ⟨by simp, List.map_congr_left fun i _ => ?_⟩
    simp only [Function.comp]
    push_cast
    ring

/-- **C302.**  An animation of the fields `f0` to `f1` holds them in order, and
the figure is back on its frame afterwards.  Missing: the first field
(`C302_first_violated`). -/
theorem C302_animation_partial (s : Bm) (hs : s.num = none) (hc : s.incr = 1) (f0 f1 : Int)
    (h01 : f0 ≤ f1) (h1 : f1 ≤ s.indMax) :
    (saveAnim s f0 f1).1 = (List.range (f1 - f0).toNat).map (fun i : Nat => f0 + 1 + (i : Int)) ∧
      (saveAnim s f0 f1).2.ind = s.ind ∧ OnlyMoved s (saveAnim s f0 f1).2 := by
  have h := grab_spec (update { s with ind := f0 }) hs hc (f1 - f0).toNat
    (by simp only [update]; omega)
  exact ⟨h.1, rfl, h.2⟩

/-- **C302 fails** on the first field: it is never part of the animation, which
is one frame short. -/
theorem C302_first_violated (s : Bm) (hs : s.num = none) (hc : s.incr = 1) (f0 f1 : Int)
    (h01 : f0 ≤ f1) (h1 : f1 ≤ s.indMax) :
    f0 ∉ (saveAnim s f0 f1).1 ∧ ((saveAnim s f0 f1).1.length : Int) = f1 - f0 := by
  rw [(C302_animation_partial s hs hc f0 f1 h01 h1).1]
  constructor
  · intro hm
    obtain ⟨i, _, hi⟩ := List.mem_map.mp hm
    omega
  · simp only [List.length_map, List.length_range]
    omega

example : ((create [4]).toOption.map fun s => ((saveAnim s 0 3).1, (saveAnim s 0 3).2.shown))
    = some ([1, 2, 3], [0, 0, 1, 2, 3, 0]) := by
  decide +kernel

end IMT.Browse
