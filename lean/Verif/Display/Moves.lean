import Verif.Display.Browse
import Mathlib.Data.Int.ModEq

/-!
# Moving through the frames: next and previous, going to a frame, playing,
limits, and animations
-/

namespace IMT.Browse

/-- The events that ask for the next frame. -/
def IsNext (e : Event) : Prop :=
  e = .clickNext ∨ ∃ k ∈ [" ", "right", "+", "l"], e = .key k

/-- The events that ask for the previous frame. -/
def IsPrev (e : Event) : Prop :=
  e = .clickPrev ∨ ∃ k ∈ ["left", "backspace", "-", "h"], e = .key k

/-- Only the frame shown changed: same frames, same step, same limits, same
timer. -/
def OnlyMoved (s s1 : Bm) : Prop :=
  s1.indMax = s.indMax ∧ s1.incr = s.incr ∧ s1.lims = s.lims ∧ s1.faces = s.faces ∧
    s1.onPlay = s.onPlay ∧ s1.interv = s.interv

theorem OnlyMoved.refl (s : Bm) : OnlyMoved s s := ⟨rfl, rfl, rfl, rfl, rfl, rfl⟩

theorem OnlyMoved.trans {s t u : Bm} (h : OnlyMoved s t) (g : OnlyMoved t u) : OnlyMoved s u :=
  ⟨g.1.trans h.1, g.2.1.trans h.2.1, g.2.2.1.trans h.2.2.1, g.2.2.2.1.trans h.2.2.2.1,
    g.2.2.2.2.1.trans h.2.2.2.2.1, g.2.2.2.2.2.trans h.2.2.2.2.2⟩

theorem nextf_moved (s : Bm) : OnlyMoved s (nextf s) ∧ (nextf s).num = none := by
  unfold nextf
  simp only
  split <;> exact ⟨⟨rfl, rfl, rfl, rfl, rfl, rfl⟩, rfl⟩

theorem prevf_moved (s : Bm) : OnlyMoved s (prevf s) ∧ (prevf s).num = none := by
  unfold prevf
  simp only
  split <;> exact ⟨⟨rfl, rfl, rfl, rfl, rfl, rfl⟩, rfl⟩

theorem nextf_ind (s : Bm) (h : s.ind ≤ s.indMax) :
    (nextf s).ind = min (s.ind + (s.num.getD s.incr : Nat)) s.indMax := by
  unfold nextf
  simp only
  split
  · simp only; omega
  · simp only [update]; split <;> omega

theorem prevf_ind (s : Bm) (h : 0 ≤ s.ind) :
    (prevf s).ind = max (s.ind - (s.num.getD s.incr : Nat)) 0 := by
  unfold prevf
  simp only
  split
  · simp only; omega
  · simp only [update]; split <;> omega

theorem set_num_none {s : Bm} (h : s.num = none) : { s with num := none } = s := by
  cases s; simp only at h; subst h; rfl

theorem step_next {s : Bm} {e : Event} (he : IsNext e) : step s e = .ok (nextf s) := by
  rcases he with rfl | ⟨k, hk, rfl⟩
  · rfl
  · rw [step_key (ofString_next hk) (by simp) rfl, set_num_none (nextf_moved s).2]

theorem step_prev {s : Bm} {e : Event} (he : IsPrev e) : step s e = .ok (prevf s) := by
  rcases he with rfl | ⟨k, hk, rfl⟩
  · rfl
  · rw [step_key (ofString_prev hk) (by simp) rfl, set_num_none (prevf_moved s).2]

/-! ## C298: next and previous -/

/-- **C298.**  Asking `k` times for the next frame, by any mix of keys and
clicks, moves `k` steps forward and stops at the last frame. -/
theorem C298_next (s : Bm) (hs : s.num = none) (hi : s.ind ≤ s.indMax) (es : List Event)
    (he : ∀ e ∈ es, IsNext e) :
    ∃ s1, run s es = .ok s1 ∧ s1.ind = min (s.ind + es.length * s.incr) s.indMax ∧
      s1.num = none ∧ OnlyMoved s s1 := by
  induction es generalizing s with
  | nil => exact ⟨s, rfl, by simp; omega, hs, OnlyMoved.refl s⟩
  | cons e es ih =>
    have h1 := step_next (s := s) (he e (by simp))
    have hind := nextf_ind s hi
    have hmv := nextf_moved s
    rw [hs] at hind
    simp only [Option.getD_none] at hind
    have hle : (nextf s).ind ≤ (nextf s).indMax := by rw [hind, hmv.1.1]; omega
    obtain ⟨s1, hr, hi1, hn1, hm1⟩ := ih (nextf s) hmv.2 hle (fun x hx => he x (by simp [hx]))
    refine ⟨s1, by rw [run_cons_ok es h1]; exact hr, ?_, hn1, hmv.1.trans hm1⟩
    rw [hi1, hind, hmv.1.1, hmv.1.2.1]
    have h0 : (0 : Int) ≤ es.length * (s.incr : Int) := by positivity
    simp only [List.length_cons]
    push_cast
    rw [add_mul]
    omega

/-- **C298.**  Asking `k` times for the previous frame moves `k` steps back and
stops at the first frame. -/
theorem C298_prev (s : Bm) (hs : s.num = none) (hi : 0 ≤ s.ind) (es : List Event)
    (he : ∀ e ∈ es, IsPrev e) :
    ∃ s1, run s es = .ok s1 ∧ s1.ind = max (s.ind - es.length * s.incr) 0 ∧
      s1.num = none ∧ OnlyMoved s s1 := by
  induction es generalizing s with
  | nil => exact ⟨s, rfl, by simp; omega, hs, OnlyMoved.refl s⟩
  | cons e es ih =>
    have h1 := step_prev (s := s) (he e (by simp))
    have hind := prevf_ind s hi
    have hmv := prevf_moved s
    rw [hs] at hind
    simp only [Option.getD_none] at hind
    have hle : 0 ≤ (prevf s).ind := by rw [hind]; omega
    obtain ⟨s1, hr, hi1, hn1, hm1⟩ := ih (prevf s) hmv.2 hle (fun x hx => he x (by simp [hx]))
    refine ⟨s1, by rw [run_cons_ok es h1]; exact hr, ?_, hn1, hmv.1.trans hm1⟩
    rw [hi1, hind, hmv.1.2.1]
    have h0 : (0 : Int) ≤ es.length * (s.incr : Int) := by positivity
    simp only [List.length_cons]
    push_cast
    rw [add_mul]
    omega

/-- **C298.**  As long as the last frame is not passed, going forward and then
back as many times comes back to the same frame. -/
theorem C298_back (s : Bm) (hs : s.num = none) (h0 : 0 ≤ s.ind) (es fs : List Event)
    (he : ∀ e ∈ es, IsNext e) (hf : ∀ e ∈ fs, IsPrev e) (hl : fs.length = es.length)
    (hi : s.ind + es.length * s.incr ≤ s.indMax) :
    ∃ s1, run s (es ++ fs) = .ok s1 ∧ s1.ind = s.ind ∧ OnlyMoved s s1 := by
  have hp : (0 : Int) ≤ es.length * (s.incr : Int) := by positivity
  obtain ⟨s1, hr, hi1, hn1, hm1⟩ := C298_next s hs (by omega) es he
  have hi2 : s1.ind = s.ind + es.length * s.incr := by rw [hi1]; omega
  obtain ⟨s2, hr2, hj, _, hm2⟩ := C298_prev s1 hn1 (by omega) fs hf
  refine ⟨s2, by rw [run_append_ok fs hr]; exact hr2, ?_, hm1.trans hm2⟩
  rw [hj, hi2, hl, hm1.2.1]
  omega

/-- **C298.**  A number typed before asking for the next or the previous frame
is the size of that move, and of that move only. -/
theorem C298_number (s : Bm) (hs : s.num = none) (h0 : 0 ≤ s.ind) (hi : s.ind ≤ s.indMax)
    (n : Nat) (hn : 0 < n) (e : Event) :
    (IsNext e → ∃ s1, run s (typed n ++ [e]) = .ok s1 ∧ s1.ind = min (s.ind + n) s.indMax ∧
      s1.num = none ∧ OnlyMoved s s1) ∧
    (IsPrev e → ∃ s1, run s (typed n ++ [e]) = .ok s1 ∧ s1.ind = max (s.ind - n) 0 ∧
      s1.num = none ∧ OnlyMoved s s1) := by
  constructor
  · intro he
    rw [run_typed_then s hs hn, run_one, step_next he]
    exact ⟨_, rfl, (nextf_ind { s with num := some n } hi).trans (by simp), (nextf_moved _).2, (nextf_moved _).1⟩
  · intro he
    rw [run_typed_then s hs hn, run_one, step_prev he]
    exact ⟨_, rfl, (prevf_ind { s with num := some n } h0).trans (by simp), (prevf_moved _).2, (prevf_moved _).1⟩

/-- **C298.**  A number typed before `i` or `*` becomes the size of every later
move; the frame shown does not change. -/
theorem C298_step (s : Bm) (hs : s.num = none) (n : Nat) (hn : 0 < n) (k : String)
    (hk : k ∈ ["i", "*"]) :
    run s (typed n ++ [.key k]) = .ok { s with incr := n } := by
  rw [run_typed_then s hs hn, run_one, step_key (ofString_incr hk) (by simp) rfl]
  simp only [updIncr]
  cases s
  simp only at hs
  subst hs
  rfl

/-- **C298.**  A number typed before `t`, `/` or play becomes the time between
two frames; only play starts or stops the figure. -/
theorem C298_interval (s : Bm) (hs : s.num = none) (n : Nat) (hn : 0 < n) (k : String) :
    (k ∈ ["t", "/"] → run s (typed n ++ [.key k]) = .ok { s with interv := n }) ∧
    (k ∈ ["p", "."] →
      run s (typed n ++ [.key k]) = .ok { s with interv := n, onPlay := !s.onPlay }) ∧
    (k ∈ ["p", "."] → run s [.key k] = .ok { s with onPlay := !s.onPlay }) := by
  refine ⟨?_, ?_, ?_⟩
  · intro hk
    rw [run_typed_then s hs hn, run_one, step_key (ofString_interv hk) (by simp) rfl]
    simp only [updInterv]
    cases s
    simp only at hs
    subst hs
    rfl
  · intro hk
    rw [run_typed_then s hs hn, run_one, step_key (ofString_play hk) (by simp) rfl]
    simp only [playf, updInterv]
    cases s
    simp only at hs
    subst hs
    rfl
  · intro hk
    rw [run_one, step_key (ofString_play hk) (by simp) rfl]
    simp only [playf, updInterv, hs]

example : ((create [8]).toOption.bind fun s =>
    (run s (typed 3 ++ [.key "i", .key "right", .clickNext, .key "1", .key "h"])).toOption).map
      (fun s => (s.ind, s.incr, s.shown)) = some (5, 3, [0, 3, 6, 5]) := by
  have ht : typed 3 = [.key "3"] := by simp [typed]; rfl
  rw [ht]
  decide +kernel

/-! ## C299: going to a frame by its number -/

/-- **C299.**  The number of a frame, then `enter`, shows that frame.  Missing:
the last frame (`C299_last_violated`). -/
theorem C299_goto_partial (s : Bm) (hs : s.num = none) (n : Nat) (h1 : 1 ≤ n)
    (hn : n ≤ s.indMax) (k : String) (hk : k ∈ ["enter", "g"]) :
    ∃ s1, run s (typed n ++ [.key k]) = .ok s1 ∧ s1.ind = n - 1 ∧ s1.num = none ∧
      OnlyMoved s s1 := by
  rw [run_typed_then s hs (by omega), run_one, step_key (ofString_goto hk) (by simp) rfl]
  have hc : ¬ (n > s.indMax ∨ n < 1) := by omega
  refine ⟨_, rfl, ?_, rfl, ?_⟩
  · simp only [goto, if_neg hc, update]
  · simp only [goto, if_neg hc, update]
    exact OnlyMoved.refl s

/-- **C299 fails** on the last frame: its number followed by `enter` does
nothing. -/
theorem C299_last_violated (s : Bm) (hs : s.num = none) (k : String)
    (hk : k ∈ ["enter", "g"]) :
    run s (typed (s.indMax + 1) ++ [.key k]) = .ok s := by
  rw [run_typed_then s hs (by omega), run_one, step_key (ofString_goto hk) (by simp) rfl]
  have hc : s.indMax + 1 > s.indMax ∨ s.indMax + 1 < 1 := by omega
  simp only [goto, if_pos hc]
  exact congrArg _ (set_num_none hs)

/-- **C299.**  `up` shows the last frame and `down` the first one; after the
number of a frame both show that frame, and a larger number is ignored. -/
theorem C299_ends (s : Bm) (hs : s.num = none) (k : String) :
    (k ∈ ["up", "k"] → ∃ s1, run s [.key k] = .ok s1 ∧ s1.ind = s.indMax ∧ OnlyMoved s s1) ∧
    (k ∈ ["down", "j"] → ∃ s1, run s [.key k] = .ok s1 ∧ s1.ind = 0 ∧ OnlyMoved s s1) ∧
    (k ∈ ["up", "k", "down", "j"] → ∀ n, 1 ≤ n → ∃ s1, run s (typed n ++ [.key k]) = .ok s1 ∧
      s1.ind = (if n ≤ s.indMax + 1 then (n : Int) - 1 else s.ind) ∧ s1.num = none ∧
      OnlyMoved s s1) := by
  refine ⟨?_, ?_, ?_⟩
  · intro hk
    rw [run_one, step_key (ofString_last hk) (by simp) rfl]
    refine ⟨_, rfl, ?_, ?_⟩
    · simp [gotoEnd, hs, update]
    · simp [gotoEnd, hs, update, OnlyMoved]
  · intro hk
    rw [run_one, step_key (ofString_first hk) (by simp) rfl]
    refine ⟨_, rfl, ?_, ?_⟩
    · simp [gotoBeg, hs, update]
    · simp [gotoBeg, hs, update, OnlyMoved]
  · intro hk n hn
    rw [run_typed_then s hs (by omega), run_one]
    have hk' : k ∈ ["up", "k"] ∨ k ∈ ["down", "j"] := by
      simp only [List.mem_cons, List.not_mem_nil, or_false] at hk ⊢
      tauto
    rcases hk' with hk | hk
    · rw [step_key (ofString_last hk) (by simp) rfl]
      refine ⟨_, rfl, ?_, rfl, ?_⟩
      · by_cases h : n ≤ s.indMax + 1
        · simp [gotoEnd, update, h, not_lt.mpr h]
        · simp [gotoEnd, h, not_le.mp h]
      · simp only [gotoEnd]
        split <;> exact OnlyMoved.refl s
    · rw [step_key (ofString_first hk) (by simp) rfl]
      refine ⟨_, rfl, ?_, rfl, ?_⟩
      · by_cases h : n ≤ s.indMax + 1
        · simp [gotoBeg, update, h, not_lt.mpr h]
        · simp [gotoBeg, h, not_le.mp h]
      · simp only [gotoBeg]
        split <;> exact OnlyMoved.refl s

/-! ## C300: playing -/

/-- **C300.**  While the figure plays without limits, one step at a time, every
callback of the timer goes one frame further, and round again: after `k` of
them the frame is `ind + k` modulo `indMax`.  Missing: the last frame, which is
not part of the round (`C300_last_violated`). -/
theorem C300_play_partial (s : Bm) (hp : s.onPlay = true) (hl : s.lims.2 = none)
    (hc : s.incr = 1) (h0 : 0 ≤ s.ind) (hi : s.ind < s.indMax) (k : Nat) :
    ∃ s1, run s (List.replicate k .tick) = .ok s1 ∧ s1.ind = (s.ind + k) % s.indMax ∧
      OnlyMoved s s1 := by
  induction k generalizing s with
  | zero =>
    refine ⟨s, rfl, ?_, OnlyMoved.refl s⟩
    simp [Int.emod_eq_of_lt h0 hi]
  | succ k ih =>
    obtain ⟨s1, hs1, hind, hmv⟩ : ∃ s1, step s .tick = .ok s1 ∧
        s1.ind = (s.ind + 1) % s.indMax ∧ OnlyMoved s s1 := by
      simp only [step, hp, if_true, timerPlay, hl, hc]
      have hn : ¬ (s.ind + ((1 : Nat) : Int) ≥ (s.indMax : Int) + 1) := by omega
      rw [if_neg hn]
      by_cases hm : s.ind + ((1 : Nat) : Int) ≥ (s.indMax : Int)
      · rw [if_pos hm]
        refine ⟨_, rfl, ?_, by simp [OnlyMoved, update, hp, hc]⟩
        have : s.ind + 1 = s.indMax := by omega
        simp [update, this]
      · rw [if_neg hm]
        refine ⟨_, rfl, ?_, by simp [OnlyMoved, update, hp, hc]⟩
        simp only [update]
        rw [Int.emod_eq_of_lt (by omega) (by omega)]
        rfl
    have hpos : (0 : Int) < s.indMax := by omega
    obtain ⟨s2, hr, hj, hm2⟩ := ih s1 (by rw [hmv.2.2.2.2.1, hp]) (by rw [hmv.2.2.1, hl])
      (by rw [hmv.2.1, hc]) (by rw [hind]; exact Int.emod_nonneg _ (by omega))
      (by rw [hind, hmv.1]; exact Int.emod_lt_of_pos _ hpos)
    refine ⟨s2, by rw [List.replicate_succ, run_cons_ok _ hs1]; exact hr, ?_, hmv.trans hm2⟩
    rw [hj, hind, hmv.1, Int.emod_add_emod]
    push_cast
    ring_nf

/-- **C300 fails** on the last frame: however long the figure plays, it is
never shown. -/
theorem C300_last_violated (s : Bm) (hp : s.onPlay = true) (hl : s.lims.2 = none)
    (hc : s.incr = 1) (h0 : 0 ≤ s.ind) (hi : s.ind < s.indMax) (k : Nat) (s1 : Bm)
    (hr : run s (List.replicate k .tick) = .ok s1) : s1.ind ≠ s.indMax := by
  obtain ⟨s2, hr2, hj, _⟩ := C300_play_partial s hp hl hc h0 hi k
  rw [hr] at hr2
  cases hr2
  have := Int.emod_lt_of_pos (s.ind + k) (b := s.indMax) (by omega)
  omega

/-- **C300.**  Between two limits `a < b` the callbacks go round the frames
`a .. b-1`.  Missing: the second limit itself (`C300_limit_violated`). -/
theorem C300_limits_partial (s : Bm) (hp : s.onPlay = true) (a b : Int)
    (hl : s.lims = (some a, some b)) (hb : b ≤ s.indMax)
    (hc : s.incr = 1) (h0 : a ≤ s.ind) (hi : s.ind < b) (k : Nat) :
    ∃ s1, run s (List.replicate k .tick) = .ok s1 ∧
      s1.ind = a + (s.ind - a + k) % (b - a) ∧ OnlyMoved s s1 := by
  induction k generalizing s with
  | zero =>
    refine ⟨s, rfl, ?_, OnlyMoved.refl s⟩
    rw [Nat.cast_zero, add_zero, Int.emod_eq_of_lt (by omega) (by omega)]
    omega
  | succ k ih =>
    obtain ⟨s1, hs1, hind, hmv⟩ : ∃ s1, step s .tick = .ok s1 ∧
        s1.ind = a + (s.ind - a + 1) % (b - a) ∧ OnlyMoved s s1 := by
      simp only [step, hp, if_true, timerPlay, hl, hc]
      by_cases hn : s.ind + ((1 : Nat) : Int) ≥ b
      · rw [if_pos hn]
        refine ⟨_, rfl, ?_, by simp [OnlyMoved, update, hp, hc, hl]⟩
        have : s.ind - a + 1 = b - a := by omega
        simp [update, this]
      · rw [if_neg hn]
        have hm : ¬ (s.ind + ((1 : Nat) : Int) ≥ (s.indMax : Int)) := by omega
        rw [if_neg hm]
        refine ⟨_, rfl, ?_, by simp [OnlyMoved, update, hp, hc, hl]⟩
        simp only [update]
        rw [Int.emod_eq_of_lt (by omega) (by omega)]
        push_cast
        ring
    have hpos : (0 : Int) < b - a := by omega
    have h1 := Int.emod_nonneg (s.ind - a + 1) (b := b - a) (by omega)
    have h2 := Int.emod_lt_of_pos (s.ind - a + 1) (b := b - a) hpos
    obtain ⟨s2, hr, hj, hm2⟩ := ih s1 (by rw [hmv.2.2.2.2.1, hp]) (by rw [hmv.2.2.1, hl])
      (by rw [hmv.1]; exact hb) (by rw [hmv.2.1, hc]) (by omega) (by omega)
    refine ⟨s2, by rw [List.replicate_succ, run_cons_ok _ hs1]; exact hr, ?_, hmv.trans hm2⟩
    rw [hj, hind]
    have h3 : a + (s.ind - a + 1) % (b - a) - a + (k : Int)
        = (s.ind - a + 1) % (b - a) + k := by ring
    rw [h3, Int.emod_add_emod]
    push_cast
    ring_nf

/-- **C300 fails** on the second limit: playing between two limits never shows
it. -/
theorem C300_limit_violated (s : Bm) (hp : s.onPlay = true) (a b : Int)
    (hl : s.lims = (some a, some b)) (hb : b ≤ s.indMax)
    (hc : s.incr = 1) (h0 : a ≤ s.ind) (hi : s.ind < b) (k : Nat) (s1 : Bm)
    (hr : run s (List.replicate k .tick) = .ok s1) : s1.ind ≠ b := by
  obtain ⟨s2, hr2, hj, _⟩ := C300_limits_partial s hp a b hl hb hc h0 hi k
  rw [hr] at hr2
  cases hr2
  have := Int.emod_lt_of_pos (s.ind - a + k) (b := b - a) (by omega)
  omega

example : ((create [4]).toOption.bind fun s => (run s [.key "p", .tick, .tick, .tick,
    .tick, .key "p", .tick]).toOption).map (fun s => s.shown) = some [0, 1, 2, 0, 1] := by
  decide +kernel

end IMT.Browse
