import Verif.Utils.Model
import Mathlib.Data.Nat.Cast.Order.Field

/-!
Properties C74 (progress counter) and C75 (display of durations).
-/

namespace IMT.Utils

theorem npround_int (n : Int) : npround n = n := by
  unfold npround; simp

theorem npround_near (q : Rat) : |(npround q : Rat) - q| ≤ 1 / 2 := by
  have h1 := Int.floor_le q
  have h2 := Int.lt_floor_add_one q
  unfold npround
  rw [abs_le]
  split
  · constructor <;> linarith
  · split
    · push_cast; constructor <;> linarith
    · split
      · constructor <;> linarith
      · push_cast; constructor <;> linarith

theorem npround_range {q : Rat} (h0 : 0 ≤ q) (h1 : q ≤ 100) : 0 ≤ npround q ∧ npround q ≤ 100 := by
  have := abs_le.1 (npround_near q)
  constructor
  · by_contra h
    have : npround q ≤ -1 := by omega
    have : (npround q : Rat) ≤ -1 := by exact_mod_cast this
    linarith
  · by_contra h
    have : 101 ≤ npround q := by omega
    have : (101 : Rat) ≤ npround q := by exact_mod_cast this
    linarith

/-- The line displayed for the thing number `k`. -/
def line (nmax k : Nat) : Report :=
  ⟨k, npround ((k : Rat) / nmax * 100), ⌊(npround ((k : Rat) / nmax * 100) : Rat) / 100 * 15⌋,
    15 - ⌊(npround ((k : Rat) / nmax * 100) : Rat) / 100 * 15⌋⟩

theorem ticks_eq (n : Nat) (c : Counter) (h : c.nmax ≠ 0) :
    c.ticks n = ((List.range' c.curr n).filter fun k => k % c.interv = 0 ∨ k = c.nmax).map (line c.nmax) := by
  induction n generalizing c with
  | zero => rfl
  | succ n ih =>
    rw [List.range'_succ, List.filter_cons]
    unfold Counter.ticks Counter.tick
    by_cases hc : c.curr % c.interv = 0 ∨ c.curr = c.nmax
    · simp only [hc, if_true, h, if_false, decide_true, List.map_cons]
      rw [ih ⟨c.nmax, c.interv, c.curr + 1⟩ h]
      rfl
    · simp only [hc, if_false, decide_false, Bool.false_eq_true]
      rw [ih ⟨c.nmax, c.interv, c.curr + 1⟩ h]

theorem new_interv (nmax : Nat) (perc : Rat) : 0 < (Counter.new nmax perc).interv := by
  unfold Counter.new
  simp only
  split <;> omega

theorem count_multiples (d n : Nat) : ((List.range' 1 n).filter fun k => k % d = 0).length = n / d := by
  induction n with
  | zero => simp
  | succ n ih =>
    rw [List.range'_concat, List.filter_append, List.length_append, ih, Nat.succ_div]
    by_cases h : d ∣ n + 1
    · have h' : (1 + n) % d = 0 := by rw [Nat.add_comm]; exact Nat.mod_eq_zero_of_dvd h
      simp [h, h']
    · have h' : ¬ (1 + n) % d = 0 := by rw [Nat.add_comm]; exact fun e => h (Nat.dvd_of_mod_eq_zero e)
      simp [h, h']

/-- C74: counting `nmax` things displays 100 %, with a full bar, last. -/
theorem C74_last (nmax : Nat) (h : nmax ≠ 0) (perc : Rat) :
    ((Counter.new nmax perc).ticks nmax).getLast? = some ⟨nmax, 100, 15, 0⟩ := by
  rw [ticks_eq _ _ h]
  have hr : List.range' 1 nmax = List.range' 1 (nmax - 1) ++ [nmax] := by
    conv_lhs => rw [show nmax = nmax - 1 + 1 by omega, List.range'_concat]
    congr 2
    omega
  show (((List.range' 1 nmax).filter _).map _).getLast? = _
  rw [hr, List.filter_append, List.map_append]
  have : (line nmax nmax) = ⟨nmax, 100, 15, 0⟩ := by
    have hq : (nmax : Rat) / nmax * 100 = ((100 : Int) : Rat) := by
      have : (nmax : Rat) ≠ 0 := by exact_mod_cast h
      field_simp
      norm_num
    unfold line
    rw [hq, npround_int]
    have h15 : ⌊((100 : Int) : Rat) / 100 * 15⌋ = 15 := by
      rw [show ((100 : Int) : Rat) / 100 * 15 = ((15 : Int) : Rat) by norm_num, Int.floor_intCast]
    rw [h15]
    rfl
  have hn : (Counter.new nmax perc).nmax = nmax := rfl
  simp [hn, this]

/-- C74: every line displayed while counting `nmax` things shows the number of things done so far, the percentage to half a
unit, a bar of fifteen characters, and the numbers increase. -/
theorem C74_lines (nmax : Nat) (h : nmax ≠ 0) (perc : Rat) :
    (∀ r ∈ (Counter.new nmax perc).ticks nmax, 1 ≤ r.i ∧ r.i ≤ nmax ∧ |(r.perc : Rat) - 100 * r.i / nmax| ≤ 1 / 2 ∧
      0 ≤ r.hashes ∧ 0 ≤ r.dots ∧ r.hashes + r.dots = 15) ∧
    ((Counter.new nmax perc).ticks nmax).Pairwise fun a b => a.i < b.i := by
  have hn : (Counter.new nmax perc).nmax = nmax := rfl
  have hpos : (0 : Rat) < nmax := by exact_mod_cast Nat.pos_of_ne_zero h
  rw [ticks_eq _ _ h, hn]
  show (∀ r ∈ ((List.range' 1 nmax).filter _).map _, _) ∧ (((List.range' 1 nmax).filter _).map _).Pairwise _
  constructor
  · intro r hr
    obtain ⟨k, hk, rfl⟩ := List.mem_map.1 hr
    have hk := (List.mem_filter.1 hk).1
    rw [List.mem_range'_1] at hk
    have hkr : (k : Rat) ≤ nmax := by exact_mod_cast (by omega : k ≤ nmax)
    have q0 : (0 : Rat) ≤ (k : Rat) / nmax * 100 := by positivity
    have q1 : (k : Rat) / nmax * 100 ≤ 100 := by
      have : (k : Rat) / nmax ≤ 1 := by rw [div_le_one hpos]; exact hkr
      linarith
    obtain ⟨n0, n1⟩ := npround_range q0 q1
    have hh : 0 ≤ ⌊(npround ((k : Rat) / nmax * 100) : Rat) / 100 * 15⌋ ∧ ⌊(npround ((k : Rat) / nmax * 100) : Rat) / 100 * 15⌋ ≤ 15 := by
      have n0' : (0 : Rat) ≤ npround ((k : Rat) / nmax * 100) := by exact_mod_cast n0
      have n1' : (npround ((k : Rat) / nmax * 100) : Rat) ≤ 100 := by exact_mod_cast n1
      constructor
      · apply Int.floor_nonneg.2; positivity
      · have : ⌊(npround ((k : Rat) / nmax * 100) : Rat) / 100 * 15⌋ < 16 := by
          rw [Int.floor_lt]; push_cast; linarith
        omega
    refine ⟨hk.1, by show k ≤ nmax; omega, ?_, hh.1, ?_, ?_⟩
    · have := npround_near ((k : Rat) / nmax * 100)
      show |(npround ((k : Rat) / nmax * 100) : Rat) - 100 * k / nmax| ≤ 1 / 2
      rw [show 100 * (k : Rat) / nmax = (k : Rat) / nmax * 100 by ring]
      exact this
    · exact Int.sub_nonneg.2 hh.2
    · exact add_sub_cancel _ _
  · rw [List.pairwise_map]
    apply List.Pairwise.filter
    exact List.pairwise_lt_range'

/-- C74: the number of displayed lines is bounded by the period alone, whatever the number of things. -/
theorem C74_count (nmax : Nat) (h : nmax ≠ 0) {perc : Rat} (hp : 0 < perc) :
    (((Counter.new nmax perc).ticks nmax).length : Rat) ≤ 200 / perc + 1 := by
  have hn : (Counter.new nmax perc).nmax = nmax := rfl
  have hi := new_interv nmax perc
  have hd : (nmax : Rat) / (Counter.new nmax perc).interv ≤ 200 / perc := by
    have hir : (0 : Rat) < (Counter.new nmax perc).interv := by exact_mod_cast hi
    rw [div_le_div_iff₀ hir hp]
    have hx : (0 : Rat) ≤ (nmax : Rat) * perc / 100 := by positivity
    have hf := Int.lt_floor_add_one ((nmax : Rat) * perc / 100)
    have hf0 : 0 ≤ ⌊(nmax : Rat) * perc / 100⌋ := Int.floor_nonneg.2 hx
    have hcast : ((⌊(nmax : Rat) * perc / 100⌋.toNat : Nat) : Rat) = (⌊(nmax : Rat) * perc / 100⌋ : Rat) := by
      have : ((⌊(nmax : Rat) * perc / 100⌋.toNat : Nat) : Int) = ⌊(nmax : Rat) * perc / 100⌋ := Int.toNat_of_nonneg hf0
      exact_mod_cast this
    have hi' : (Counter.new nmax perc).interv =
        if ⌊(nmax : Rat) * perc / 100⌋.toNat = 0 then 1 else ⌊(nmax : Rat) * perc / 100⌋.toNat := rfl
    rw [hi']
    split
    · next h0 =>
      rw [h0] at hcast
      simp only [Nat.cast_zero] at hcast
      rw [← hcast] at hf
      push_cast
      linarith
    · next h0 =>
      rw [hcast]
      have : (1 : Rat) ≤ ⌊(nmax : Rat) * perc / 100⌋ := by
        have : 1 ≤ ⌊(nmax : Rat) * perc / 100⌋ := by omega
        exact_mod_cast this
      linarith
  have hc : ((Counter.new nmax perc).ticks nmax).length ≤ nmax / (Counter.new nmax perc).interv + 1 := by
    rw [ticks_eq _ _ h, List.length_map, hn]
    show ((List.range' 1 nmax).filter _).length ≤ _
    rw [← count_multiples]
    have h1 : (List.filter (fun k => decide (k = nmax)) (List.range' 1 nmax)).length ≤ 1 := by
      rw [← List.countP_eq_length_filter]
      have : List.countP (fun k => decide (k = nmax)) (List.range' 1 nmax) = List.count nmax (List.range' 1 nmax) := by
        unfold List.count
        apply List.countP_congr
        intro k _
        simp
      rw [this]
      exact List.nodup_iff_count_le_one.1 (List.nodup_range' (step := 1)) nmax
    generalize (Counter.new nmax perc).interv = d
    have h2 : ∀ l : List Nat, (l.filter fun k => decide (k % d = 0 ∨ k = nmax)).length ≤
        (l.filter fun k => decide (k % d = 0)).length + (l.filter fun k => decide (k = nmax)).length := by
      intro l
      induction l with
      | nil => simp
      | cons a l ih =>
        simp only [List.filter_cons]
        generalize nmax = m at ih ⊢
        by_cases p : a % d = 0 <;> by_cases q : a = m
        · rw [if_pos (decide_eq_true (Or.inl p)), if_pos (decide_eq_true p), if_pos (decide_eq_true q)]
          simp only [List.length_cons]; omega
        · rw [if_pos (decide_eq_true (Or.inl p)), if_pos (decide_eq_true p), if_neg (by simpa using q)]
          simp only [List.length_cons]; omega
        · rw [if_pos (decide_eq_true (Or.inr q)), if_neg (by simpa using p), if_pos (decide_eq_true q)]
          simp only [List.length_cons]; omega
        · rw [if_neg (by simpa using And.intro p q), if_neg (by simpa using p), if_neg (by simpa using q)]
          exact ih
    have := h2 (List.range' 1 nmax)
    omega
  have : (((Counter.new nmax perc).ticks nmax).length : Rat) ≤ ((nmax / (Counter.new nmax perc).interv : Nat) : Rat) + 1 := by
    exact_mod_cast hc
  have := Nat.cast_div_le (α := Rat) (m := nmax) (n := (Counter.new nmax perc).interv)
  linarith

/-- C74: `finish()` displays 100 %. -/
theorem C74_finish (c : Counter) (h : c.nmax ≠ 0) : c.finish.2 = .ok (some ⟨c.nmax, 100, 15, 0⟩) := by
  have hq : (c.nmax : Rat) / c.nmax * 100 = ((100 : Int) : Rat) := by
    have : (c.nmax : Rat) ≠ 0 := by exact_mod_cast h
    field_simp
    norm_num
  unfold Counter.finish Counter.tick
  simp only [or_true, if_true, h, if_false, hq, npround_int]
  have h15 : ⌊((100 : Int) : Rat) / 100 * 15⌋ = 15 := by
    rw [show ((100 : Int) : Rat) / 100 * 15 = ((15 : Int) : Rat) by norm_num, Int.floor_intCast]
  rw [h15]
  rfl

/-- C74 fails for nothing to count: `finish()` raises ZeroDivisionError, whatever the period. -/
theorem C74_zero_violated (perc : Rat) : (Counter.new 0 perc).finish.2 = .error .zeroDivision := by
  unfold Counter.finish Counter.tick Counter.new
  simp

example : ((Counter.new 7 40).ticks 7).map (fun r => (r.i, r.perc)) = [(2, 29), (4, 57), (6, 86), (7, 100)] := by
  decide +kernel

/-! ### C75 -/

/-- The size of a displayed unit, in seconds. -/
def TUnit.size : TUnit → Rat
  | .ms => 1 / 1000
  | .sec => 1
  | .mn => 60
  | .hour => 3600
  | .day => 86400

/-- The duration a display stands for. -/
def duration (l : List (Nat × TUnit)) : Rat := (l.map fun e => (e.1 : Rat) * e.2.size).sum

theorem toNat_floor {s : Rat} (h : 0 ≤ s) : ((⌊s⌋.toNat : Nat) : Rat) = ⌊s⌋ := by
  have : ((⌊s⌋.toNat : Nat) : Int) = ⌊s⌋ := Int.toNat_of_nonneg (Int.floor_nonneg.2 h)
  exact_mod_cast this

theorem formatTime_long {s : Rat} (h : 1 ≤ s) :
    duration (formatTime s) = ((⌊s⌋.toNat % 86400 : Nat) : Rat) +
      if ⌊s⌋.toNat / 86400 = 0 then 0 else 86400 * ((⌊s⌋.toNat / 60 % 60 : Nat) : Rat) := by
  have hs : 1 ≤ ⌊s⌋.toNat := by
    have : (1 : Int) ≤ ⌊s⌋ := by rw [Int.le_floor]; exact_mod_cast h
    omega
  unfold formatTime
  generalize ⌊s⌋.toNat = n at hs
  rw [if_neg (by omega)]
  have e : n / 60 / 60 / 24 = n / 86400 := by omega
  have key : n % 86400 = n % 60 + 60 * (n / 60 % 60) + 3600 * (n / 60 / 60 % 24) := by omega
  rw [e, key]
  unfold duration
  by_cases h1 : n / 86400 = 0 <;> by_cases h2 : n / 60 / 60 % 24 = 0 <;> by_cases h3 : n / 60 % 60 = 0 <;>
    simp [h1, h2, h3, TUnit.size] <;> ring

/-- C75: below one day, the displayed duration is the duration, to the second from one second on, to the millisecond below.
Partial: see `C75_days_violated` for longer durations. -/
theorem C75_display_partial {s : Rat} (h0 : 0 ≤ s) (h1 : s < 86400) :
    duration (formatTime s) ≤ s ∧ s < duration (formatTime s) + (if s < 1 then 1 / 1000 else 1) := by
  by_cases h : s < 1
  · have hf : ⌊s⌋ = 0 := by rw [Int.floor_eq_iff]; constructor <;> push_cast <;> linarith
    have hm : 0 ≤ (s - ((0 : Int) : Rat)) * 1000 := by push_cast; linarith
    have e : duration (formatTime s) = (⌊(s - ((0 : Int) : Rat)) * 1000⌋ : Rat) / 1000 := by
      unfold formatTime
      rw [hf]
      simp only [Int.toNat_zero, Nat.zero_mod, Nat.zero_div, and_self, if_true]
      simp only [duration, List.map_cons, List.map_nil, List.sum_cons, List.sum_nil, TUnit.size]
      rw [toNat_floor hm]
      ring
    rw [e, if_pos h]
    have a := Int.floor_le ((s - ((0 : Int) : Rat)) * 1000)
    have b := Int.lt_floor_add_one ((s - ((0 : Int) : Rat)) * 1000)
    push_cast at a b ⊢
    constructor <;> linarith
  · push Not at h
    have hn : ⌊s⌋.toNat < 86400 := by
      have : ⌊s⌋ < 86400 := by rw [Int.floor_lt]; exact_mod_cast h1
      omega
    rw [formatTime_long h, if_pos (by omega), Nat.mod_eq_of_lt hn, toNat_floor h0, if_neg (by linarith)]
    have a := Int.floor_le s
    have b := Int.lt_floor_add_one s
    constructor <;> linarith

/-- C75: below one day, minutes and seconds are displayed below 60 and hours below 24, so that the display is the usual one. -/
theorem C75_canonical {s : Rat} (e : Nat × TUnit) (he : e ∈ formatTime s) :
    (e.2 = .sec → e.1 < 60) ∧ (e.2 = .mn → e.1 < 60 ∧ e.1 ≠ 0) ∧ (e.2 = .hour → e.1 < 24 ∧ e.1 ≠ 0) := by
  unfold formatTime at he
  split at he
  · simp only [List.mem_singleton] at he
    subst he
    simp
  · simp only [List.mem_append, List.mem_singleton] at he
    rcases he with ((he | he) | he) | he
    · split at he
      · simp only [List.mem_singleton] at he; subst he; simp
      · cases he
    · split at he
      · simp only [List.mem_singleton] at he; subst he
        next hz => simp [hz, Nat.mod_lt]
      · cases he
    · split at he
      · simp only [List.mem_singleton] at he; subst he
        next hz => simp [hz, Nat.mod_lt]
      · cases he
    · subst he; simp [Nat.mod_lt]

/-- C75 fails from one day on: the number of minutes is displayed instead of the number of days, so that every duration in
which they differ is displayed wrong by a whole number of days. -/
theorem C75_days_violated {s : Rat} (h : 86400 ≤ s) :
    duration (formatTime s) = ⌊s⌋ + 86400 * (((⌊s⌋.toNat / 60 % 60 : Nat) : Rat) - ((⌊s⌋.toNat / 86400 : Nat) : Rat)) := by
  have hn : 86400 ≤ ⌊s⌋.toNat := by
    have : (86400 : Int) ≤ ⌊s⌋ := by rw [Int.le_floor]; exact_mod_cast h
    omega
  rw [formatTime_long (by linarith), if_neg (by omega), ← toNat_floor (by linarith : (0 : Rat) ≤ s)]
  have : ((⌊s⌋.toNat : Nat) : Rat) = 86400 * ((⌊s⌋.toNat / 86400 : Nat) : Rat) + ((⌊s⌋.toNat % 86400 : Nat) : Rat) := by
    exact_mod_cast (Nat.div_add_mod ⌊s⌋.toNat 86400).symm
  rw [this]
  ring

example : formatTime (3725 + 1 / 3) = [(1, .hour), (2, .mn), (5, .sec)] ∧ formatTime (1 / 3) = [(333, .ms)] ∧
    formatTime 86400 = [(0, .day), (0, .sec)] := by
  decide +kernel

end IMT.Utils
