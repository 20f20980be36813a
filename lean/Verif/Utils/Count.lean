import Verif.Utils.CountModel
import Mathlib.Tactic.Linarith
import Mathlib.Tactic.FieldSimp
import Mathlib.Tactic.Ring
import Mathlib.Algebra.Order.Field.Rat

/-! C346: the progress counter without a number of things. -/

namespace IMT.Utils

theorem run_count_lines (ts : List Rat) (k n : Nat) (t0 : Rat) :
    Endless.run ⟨k, some n, some t0⟩ (ts.map .progress) =
      ((ts.zipIdx n).filter fun p => decide (p.2 % k = 0)).map fun p => .line p.2 (p.1 - t0) ((p.1 - t0) / p.2) := by
  induction ts generalizing n with
  | nil => rfl
  | cons t ts ih =>
    simp only [List.map_cons, Endless.run, Endless.call, Endless.tick, Option.getD_some, List.zipIdx_cons, List.filter_cons]
    rw [ih]
    by_cases h : n % k = 0 <;> simp [h]

theorem run_append_calls (c : Endless) (l m : List Call) : ∃ c' : Endless, c.run (l ++ m) = c.run l ++ c'.run m := by
  induction l generalizing c with
  | nil => exact ⟨c, rfl⟩
  | cons x l ih =>
    obtain ⟨c', e⟩ := ih (c.call x).1
    exact ⟨c', by simp only [List.cons_append, Endless.run, e, List.append_assoc]⟩

theorem run_after_end (c : Endless) (h : c.curr = none) (l : List Call) : c.run l = List.replicate l.length .last := by
  induction l generalizing c with
  | nil => rfl
  | cons x l ih =>
    have key : ∀ t, c.tick t = ({ c with t0 := some (c.t0.getD t) }, [.last]) := fun t => by simp [Endless.tick, h]
    have hc : { c with curr := none } = c := by cases c; simp only at h; rw [h]
    cases x with
    | progress t =>
      simp only [Endless.run, Endless.call, key, List.length_cons, List.replicate_succ]
      rw [ih _ (by simp [h])]
      rfl
    | finish t =>
      simp only [Endless.run, Endless.call, hc, key, List.length_cons, List.replicate_succ]
      rw [ih _ (by simp [h])]
      rfl

/-- C346: after `n` calls at the times `ts`, a line was printed for each number that is a multiple of the interval, in order, with the
time since the first call, and no end. -/
theorem C346_lines (perc : Nat) (hp : 0 < perc) (t : Rat) (ts : List Rat) :
    (Endless.new perc).run ((t :: ts).map .progress) =
      (((t :: ts).zipIdx 1).filter fun p => decide (perc ∣ p.2)).map fun p => .line p.2 (p.1 - t) ((p.1 - t) / p.2) := by
  have e : (Endless.new perc).run ((t :: ts).map .progress) = Endless.run ⟨perc, some 1, some t⟩ ((t :: ts).map .progress) := by
    simp [Endless.new, Nat.pos_iff_ne_zero.1 hp, Endless.run, Endless.call, Endless.tick]
  rw [e, run_count_lines]
  congr 1
  exact List.filter_congr fun p _ => by simp [Nat.dvd_iff_mod_eq_zero]

/-- C346: `finish` prints the end, once, as the last thing. -/
theorem C346_end (perc : Nat) (ts : List Rat) (t : Rat) :
    ∃ l, (Endless.new perc).run (ts.map .progress ++ [.finish t]) = l ++ [.last] ∧ .last ∉ l := by
  have hno : ∀ (c : Endless) (ts : List Rat), c.curr ≠ none → .last ∉ c.run (ts.map .progress) := by
    intro c ts
    induction ts generalizing c with
    | nil => intro _ h; cases h
    | cons t ts ih =>
      intro hc
      obtain ⟨i, hi⟩ := Option.ne_none_iff_exists'.1 hc
      simp only [List.map_cons, Endless.run, Endless.call, Endless.tick, hi, List.mem_append, not_or]
      refine ⟨?_, ih _ (by simp)⟩
      split <;> simp
  obtain ⟨c', e⟩ := run_append_calls (Endless.new perc) (ts.map .progress) [.finish t]
  refine ⟨(Endless.new perc).run (ts.map .progress), e.trans ?_, hno _ ts (by simp [Endless.new])⟩
  simp [Endless.run, Endless.call, Endless.tick]

/-- C346: after it, each further call prints the end again, and no line. -/
theorem C346_again_violated (perc : Nat) (l m : List Call) (t : Rat) :
    ∃ o, (Endless.new perc).run (l ++ .finish t :: m) = o ++ List.replicate m.length .last := by
  obtain ⟨c', e⟩ := run_append_calls (Endless.new perc) l (.finish t :: m)
  have e2 : c'.run (.finish t :: m) = [.last] ++ List.replicate m.length .last := by
    have key : c'.call (.finish t) = (⟨c'.interv, none, some (c'.t0.getD t)⟩, [.last]) := by simp [Endless.call, Endless.tick]
    rw [Endless.run, key]
    simp only
    rw [run_after_end _ rfl]
  exact ⟨_, by rw [e, e2, ← List.append_assoc]⟩

/-- C346: the calls are made at the beginning of each loop, so that the time shown for a thing is always too short: when each takes
`D`, it is `D` less `D` over the number of things. -/
theorem C346_each_violated (perc : Nat) (hp : 0 < perc) (t D : Rat) (hD : 0 < D) (n : Nat) (i : Nat) (since each : Rat)
    (h : .line i since each ∈ (Endless.new perc).run (((List.range (n + 1)).map fun k : Nat => t + k * D).map .progress)) :
    each = D - D / i ∧ each < D := by
  have hcons : ((List.range (n + 1)).map fun k : Nat => t + k * D) = t :: (List.range n).map fun k : Nat => t + ((k + 1 : Nat) : Rat) * D := by
    rw [List.range_succ_eq_map]
    simp [Function.comp_def]
  rw [hcons, C346_lines perc hp, ← hcons] at h
  obtain ⟨⟨v, j⟩, hv, e⟩ := List.mem_map.1 h
  simp only [Print.line.injEq] at e
  obtain ⟨rfl, -, e3⟩ := e
  have hm' := List.mem_zipIdx (List.mem_of_mem_filter hv)
  obtain ⟨h1, h2, h3⟩ := hm'
  simp only [List.getElem_map, List.getElem_range] at h3
  have hj : (0 : Rat) < j := by exact_mod_cast h1
  have hc : ((j - 1 : Nat) : Rat) = j - 1 := by push_cast [Nat.cast_sub h1]; ring
  have : each = D - D / j := by
    rw [← e3, h3, hc]
    field_simp
    ring
  refine ⟨this, ?_⟩
  rw [this]
  have : 0 < D / j := div_pos hD hj
  linarith

example : (Endless.new 2).run ([.progress 10, .progress 14, .progress 15, .progress 18, .finish 20]) =
    [.line 2 4 2, .line 4 8 2, .last] := by decide +kernel

end IMT.Utils
