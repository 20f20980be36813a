import Verif.Display.BrowseModel
import Mathlib.Data.Nat.Digits.Defs
import Mathlib.Data.List.Basic
import Mathlib.Tactic.Linarith
import Mathlib.Tactic.IntervalCases

/-!
Lemmas on the browsing of frames.
-/

namespace IMT.Browse

theorem run_append (s : Bm) (xs ys : List Event) :
    run s (xs ++ ys) = match run s xs with
      | .error e => .error e
      | .ok s1 => run s1 ys := by
  induction xs generalizing s with
  | nil => rfl
  | cons e xs ih =>
    simp only [List.cons_append, run]
    cases step s e with
    | error x => rfl
    | ok s1 => exact ih s1

theorem run_append_ok {s s1 : Bm} {xs : List Event} (ys : List Event) (h : run s xs = .ok s1) :
    run s (xs ++ ys) = run s1 ys := by
  rw [run_append, h]

theorem run_one (s : Bm) (e : Event) : run s [e] = step s e := by
  simp only [run]
  cases step s e <;> rfl

/-- A key that is no digit acts, then the number is forgotten. -/
theorem step_key {s s2 : Bm} {k : String} {K : Key} (h : Key.ofString k = K)
    (hK : ∀ d, K ≠ .digit d) (ha : act s K = .ok s2) :
    step s (.key k) = .ok { s2 with num := none } := by
  subst h
  simp only [step, keyf, ha]

theorem run_cons_ok {s s1 : Bm} {e : Event} (es : List Event) (h : step s e = .ok s1) :
    run s (e :: es) = run s1 es := by
  simp only [run, h]

theorem ofString_digit {d : Nat} (h : d < 10) : Key.ofString (toString d) = .digit d := by
  interval_cases d <;> decide +kernel

theorem step_digit (s : Bm) {d : Nat} (h : d < 10) :
    step s (.key (toString d))
      = .ok { s with num := some (match s.num with | none => d | some n => n * 10 + d) } := by
  simp only [step, ofString_digit h, keyf, act]
  rfl

theorem run_digits_some (s : Bm) (n : Nat) (ds : List Nat) (h : ∀ d ∈ ds, d < 10) :
    run { s with num := some n } (ds.map fun d => Event.key (toString d))
      = .ok { s with num := some (ds.foldl (fun a d => a * 10 + d) n) } := by
  induction ds generalizing n with
  | nil => rfl
  | cons d ds ih =>
    simp only [List.map_cons, run, step_digit _ (h d (by simp)), List.foldl_cons]
    exact ih (n * 10 + d) (fun x hx => h x (by simp [hx]))

theorem foldl_digits (ds : List Nat) :
    ds.foldl (fun a d => a * 10 + d) 0 = Nat.ofDigits 10 ds.reverse := by
  have : ∀ (l : List Nat), l.reverse.foldl (fun a d => a * 10 + d) 0 = Nat.ofDigits 10 l := by
    intro l
    induction l with
    | nil => rfl
    | cons d l ih =>
      simp only [List.reverse_cons, List.foldl_append, List.foldl_cons, List.foldl_nil, ih,
        Nat.ofDigits_cons]
      omega
  have h := this ds.reverse
  simpa using h

theorem run_digits_none (s : Bm) (hs : s.num = none) (ds : List Nat) (hne : ds ≠ [])
    (h : ∀ d ∈ ds, d < 10) :
    run s (ds.map fun d => Event.key (toString d))
      = .ok { s with num := some (Nat.ofDigits 10 ds.reverse) } := by
  cases ds with
  | nil => exact absurd rfl hne
  | cons d ds =>
    simp only [List.map_cons, run, step_digit _ (h d (by simp)), hs]
    rw [run_digits_some s d ds (fun x hx => h x (by simp [hx])), ← foldl_digits]
    simp

/-- The keys that type the number `n`. -/
def typed (n : Nat) : List Event := (Nat.digits 10 n).reverse.map fun d => .key (toString d)

theorem run_typed (s : Bm) (hs : s.num = none) {n : Nat} (hn : 0 < n) :
    run s (typed n) = .ok { s with num := some n } := by
  unfold typed
  rw [run_digits_none s hs]
  · simp [Nat.ofDigits_digits]
  · simpa using Nat.digits_ne_nil_iff_ne_zero.mpr (Nat.pos_iff_ne_zero.mp hn)
  · intro d hd
    exact Nat.digits_lt_base (by norm_num) (List.mem_reverse.mp hd)

theorem run_typed_then (s : Bm) (hs : s.num = none) {n : Nat} (hn : 0 < n) (es : List Event) :
    run s (typed n ++ es) = run { s with num := some n } es :=
  run_append_ok es (run_typed s hs hn)

theorem ofString_next {k : String} (h : k ∈ [" ", "right", "+", "l"]) :
    Key.ofString k = .next := by
  simp [Key.ofString, h]

theorem ofString_prev {k : String} (h : k ∈ ["left", "backspace", "-", "h"]) :
    Key.ofString k = .prev := by
  simp only [List.mem_cons, List.not_mem_nil, or_false] at h
  rcases h with rfl | rfl | rfl | rfl <;> decide +kernel

theorem ofString_lim {k : String} (h : k ∈ ["pagedown", "a"]) : Key.ofString k = .lim := by
  simp only [List.mem_cons, List.not_mem_nil, or_false] at h
  rcases h with rfl | rfl <;> decide +kernel

theorem ofString_last {k : String} (h : k ∈ ["up", "k"]) : Key.ofString k = .last := by
  simp only [List.mem_cons, List.not_mem_nil, or_false] at h
  rcases h with rfl | rfl <;> decide +kernel

theorem ofString_first {k : String} (h : k ∈ ["down", "j"]) : Key.ofString k = .first := by
  simp only [List.mem_cons, List.not_mem_nil, or_false] at h
  rcases h with rfl | rfl <;> decide +kernel

theorem ofString_goto {k : String} (h : k ∈ ["enter", "g"]) : Key.ofString k = .goto := by
  simp only [List.mem_cons, List.not_mem_nil, or_false] at h
  rcases h with rfl | rfl <;> decide +kernel

theorem ofString_golim {k : String} (h : k ∈ ["pageup", "b"]) : Key.ofString k = .golim := by
  simp only [List.mem_cons, List.not_mem_nil, or_false] at h
  rcases h with rfl | rfl <;> decide +kernel

theorem ofString_play {k : String} (h : k ∈ ["p", "."]) : Key.ofString k = .play := by
  simp only [List.mem_cons, List.not_mem_nil, or_false] at h
  rcases h with rfl | rfl <;> decide +kernel

theorem ofString_incr {k : String} (h : k ∈ ["i", "*"]) : Key.ofString k = .incr := by
  simp only [List.mem_cons, List.not_mem_nil, or_false] at h
  rcases h with rfl | rfl <;> decide +kernel

theorem ofString_interv {k : String} (h : k ∈ ["t", "/"]) : Key.ofString k = .interv := by
  simp only [List.mem_cons, List.not_mem_nil, or_false] at h
  rcases h with rfl | rfl <;> decide +kernel

theorem ite_cases {c : Prop} [Decidable c] {a b r : Key} (h : (if c then a else b) = r) :
    (c ∧ a = r) ∨ b = r := by
  by_cases hc : c
  · exact .inl ⟨hc, by rwa [if_pos hc] at h⟩
  · exact .inr (by rwa [if_neg hc] at h)

/-- The names of the keys of `up`/`down` and of the limits are read off the
branch taken. -/
theorem name_of_last {k : String} (h : Key.ofString k = .last) : k ∈ ["up", "k"] := by
  unfold Key.ofString at h
  by_contra hk
  iterate 12
    replace h := ite_cases h
    rcases h with ⟨hc, h⟩ | h
    · first | exact hk hc | cases h
  cases hf : (List.range 10).find? (fun i => toString i = k) <;> rw [hf] at h <;> cases h

theorem name_of_first {k : String} (h : Key.ofString k = .first) : k ∈ ["down", "j"] := by
  unfold Key.ofString at h
  by_contra hk
  iterate 12
    replace h := ite_cases h
    rcases h with ⟨hc, h⟩ | h
    · first | exact hk hc | cases h
  cases hf : (List.range 10).find? (fun i => toString i = k) <;> rw [hf] at h <;> cases h

theorem name_of_lim {k : String} (h : Key.ofString k = .lim) : k ∈ ["pagedown", "a"] := by
  unfold Key.ofString at h
  by_contra hk
  iterate 12
    replace h := ite_cases h
    rcases h with ⟨hc, h⟩ | h
    · first | exact hk hc | cases h
  cases hf : (List.range 10).find? (fun i => toString i = k) <;> rw [hf] at h <;> cases h

end IMT.Browse
