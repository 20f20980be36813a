import Verif.Prelude
import Verif.Units
import Mathlib.Data.List.Infix
import Mathlib.Data.List.TakeWhile

/-! C263: units given as text.  Model of `make_unit` (`/repo/IMTreatment/utils/units.py`, "units.py"). -/

namespace IMT.Utils

/-! ### model -/

/-- Texts are lists of characters. -/
abbrev Text := List Char

/-- `forbidden`, units.py:61-62: some texts and the names of the module, as the interpreter lists them. -/
def forbidden : List Text :=
  (["import", "=", "\n", ";", ":", "\"", "'", "open",
    "__name__", "__doc__", "__package__", "__loader__", "__spec__", "__file__", "__cached__", "__builtins__",
    "np", "re", "unum", "units", "ARRAYTYPES", "INTEGERTYPES", "NUMBERTYPES", "STRINGTYPES", "make_unit", "make_unit_old"] : List String).map String.toList

/-- `[a-zA-Z]`, units.py:66. -/
def letter (c : Char) : Bool := ('a' ≤ c && c ≤ 'z') || ('A' ≤ c && c ≤ 'Z')

/-- `re.match("[a-zA-Z]+\(.*\)", string)`, units.py:66: at the start only; the dot stands for any character but the end of line. -/
def callAtStart (s : Text) : Bool :=
  !(s.takeWhile letter).isEmpty && match s.dropWhile letter with
    | '(' :: r => (r.takeWhile (· ≠ '\n')).contains ')'
    | _ => false

/-- `string.replace('^', '**')`, units.py:69. -/
def stars (s : Text) : Text := s.flatMap fun c => if c = '^' then ['*', '*'] else [c]

/-- `make_unit(string)`, units.py:36-73.  What Python gives for an expression among the names of `unum.units` is the parameter `exec`. -/
def makeUnit (exec : Text → Res Sym) (s : Text) : Res Sym :=
  if s = [] then .ok Sym.one
  else if forbidden.any fun f => decide (f <:+: s) then .error .exception
  else if callAtStart s then .error .exception
  else exec (stars s)

/-! ### specification -/

/-- `s` with each `^` replaced by `**`. -/
inductive Starred : Text → Text → Prop
  | nil : Starred [] []
  | pow {s k} : Starred s k → Starred ('^' :: s) ('*' :: '*' :: k)
  | other {c s k} : c ≠ '^' → Starred s k → Starred (c :: s) (c :: k)

/-- The texts that a unit may not hold: `import`, `open`, assignments, ends of lines, separators, quotes, and the names known in the module. -/
def Banned (f : Text) : Prop :=
  (∃ w ∈ ["import", "=", "\n", ";", ":", "\"", "'", "open"], f = String.toList w) ∨
  (∃ w ∈ ["__name__", "__doc__", "__package__", "__loader__", "__spec__", "__file__", "__cached__", "__builtins__"], f = String.toList w) ∨
  ∃ w ∈ ["np", "re", "unum", "units", "ARRAYTYPES", "INTEGERTYPES", "NUMBERTYPES", "STRINGTYPES", "make_unit", "make_unit_old"], f = String.toList w

/-- The text is a call: a name made of letters, then something in parentheses. -/
def IsCall (s : Text) : Prop := ∃ name args rest, name ≠ [] ∧ (∀ c ∈ name, c.isAlpha = true) ∧ s = name ++ '(' :: (args ++ ')' :: rest)

/-! ### lemmas -/

theorem starred (s : Text) : Starred s (stars s) := by
  induction s with
  | nil => exact .nil
  | cons c s ih =>
    unfold stars
    rw [List.flatMap_cons]
    by_cases h : c = '^'
    · subst h
      exact .pow ih
    · rw [if_neg h]
      exact .other h ih

theorem starred_unique {s k k' : Text} (h : Starred s k) (h' : Starred s k') : k = k' := by
  induction h generalizing k' with
  | nil => cases h'; rfl
  | pow _ ih =>
    cases h' with
    | pow h => rw [ih h]
    | other h _ => exact absurd rfl h
  | other hc _ ih =>
    cases h' with
    | pow h => exact absurd rfl hc
    | other _ h => rw [ih h]

theorem letter_eq (c : Char) : letter c = c.isAlpha := by
  unfold letter Char.isAlpha Char.isUpper Char.isLower
  rw [Bool.or_comm, Bool.decide_and]
  rfl

theorem callAtStart_iff {s : Text} (hn : '\n' ∉ s) : callAtStart s = true ↔ IsCall s := by
  unfold callAtStart
  rw [Bool.and_eq_true]
  constructor
  · rintro ⟨h1, h2⟩
    have hs := List.takeWhile_append_dropWhile (p := letter) (l := s)
    revert h2
    split
    · rename_i r hr
      intro h2
      rw [List.contains_iff_mem] at h2
      obtain ⟨a, b, e⟩ := List.append_of_mem ((List.takeWhile_sublist _).subset h2)
      refine ⟨s.takeWhile letter, a, b, by simpa using h1, fun c hc => (letter_eq c).symm.trans (List.mem_takeWhile_imp hc), ?_⟩
      rw [← e, ← hr, hs]
    · intro h; cases h
  · rintro ⟨name, args, rest, h0, hl', rfl⟩
    have hl : ∀ c ∈ name, letter c = true := fun c hc => (letter_eq c).trans (hl' c hc)
    have hp : letter '(' = false := by decide
    have e1 : (name ++ '(' :: (args ++ ')' :: rest)).takeWhile letter = name := by
      rw [List.takeWhile_append_of_pos hl, List.takeWhile_cons, hp]
      simp
    have e2 : (name ++ '(' :: (args ++ ')' :: rest)).dropWhile letter = '(' :: (args ++ ')' :: rest) := by
      rw [List.dropWhile_append_of_pos hl, List.dropWhile_cons, hp]
      simp
    rw [e1, e2]
    refine ⟨by simpa using h0, ?_⟩
    simp only
    rw [List.takeWhile_eq_self_iff.2, List.contains_iff_mem]
    · simp
    · intro c hc
      simp only [decide_eq_true_eq]
      rintro rfl
      exact hn (by simp at hc ⊢; tauto)

theorem mem_forbidden {f : Text} : f ∈ forbidden ↔ Banned f := by
  have e : forbidden = ["import", "=", "\n", ";", ":", "\"", "'", "open"].map String.toList ++
    (["__name__", "__doc__", "__package__", "__loader__", "__spec__", "__file__", "__cached__", "__builtins__"].map String.toList ++
      ["np", "re", "unum", "units", "ARRAYTYPES", "INTEGERTYPES", "NUMBERTYPES", "STRINGTYPES", "make_unit", "make_unit_old"].map String.toList) := rfl
  rw [e, List.mem_append, List.mem_append, List.mem_map, List.mem_map, List.mem_map]
  unfold Banned
  simp only [eq_comm]

theorem any_forbidden {s : Text} : (forbidden.any fun f => decide (f <:+: s)) = true ↔ ∃ f, Banned f ∧ f <:+: s := by
  rw [List.any_eq_true]
  simp [mem_forbidden]

/-! ### C263 -/

/-- **C263** A text in which one of the forbidden texts occurs is refused, and no part of it is executed: the outcome does not depend on what executing it
would do. -/
theorem C263_refused {s : Text} (h : ∃ f, Banned f ∧ ∃ a b, s = a ++ f ++ b) (exec : Text → Res Sym) : makeUnit exec s = .error .exception := by
  obtain ⟨f, hf, a, b, rfl⟩ := h
  unfold makeUnit
  have hf0 : f ≠ [] := by
    rintro rfl
    rw [← mem_forbidden] at hf
    revert hf
    decide
  rw [if_neg (by simp [hf0]), if_pos (any_forbidden.2 ⟨f, hf, a, b, rfl⟩)]

/-- **C263** A text that is a call is refused without being executed. -/
theorem C263_call_partial {s : Text} (h : IsCall s) (exec : Text → Res Sym) : makeUnit exec s = .error .exception := by
  by_cases hf : ∃ f, Banned f ∧ f <:+: s
  · obtain ⟨f, hf, a, b, rfl⟩ := hf
    exact C263_refused ⟨f, hf, a, b, rfl⟩ exec
  · have hn : '\n' ∉ s := by
      intro hm
      obtain ⟨a, b, rfl⟩ := List.append_of_mem hm
      exact hf ⟨['\n'], mem_forbidden.1 (by decide), a, b, by simp⟩
    unfold makeUnit
    have h0 : s ≠ [] := by
      obtain ⟨name, args, rest, -, -, rfl⟩ := h
      simp
    rw [if_neg h0, if_neg (by rw [any_forbidden]; exact hf), if_pos ((callAtStart_iff hn).2 h)]

/-- **C263** Every other text gives what Python gives for it, with `**` for each `^`; the empty text gives the unit of numbers. -/
theorem C263_executed (exec : Text → Res Sym) {s k : Text} (h0 : s ≠ []) (hf : ¬ ∃ f, Banned f ∧ ∃ a b, s = a ++ f ++ b) (hc : ¬ IsCall s) (hk : Starred s k) :
    makeUnit exec s = exec k ∧ makeUnit exec [] = .ok Sym.one := by
  refine ⟨?_, rfl⟩
  have hf' : ¬ ∃ f, Banned f ∧ f <:+: s := by
    rintro ⟨f, h1, a, b, h2⟩
    exact hf ⟨f, h1, a, b, h2.symm⟩
  have hn : '\n' ∉ s := by
    intro hm
    obtain ⟨a, b, rfl⟩ := List.append_of_mem hm
    exact hf' ⟨['\n'], mem_forbidden.1 (by decide), a, b, by simp⟩
  unfold makeUnit
  rw [if_neg h0, if_neg (by rw [any_forbidden]; exact hf'), if_neg (by rw [callAtStart_iff hn]; exact hc), starred_unique hk (starred s)]

/-- **C263** Calls are looked for at the start of the text only: after a digit, a space or a parenthesis any call is executed, provided that its text holds
none of the forbidden texts and no `^`. -/
theorem C263_call_violated (exec : Text → Res Sym) {c : Char} {name args : Text} (hc : c.isAlpha = false)
    (hf : ¬ ∃ f, Banned f ∧ ∃ a b, c :: (name ++ '(' :: (args ++ [')'])) = a ++ f ++ b) (hp : '^' ∉ c :: (name ++ '(' :: (args ++ [')']))) :
    makeUnit exec (c :: (name ++ '(' :: (args ++ [')']))) = exec (c :: (name ++ '(' :: (args ++ [')']))) := by
  refine (C263_executed exec (by simp) hf ?_ ?_).1
  · rintro ⟨n, a, r, h0, hl, e⟩
    cases n with
    | nil => exact h0 rfl
    | cons d n =>
      simp only [List.cons_append, List.cons.injEq] at e
      have := hl c (by rw [e.1]; simp)
      rw [hc] at this
      cases this
  · generalize hs : c :: (name ++ '(' :: (args ++ [')'])) = s at hp
    clear hs hf
    induction s with
    | nil => exact .nil
    | cons d s ih => exact .other (fun e => hp (by rw [e]; simp)) (ih fun h => hp (by simp [h]))

/-- **C263** The names of the module are looked for inside words: every unit whose name holds "re" or "np" is refused, whatever else is written. -/
theorem C263_names_violated (exec : Text → Res Sym) (a b : Text) :
    makeUnit exec (a ++ ['r', 'e'] ++ b) = .error .exception ∧ makeUnit exec (a ++ ['n', 'p'] ++ b) = .error .exception :=
  ⟨C263_refused ⟨['r', 'e'], mem_forbidden.1 (by decide), a, b, rfl⟩ exec, C263_refused ⟨['n', 'p'], mem_forbidden.1 (by decide), a, b, rfl⟩ exec⟩

/-! ### examples -/

example (exec : Text → Res Sym) : makeUnit exec "kg*m^2".toList = exec "kg*m**2".toList := by
  unfold makeUnit
  rw [if_neg (by decide), if_neg (by decide +kernel), if_neg (by decide +kernel)]
  congr 1

example (exec : Text → Res Sym) : makeUnit exec "1*exit()".toList = exec "1*exit()".toList := by
  unfold makeUnit
  rw [if_neg (by decide), if_neg (by decide +kernel), if_neg (by decide +kernel)]
  congr 1

example (exec : Text → Res Sym) : makeUnit exec "exit()".toList = .error .exception := C263_call_partial ⟨"exit".toList, [], [], by decide, by decide, rfl⟩ exec

example (exec : Text → Res Sym) : makeUnit exec "degree".toList = .error .exception := (C263_names_violated exec "deg".toList ['e']).1

end IMT.Utils
