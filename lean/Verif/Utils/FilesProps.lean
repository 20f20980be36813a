import Verif.Utils.Model
import Mathlib.Data.List.Nodup

/-!
Property C73 (collections of files).
-/

namespace IMT.Utils.Files

variable {P : Type}

/-- The three lists have one length. -/
def Parallel (s : Files P) : Prop := s.exist.length = s.paths.length ∧ s.isdir.length = s.paths.length

/-- What the collection says, file by file: path, existence, nature. -/
def rows (s : Files P) : List (P × Bool × Option Bool) := s.paths.zip (s.exist.zip s.isdir)

theorem rows_length {s : Files P} (h : Parallel s) : s.rows.length = s.paths.length := by
  simp [rows, h.1, h.2]

theorem pyIdx_lt {n : Nat} {i : Int} {k : Nat} (h : pyIdx n i = some k) : k < n := by
  unfold pyIdx at h
  split at h
  · split at h
    · simp only [Option.some.injEq] at h; omega
    · cases h
  · split at h
    · simp only [Option.some.injEq] at h; omega
    · cases h

theorem zip_eraseIdx {α β : Type} (l : List α) (m : List β) (k : Nat) : (l.eraseIdx k).zip (m.eraseIdx k) = (l.zip m).eraseIdx k := by
  induction l generalizing m k with
  | nil => simp
  | cons a l ih =>
    cases m with
    | nil => simp
    | cons b m =>
      cases k with
      | zero => simp
      | succ k => simp [ih]

theorem removeInt_spec {s : Files P} (h : Parallel s) (i : Int) :
    Parallel (s.removeInt i).1 ∧
      ((s.removeInt i).2 = .error .indexError ∧ (s.removeInt i).1 = s ∧ pyIdx s.paths.length i = none ∨
        ∃ k, pyIdx s.paths.length i = some k ∧ (s.removeInt i).2 = .ok ⟨⟩ ∧ (s.removeInt i).1.rows = s.rows.eraseIdx k) := by
  unfold removeInt
  rw [h.1, h.2]
  cases hk : pyIdx s.paths.length i with
  | none => exact ⟨h, Or.inl ⟨rfl, rfl, rfl⟩⟩
  | some k =>
    have hl := pyIdx_lt hk
    refine ⟨⟨?_, ?_⟩, Or.inr ⟨k, rfl, rfl, ?_⟩⟩
    · simp [List.length_eraseIdx, h.1]
    · simp [List.length_eraseIdx, h.2]
    · simp only [rows, zip_eraseIdx]

/-- The operations on a collection. -/
inductive Op (P : Type) where
  | add (fs : P → Seen) (p : P)
  | load (found : List (P × Bool))
  | plus (t : Files P)
  | remove (es : List (Elt P))

/-- One operation; after an exception the object stays as it was left. -/
def apply (s : Files P) : Op P → Files P
  | .add fs p => (s.add fs p).1
  | .load found => s.loadRegex found
  | .plus t => s.plus t
  | .remove es => (s.removeAll es).1

theorem removeOne_parallel {s : Files P} (h : Parallel s) (e : Elt P) : Parallel (s.removeOne e).1 := by
  cases e with
  | int i => exact (removeInt_spec h i).1
  | regex m =>
    show Parallel (s.removeRegex m).1
    unfold removeRegex; split <;> exact h
  | other => exact h

theorem removeAll_parallel {s : Files P} (h : Parallel s) (es : List (Elt P)) : Parallel (s.removeAll es).1 := by
  induction es generalizing s with
  | nil => exact h
  | cons e es ih =>
    have h1 := removeOne_parallel h e
    unfold removeAll
    split
    · next s' x he => rw [he] at h1; exact ih h1
    · next s' x he => rw [he] at h1; exact h1

/-- C73: after every sequence of additions, loads, concatenations and removals, exceptions included, the three lists are
parallel. -/
theorem C73_parallel (ops : List (Op P)) (hops : ∀ t, Op.plus t ∈ ops → Parallel t) :
    Parallel (ops.foldl apply (empty : Files P)) := by
  have key : ∀ (ops : List (Op P)) (s : Files P), Parallel s → (∀ t, Op.plus t ∈ ops → Parallel t) → Parallel (ops.foldl apply s) := by
    intro ops
    induction ops with
    | nil => intro s h _; exact h
    | cons o ops ih =>
      intro s h ho
      refine ih _ ?_ fun t ht => ho t (by simp [ht])
      cases o with
      | add fs p =>
        simp only [apply, add]
        cases fs p <;> simp [Parallel, h.1, h.2]
      | load found => simp [apply, loadRegex, Parallel, h.1, h.2]
      | plus t =>
        have := ho t (by simp)
        simp [apply, plus, Parallel, h.1, h.2, this.1, this.2]
      | remove es => exact removeAll_parallel h es
  exact key ops empty ⟨rfl, rfl⟩ hops

/-- C73: adding a path adds one file, described as the file system says, after the others; an unreachable path changes
nothing. -/
theorem C73_add (fs : P → Seen) {s : Files P} (h : Parallel s) (p : P) :
    (∀ d, fs p = .there d → (s.add fs p).1.rows = s.rows ++ [(p, true, some d)] ∧ (s.add fs p).2 = .ok ⟨⟩) ∧
    (fs p = .creatable → (s.add fs p).1.rows = s.rows ++ [(p, false, none)] ∧ (s.add fs p).2 = .ok ⟨⟩) ∧
    (fs p = .unreachable → (s.add fs p).1 = s ∧ (s.add fs p).2 = .error .exception) := by
  have e : s.paths.length = (s.exist.zip s.isdir).length := by simp [h.1, h.2]
  refine ⟨?_, ?_, ?_⟩
  · intro d hd
    unfold add
    rw [hd]
    refine ⟨?_, rfl⟩
    unfold rows
    simp only
    rw [List.zip_append (by rw [h.1, h.2]), List.zip_append e]
    rfl
  · intro hd
    unfold add
    rw [hd]
    refine ⟨?_, rfl⟩
    unfold rows
    simp only
    rw [List.zip_append (by rw [h.1, h.2]), List.zip_append e]
    rfl
  · intro hd
    unfold add
    rw [hd]
    exact ⟨rfl, rfl⟩

/-- C73: removing an index removes the description of that file and of no other; an index out of range changes nothing. -/
theorem C73_remove_index {s : Files P} (h : Parallel s) (k : Nat) :
    (k < s.paths.length → (s.removeInt k).2 = .ok ⟨⟩ ∧ (s.removeInt k).1.rows = s.rows.eraseIdx k) ∧
      (s.paths.length ≤ k → (s.removeInt k).2 = .error .indexError ∧ (s.removeInt k).1 = s) := by
  have hp : ∀ k : Nat, pyIdx s.paths.length (k : Int) = if k < s.paths.length then some k else none := by
    intro k
    unfold pyIdx
    rw [if_pos (by omega)]
    by_cases hk : k < s.paths.length
    · rw [if_pos (by omega), if_pos hk]; simp
    · rw [if_neg (by omega), if_neg hk]
  rcases (removeInt_spec h k).2 with ⟨h1, h2, h3⟩ | ⟨k', h1, h2, h3⟩
  · rw [hp] at h3
    refine ⟨fun hk => ?_, fun _ => ⟨h1, h2⟩⟩
    rw [if_pos hk] at h3; cases h3
  · rw [hp] at h1
    split at h1
    · simp only [Option.some.injEq] at h1
      subst h1
      exact ⟨fun _ => ⟨h2, h3⟩, fun hk => by omega⟩
    · cases h1

theorem filter_erase {α : Type} (l : List α) {i : Nat} (hi : i < l.length) {js : List Nat} (hj : ∀ j ∈ js, j < i) :
    ((l.eraseIdx i).zipIdx.filter fun r => r.2 ∉ js).map Prod.fst = (l.zipIdx.filter fun r => r.2 ∉ i :: js).map Prod.fst := by
  have keep : ∀ (m : List α) (n : Nat), i ≤ n → (m.zipIdx n).filter (fun r => decide (r.2 ∉ js)) = m.zipIdx n := by
    intro m n hn
    rw [List.filter_eq_self]
    rintro ⟨a, k⟩ hk
    have := List.le_snd_of_mem_zipIdx hk
    simp only [decide_eq_true_eq]
    intro hkj
    have := hj k hkj
    simp only at *
    omega
  have keep' : ∀ (m : List α) (n : Nat), i < n → (m.zipIdx n).filter (fun r => decide (r.2 ∉ i :: js)) = m.zipIdx n := by
    intro m n hn
    rw [List.filter_eq_self]
    rintro ⟨a, k⟩ hk
    have := List.le_snd_of_mem_zipIdx hk
    simp only [decide_eq_true_eq, List.mem_cons, not_or]
    simp only at *
    refine ⟨by omega, fun hkj => ?_⟩
    have := hj k hkj
    omega
  have low : ∀ (m : List α), m.length ≤ i → (m.zipIdx).filter (fun r => decide (r.2 ∉ i :: js)) = (m.zipIdx).filter (fun r => decide (r.2 ∉ js)) := by
    intro m hm
    apply List.filter_congr
    rintro ⟨a, k⟩ hk
    have := List.snd_lt_of_mem_zipIdx hk
    simp only at this
    simp only [List.mem_cons, not_or, decide_eq_decide]
    constructor
    · exact fun h => h.2
    · exact fun h => ⟨by omega, h⟩
  have hsplit : l = l.take i ++ l[i] :: l.drop (i + 1) := by simp
  have hlen : (l.take i).length = i := by simp; omega
  rw [List.eraseIdx_eq_take_drop_succ]
  conv_rhs => rw [hsplit]
  rw [List.zipIdx_append, List.zipIdx_append, List.filter_append, List.filter_append, List.map_append, List.map_append, hlen,
    low _ (by omega), List.zipIdx_cons, List.filter_cons, Nat.zero_add, keep (l.drop (i + 1)) i (le_refl _)]
  simp only [ List.mem_cons, true_or, not_true_eq_false, decide_false, Bool.false_eq_true, if_false]
  have := keep' (l.drop (i + 1)) (i + 1) (by omega)
  simp only [List.mem_cons] at this
  rw [this]
  simp

/-- C73: a negative index counts from the end; the first file is reached by minus the number of files, and an index further
below changes nothing. -/
theorem C73_remove_negative {s : Files P} (h : Parallel s) (k : Nat) :
    (k < s.paths.length → (s.removeOne (.int (-(k + 1 : Nat) : Int))).2 = .ok ⟨⟩ ∧
      (s.removeOne (.int (-(k + 1 : Nat) : Int))).1.rows = s.rows.eraseIdx (s.rows.length - (k + 1))) ∧
    (s.paths.length ≤ k → (s.removeOne (.int (-(k + 1 : Nat) : Int))).1 = s) := by
  have hp : pyIdx s.paths.length (-(k + 1 : Nat) : Int) =
      if k < s.paths.length then some (s.paths.length - (k + 1)) else none := by
    unfold pyIdx
    rw [if_neg (by omega)]
    by_cases hk : k < s.paths.length
    · rw [if_pos (by omega), if_pos hk]; congr 1; omega
    · rw [if_neg (by omega), if_neg hk]
  have sp := (removeInt_spec h (-(k + 1 : Nat) : Int)).2
  rw [hp] at sp
  constructor
  · intro hk
    rw [if_pos hk] at sp
    rcases sp with ⟨_, _, hn⟩ | ⟨q, hq, h1, h2⟩
    · cases hn
    · cases hq
      rw [rows_length h]
      exact ⟨h1, h2⟩
  · intro hk
    rw [if_neg (by omega)] at sp
    rcases sp with ⟨_, h2, _⟩ | ⟨q, hq, _⟩
    · exact h2
    · cases hq

/-- C73: removing the files of several indices, given from the last to the first, removes exactly these files.
Partial: other orders remove other files (see `C73_remove_array_violated`). -/
theorem C73_remove_array_partial {s : Files P} (h : Parallel s) {ks : List Nat} (hd : ks.Pairwise (· > ·))
    (hk : ∀ k ∈ ks, k < s.paths.length) :
    (s.removeAll (ks.map fun k : Nat => .int (k : Int))).2 = .ok ⟨⟩ ∧
      (s.removeAll (ks.map fun k : Nat => .int (k : Int))).1.rows = (s.rows.zipIdx.filter fun r => r.2 ∉ ks).map Prod.fst := by
  induction ks generalizing s with
  | nil => simp [removeAll]
  | cons k ks ih =>
    obtain ⟨h1, h2⟩ := List.pairwise_cons.1 hd
    obtain ⟨e1, e2⟩ := (C73_remove_index h k).1 (hk k (by simp))
    have hp := (removeInt_spec h k).1
    have hstep : s.removeAll ((k :: ks).map fun k : Nat => .int (k : Int)) = (s.removeInt k).1.removeAll (ks.map fun k : Nat => .int (k : Int)) := by
      simp only [List.map_cons, removeAll, removeOne]
      rw [show s.removeInt k = ((s.removeInt k).1, .ok ⟨⟩) from Prod.ext rfl e1]
    have hlen : (s.removeInt k).1.paths.length = s.paths.length - 1 := by
      rw [← rows_length hp, e2, List.length_eraseIdx, rows_length h, if_pos (hk k (by simp))]
    rw [hstep]
    obtain ⟨f1, f2⟩ := ih hp h2 (by
      intro j hj
      have a := h1 j hj
      have b := hk k (by simp)
      omega)
    refine ⟨f1, ?_⟩
    rw [f2, e2]
    exact filter_erase _ (by rw [rows_length h]; exact hk k (by simp)) h1

theorem erase_erase {α : Type} (l : List α) {i j : Nat} (h : i < j) : (l.eraseIdx i).eraseIdx j = (l.eraseIdx (j + 1)).eraseIdx i := by
  induction l generalizing i j with
  | nil => simp
  | cons a l ih =>
    match i, j, h with
    | 0, j + 1, _ => simp
    | i + 1, j + 1, h => simp [ih (show i < j by omega)]

/-- C73 fails for increasing indices: of two indices `i < j`, the file of index `j + 1` is removed and the one of index `j`
stays. -/
theorem C73_remove_array_violated {s : Files P} (h : Parallel s) {i j : Nat} (hij : i < j) (hj : j + 1 < s.paths.length) :
    (s.removeAll [.int i, .int j]).2 = .ok ⟨⟩ ∧
      (s.removeAll [.int i, .int j]).1.rows = (s.rows.zipIdx.filter fun r => r.2 ∉ [j + 1, i]).map Prod.fst := by
  obtain ⟨e1, e2⟩ := (C73_remove_index h i).1 (by omega)
  have hp := (removeInt_spec h i).1
  have hlen : (s.removeInt i).1.paths.length = s.paths.length - 1 := by
    rw [← rows_length hp, e2, List.length_eraseIdx, rows_length h, if_pos (by omega)]
  obtain ⟨f1, f2⟩ := (C73_remove_index hp j).1 (by omega)
  have hstep : s.removeAll [.int i, .int j] = ((s.removeInt i).1.removeInt j) := by
    simp only [removeAll, removeOne]
    rw [show s.removeInt i = ((s.removeInt i).1, .ok ⟨⟩) from Prod.ext rfl e1]
    simp only
    rw [show (s.removeInt i).1.removeInt j = (((s.removeInt i).1.removeInt j).1, .ok ⟨⟩) from Prod.ext rfl f1]
  rw [hstep]
  refine ⟨f1, ?_⟩
  have a := filter_erase s.rows (i := j + 1) (by rw [rows_length h]; omega) (js := [i]) (by simp; omega)
  have b := filter_erase (s.rows.eraseIdx (j + 1)) (i := i) (by rw [List.length_eraseIdx, rows_length h, if_pos (by omega)]; omega)
    (js := []) (by simp)
  rw [f2, e2, ← a, ← b]
  have id0 : ∀ l : List (P × Bool × Option Bool), ((l.zipIdx.filter fun r => r.2 ∉ ([] : List Nat)).map Prod.fst) = l := by
    intro l; simp
  rw [id0]
  exact erase_erase _ hij

/-- C73 fails for regular expressions: as soon as one path matches, the removal raises TypeError and removes nothing, for every
collection. -/
theorem C73_remove_regex_violated (s : Files P) (m : P → Bool) {p : P} (hp : p ∈ s.paths) (hm : m p = true) :
    s.removeAll [.regex m] = (s, .error .typeError) := by
  have : s.paths.any m = true := List.any_eq_true.2 ⟨p, hp, hm⟩
  simp [removeAll, removeOne, removeRegex, this]

example : Parallel (⟨[5, 6, 7], [true, true, false], [some true, some false, none]⟩ : Files Nat) ∧
    (⟨[5, 6, 7], [true, true, false], [some true, some false, none]⟩ : Files Nat).removeAll [.int 2, .int 0] =
      (⟨[6], [true], [some false]⟩, .ok ⟨⟩) := by
  refine ⟨⟨rfl, rfl⟩, by rfl⟩

end IMT.Utils.Files
