import Verif.Temporal.Crop

/-! Properties C38, C39 and C46: what a container holds after any history of additions, removals and crops. -/

namespace IMT.Temporal
variable {srt : List Rat → List Nat}

/-! ### C38: single operations -/

/-- C38: an accepted addition keeps as many times as fields, sorts them, and adds one pair to the content (the time is the
given one when its unit is that of the container). -/
theorem C38_add (hs : Profile.IsArgsort srt) {t t' : TF} {f : SF} {x : Rat} {u : Sym} (hp : Paired t)
    (hu : u.size ≠ 0) (hut : t.fields ≠ [] → t.ut = u) (h : addField srt t f x u = (t', .ok ⟨⟩)) :
    Paired t' ∧ Sorted t' ∧ (entries t').Perm ((x, f) :: entries t) := by
  obtain ⟨p, s, perm, _⟩ := add_spec hs hp h
  refine ⟨p, s, ?_⟩
  by_cases h0 : t.fields.length = 0
  · rwa [if_pos h0] at perm
  · rw [if_neg h0] at perm
    have : t.ut = u := hut fun e => h0 (by rw [e]; rfl)
    have hst : storedTime t x u = x := by rw [← this]; exact storedTime_self (this ▸ hu) x
    rwa [hst] at perm

/-- C38: removing one field removes its time with it. -/
theorem C38_remove_one {t : TF} (hp : Paired t) {i : Nat} (hi : i < t.fields.length) :
    (removeFields t [(i : Int)]).2 = .ok ⟨⟩ ∧ Paired (removeFields t [(i : Int)]).1 ∧
      entries (removeFields t [(i : Int)]).1 = (entries t).eraseIdx i := by
  have hl := entries_length hp
  have hd : deleteAll (entries t) [(i : Int)] = ((entries t).eraseIdx i, true) := by
    unfold deleteAll
    rw [hl, pyIdx_nat hi]
    rfl
  obtain ⟨h1, h2, _⟩ := remove_spec hp [(i : Int)]
  have ok := h1.mpr (by rw [hd])
  obtain ⟨a, b⟩ := h2 ok
  exact ⟨ok, a, by rw [b, hd]⟩

/-! ### C38: histories -/

/-- An operation on a container; times are given in the same unit all along. -/
inductive Op where
  | add (f : SF) (x : Rat)
  | remove (is : List Int)
  | crop (a b : Rat)
  | cropInd (i j : Nat)

/-- The state of the container after an operation, whether it raised or not. -/
def step (srt : List Rat → List Nat) (u : Sym) (t : TF) : Op → TF
  | .add f x => (addField srt t f x u).1
  | .remove is => (removeFields t is).1
  | .crop a b => match cropTime t (some (a, b)) with
    | .ok t' => t'
    | .error _ => t
  | .cropInd i j => cropTimeInd t i j

/-- The container after a list of operations. -/
def run (srt : List Rat → List Nat) (u : Sym) : TF → List Op → TF
  | t, [] => t
  | t, op :: ops => run srt u (step srt u t op) ops

/-- No removal of several fields raised. -/
def Clean (srt : List Rat → List Nat) (u : Sym) : TF → List Op → Prop
  | _, [] => True
  | t, op :: ops => (∀ is, op = .remove is → 2 ≤ is.length → (removeFields t is).2 = .ok ⟨⟩) ∧ Clean srt u (step srt u t op) ops

/-- The pairs given to `add_field` during a history. -/
def added : List Op → List (Rat × SF)
  | [] => []
  | .add f x :: ops => (x, f) :: added ops
  | _ :: ops => added ops

/-- The invariant of histories. -/
structure Inv (u : Sym) (t : TF) : Prop where
  paired : Paired t
  sorted : Sorted t
  unit : t.fields ≠ [] → t.ut = u

theorem inv_of_sublist {u : Sym} {t t' : TF} (h : Inv u t) (hp : Paired t') (he : (entries t').Sublist (entries t))
    (hu : t'.ut = t.ut) : Inv u t' := by
  refine ⟨hp, ?_, ?_⟩
  · unfold Sorted
    rw [← entries_fst hp]
    exact List.Pairwise.sublist (he.map _) (by rw [entries_fst h.paired]; exact h.sorted)
  · intro hn
    rw [hu]
    apply h.unit
    intro e
    have : (entries t).length = 0 := by rw [entries_length h.paired, e]; rfl
    have := he.length_le
    rw [entries_length hp] at this
    exact hn (List.length_eq_zero_iff.mp (by omega))

theorem step_spec (hs : Profile.IsArgsort srt) {u : Sym} (hu : u.size ≠ 0) {t : TF} (h : Inv u t) (op : Op)
    (hc : ∀ is, op = .remove is → 2 ≤ is.length → (removeFields t is).2 = .ok ⟨⟩) :
    Inv u (step srt u t op) ∧ (entries (step srt u t op)).Subperm (added [op] ++ entries t) := by
  cases op with
  | add f x =>
    simp only [step, added]
    cases ha : addField srt t f x u with
    | mk t' r =>
      cases r with
      | ok p =>
        obtain ⟨p1, s1, perm⟩ := C38_add hs h.paired hu h.unit ha
        refine ⟨⟨p1, s1, ?_⟩, perm.subperm⟩
        intro _
        obtain ⟨_, _, _, e⟩ := add_spec hs h.paired ha
        by_cases h0 : t.fields.length = 0
        · rw [if_pos h0] at e; exact e
        · rw [if_neg h0] at e
          rw [e]
          exact h.unit fun e => h0 (by rw [e]; rfl)
      | error e =>
        obtain ⟨rfl, _⟩ := add_error hs h.paired ha
        exact ⟨h, (List.sublist_cons_self _ _).subperm⟩
  | remove is =>
    simp only [step, added, List.nil_append]
    by_cases ok : (removeFields t is).2 = .ok ⟨⟩
    · obtain ⟨p, e⟩ := (remove_spec h.paired is).2.1 ok
      have hsub : (entries (removeFields t is).1).Sublist (entries t) := by rw [e]; exact deleteAll_sublist _ _
      refine ⟨inv_of_sublist h p hsub ?_, hsub.subperm⟩
      unfold removeFields
      split
      · rfl
      · split <;> rfl
    · have hlen : is.length < 2 := by
        by_contra hn
        exact ok (hc is rfl (not_lt.mp hn))
      have e := (remove_spec h.paired is).2.2 ok
      have hd : (deleteAll t.times is).1 = t.times := by
        match is, hlen with
        | [], _ => rfl
        | [i], _ =>
          unfold deleteAll
          cases hi : pyIdx t.times.length i with
          | none => rfl
          | some k =>
            exfalso
            apply ok
            apply (remove_spec h.paired [i]).1.mpr
            unfold deleteAll
            rw [entries_length h.paired, ← h.paired, hi]
            rfl
      have : (removeFields t is).1 = t := by rw [e, hd]
      rw [this]
      exact ⟨h, List.Subperm.refl _⟩
  | crop a b =>
    simp only [step, added, List.nil_append]
    cases hcr : cropTime t (some (a, b)) with
    | error e => exact ⟨h, List.Subperm.refl _⟩
    | ok t' =>
      obtain ⟨he, p, s, _, _, _, _, hut, _⟩ := cropTime_spec h.paired h.sorted hcr
      have hsub : (entries t').Sublist (entries t) := by rw [he]; exact List.filter_sublist
      exact ⟨inv_of_sublist h p hsub hut, hsub.subperm⟩
  | cropInd i j =>
    simp only [step, added, List.nil_append]
    have hsub : (entries (cropTimeInd t i j)).Sublist (entries t) := by
      unfold entries cropTimeInd cutTime
      simp only
      rw [Profile.slice_zip]
      exact (List.drop_sublist _ _).trans (List.take_sublist _ _)
    refine ⟨inv_of_sublist h ?_ hsub rfl, hsub.subperm⟩
    unfold Paired cropTimeInd cutTime
    simp only [slice_length]
    rw [h.paired]

theorem run_spec (hs : Profile.IsArgsort srt) {u : Sym} (hu : u.size ≠ 0) (ops : List Op) {t : TF} (h : Inv u t)
    (hc : Clean srt u t ops) :
    Inv u (run srt u t ops) ∧ (entries (run srt u t ops)).Subperm (added ops ++ entries t) := by
  induction ops generalizing t with
  | nil => exact ⟨h, List.Subperm.refl _⟩
  | cons op ops ih =>
    obtain ⟨i1, s1⟩ := step_spec hs hu h op hc.1
    obtain ⟨i2, s2⟩ := ih i1 hc.2
    refine ⟨i2, ?_⟩
    refine s2.trans ?_
    have e : added (op :: ops) = added [op] ++ added ops := by cases op <;> rfl
    rw [e]
    have : (added ops ++ entries (step srt u t op)).Subperm (added ops ++ (added [op] ++ entries t)) :=
      (List.subperm_append_left _).mpr s1
    refine this.trans (List.Perm.subperm ?_)
    rw [← List.append_assoc]
    exact (List.perm_append_comm).append_right _

/-- C38, apart from removals of several fields that raise: after any history starting from an empty container there are as
many times as fields, times are in increasing order, and every field is attached to the time it was added with, at most as
many times as it was added. -/
theorem C38_history_partial (hs : Profile.IsArgsort srt) {u : Sym} (hu : u.size ≠ 0) (ops : List Op)
    (hc : Clean srt u TF.empty ops) :
    Paired (run srt u TF.empty ops) ∧ Sorted (run srt u TF.empty ops) ∧
      (entries (run srt u TF.empty ops)).Subperm (added ops) := by
  have h0 : Inv u TF.empty := ⟨rfl, List.Pairwise.nil, fun h => absurd rfl h⟩
  obtain ⟨i, s⟩ := run_spec hs hu ops h0 hc
  refine ⟨i.paired, i.sorted, ?_⟩
  have : entries TF.empty = [] := rfl
  rwa [this, List.append_nil] at s

example : Clean Profile.argsort .s TF.empty
    [.add SF.sample 3, .add SF.sample.neg 1, .add SF.sample 2, .remove [1, 0], .add SF.sample.neg 5, .crop 2 4] ∧
    (run Profile.argsort .s TF.empty
      [.add SF.sample 3, .add SF.sample.neg 1, .add SF.sample 2, .remove [1, 0], .add SF.sample.neg 5, .crop 2 4]).times = [3] := by
  refine ⟨?_, by decide +kernel⟩
  refine ⟨by simp, by simp, by simp, ?_, by simp, by simp, trivial⟩
  intro is h _
  cases h
  decide +kernel

/-- C38 fails: for every container that is not empty, `remove_fields([0, n - 1])`, where `n` is the number of fields, raises
IndexError and leaves more fields than times. -/
theorem C38_removal_violated {t : TF} (hp : Paired t) (h : t.fields ≠ []) :
    (removeFields t [0, ((t.fields.length - 1 : Nat) : Int)]).2 = .error .indexError ∧
      ¬ Paired (removeFields t [0, ((t.fields.length - 1 : Nat) : Int)]).1 := by
  have hpos : 0 < t.fields.length := List.length_pos_iff.mpr h
  have hd : deleteAll t.times [0, ((t.fields.length - 1 : Nat) : Int)] = (t.times.eraseIdx 0, false) := by
    unfold deleteAll
    have e0 : pyIdx t.times.length 0 = some 0 := pyIdx_nat (by rw [hp]; exact hpos)
    rw [e0]
    simp only
    unfold deleteAll
    rw [pyIdx_big]
    rw [List.length_eraseIdx, if_pos (by rw [hp]; exact hpos), hp]
  unfold removeFields
  rw [hd]
  refine ⟨rfl, ?_⟩
  unfold Paired
  simp only
  rw [List.length_eraseIdx, if_pos (by rw [hp]; exact hpos), hp]
  omega

example : Paired rec3 ∧ rec3.fields ≠ [] := ⟨rfl, by simp [rec3]⟩

/-- C38 fails after a scaling of the times by a negative number: any container with two fields at different times is then no
longer sorted. -/
theorem C38_scale_violated {t : TF} {c : Rat} (hc : c < 0) (u : Sym) {x y : Rat} {l : List Rat} (ht : t.times = x :: y :: l)
    (hxy : x < y) : ¬ Sorted (scale t none none none (some ⟨c, u⟩)) := by
  unfold Sorted scale scaleT
  simp only
  have : (scaleY (scaleX t none) none).times = t.times := rfl
  rw [this, ht]
  simp only [List.map_cons, List.pairwise_cons, List.mem_cons]
  intro h
  have := h.1 (y * c) (Or.inl rfl)
  nlinarith

example : (scale rec3 none none none (some ⟨-1, .one⟩)).times = [-1, -2, -4] := by decide +kernel

/-! ### C39 -/

/-- What is expected of a removal: the elements whose number is not in the list, in the same order. -/
def without {α : Type} (l : List α) (is : List Nat) : List α :=
  (l.zipIdx.filter fun p => decide (p.2 ∉ is)).map Prod.fst

theorem without_nil {α : Type} (l : List α) : without l [] = l := by
  unfold without
  rw [List.filter_eq_self.mpr (by simp)]
  simp

theorem without_cons_zero {α : Type} (a : α) (l : List α) (is : List Nat) (h0 : 0 ∉ is) :
    without (a :: l) is = a :: without l (is.map (· - 1)) := by
  unfold without
  rw [List.zipIdx_cons, List.filter_cons, if_pos (by simpa using h0), List.map_cons, List.zipIdx_succ, List.filter_map,
    List.map_map]
  congr 1
  have e : (fun x : α × Nat => Prod.fst ((fun x : α × Nat => (x.1, x.2 + 1)) x)) = Prod.fst := rfl
  have : ∀ p : α × Nat, ((fun p : α × Nat => decide (p.2 ∉ is)) ∘ fun x : α × Nat => (x.1, x.2 + 1)) p =
      decide (p.2 ∉ is.map (· - 1)) := by
    intro p
    simp only [Function.comp, decide_eq_decide, List.mem_map, not_iff_not]
    constructor
    · intro h; exact ⟨p.2 + 1, h, by omega⟩
    · rintro ⟨k, hk, hkp⟩
      have : k ≠ 0 := fun e => h0 (e ▸ hk)
      rwa [show p.2 + 1 = k by omega]
  rw [List.filter_congr fun p _ => this p]
  rfl

theorem without_cons_mem {α : Type} (a : α) (l : List α) (is : List Nat) (h0 : 0 ∈ is) :
    without (a :: l) is = without l ((is.filter (· ≠ 0)).map (· - 1)) := by
  unfold without
  rw [List.zipIdx_cons, List.filter_cons, if_neg (by simpa using h0), List.zipIdx_succ, List.filter_map, List.map_map]
  have : ∀ p : α × Nat, ((fun p : α × Nat => decide (p.2 ∉ is)) ∘ fun x : α × Nat => (x.1, x.2 + 1)) p =
      decide (p.2 ∉ (is.filter (· ≠ 0)).map (· - 1)) := by
    intro p
    simp only [Function.comp, decide_eq_decide, List.mem_map, not_iff_not, List.mem_filter]
    constructor
    · intro h; exact ⟨p.2 + 1, ⟨h, by simp⟩, by omega⟩
    · rintro ⟨k, ⟨hk, hk0⟩, hkp⟩
      have : k ≠ 0 := by simpa using hk0
      rwa [show p.2 + 1 = k by omega]
  rw [List.filter_congr fun p _ => this p]
  rfl

/-- Membership only matters. -/
theorem without_congr {α : Type} (l : List α) {is js : List Nat} (h : ∀ i, i < l.length → (i ∈ is ↔ i ∈ js)) :
    without l is = without l js := by
  unfold without
  congr 1
  apply List.filter_congr
  intro p hp
  have : p.2 < l.length := by
    obtain ⟨_, h2, _⟩ := List.mem_zipIdx hp
    omega
  simp only [decide_eq_decide, not_iff_not]
  exact h _ this

theorem eraseIdx_eq_without {α : Type} (l : List α) (i : Nat) : l.eraseIdx i = without l [i] := by
  induction l generalizing i with
  | nil => rfl
  | cons a l ih =>
    cases i with
    | zero =>
      rw [without_cons_mem _ _ _ (by simp)]
      simp [without_nil]
    | succ i =>
      rw [List.eraseIdx_cons_succ, without_cons_zero _ _ _ (by simp), ih]
      rfl

/-- Deleting position `i` of what is left after a larger position went away is as deleting it first. -/
theorem without_eraseIdx {α : Type} (l : List α) (k : Nat) (is : List Nat) (h : ∀ i ∈ is, i < k) :
    without (l.eraseIdx k) is = without l (k :: is) := by
  induction l generalizing k is with
  | nil => rfl
  | cons a l ih =>
    cases k with
    | zero =>
      have : is = [] := by
        cases is with
        | nil => rfl
        | cons i is => exact absurd (h i (by simp)) (by omega)
      subst this
      rw [without_cons_mem _ _ _ (by simp)]
      simp [without_nil]
    | succ k =>
      rw [List.eraseIdx_cons_succ]
      by_cases h0 : 0 ∈ is
      · rw [without_cons_mem _ _ _ h0, without_cons_mem _ _ _ (by simp [h0]), ih]
        · apply without_congr
          intro i _
          simp
        · intro i hi
          obtain ⟨j, hj, rfl⟩ := List.mem_map.mp hi
          have hj' := List.mem_filter.mp hj
          have := h j hj'.1
          have hj0 : j ≠ 0 := by simpa using hj'.2
          omega
      · rw [without_cons_zero _ _ _ h0, without_cons_zero _ _ _ (by simp [h0]), ih]
        · apply congrArg
          apply without_congr
          intro i _
          simp
        · intro i hi
          obtain ⟨j, hj, rfl⟩ := List.mem_map.mp hi
          have := h j hj
          have hj0 : j ≠ 0 := fun e => h0 (e ▸ hj)
          omega

theorem deleteAll_decreasing {α : Type} (l : List α) (is : List Nat) (hd : is.Pairwise (· > ·)) (hb : ∀ i ∈ is, i < l.length) :
    deleteAll l (is.map fun i : Nat => (i : Int)) = (without l is, true) := by
  induction is generalizing l with
  | nil => rw [without_nil]; rfl
  | cons k is ih =>
    rw [List.pairwise_cons] at hd
    rw [List.map_cons]
    unfold deleteAll
    rw [pyIdx_nat (hb k (by simp))]
    simp only
    rw [ih (l.eraseIdx k) hd.2 (fun i hi => by
      have := hd.1 i hi
      have := hb k (by simp)
      rw [List.length_eraseIdx, if_pos this]
      omega), without_eraseIdx _ _ _ hd.1]

/-- C39, for a single index or a list of indices given from the largest to the smallest: exactly the requested fields
go away, with their times. -/
theorem C39_remove_partial {t : TF} (hp : Paired t) (is : List Nat) (hd : is.Pairwise (· > ·))
    (hb : ∀ i ∈ is, i < t.fields.length) :
    (removeFields t (is.map fun i : Nat => (i : Int))).2 = .ok ⟨⟩ ∧
      entries (removeFields t (is.map fun i : Nat => (i : Int))).1 = without (entries t) is := by
  have hdel := deleteAll_decreasing (entries t) is hd (by rw [entries_length hp]; exact hb)
  obtain ⟨h1, h2, _⟩ := remove_spec hp (is.map fun i : Nat => (i : Int))
  have ok := h1.mpr (by rw [hdel])
  exact ⟨ok, by rw [(h2 ok).2, hdel]⟩

/-- C39: a negative number counts from the end, `-1` being the last field. -/
theorem C39_negative {t : TF} (hp : Paired t) {k : Nat} (hk : k < t.fields.length) :
    (removeFields t [-((k : Int) + 1)]).2 = .ok ⟨⟩ ∧
      entries (removeFields t [-((k : Int) + 1)]).1 = (entries t).eraseIdx (t.fields.length - 1 - k) := by
  have hidx : pyIdx t.fields.length (-((k : Int) + 1)) = some (t.fields.length - 1 - k) := by
    unfold pyIdx
    rw [if_neg (by omega), if_pos (by omega)]
    congr 1
    omega
  have hdel : deleteAll (entries t) [-((k : Int) + 1)] = ((entries t).eraseIdx (t.fields.length - 1 - k), true) := by
    unfold deleteAll
    rw [entries_length hp, hidx]
    rfl
  obtain ⟨h1, h2, _⟩ := remove_spec hp [-((k : Int) + 1)]
  have ok := h1.mpr (by rw [hdel])
  exact ⟨ok, by rw [(h2 ok).2, hdel]⟩

example : Paired rec3 ∧ [2, 0].Pairwise (· > ·) ∧ (∀ i ∈ [2, 0], i < rec3.fields.length) ∧
    (removeFields rec3 [2, 0]).1.times = [2] := ⟨rfl, by decide, by decide, by decide +kernel⟩

/-- C39 fails for every list of two increasing indices: asking for fields `i < j` removes fields `i` and `j + 1` (and raises
IndexError, after damaging the container, when `j` is the last one). -/
theorem C39_two_violated {t : TF} (hp : Paired t) {i j : Nat} (hij : i < j) :
    (j + 1 < t.fields.length →
      (removeFields t [(i : Int), (j : Int)]).2 = .ok ⟨⟩ ∧
        entries (removeFields t [(i : Int), (j : Int)]).1 = without (entries t) [i, j + 1]) ∧
    (j + 1 = t.fields.length → (removeFields t [(i : Int), (j : Int)]).2 = .error .indexError) := by
  have hl := entries_length hp
  have aux : ∀ {α : Type} (l : List α), i < l.length → (l.eraseIdx i).eraseIdx j = without l [i, j + 1] := by
    intro α l hi
    have : (l.eraseIdx i).eraseIdx j = (l.eraseIdx (j + 1)).eraseIdx i := by
      clear hp hl
      induction l generalizing i j with
      | nil => rfl
      | cons a l ih =>
        cases i with
        | zero =>
          cases j with
          | zero => omega
          | succ j => simp
        | succ i =>
          cases j with
          | zero => omega
          | succ j =>
            simp only [List.eraseIdx_cons_succ]
            rw [ih (by omega) (by simpa using hi)]
    rw [this, eraseIdx_eq_without, without_eraseIdx _ _ _ (by simp; omega)]
    apply without_congr
    intro k _
    simp only [List.mem_cons, List.not_mem_nil, or_false]
    exact or_comm
  constructor
  · intro hj1
    have hdel : deleteAll (entries t) [(i : Int), (j : Int)] = (without (entries t) [i, j + 1], true) := by
      unfold deleteAll
      rw [hl, pyIdx_nat (by omega)]
      simp only
      unfold deleteAll
      rw [List.length_eraseIdx, if_pos (by omega), hl, pyIdx_nat (by omega)]
      simp only
      unfold deleteAll
      rw [aux _ (by omega)]
    obtain ⟨h1, h2, _⟩ := remove_spec hp [(i : Int), (j : Int)]
    have ok := h1.mpr (by rw [hdel])
    exact ⟨ok, by rw [(h2 ok).2, hdel]⟩
  · intro hj1
    have hdel : (deleteAll (entries t) [(i : Int), (j : Int)]).2 = false := by
      unfold deleteAll
      rw [hl, pyIdx_nat (by omega)]
      simp only
      unfold deleteAll
      rw [List.length_eraseIdx, if_pos (by omega), hl, pyIdx_big (by omega)]
    obtain ⟨h1, _, h3⟩ := remove_spec hp [(i : Int), (j : Int)]
    have nok : (removeFields t [(i : Int), (j : Int)]).2 ≠ .ok ⟨⟩ := by
      intro ok
      rw [h1.mp ok] at hdel
      cases hdel
    rw [h3 nok]

example : (removeFields rec3 [0, 1]).1.times = [2] ∧ without rec3.times [0, 1] = [4] := by decide +kernel

/-! ### C46 -/

/-- C46, for a field whose y axis is that of the container: another x axis is refused, and nothing changes. -/
theorem C46_refused_partial {t : TF} {f : SF} (x : Rat) (u : Sym) (h0 : t.fields ≠ []) (hx : t.ax ≠ f.ax) (hy : t.ay = f.ay) :
    addField srt t f x u = (t, .error .valueError) := by
  unfold addField
  rw [if_neg (fun e => h0 (List.length_eq_zero_iff.mp e)), if_pos ⟨hx, hy⟩]

/-- C46: a field on the grid of the container is accepted. -/
theorem C46_accepted (hs : Profile.IsArgsort srt) {t : TF} {f : SF} (x : Rat) (u : Sym) (hp : Paired t) (hx : t.ax = f.ax)
    : (addField srt t f x u).2 = .ok ⟨⟩ := by
  cases h : addField srt t f x u with
  | mk t' r =>
    cases r with
    | ok _ => rfl
    | error e => exact absurd hx (add_error hs hp h).2.2.2.1

/-- C46 fails: a field with another y axis is accepted, whatever its x axis, and the container then holds fields on different
grids. -/
theorem C46_grid_violated (hs : Profile.IsArgsort srt) {t : TF} {f : SF} (x : Rat) (u : Sym) (hp : Paired t) (h0 : t.fields ≠ [])
    (hy : t.ay ≠ f.ay) :
    (addField srt t f x u).2 = .ok ⟨⟩ ∧ f ∈ (addField srt t f x u).1.fields ∧ (addField srt t f x u).1.ay ≠ f.ay := by
  have hok : (addField srt t f x u).2 = .ok ⟨⟩ := by
    cases h : addField srt t f x u with
    | mk t' r =>
      cases r with
      | ok _ => rfl
      | error e => exact absurd (add_error hs hp h).2.2.2.2 hy
  refine ⟨hok, ?_, ?_⟩
  · cases h : addField srt t f x u with
    | mk t' r =>
      rw [h] at hok
      simp only at hok
      subst hok
      obtain ⟨p, _, perm, _⟩ := add_spec hs hp h
      show f ∈ t'.fields
      rw [← entries_snd p]
      exact List.mem_map.mpr ⟨_, perm.mem_iff.mpr (List.mem_cons_self), rfl⟩
  · unfold addField
    rw [if_neg (fun e => h0 (List.length_eq_zero_iff.mp e)), if_neg (fun h => hy h.2)]
    have hp' : Paired { t with times := t.times ++ [storedTime t x u], fields := t.fields ++ [f], nd := true } := by
      unfold Paired; simp only [List.length_append, List.length_singleton]; exact congrArg (· + 1) hp
    obtain ⟨t2, e2, _, _, _, _, eay, _⟩ := sort_spec hs hp'
    rw [e2]
    rw [show t2.ay = t.ay from eay]
    exact hy

example : Paired rec3 ∧ rec3.fields ≠ [] ∧ rec3.ay ≠ (SF.sample.setOrigin none (some 1)).ay :=
  ⟨rfl, by simp [rec3], by decide +kernel⟩

/-- C46, for a time given in a unit of the size of that of the container: the instant is kept. -/
theorem C46_time_partial (hs : Profile.IsArgsort srt) {t t' : TF} {f : SF} {x : Rat} {u : Sym} (hp : Paired t) (h0 : t.fields ≠ [])
    (hu : t.ut.Compat u) (hpos : 0 < u.size) (heq : t.ut.size = u.size) (h : addField srt t f x u = (t', .ok ⟨⟩)) :
    ∃ y, (entries t').Perm ((y, f) :: entries t) ∧ y * t'.ut.size = x * u.size := by
  obtain ⟨_, _, perm, hut⟩ := add_spec hs hp h
  have h0' : ¬ t.fields.length = 0 := fun e => h0 (List.length_eq_zero_iff.mp e)
  rw [if_neg h0'] at perm hut
  refine ⟨_, perm, ?_⟩
  rw [hut]
  unfold storedTime SF.unitNum
  rw [if_pos (by obtain ⟨a, b, c⟩ := hu; simp [Sym.Compat, Sym.div, Sym.one, a, b, c])]
  simp only [Sym.div]
  rw [heq]
  field_simp

/-- C46 fails: for every other unit of time the conversion factor is inverted, so that the field is stored at another
instant (unless it is the origin of times). -/
theorem C46_time_violated (hs : Profile.IsArgsort srt) {t t' : TF} {f : SF} {x : Rat} {u : Sym} (hp : Paired t) (h0 : t.fields ≠ [])
    (hu : t.ut.Compat u) (hpos : 0 < u.size) (hpos' : 0 < t.ut.size) (hne : t.ut.size ≠ u.size) (hx : x ≠ 0)
    (h : addField srt t f x u = (t', .ok ⟨⟩)) :
    ∃ y, (entries t').Perm ((y, f) :: entries t) ∧ y * t'.ut.size ≠ x * u.size ∧
      y = x * (t.ut.size / u.size) := by
  obtain ⟨_, _, perm, hut⟩ := add_spec hs hp h
  have h0' : ¬ t.fields.length = 0 := fun e => h0 (List.length_eq_zero_iff.mp e)
  rw [if_neg h0'] at perm hut
  have hst : storedTime t x u = x * (t.ut.size / u.size) := by
    unfold storedTime SF.unitNum
    rw [if_pos (by obtain ⟨a, b, c⟩ := hu; simp [Sym.Compat, Sym.div, Sym.one, a, b, c])]
    rfl
  refine ⟨_, perm, ?_, hst⟩
  rw [hut, hst]
  intro e
  have e2 : x * ((t.ut.size - u.size) * (t.ut.size + u.size)) = 0 := by
    field_simp at e
    rw [show (t.ut.size - u.size) * (t.ut.size + u.size) = t.ut.size ^ 2 - u.size ^ 2 by ring, e, sub_self, mul_zero]
  rcases mul_eq_zero.mp e2 with c | c
  · exact hx c
  · rcases mul_eq_zero.mp c with c | c
    · exact hne (by linarith)
    · linarith

example : Paired rec3 ∧ rec3.fields ≠ [] ∧ rec3.ut.Compat .ms ∧ rec3.ut.size ≠ Sym.ms.size ∧
    (addField Profile.argsort rec3 SF.sample 3 .ms).1.times = [1, 2, 4, 3000] :=
  ⟨rfl, by simp [rec3], by decide, by decide +kernel, by decide +kernel⟩

/-- C46 fails too for units that are not units of time: they are accepted and the number is stored as it is. -/
theorem C46_dimension_violated (hs : Profile.IsArgsort srt) {t : TF} {f : SF} {x : Rat} {u : Sym} (hp : Paired t) (h0 : t.fields ≠ [])
    (hu : ¬ t.ut.Compat u) (hx : t.ax = f.ax) :
    (addField srt t f x u).2 = .ok ⟨⟩ ∧ (entries (addField srt t f x u).1).Perm ((x, f) :: entries t) := by
  have hok := C46_accepted hs x u hp hx
  refine ⟨hok, ?_⟩
  cases h : addField srt t f x u with
  | mk t' r =>
    rw [h] at hok
    simp only at hok
    subst hok
    obtain ⟨_, _, perm, _⟩ := add_spec hs hp h
    have h0' : ¬ t.fields.length = 0 := fun e => h0 (List.length_eq_zero_iff.mp e)
    rw [if_neg h0'] at perm
    have : storedTime t x u = x := by
      unfold storedTime SF.unitNum
      rw [if_neg, mul_one]
      rintro ⟨a, b, c⟩
      simp only [Sym.div, Sym.one] at a b c
      exact hu ⟨by omega, by omega, by omega⟩
    rwa [this] at perm

example : ¬ rec3.ut.Compat .mm ∧ rec3.ax = SF.sample.ax := ⟨by decide, rfl⟩

end IMT.Temporal
