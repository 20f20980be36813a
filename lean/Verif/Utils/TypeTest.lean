import Verif.Utils.Model

/-!
Property C76: the type-checking decorators.
-/

namespace IMT.Utils

variable {N T V : Type} [DecidableEq N] [DecidableEq T]

/-! ### Specification -/

/-- The parameters a caller sees: `self` is not one of them. -/
def params (self : N) (f : Sig N) : List N := if f.args.head? = some self then f.args.tail else f.args

/-- The positional arguments a caller sees. -/
def positional (self : N) (f : Sig N) (args : List V) : List V := if f.args.head? = some self then args.drop 1 else args

/-- A parameter is given a value, by its rank or by its name. -/
def Bound (ps : List N) (args : List V) (kwargs : List (N × V)) (n : N) (v : V) : Prop :=
  (∃ i : Nat, ps[i]? = some n ∧ args[i]? = some v) ∨ (n, v) ∈ kwargs

/-- A parameter must have one of these types: those given by name, otherwise by rank. -/
def Checked (w : Wanted N T) (ps : List N) (n : N) (ts : List T) : Prop :=
  w.named n = some ts ∨ w.named n = none ∧ ∃ i : Nat, ps[i]? = some n ∧ w.pos[i]? = some ts

/-- Every given parameter has one of the types asked for. -/
def WellTyped (typ : V → T) (w : Wanted N T) (ps : List N) (args : List V) (kwargs : List (N × V)) : Prop :=
  ∀ n v ts, Bound ps args kwargs n v → Checked w ps n ts → typ v ∈ ts

/-! ### Lemmas -/

omit [DecidableEq T] in
theorem lookup_mem {l : List (N × V)} (h : (l.map (·.1)).Nodup) (n : N) (v : V) : l.lookup n = some v ↔ (n, v) ∈ l := by
  induction l with
  | nil => simp
  | cons a l ih =>
    obtain ⟨k, u⟩ := a
    simp only [List.map_cons, List.nodup_cons] at h
    rw [List.lookup_cons, List.mem_cons]
    by_cases hk : n = k
    · subst hk
      simp only [beq_self_eq_true, Option.some.injEq, Prod.mk.injEq, true_and]
      constructor
      · intro e; exact Or.inl e.symm
      · rintro (e | e)
        · exact e.symm
        · exact absurd (List.mem_map_of_mem (f := (·.1)) e) h.1
    · have : (n == k) = false := by simpa using hk
      simp only [this, Prod.mk.injEq, hk, false_and, false_or]
      exact ih h.2

omit [DecidableEq N] [DecidableEq T] in
theorem mem_zip_iff (ps : List N) (args : List V) (n : N) (v : V) :
    (n, v) ∈ ps.zip args ↔ ∃ i : Nat, ps[i]? = some n ∧ args[i]? = some v := by
  rw [List.mem_iff_getElem?]
  constructor
  · rintro ⟨i, h⟩
    exact ⟨i, by simpa [List.getElem?_zip_eq_some] using h⟩
  · rintro ⟨i, h⟩
    exact ⟨i, by simpa [List.getElem?_zip_eq_some] using h⟩

omit [DecidableEq T] in
theorem idxOf_iff {ps : List N} (h : ps.Nodup) {n : N} (hn : n ∈ ps) (i : Nat) : ps[i]? = some n ↔ i = ps.idxOf n := by
  constructor
  · intro e
    obtain ⟨hi, rfl⟩ := List.getElem?_eq_some_iff.1 e
    exact (List.Nodup.idxOf_getElem h i hi).symm
  · rintro rfl
    rw [List.getElem?_eq_getElem (List.idxOf_lt_length_of_mem hn), List.getElem_idxOf]

omit [DecidableEq T] in
theorem wantedOf_iff (w : Wanted N T) {ps extra : List N} (hN : (ps ++ extra).Nodup) (hp : w.pos.length ≤ ps.length)
    (hn : ∀ n ts, w.named n = some ts → n ∈ ps) (n : N) (ts : List T) :
    wantedOf w (ps ++ extra) n = some ts ↔ Checked w ps n ts := by
  have hps : ps.Nodup := (List.nodup_append.1 hN).1
  unfold wantedOf Checked
  by_cases hm : n ∈ ps
  · rw [if_pos (List.mem_append_left _ hm)]
    cases hw : w.named n with
    | some t => simp
    | none =>
      simp only [List.idxOf_append_of_mem hm, reduceCtorEq, false_or, true_and]
      constructor
      · intro e
        exact ⟨ps.idxOf n, (idxOf_iff hps hm _).2 rfl, e⟩
      · rintro ⟨i, hi, e⟩
        rwa [← (idxOf_iff hps hm i).1 hi]
  · have hw : w.named n = none := by
      cases hw : w.named n with
      | none => rfl
      | some t => exact absurd (hn n t hw) hm
    simp only [hw, reduceCtorEq, false_or, true_and]
    constructor
    · intro e
      split at e
      · rw [List.idxOf_append_of_notMem hm] at e
        rw [List.getElem?_eq_none (by omega)] at e
        cases e
      · cases e
    · rintro ⟨i, hi, -⟩
      exact absurd (List.mem_of_getElem? hi) hm

omit [DecidableEq T] in
theorem given_iff {ps extra : List N} (hN : (ps ++ extra).Nodup) {args : List V} (ha : args.length ≤ ps.length)
    {kwargs : List (N × V)} (hk : (kwargs.map (·.1)).Nodup)
    (hd : ∀ n ∈ ps.take args.length, n ∉ kwargs.map (·.1)) (n : N) (v : V) :
    given (ps ++ extra) args kwargs n = some v ↔ Bound ps args kwargs n v := by
  have hps : ps.Nodup := (List.nodup_append.1 hN).1
  have hz : (ps ++ extra).zip args = ps.zip args := by
    rw [List.zip_eq_zip_take_min, List.zip_eq_zip_take_min (l₁ := ps)]
    rw [show min (ps ++ extra).length args.length = args.length by rw [List.length_append]; omega,
      show min ps.length args.length = args.length by omega, List.take_append_of_le_length ha]
  have hzn : ((ps.zip args).map (·.1)).Nodup := by
    have hl : (ps.zip args).map (·.1) = ps.take args.length := by
      rw [List.zip_eq_zip_take_min, List.map_fst_zip (by simp)]
      rw [show min ps.length args.length = args.length by omega]
    rw [hl]
    exact List.Nodup.sublist (List.take_sublist _ _) hps
  unfold given Bound
  rw [hz]
  cases hl : kwargs.lookup n with
  | some u =>
    have hu := (lookup_mem hk n u).1 hl
    simp only [Option.some.injEq]
    constructor
    · rintro rfl
      exact Or.inr hu
    · rintro (⟨i, hi, hv⟩ | hv)
      · refine absurd (List.mem_map_of_mem (f := (·.1)) hu) (hd n ?_)
        obtain ⟨h2, -⟩ := List.getElem?_eq_some_iff.1 hv
        exact List.mem_of_getElem? (by rw [List.getElem?_take_of_lt h2]; exact hi)
      · have := (lookup_mem hk n v).2 hv
        rw [hl] at this
        exact Option.some.inj this
  | none =>
    simp only []
    rw [lookup_mem hzn, mem_zip_iff]
    constructor
    · exact Or.inl
    · rintro (h | h)
      · exact h
      · rw [(lookup_mem hk n v).2 h] at hl
        cases hl

omit [DecidableEq T] in
/-- The names kept are the parameters, and for a method one local variable. -/
theorem varnames_eq (self : N) (f : Sig N) (hA : f.args ≠ []) :
    ∃ extra, varnames self f = .ok (params self f ++ extra) ∧ (extra = [] ∨ extra = f.locals.take 1) := by
  unfold varnames params
  cases hf : f.args with
  | nil => exact absurd hf hA
  | cons a l =>
    by_cases ha : a = self
    · refine ⟨f.locals.take 1, ?_, Or.inr rfl⟩
      simp only [List.cons_append, ha, if_true, List.head?_cons, List.tail_cons, List.length_cons]
      rw [List.take_append]
      simp
    · refine ⟨[], ?_, Or.inl rfl⟩
      simp [ha]

/-! ### C76 -/

open Classical in
/-- C76: a call of a decorated function or method runs it, with its arguments unchanged, exactly when every given parameter has an
admissible type, and otherwise raises TypeError without running it.  The hypotheses say that the call is one Python would accept
(no more positional arguments than parameters, keywords once each and not for an argument given by position), that the
function has an argument, and that the decorator names parameters. -/
theorem C76_checks_partial (self : N) (f : Sig N) (typ : V → T) (w : Wanted N T) (args : List V) (kwargs : List (N × V))
    (hA : f.args ≠ []) (hN : (f.args ++ f.locals).Nodup)
    (hp : w.pos.length ≤ (params self f).length) (hn : ∀ n ts, w.named n = some ts → n ∈ params self f)
    (ha : (positional self f args).length ≤ (params self f).length) (hk : (kwargs.map (·.1)).Nodup)
    (hd : ∀ n ∈ (params self f).take (positional self f args).length, n ∉ kwargs.map (·.1)) :
    typeTest self f typ w args kwargs =
      if WellTyped typ w (params self f) (positional self f args) kwargs then .ran args kwargs else .refused .typeError := by
  obtain ⟨extra, hv, hx⟩ := varnames_eq self f hA
  have hPx : (params self f ++ extra).Nodup := by
    have hs : (params self f).Sublist f.args := by
      unfold params; split
      · exact List.tail_sublist _
      · exact List.Sublist.refl _
    have hs' : extra.Sublist f.locals := by
      rcases hx with rfl | rfl
      · exact List.nil_sublist _
      · exact List.take_sublist _ _
    exact List.Nodup.sublist (hs.append hs') hN
  have hm : decide ((f.args ++ f.locals).head? = some self) = decide (f.args.head? = some self) := by
    cases hf : f.args with
    | nil => exact absurd hf hA
    | cons a l => rfl
  unfold typeTest
  rw [hv, hm]
  simp only []
  unfold decorated
  have hpos : (if decide (f.args.head? = some self) = true then args.drop 1 else args) = positional self f args := by
    unfold positional
    simp
  rw [hpos]
  generalize positional self f args = pa at ha hd
  rw [if_neg (by rw [List.length_append]; omega)]
  have key : (((params self f ++ extra).zip pa).map (·.1) ++ kwargs.map (·.1)).all
      (admits typ w (params self f ++ extra) pa kwargs) = true ↔ WellTyped typ w (params self f) pa kwargs := by
    rw [List.all_eq_true]
    constructor
    · intro h n v ts hb hc
      have hg := (given_iff hPx ha hk hd n v).2 hb
      have hw := (wantedOf_iff w hPx hp hn n ts).2 hc
      have hmem : n ∈ ((params self f ++ extra).zip pa).map (·.1) ++ kwargs.map (·.1) := by
        rw [List.mem_append]
        rcases hb with ⟨i, hi, hvi⟩ | hb
        · left
          refine List.mem_map.2 ⟨(n, v), ?_, rfl⟩
          rw [mem_zip_iff]
          obtain ⟨h2, -⟩ := List.getElem?_eq_some_iff.1 hi
          exact ⟨i, by rw [List.getElem?_append_left h2]; exact hi, hvi⟩
        · right; exact List.mem_map_of_mem (f := (·.1)) hb
      have := h n hmem
      unfold admits at this
      rw [hw, hg] at this
      simpa using this
    · intro h n _
      unfold admits
      split
      · next ts v hw hg =>
        exact decide_eq_true (h n v ts ((given_iff hPx ha hk hd n v).1 hg) ((wantedOf_iff w hPx hp hn n ts).1 hw))
      · rfl
  by_cases hw : WellTyped typ w (params self f) pa kwargs
  · rw [if_pos (key.2 hw), if_pos hw]
  · rw [if_neg (fun e => hw (key.1 e)), if_neg hw]

/-- C76 fails for functions taking `*args`: more positional arguments than named ones raise IndexError, well typed or not. -/
theorem C76_variadic_violated (self : N) (f : Sig N) (typ : V → T) (w : Wanted N T) (args : List V) (kwargs : List (N × V))
    (hA : f.args ≠ []) (hs : f.args.head? ≠ some self) (ha : f.args.length < args.length) :
    typeTest self f typ w args kwargs = .refused .indexError := by
  cases hf : f.args with
  | nil => exact absurd hf hA
  | cons a l =>
    have ha' : ¬ a = self := by rw [hf] at hs; simpa using hs
    rw [hf] at ha
    unfold typeTest varnames
    rw [hf]
    simp only [List.cons_append, ha', if_false, List.head?_cons, Option.some.injEq, decide_false]
    unfold decorated
    rw [if_pos]
    simp only [List.length_cons] at ha
    simp only [List.length_take, List.length_cons, List.length_append, Bool.false_eq_true, if_false]
    omega

/-- C76 fails for functions without variables: decorating them raises IndexError. -/
theorem C76_no_argument_violated (self : N) (v : Bool) (typ : V → T) (w : Wanted N T) (args : List V) (kwargs : List (N × V)) :
    typeTest self ⟨[], [], v⟩ typ w args kwargs = .refused .indexError := rfl

omit [DecidableEq N] in
/-- C76, results: a value is returned unchanged when it has the announced type, refused with TypeError otherwise, and exceptions
of the function pass. -/
theorem C76_return (typ : V → T) (t : T) (res : Res V) :
    (∀ v, res = .ok v → typ v = t → returnTest typ t res = .ok v) ∧
    (∀ v, res = .ok v → typ v ≠ t → returnTest typ t res = .error .typeError) ∧
    (∀ e, res = .error e → returnTest typ t res = .error e) := by
  refine ⟨?_, ?_, ?_⟩
  · rintro v rfl h; simp [returnTest, h]
  · rintro v rfl h; simp [returnTest, h]
  · rintro e rfl; rfl

/-- A method `f(self, x, y)` with a local variable, `x` a string, `y` a number: accepted and refused calls. -/
example : typeTest "self" ⟨["self", "x", "y"], ["tmp"], false⟩ (fun v : String × Nat => v.1)
      ⟨[["str"], ["int", "float"]], fun _ => none⟩ [("Obj", 0), ("str", 1)] [("y", ("int", 2))] =
        .ran [("Obj", 0), ("str", 1)] [("y", ("int", 2))] ∧
    typeTest "self" ⟨["self", "x", "y"], ["tmp"], false⟩ (fun v : String × Nat => v.1)
      ⟨[["str"], ["int", "float"]], fun _ => none⟩ [("Obj", 0), ("str", 1)] [("y", ("str", 2))] = .refused .typeError := by
  decide

end IMT.Utils
