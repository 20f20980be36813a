import Verif.Utils.Model

/-!
Properties C71 (memoised functions) and C72 (crash while the cache is written).
-/

namespace IMT.Utils

variable {K V : Type} [DecidableEq K]

/-- The machine before anything happens. -/
def fresh : Memo K V := ⟨.absent, none, []⟩

/-- A history in which no process dies while it writes the file and no caller changes in place an object it was given. -/
def Clean (es : List (Ev K V)) : Prop := ∀ e ∈ es, (∀ k, e ≠ .call k true) ∧ ∀ k v, e ≠ .mutate k v

/-- What the decorator may rely on. -/
structure Good (w : Wrapped K V) (s : Memo K V) : Prop where
  mem : ∀ c, s.mem = some c → ∀ k v, c k = some v → w.fn k = .ok v
  memAll : ∀ c, s.mem = some c → ∀ k v, k ∈ s.runs → w.fn k = .ok v → c k = some v
  disk : s.disk ≠ .truncated
  content : ∀ c, s.disk = .whole c → (∀ k v, c k = some v → w.fn k = .ok v) ∧ ∀ k v, k ∈ s.runs → w.fn k = .ok v → c k = some v
  absent : s.disk = .absent → ∀ k ∈ s.runs, ∀ v, w.fn k ≠ .ok v
  once : ∀ k v, w.fn k = .ok v → s.runs.count k ≤ 1

theorem good_fresh (w : Wrapped K V) : Good w fresh := by
  constructor <;> simp [fresh]

theorem good_step {w : Wrapped K V} (hp : ∀ v, w.picklable v = true) {s : Memo K V} (hs : Good w s) {e : Ev K V}
    (h1 : ∀ k, e ≠ .call k true) (h2 : ∀ k v, e ≠ .mutate k v) :
    Good w (step w s e).1 ∧ (∀ k b r, e = .call k b → (step w s e).2 = some r → r = w.fn k) ∧
      (e = .start → (step w s e).2 = none ∧ ∃ c, (step w s e).1.mem = some c) ∧
      (∀ k b, e = .call k b → s.mem ≠ none → (step w s e).2 ≠ none ∧ (step w s e).1.mem ≠ none) := by
  cases e with
  | kill =>
    refine ⟨⟨by simp [step], by simp [step], hs.disk, hs.content, hs.absent, hs.once⟩, by simp, by simp, by simp⟩
  | mutate k v => exact absurd rfl (h2 k v)
  | start =>
    have hd := hs.disk
    cases hdisk : s.disk with
    | truncated => exact absurd hdisk hd
    | absent =>
      have e : step w s .start = ({ s with mem := some fun _ => none }, none) := by
        simp only [step, hdisk, load]
      rw [e]
      refine ⟨⟨?_, ?_, hs.disk, hs.content, hs.absent, hs.once⟩, by simp, by simp, by simp⟩
      · rintro c hc k v hk
        simp only [Option.some.injEq] at hc
        subst hc; cases hk
      · rintro c hc k v hk hv
        exact absurd hv (hs.absent hdisk k hk v)
    | whole c0 =>
      have e : step w s .start = ({ s with mem := some c0 }, none) := by
        simp only [step, hdisk, load]
      rw [e]
      refine ⟨⟨?_, ?_, hs.disk, hs.content, hs.absent, hs.once⟩, by simp, by simp, by simp⟩
      · rintro c hc k v hk
        simp only [Option.some.injEq] at hc
        subst hc
        exact (hs.content c0 hdisk).1 k v hk
      · rintro c hc k v hk hv
        simp only [Option.some.injEq] at hc
        subst hc
        exact (hs.content c0 hdisk).2 k v hk hv
  | call k b =>
    have hb : b = false := by
      cases b
      · rfl
      · exact absurd rfl (h1 k)
    subst hb
    cases hm : s.mem with
    | none =>
      have e : step w s (.call k false) = (s, none) := by simp only [step, hm]
      rw [e]
      exact ⟨hs, by simp, by simp, by simp⟩
    | some c =>
      cases hc : c k with
      | some v =>
        have e : step w s (.call k false) = (s, some (.ok v)) := by simp only [step, hm, hc]
        rw [e]
        refine ⟨hs, ?_, by simp, by simp [hm]⟩
        rintro k' b r hk hr
        simp only [Ev.call.injEq] at hk
        simp only [Option.some.injEq] at hr
        rw [← hr, ← hk.1, hs.mem c hm k v hc]
      | none =>
        have hnr : ∀ v, w.fn k = .ok v → k ∉ s.runs := by
          intro v hv hk
          have := hs.memAll c hm k v hk hv
          rw [hc] at this; cases this
        cases hf : w.fn k with
        | error x =>
          have e : step w s (.call k false) = ({ s with runs := s.runs ++ [k] }, some (.error x)) := by
            simp only [step, hm, hc, hf]
          rw [e]
          have hk' : ∀ q v, q ∈ s.runs ++ [k] → w.fn q = .ok v → q ∈ s.runs := by
            intro q v hq hv
            rcases List.mem_append.1 hq with hq | hq
            · exact hq
            · rw [List.mem_singleton.1 hq, hf] at hv; cases hv
          refine ⟨⟨hs.mem, ?_, hs.disk, ?_, ?_, ?_⟩, ?_, by simp, by simp [hm]⟩
          · intro c hc q v hq hv; exact hs.memAll c hc q v (hk' q v hq hv) hv
          · intro c hc
            exact ⟨(hs.content c hc).1, fun q v hq hv => (hs.content c hc).2 q v (hk' q v hq hv) hv⟩
          · intro hd q hq v hv; exact hs.absent hd q (hk' q v hq hv) v hv
          · intro q v hv
            have hne : q ≠ k := by rintro rfl; rw [hf] at hv; cases hv
            rw [List.count_append]
            have := hs.once q v hv
            have h0 : List.count q [k] = 0 := by simp [List.count_cons, hne.symm]
            omega
          · rintro k' b r hk hr
            simp only [Ev.call.injEq] at hk
            simp only [Option.some.injEq] at hr
            rw [← hr, ← hk.1, hf]
        | ok v =>
          have e : step w s (.call k false) = (⟨.whole (put c k v), some (put c k v), s.runs ++ [k]⟩, some (.ok v)) := by
            simp only [step, hm, hc, hf, Bool.false_eq_true, if_false]
            rw [if_pos fun q u _ => hp u]
          rw [e]
          have good : ∀ q u, put c k v q = some u → w.fn q = .ok u := by
            intro q u hq
            unfold put at hq
            split at hq
            · next h => subst h; rw [hf]; simpa using hq
            · exact hs.mem c hm q u hq
          have all : ∀ q u, q ∈ s.runs ++ [k] → w.fn q = .ok u → put c k v q = some u := by
            intro q u hq hu
            unfold put
            split
            · next h => subst h; rw [hf] at hu; simpa using hu
            · next h =>
              rcases List.mem_append.1 hq with hq | hq
              · exact hs.memAll c hm q u hq hu
              · exact absurd (List.mem_singleton.1 hq) h
          refine ⟨⟨?_, ?_, by simp, ?_, by simp, ?_⟩, ?_, by simp, by simp⟩
          · intro c' hc'; simp only [Option.some.injEq] at hc'; subst hc'; exact good
          · intro c' hc'; simp only [Option.some.injEq] at hc'; subst hc'; exact all
          · intro c' hc'; simp only [Disk.whole.injEq] at hc'; subst hc'; exact ⟨good, all⟩
          · intro q u hu
            rw [List.count_append]
            by_cases hq : q = k
            · subst hq
              have : s.runs.count q = 0 := List.count_eq_zero_of_not_mem (hnr u hu)
              simp [this]
            · have := hs.once q u hu
              have h0 : List.count q [k] = 0 := by simp [List.count_cons, Ne.symm hq]
              omega
          · rintro k' b r hk hr
            simp only [Ev.call.injEq] at hk
            simp only [Option.some.injEq] at hr
            rw [← hr, ← hk.1, hf]

theorem run_append (w : Wrapped K V) (s : Memo K V) (a b : List (Ev K V)) :
    (run w s (a ++ b)).1 = (run w (run w s a).1 b).1 := by
  induction a generalizing s with
  | nil => rfl
  | cons e a ih => simp only [List.cons_append, run]; exact ih _

theorem good_run {w : Wrapped K V} (hp : ∀ v, w.picklable v = true) {s : Memo K V} (hs : Good w s) {es : List (Ev K V)}
    (hes : Clean es) :
    Good w (run w s es).1 ∧ (∀ k b r, (Ev.call k b, some r) ∈ (run w s es).2 → r = w.fn k) ∧
      ∀ out, (Ev.start, out) ∈ (run w s es).2 → out = none := by
  induction es generalizing s with
  | nil => exact ⟨hs, by simp [run], by simp [run]⟩
  | cons e es ih =>
    obtain ⟨h1, h2⟩ := hes e (by simp)
    obtain ⟨g, hr, hst, -⟩ := good_step hp hs h1 h2
    obtain ⟨g', hr', hst'⟩ := ih g (fun e he => hes e (by simp [he]))
    simp only [run]
    refine ⟨g', ?_, ?_⟩
    · intro k b r hmem
      rcases List.mem_cons.1 hmem with h | h
      · simp only [Prod.mk.injEq] at h
        exact hr k b r h.1.symm h.2.symm
      · exact hr' k b r h
    · intro out hmem
      rcases List.mem_cons.1 hmem with h | h
      · simp only [Prod.mk.injEq] at h
        rw [h.2]; exact (hst h.1.symm).1
      · exact hst' out h

/-- C71: in every history of process starts, deaths between calls and calls, every call returns (or raises) what the wrapped
function returns (or raises) on its arguments, the decoration never fails, and the function is run successfully at most once
per key, all processes together.
Partial: values can be pickled (see `C71_unpicklable_violated`), callers do not change the objects they are given
(`C71_mutation_violated`), the file serves one function (`C71_shared_violated`). -/
theorem C71_history_partial (w : Wrapped K V) (hp : ∀ v, w.picklable v = true) {es : List (Ev K V)} (hes : Clean es) :
    (∀ k b r, (Ev.call k b, some r) ∈ (run w fresh es).2 → r = w.fn k) ∧
      (∀ out, (Ev.start, out) ∈ (run w fresh es).2 → out = none) ∧
      ∀ k v, w.fn k = .ok v → (run w fresh es).1.runs.count k ≤ 1 := by
  obtain ⟨g, h1, h2⟩ := good_run hp (good_fresh w) hes
  exact ⟨h1, h2, g.once⟩

/-- C71, C72: after any such history, deaths between calls included, a new process can decorate the function and gets the
right answer to every call. -/
theorem C71_restart_partial (w : Wrapped K V) (hp : ∀ v, w.picklable v = true) {es : List (Ev K V)} (hes : Clean es) (ks : List K) :
    ((run w (run w fresh es).1 (.start :: ks.map fun k => .call k false)).2).map Prod.snd = none :: ks.map fun k => some (w.fn k) := by
  obtain ⟨g, -, -⟩ := good_run hp (good_fresh w) hes
  generalize (run w fresh es).1 = s at g
  obtain ⟨g1, -, hst, -⟩ := good_step hp g (e := .start) (by simp) (by simp)
  obtain ⟨ho, c, hc⟩ := hst rfl
  simp only [run, List.map_cons, ho, List.cons.injEq, true_and]
  generalize (step w s .start).1 = s1 at g1 hc
  have hm : s1.mem ≠ none := by simp [hc]
  clear hc ho
  induction ks generalizing s1 with
  | nil => rfl
  | cons k ks ih =>
    obtain ⟨g2, hr, -, hsome⟩ := good_step hp g1 (e := .call k false) (by simp) (by simp)
    obtain ⟨o1, o2⟩ := hsome k false rfl hm
    simp only [List.map_cons, run, List.cons.injEq]
    refine ⟨?_, ih _ g2 o2⟩
    cases ho : (step w s1 (.call k false)).2 with
    | none => exact absurd ho o1
    | some r => rw [hr k false r rfl ho]

example : Clean ([.start, .call 3 false, .kill, .start, .call 3 false, .call 4 false] : List (Ev Nat Nat)) := by
  intro e he
  simp only [List.mem_cons, List.not_mem_nil, or_false] at he
  rcases he with rfl | rfl | rfl | rfl | rfl | rfl <;> simp

/-- C71 fails when a value cannot be pickled: the call raises although the function returned, and the decoration fails ever
after. -/
theorem C71_unpicklable_violated (w : Wrapped K V) {k : K} {v : V} (hf : w.fn k = .ok v) (hv : w.picklable v = false) :
    ((run w fresh [.start, .call k false, .kill, .start]).2).map Prod.snd =
      [none, some (.error .exception), none, some (.error .eofError)] := by
  have hn : ¬ ∀ q u, put (fun _ : K => (none : Option V)) k v q = some u → w.picklable u = true := by
    intro h
    have := h k v (by simp [put])
    rw [hv] at this; cases this
  simp [run, step, fresh, load, hf, hn]

/-- C71 fails when a caller changes in place what it was given: the next call returns the changed object, for every function,
key and object. -/
theorem C71_mutation_violated (w : Wrapped K V) (hp : ∀ v, w.picklable v = true) {k : K} {v : V} (hf : w.fn k = .ok v) (v' : V) :
    ((run w fresh [.start, .call k false, .mutate k v', .call k false]).2).map Prod.snd =
      [none, some (.ok v), none, some (.ok v')] := by
  have hn : ∀ q u, put (fun _ : K => (none : Option V)) k v q = some u → w.picklable u = true := fun _ u _ => hp u
  simp [run, step, fresh, load, hf, hn, put]

/-- … and the changed object is written to the file by the next computation, so that it is returned by later processes. -/
theorem C71_mutation_persists_violated (w : Wrapped K V) (hp : ∀ v, w.picklable v = true) {k k' : K} (hne : k' ≠ k) {v u : V}
    (hf : w.fn k = .ok v) (hf' : w.fn k' = .ok u) (v' : V) :
    ((run w fresh [.start, .call k false, .mutate k v', .call k' false, .kill, .start, .call k false]).2).map Prod.snd =
      [none, some (.ok v), none, some (.ok u), none, none, some (.ok v')] := by
  have h1 : put (put (fun _ : K => (none : Option V)) k v) k v' k' = none := by simp [put, hne]
  have h2 : (put (fun _ : K => (none : Option V)) k v) k = some v := by simp [put]
  have h3 : put (put (put (fun _ : K => (none : Option V)) k v) k v') k' u k = some v' := by simp [put, Ne.symm hne]
  simp [run, step, fresh, load, hf, hf', hp, h1, h2, h3]

/-- C71 fails when a file serves two functions: the second one returns the values of the first. -/
theorem C71_shared_violated (w w' : Wrapped K V) (hp : ∀ v, w.picklable v = true) {k : K} {v : V} (hf : w.fn k = .ok v) :
    ((run w' (run w fresh [.start, .call k false, .kill]).1 [.start, .call k false]).2).map Prod.snd = [none, some (.ok v)] := by
  have hn : ∀ q u, put (fun _ : K => (none : Option V)) k v q = some u → w.picklable u = true := fun _ u _ => hp u
  simp [run, step, fresh, load, hf, hn, put]

/-- C72: a process may die at any moment outside the writing of the file: the next one starts and answers right.  (The full
statement, with deaths while the file is written, is false: `C72_crash_violated`.) -/
theorem C72_kill_partial (w : Wrapped K V) (hp : ∀ v, w.picklable v = true) {es : List (Ev K V)} (hes : Clean es) (k : K) :
    ((run w (run w fresh es).1 [.kill, .start, .call k false]).2).map Prod.snd = [none, none, some (w.fn k)] := by
  have hes' : Clean (es ++ [.kill]) := by
    intro e he
    rcases List.mem_append.1 he with h | h
    · exact hes e h
    · rw [List.mem_singleton.1 h]; simp
  have := C71_restart_partial w hp hes' [k]
  rw [run_append] at this
  exact congrArg (List.cons none) this

/-- C72 fails: after a death while the file is written, whatever happened before and whatever happens next, no process can
decorate the function any more. -/
theorem C72_crash_violated (w : Wrapped K V) {s : Memo K V} {c : K → Option V} {k : K} {v : V} (hm : s.mem = some c) (hc : c k = none)
    (hf : w.fn k = .ok v) (es : List (Ev K V)) :
    ∀ e out, (e, out) ∈ (run w (step w s (.call k true)).1 es).2 →
      (e = .start → out = some (.error .eofError)) ∧ ∀ q b, e = .call q b → out = none := by
  have h0 : (step w s (.call k true)).1.disk = .truncated ∧ (step w s (.call k true)).1.mem = none := by
    simp [step, hm, hc, hf]
  generalize (step w s (.call k true)).1 = s at h0
  clear hm hc
  induction es generalizing s with
  | nil => simp [run]
  | cons e es ih =>
    have h1 : (step w s e).1.disk = .truncated ∧ (step w s e).1.mem = none ∧
        (e = .start → (step w s e).2 = some (.error .eofError)) ∧ ∀ q b, e = .call q b → (step w s e).2 = none := by
      cases e <;> simp [step, h0, load]
    intro e' out hmem
    simp only [run] at hmem
    rcases List.mem_cons.1 hmem with h | h
    · simp only [Prod.mk.injEq] at h
      rw [h.1, h.2]
      exact h1.2.2
    · exact ih _ ⟨h1.1, h1.2.1⟩ e' out h

example : ((run ⟨fun k : Nat => .ok (k + 1), fun _ => true⟩ fresh [.start, .call 3 true, .start]).2).map Prod.snd =
    [none, none, some (.error .eofError)] := by
  simp [run, step, fresh, load]

end IMT.Utils
