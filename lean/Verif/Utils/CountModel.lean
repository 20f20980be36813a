import Verif.Utils.Model

/-!
Model of `ProgressCounter` when the number of things is not known (`nmb_max = np.inf`), utils/progresscounter.py:55-90, 127-152.  Both
readings of the clock during a call are the same time.
-/

namespace IMT.Utils

/-- The counter; `curr = none` is `np.inf`. -/
structure Endless where
  interv : Nat
  curr : Option Nat
  t0 : Option Rat

/-- The constructor, utils/progresscounter.py:50-66. -/
def Endless.new (perc : Nat) : Endless := ⟨if perc = 0 then 1 else perc, some 1, none⟩

/-- What a call prints: a line with the number of things, the time since the beginning and the time for a thing, or the end. -/
inductive Print where
  | line (i : Nat) (since each : Rat)
  | last
  deriving DecidableEq

/-- `_print_progress_unknown_nmbmax` at the time `t`, utils/progresscounter.py:127-152; `inf % interv` is NaN. -/
def Endless.tick (c : Endless) (t : Rat) : Endless × List Print :=
  match c.curr with
  | none => ({ c with t0 := some (c.t0.getD t) }, [.last])
  | some i => (⟨c.interv, some (i + 1), some (c.t0.getD t)⟩,
      if i % c.interv = 0 then [.line i (t - c.t0.getD t) ((t - c.t0.getD t) / i)] else [])

/-- A call, at a time. -/
inductive Call where
  | progress (t : Rat)
  | finish (t : Rat)

/-- `print_progress` and `finish`, utils/progresscounter.py:81-90. -/
def Endless.call (c : Endless) : Call → Endless × List Print
  | .progress t => c.tick t
  | .finish t => Endless.tick { c with curr := none } t

/-- What the calls print. -/
def Endless.run (c : Endless) : List Call → List Print
  | [] => []
  | x :: l => (c.call x).2 ++ (c.call x).1.run l

end IMT.Utils
