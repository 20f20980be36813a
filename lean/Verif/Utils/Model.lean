import Verif.Units
import Mathlib.Data.Rat.Floor

/-!
Model of `/repo/IMTreatment/utils/` (memoization.py, files.py, progresscounter.py, types.py, codeinteraction.py) and of the
unit setters of the containers.
-/

namespace IMT.Utils

/-! ### memoization.py -/

/-- The cache file: missing, truncated (a write began and did not end), or a whole dictionary. -/
inductive Disk (K V : Type) where
  | absent
  | truncated
  | whole (c : K → Option V)

/-- A wrapped function, as far as the decorator can tell: what it does of a key (the pickled arguments; a key determines the
arguments), and whether `pickle` can write a value. -/
structure Wrapped (K V : Type) where
  fn : K → Res V
  picklable : V → Bool

/-- The state of the machine: the file, the dictionary of the running process (`none` when the function is not decorated), the
keys for which the wrapped function was run so far. -/
structure Memo (K V : Type) where
  disk : Disk K V
  mem : Option (K → Option V)
  runs : List K

/-- The body of the decorator, utils/memoization.py:32-39: `pickle.load` of a truncated file raises EOFError, which is not among
the caught exceptions. -/
def load {K V : Type} : Disk K V → Res (K → Option V)
  | .absent => .ok fun _ => none
  | .truncated => .error .eofError
  | .whole c => .ok c

/-- Assignment `cache[key] = value`. -/
def put {K V : Type} [DecidableEq K] (c : K → Option V) (k : K) (v : V) : K → Option V := fun q => if q = k then some v else c q

/-- What may happen. -/
inductive Ev (K V : Type) where
  /-- the process (re)starts and decorates the function -/
  | start
  /-- a call of the decorated function; `crash` tells whether the process dies while the file is written, if it is -/
  | call (k : K) (crash : Bool)
  /-- the process dies between two calls -/
  | kill
  /-- the caller changes in place the object it was given for `k` -/
  | mutate (k : K) (v : V)

open Classical in
/-- The body of `new_func`, utils/memoization.py:41-50, and the other events.  The second component is what a call returns
(`none` when nothing is returned: other events, death of the process).  The value handed to the caller is the one of the
dictionary.  When a value of the dictionary cannot be pickled, `pickle.dump` raises after the file was truncated. -/
noncomputable def step {K V : Type} [DecidableEq K] (w : Wrapped K V) (s : Memo K V) : Ev K V → Memo K V × Option (Res V)
  | .start =>
    match load s.disk with
    | .ok c => ({ s with mem := some c }, none)
    | .error e => ({ s with mem := none }, some (.error e))
  | .kill => ({ s with mem := none }, none)
  | .mutate k v =>
    match s.mem with
    | none => (s, none)
    | some c => if (c k).isSome then ({ s with mem := some (put c k v) }, none) else (s, none)
  | .call k crash =>
    match s.mem with
    | none => (s, none)
    | some c =>
      match c k with
      | some v => (s, some (.ok v))
      | none =>
        match w.fn k with
        | .error e => ({ s with runs := s.runs ++ [k] }, some (.error e))
        | .ok v =>
          if crash then (⟨.truncated, none, s.runs ++ [k]⟩, none)
          else if ∀ q u, put c k v q = some u → w.picklable u = true then
            (⟨.whole (put c k v), some (put c k v), s.runs ++ [k]⟩, some (.ok v))
          else (⟨.truncated, some (put c k v), s.runs ++ [k]⟩, some (.error .exception))

/-- A history from a state: final state and what each call returned. -/
noncomputable def run {K V : Type} [DecidableEq K] (w : Wrapped K V) : Memo K V → List (Ev K V) → Memo K V × List (Ev K V × Option (Res V))
  | s, [] => (s, [])
  | s, e :: es => ((run w (step w s e).1 es).1, (e, (step w s e).2) :: (run w (step w s e).1 es).2)

/-! ### files.py -/

/-- What the file system says of a path: it exists (a directory or not), it could be created, or neither. -/
inductive Seen where
  | there (dir : Bool)
  | creatable
  | unreachable
  deriving DecidableEq

/-- A `Files` object, utils/files.py:39-46. -/
structure Files (P : Type) where
  paths : List P
  exist : List Bool
  isdir : List (Option Bool)
  deriving DecidableEq

namespace Files

/-- `Files()`, utils/files.py:40-46. -/
def empty {P : Type} : Files P := ⟨[], [], []⟩

/-- `add_file(path)`, utils/files.py:142-162. -/
def add {P : Type} (fs : P → Seen) (s : Files P) (p : P) : Files P × Res PUnit :=
  match fs p with
  | .there d => (⟨s.paths ++ [p], s.exist ++ [true], s.isdir ++ [some d]⟩, .ok ⟨⟩)
  | .creatable => (⟨s.paths ++ [p], s.exist ++ [false], s.isdir ++ [none]⟩, .ok ⟨⟩)
  | .unreachable => (s, .error .exception)

/-- `a + b`, utils/files.py:48-54. -/
def plus {P : Type} (s t : Files P) : Files P := ⟨s.paths ++ t.paths, s.exist ++ t.exist, s.isdir ++ t.isdir⟩

/-- `load_files_from_regex`, utils/files.py:197-233, given the matching directories and files in the order of the walk. -/
def loadRegex {P : Type} (s : Files P) (found : List (P × Bool)) : Files P :=
  ⟨s.paths ++ found.map (·.1), s.exist ++ found.map (fun _ => true), s.isdir ++ found.map fun f => some f.2⟩

/-- A python index of a list of length `n`. -/
def pyIdx (n : Nat) (i : Int) : Option Nat :=
  if 0 ≤ i then (if i < n then some i.toNat else none) else if -i ≤ n then some (n + i).toNat else none

/-- `remove_files(i)` with a python integer, utils/files.py:174-178: three deletions, each of which raises IndexError out of
range. -/
def removeInt {P : Type} (s : Files P) (i : Int) : Files P × Res PUnit :=
  match pyIdx s.paths.length i with
  | none => (s, .error .indexError)
  | some k =>
    match pyIdx s.exist.length i with
    | none => (⟨s.paths.eraseIdx k, s.exist, s.isdir⟩, .error .indexError)
    | some k' =>
      match pyIdx s.isdir.length i with
      | none => (⟨s.paths.eraseIdx k, s.exist.eraseIdx k', s.isdir⟩, .error .indexError)
      | some k'' => (⟨s.paths.eraseIdx k, s.exist.eraseIdx k', s.isdir.eraseIdx k''⟩, .ok ⟨⟩)

/-- `remove_files(regex)`, utils/files.py:182-187: `i` comes from `np.arange`, a numpy integer, which none of the branches of the
inner call accepts: TypeError at the first match, scanning from the end. -/
def removeRegex {P : Type} (s : Files P) (m : P → Bool) : Files P × Res PUnit :=
  if s.paths.any m then (s, .error .typeError) else (s, .ok ⟨⟩)

/-- The element of an array given to `remove_files`. -/
inductive Elt (P : Type) where
  | int (i : Int)
  | regex (m : P → Bool)
  | other

/-- One element, utils/files.py:174-190. -/
def removeOne {P : Type} (s : Files P) : Elt P → Files P × Res PUnit
  | .int i => s.removeInt i
  | .regex m => s.removeRegex m
  | .other => (s, .error .typeError)

/-- `remove_files(array)`, utils/files.py:179-181: the elements one after the other, until an exception. -/
def removeAll {P : Type} : Files P → List (Elt P) → Files P × Res PUnit
  | s, [] => (s, .ok ⟨⟩)
  | s, e :: es =>
    match s.removeOne e with
    | (s', .ok _) => removeAll s' es
    | (s', .error x) => (s', .error x)

end Files

/-! ### progresscounter.py -/

/-- `np.round`: to the nearest integer, halves to the even one. -/
def npround (q : Rat) : Int :=
  if q - ⌊q⌋ < 1 / 2 then ⌊q⌋ else if 1 / 2 < q - ⌊q⌋ then ⌊q⌋ + 1 else if ⌊q⌋ % 2 = 0 then ⌊q⌋ else ⌊q⌋ + 1

/-- A `ProgressCounter` with a finite number of things, utils/progresscounter.py:33-66. -/
structure Counter where
  nmax : Nat
  interv : Nat
  curr : Nat

/-- The constructor, utils/progresscounter.py:55-66, for a non-negative `perc_interv` (python's `int` truncates, here downwards). -/
def Counter.new (nmax : Nat) (perc : Rat) : Counter :=
  ⟨nmax, if ⌊(nmax : Rat) * perc / 100⌋.toNat = 0 then 1 else ⌊(nmax : Rat) * perc / 100⌋.toNat, 1⟩

/-- A displayed line: number of things, percentage, number of `#` and of `.` of the bar. -/
structure Report where
  i : Nat
  perc : Int
  hashes : Int
  dots : Int
  deriving DecidableEq

/-- `_print_progress_full`, utils/progresscounter.py:92-126: the report (if any) or the division by zero, and the new state. -/
def Counter.tick (c : Counter) : Counter × Res (Option Report) :=
  if c.curr % c.interv = 0 ∨ c.curr = c.nmax then
    if c.nmax = 0 then (c, .error .zeroDivision)
    else ({ c with curr := c.curr + 1 },
      .ok (some ⟨c.curr, npround ((c.curr : Rat) / c.nmax * 100), ⌊(npround ((c.curr : Rat) / c.nmax * 100) : Rat) / 100 * 15⌋,
        15 - ⌊(npround ((c.curr : Rat) / c.nmax * 100) : Rat) / 100 * 15⌋⟩))
  else ({ c with curr := c.curr + 1 }, .ok none)

/-- The reports of `n` calls of `print_progress`. -/
def Counter.ticks : Nat → Counter → List Report
  | 0, _ => []
  | n + 1, c =>
    match c.tick.2 with
    | .ok (some r) => r :: ticks n c.tick.1
    | .ok none => ticks n c.tick.1
    | .error _ => []

/-- `finish()`, utils/progresscounter.py:87-89. -/
def Counter.finish (c : Counter) : Counter × Res (Option Report) := Counter.tick { c with curr := c.nmax }

/-- The units displayed by `_format_time`. -/
inductive TUnit where
  | ms | sec | mn | hour | day
  deriving DecidableEq

/-- `_format_time(second)`, utils/progresscounter.py:153-171: the displayed numbers with their units, for a duration. -/
def formatTime (second : Rat) : List (Nat × TUnit) :=
  if ⌊second⌋.toNat % 60 = 0 ∧ ⌊second⌋.toNat / 60 % 60 = 0 ∧ ⌊second⌋.toNat / 60 / 60 % 24 = 0 ∧ ⌊second⌋.toNat / 60 / 60 / 24 = 0 then
    [(⌊(second - ⌊second⌋) * 1000⌋.toNat, .ms)]
  else
    (if ⌊second⌋.toNat / 60 / 60 / 24 ≠ 0 then [(⌊second⌋.toNat / 60 % 60, .day)] else []) ++
    (if ⌊second⌋.toNat / 60 / 60 % 24 ≠ 0 then [(⌊second⌋.toNat / 60 / 60 % 24, .hour)] else []) ++
    (if ⌊second⌋.toNat / 60 % 60 ≠ 0 then [(⌊second⌋.toNat / 60 % 60, .mn)] else []) ++
    [(⌊second⌋.toNat % 60, .sec)]

/-! ### types.py -/

/-- A function as the decorator sees it: its arguments (`co_varnames[:co_argcount]`), the local variables that follow in
`co_varnames`, and whether it takes `*args`. -/
structure Sig (N : Type) where
  args : List N
  locals : List N
  variadic : Bool

/-- The types asked for, utils/types.py:39-43: by position and by name; a list stands for one admissible type or a tuple of
them. -/
structure Wanted (N T : Type) where
  pos : List (List T)
  named : N → Option (List T)

/-- The names `extract_var_info` keeps, utils/types.py:51-58; `self` is the name 'self'.  For a method the slice takes one name too
many, a local variable. -/
def varnames {N : Type} [DecidableEq N] (self : N) (f : Sig N) : Res (List N) :=
  match f.args ++ f.locals with
  | [] => .error .indexError
  | v :: vs => .ok (if v = self then vs.take f.args.length else (v :: vs).take f.args.length)

/-- `w_vartypes`, utils/types.py:59-67. -/
def wantedOf {N T : Type} [DecidableEq N] (w : Wanted N T) (names : List N) (n : N) : Option (List T) :=
  if n ∈ names then
    match w.named n with
    | some t => some t
    | none => w.pos[names.idxOf n]?
  else none

/-- The outcome of a call: refused by the decorator, or run with these arguments. -/
inductive Outcome (N V : Type) where
  | refused (e : Err)
  | ran (args : List V) (kwargs : List (N × V))
  deriving DecidableEq

/-- `given_vartypes`, utils/types.py:79-83: positional arguments by rank, then keywords, which replace them. -/
def given {N V : Type} [DecidableEq N] (names : List N) (args : List V) (kwargs : List (N × V)) (n : N) : Option V :=
  match kwargs.lookup n with
  | some v => some v
  | none => (names.zip args).lookup n

/-- The test of one name, utils/types.py:85-94. -/
def admits {N T V : Type} [DecidableEq N] [DecidableEq T] (typ : V → T) (w : Wanted N T) (names : List N) (args : List V)
    (kwargs : List (N × V)) (n : N) : Bool :=
  match wantedOf w names n, given names args kwargs n with
  | some ts, some v => decide (typ v ∈ ts)
  | _, _ => true

/-- `new_function`, utils/types.py:72-101, with the names kept by `extract_var_info`; `method` drops the first argument (75).  More
positional arguments than names raise IndexError (80). -/
def decorated {N T V : Type} [DecidableEq N] [DecidableEq T] (typ : V → T) (w : Wanted N T) (names : List N) (method : Bool)
    (args : List V) (kwargs : List (N × V)) : Outcome N V :=
  if names.length < (if method then args.drop 1 else args).length then .refused .indexError
  else if ((names.zip (if method then args.drop 1 else args)).map (·.1) ++ kwargs.map (·.1)).all
      (admits typ w names (if method then args.drop 1 else args) kwargs) then .ran args kwargs
  else .refused .typeError

/-- `TypeTest(...)(function)` then a call, utils/types.py:45-101: what goes wrong while decorating prevents every call. -/
def typeTest {N T V : Type} [DecidableEq N] [DecidableEq T] (self : N) (f : Sig N) (typ : V → T) (w : Wanted N T) (args : List V)
    (kwargs : List (N × V)) : Outcome N V :=
  match varnames self f with
  | .error e => .refused e
  | .ok names => decorated typ w names (decide ((f.args ++ f.locals).head? = some self)) args kwargs

/-- `ReturnTest`, utils/types.py:105-127: the function has run; its result is returned or refused. -/
def returnTest {T V : Type} [DecidableEq T] (typ : V → T) (t : T) (res : Res V) : Res V :=
  match res with
  | .error e => .error e
  | .ok v => if typ v = t then .ok v else .error .typeError

/-! ### codeinteraction.py -/

/-- The table of open descriptors of the process: rank = descriptor. -/
abbrev Fds (F : Type) := List (Option F)

/-- The lowest free descriptor. -/
def lowest {F : Type} (t : Fds F) : Nat := t.findIdx (·.isNone)

/-- `os.open(devnull)`, `os.dup`: a file at the lowest free descriptor. -/
def alloc {F : Type} (t : Fds F) (f : Option F) : Fds F := if lowest t < t.length then t.set (lowest t) f else t ++ [f]

/-- The file behind a descriptor. -/
def fileAt {F : Type} (t : Fds F) (k : Nat) : Option F := t[k]?.join

/-- `os.dup2(a, b)` for open `a` and `b`. -/
def dup2 {F : Type} (t : Fds F) (a b : Nat) : Fds F := t.set b (fileAt t a)

/-- `os.close(k)`. -/
def close {F : Type} (t : Fds F) (k : Nat) : Fds F := t.set k none

/-- `__enter__`, utils/codeinteraction.py:38-42, the four descriptors kept in the object being returned. -/
def enter {F : Type} (null : F) (t : Fds F) : Fds F × Nat × Nat × Nat × Nat :=
  (dup2 (dup2 (alloc (alloc (alloc (alloc t (some null)) (some null))
      (fileAt (alloc (alloc t (some null)) (some null)) 1))
      (fileAt (alloc (alloc (alloc t (some null)) (some null)) (fileAt (alloc (alloc t (some null)) (some null)) 1)) 2))
      (lowest t) 1) (lowest (alloc t (some null))) 2,
    lowest t, lowest (alloc t (some null)), lowest (alloc (alloc t (some null)) (some null)),
    lowest (alloc (alloc (alloc t (some null)) (some null)) (fileAt (alloc (alloc t (some null)) (some null)) 1)))

/-- `__exit__`, utils/codeinteraction.py:44-48: **the two saved descriptors are not closed**. -/
def exit {F : Type} (t : Fds F) (n0 n1 s0 s1 : Nat) : Fds F := close (close (dup2 (dup2 t s0 1) s1 2) n0) n1

/-- Programs using the context. -/
inductive Prog where
  | nop
  | print
  | seq (p q : Prog)
  | quiet (p : Prog)

/-- Execution: final table, and the files printed to. -/
def exec {F : Type} (null : F) : Prog → Fds F → Fds F × List (Option F)
  | .nop, t => (t, [])
  | .print, t => (t, [fileAt t 1])
  | .seq p q, t => ((exec null q (exec null p t).1).1, (exec null p t).2 ++ (exec null q (exec null p t).1).2)
  | .quiet p, t =>
    (exit (exec null p (enter null t).1).1 (enter null t).2.1 (enter null t).2.2.1 (enter null t).2.2.2.1 (enter null t).2.2.2.2,
      (exec null p (enter null t).1).2)

/-! ### unit setters -/

/-- What may be assigned to a unit: a unum object, a string (with what `make_unit` makes of it), anything else. -/
inductive UArg where
  | unum (u : Unum)
  | str (r : Res Unum)
  | other

/-- The string branch common to the setters. -/
def fromStr (old : Unum) : Res Unum → Unum × Res PUnit
  | .ok u => (u, .ok ⟨⟩)
  | .error e => (old, .error e)

/-- `Field.unit_x`, `Field.unit_y`, core/field.py:93-125: `np.isclose(number, 1)`. -/
def setAxisUnit (old : Unum) : UArg → Unum × Res PUnit
  | .unum u => if |u.num - 1| ≤ 1 / 100000000 + 1 / 100000 * |1| then (u, .ok ⟨⟩) else (old, .error .valueError)
  | .str r => fromStr old r
  | .other => (old, .error .typeError)

/-- `ScalarField.unit_values`, core/scalarfield.py:390-400. -/
def setSFUnit (old : Unum) : UArg → Unum × Res PUnit
  | .unum u => if u.num - 1 < 1 / 10000000000 then (u, .ok ⟨⟩) else (old, .error .valueError)
  | .str r => fromStr old r
  | .other => (old, .error .typeError)

/-- `VectorField.unit_values`, core/vectorfield.py:394-404. -/
def setVFUnit (old : Unum) : UArg → Unum × Res PUnit
  | .unum u => if u.num = 1 then (u, .ok ⟨⟩) else (old, .error .valueError)
  | .str r => fromStr old r
  | .other => (old, .error .typeError)

/-- `TemporalFields.unit_times`, core/temporalfields.py:260-270: the string branch compares instead of assigning. -/
def setTimeUnit (old : Unum) : UArg → Unum × Res PUnit
  | .unum u => if u.num = 1 then (u, .ok ⟨⟩) else (old, .error .valueError)
  | .str (.ok _) => (old, .ok ⟨⟩)
  | .str (.error e) => (old, .error e)
  | .other => (old, .error .typeError)

/-- `Points.unit_x`, `Points.unit_y`, core/points.py:207-237, `Profile.unit_x`, `Profile.unit_y`, core/profile.py:324-354 (errors
of `make_unit` other than ValueError and TypeError also surface as exceptions). -/
def setPointsUnit (old : Unum) : UArg → Unum × Res PUnit
  | .unum u => (u, .ok ⟨⟩)
  | .str (.ok u) => (u, .ok ⟨⟩)
  | .str (.error _) => (old, .error .exception)
  | .other => (old, .error .exception)

end IMT.Utils
