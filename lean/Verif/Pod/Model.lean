import Verif.Prelude
import Mathlib.Analysis.SpecialFunctions.Trigonometric.Arctan
import Mathlib.Analysis.SpecialFunctions.Log.Basic
import Mathlib.Analysis.Complex.Norm
import Mathlib.Analysis.SpecialFunctions.Pow.Real
import Mathlib.Algebra.BigOperators.Fin

/-!
Model of `/repo/IMTreatment/pod/pod.py`: proper orthogonal decomposition, dynamic mode decomposition, modal bases.

A field is a function on its cells `P` (for a vector field, on the cells of both components): `crop_masked_border` and `fill` have
been applied before (pod.py:869-870, 898-899), so nothing is masked.  Values and times are reals.  The external library `modred`
gives the eigenvalues and the eigenvectors of the correlation matrix: they are an argument, with the specification `IsEig`.
Not modelled: units, the balanced decomposition, the coherence indicators, smoothing, drawings.
-/

namespace IMT.Pod

open Finset

variable {n : Nat} {P : Type}

/-! ### decomposition -/

/-- `get_mean_field` of complete fields, pod.py:874, 903. -/
noncomputable def mean (s : Fin n → P → ℝ) (c : P) : ℝ := (∑ t, s t c) / n

/-- `get_fluctuant_fields`, temporalfields.py:363-366, pod.py:875, 904. -/
noncomputable def fluct (s : Fin n → P → ℝ) (t : Fin n) (c : P) : ℝ := s t c - mean s c

/-- The correlation matrix computed by `modred.PODHandles(np.vdot)`, pod.py:1047-1050. -/
def corr [Fintype P] (f : Fin n → P → ℝ) (t u : Fin n) : ℝ := ∑ c, f t c * f u c

/-- `eigvals, eigvect` of pod.py:1050. -/
structure Eig (n : Nat) where
  r : Nat
  val : Fin r → ℝ
  vec : Fin n → Fin r → ℝ

/-- What `modred` says of them: orthonormal eigenvectors of the matrix, for positive eigenvalues (it drops the others). -/
structure IsEig (C : Fin n → Fin n → ℝ) (e : Eig n) : Prop where
  orth : ∀ a b, ∑ t, e.vec t a * e.vec t b = if a = b then 1 else 0
  eig : ∀ a t, ∑ u, C t u * e.vec u a = e.val a * e.vec t a
  pos : ∀ a, 0 < e.val a

/-- `compute_modes` of `modred.PODHandles`, pod.py:1136-1138: the snapshots combined with the eigenvector over the root of the
eigenvalue. -/
noncomputable def mode (f : Fin n → P → ℝ) (e : Eig n) (a : Fin e.r) (c : P) : ℝ := ∑ t, f t c * (e.vec t a / √(e.val a))

/-- The temporal evolution of a mode, pod.py:1151. -/
noncomputable def evo (e : Eig n) (a : Fin e.r) (t : Fin n) : ℝ := e.vec t a * √(e.val a)

/-- A `ModalFields` object of type 'pod', pod.py:44-137; an evolution is a profile, the list of its points. -/
structure MF (P : Type) where
  mean : P → ℝ
  modes : List (P → ℝ)
  nmb : List Nat
  times : List ℝ
  evos : List (List (ℝ × ℝ))
  eigvals : List ℝ
  eigvects : List (List ℝ)

/-- The argument `wanted_modes`. -/
inductive Wanted where
  | all
  | first (k : Nat)
  | list (l : List Int)

/-- The modes wanted from a decomposition of `n` fields, pod.py:1005-1016. -/
def Wanted.ofDecomp (n : Nat) : Wanted → Res (List Nat)
  | .all => .ok (List.range n)
  | .first k => .ok (List.range k)
  | .list l =>
    if l = [] then .error .valueError
    else if (∃ i ∈ l, i < 0) ∨ (∃ i ∈ l, (n : Int) < i) then .error .valueError else .ok (l.map Int.toNat)

/-- The wanted modes that exist, pod.py:1052. -/
def existing (r : Nat) (l : List Nat) : List (Fin r) := l.filterMap fun a => if h : a < r then some ⟨a, h⟩ else none

/-- `modal_decomposition(obj, kind='pod', wanted_modes)`, pod.py:963-1181.  The profiles sort their points by time: the fields are
already sorted.  `modes[0]` in the constructor raises when no mode is left. -/
noncomputable def decomposition (s : Fin n → P → ℝ) (times : Fin n → ℝ) (e : Eig n) (w : Wanted) : Res (MF P) :=
  match w.ofDecomp n with
  | .error er => .error er
  | .ok l =>
    if existing e.r l = [] then .error .indexError
    else .ok
      { mean := (mean s)
        modes := (existing e.r l).map (mode (fluct s) e)
        nmb := (existing e.r l).map Fin.val
        times := List.ofFn times
        evos := (existing e.r l).map fun a => List.ofFn fun t => (times t, evo e a t)
        eigvals := (existing e.r l).map e.val
        eigvects := List.ofFn fun t => (existing e.r l).map (e.vec t) }

/-! ### reconstruction -/

/-- The loop of `Profile._get_interpolated_single_value`, profile.py:588-599. -/
noncomputable def scan (v : ℝ) : List (ℝ × ℝ) → List ℝ
  | p :: q :: l =>
    if (p.1 ≥ v ∧ q.1 < v) ∨ (p.1 ≤ v ∧ q.1 > v) then
      (p.2 * |q.1 - v| + q.2 * |p.1 - v|) / |p.1 - q.1| :: scan v (q :: l)
    else scan v (q :: l)
  | _ => []

/-- `get_interpolated_values(x)`, profile.py:539-602 on a profile without masked value. -/
noncomputable def interp (l : List (ℝ × ℝ)) (v : ℝ) : List ℝ :=
  if l.filter (fun p => p.1 = v) ≠ [] then (l.filter fun p => p.1 = v).map Prod.snd else scan v l

/-- `l[i]` in python. -/
def pyGet {α : Type} (l : List α) (i : Int) : Res α :=
  match (if 0 ≤ i then l[i.toNat]? else if 0 ≤ (l.length : Int) + i then l[((l.length : Int) + i).toNat]? else none) with
  | some a => .ok a
  | none => .error .indexError

/-- The modes wanted in a reconstruction with `r` modes, pod.py:470-488. -/
def Wanted.ofRecon (r : Nat) : Wanted → Res (List Int)
  | .all => .ok ((List.range r).map fun (i : Nat) => (i : Int))
  | .first k => .ok ((List.range k).map fun (i : Nat) => (i : Int))
  | .list l =>
    if l = [] then .error .indexError
    else if ∃ i ∈ l, (r : Int) < i then .error .valueError else .ok l

/-- One mode added to the fields, pod.py:528-532, 550-555: the coefficient is the first interpolated value. -/
noncomputable def addMode (m : MF P) (i : Int) (acc : List (ℝ × (P → ℝ))) : Res (List (ℝ × (P → ℝ))) :=
  match pyGet m.modes i, pyGet m.evos i with
  | .ok φ, .ok ev =>
    if ∃ f ∈ acc, interp ev f.1 = [] then .error .indexError
    else .ok (acc.map fun f => (f.1, fun c => f.2 c + φ c * ((interp ev f.1).head?).getD 0))
  | .error e, _ => .error e
  | _, .error e => .error e

/-- The loop on the modes, pod.py:527-532, 547-555. -/
noncomputable def addModes (m : MF P) : List Int → List (ℝ × (P → ℝ)) → Res (List (ℝ × (P → ℝ)))
  | [], acc => .ok acc
  | i :: l, acc =>
    match addMode m i acc with
    | .error e => .error e
    | .ok acc => addModes m l acc

/-- The times are between the ones of the base, pod.py:497-500. -/
def inTimes (ts times : List ℝ) : Prop := ∀ t ∈ ts, (∃ a ∈ times, a ≤ t) ∧ ∃ b ∈ times, t ≤ b

open Classical in
/-- `reconstruct(wanted_modes, times)` for 'pod', pod.py:448-568: the times of the fields and the fields. -/
noncomputable def reconstruct (m : MF P) (w : Wanted) (times : Option (List ℝ)) : Res (List (ℝ × (P → ℝ))) :=
  match w.ofRecon m.modes.length with
  | .error e => .error e
  | .ok l =>
    if times.getD m.times = [] then .error .valueError
    else if ¬ inTimes (times.getD m.times) m.times then .error .valueError
    else if m.modes = [] then .error .indexError
    else addModes m l ((times.getD m.times).map fun t => (t, m.mean))

/-! ### changes of the base -/

/-- The argument `modes_to_keep` of `crop_modal_base`, pod.py:166-170. -/
inductive Keep where
  | first (k : Nat)
  | list (l : List Int)

/-- The indices kept, pod.py:168-171. -/
def Keep.indices : Keep → List Int
  | .first k => (List.range k).map fun (i : Nat) => (i : Int)
  | .list l => l

/-- Items of a list taken one after the other, the first missing one raising. -/
def pyTake {α : Type} (l : List α) : List Int → Res (List α)
  | [] => .ok []
  | i :: is =>
    match pyGet l i, pyTake l is with
    | .ok a, .ok as => .ok (a :: as)
    | .error e, _ => .error e
    | _, .error e => .error e

/-- The rows of the eigenvectors kept, pod.py:207-210: rows and columns are both taken among the modes to keep. -/
def cropVects (v : List (List ℝ)) (k : List Int) : Res (List (List ℝ)) :=
  match pyTake v k with
  | .error e => .error e
  | .ok rows => rows.mapM fun row => pyTake row k

/-- `crop_modal_base(modes_to_keep)` of a 'pod' base, pod.py:150-238. -/
def cropBase (m : MF P) (k : Keep) : Res (MF P) :=
  match pyTake m.modes k.indices, pyTake m.evos k.indices, pyTake m.eigvals k.indices, cropVects m.eigvects k.indices,
      pyTake m.nmb k.indices with
  | .ok modes, .ok evos, .ok vals, .ok vects, .ok nmb =>
    .ok { m with modes := modes, evos := evos, eigvals := vals, eigvects := vects, nmb := nmb }
  | _, _, _, _, _ => .error .indexError

/-- `crop_modal_base(modes_to_remove)`, pod.py:172-180: `np.arrange` does not exist. -/
def removeModes (_m : MF P) (_k : Keep) : Res (MF P) := .error .attributeError

open Classical in
/-- The indices of a time interval, pod.py:268-284: the first time after the beginning, and after the end. -/
noncomputable def timeInds (times : List ℝ) (a b : ℝ) : Res (Nat × Nat) :=
  match times.head?, times.getLast? with
  | some t0, some t1 =>
    if a ≤ t0 then
      (if b ≥ t1 then .ok (0, times.length)
      else if b ≤ t0 then .error .valueError else .ok (0, times.findIdx fun t => decide (t > b)))
    else if a ≥ t1 then .error .valueError
    else if b ≥ t1 then .ok (times.findIdx (fun t => decide (t > a)), times.length)
    else if b ≤ t0 then .error .valueError
    else .ok (times.findIdx (fun t => decide (t > a)), times.findIdx fun t => decide (t > b))
  | _, _ => .error .indexError

/-- `crop(intervt=[a, b])`, pod.py:264-292: the evolutions are cropped with the same indices; an empty interval is refused by
`Profile.crop` (profile.py:1414). -/
noncomputable def cropTime (m : MF P) (a b : ℝ) : Res (MF P) :=
  match timeInds m.times a b with
  | .error e => .error e
  | .ok (i, j) =>
    if j ≤ i ∧ m.evos ≠ [] then .error .valueError
    else .ok { m with times := (slice m.times i j), evos := (m.evos.map fun p => slice p i j) }

/-- `crop(intervx, intervy)`, pod.py:294-305: the mean and the modes restricted to the same cells. -/
def cropSpace {Q : Type} (m : MF P) (g : Q → P) : MF Q :=
  { mean := m.mean ∘ g, modes := m.modes.map fun φ => φ ∘ g, nmb := m.nmb, times := m.times, evos := m.evos,
    eigvals := m.eigvals, eigvects := m.eigvects }

/-- `scale(scalet, scalev)` by numbers, pod.py:310-345 (`scalex` and `scaley` only change the axes). -/
def scale (m : MF P) (st sv : ℝ) : MF P :=
  { m with mean := fun c => m.mean c * sv, times := m.times.map (· * st),
           evos := (m.evos.map fun l => l.map fun p => (p.1 * st, p.2 * sv)) }

/-- `get_modes_energy(raw=True)`, pod.py:588-601, `cells` being the number of points of the grid. -/
noncomputable def energies [Fintype P] (cells : Nat) (m : MF P) : List ℝ :=
  List.zipWith (fun φ (ev : List (ℝ × ℝ)) => (∑ c, 1 / 2 * φ c ^ 2) / cells * ((ev.map fun p => p.2 ^ 2).sum / ev.length)) m.modes m.evos

/-! ### dynamic mode decomposition -/

open Classical in
/-- The argument of a Ritz value, pod.py:1076-1086. -/
noncomputable def ritzArg (z : ℂ) : ℝ :=
  if z.im = 0 ∧ z.re ≤ 0 then Real.pi else 2 * Real.arctan (z.im / (z.re + ‖z‖))

/-- The growth rate, pod.py:1087. -/
noncomputable def growth (z : ℂ) (dt : ℝ) : ℝ := Real.log ‖z‖ / dt
/-- The pulsation, pod.py:1088. -/
noncomputable def pulsation (z : ℂ) (dt : ℝ) : ℝ := ritzArg z / dt

/-- The Ritz values as kept in a profile, pod.py:1091-1092: a profile holds floats (profile.py:62), the imaginary part is lost. -/
def kept (z : ℂ) : ℝ := z.re

/-- The temporal evolution of a mode at the snapshot `k`, pod.py:1167. -/
noncomputable def dmdEvo (z : ℂ) (k : Nat) : ℝ := kept z ^ k

/-- The coefficient used by `reconstruct` at a time which is not one of the decomposition, pod.py:511-515, `times` being regular
from `t0` by steps `dt`. -/
noncomputable def dmdAt (z : ℂ) (dt t : ℝ) : ℝ := Real.rpow (kept z) (t / dt - 1)

end IMT.Pod
