import Verif.Prelude
import Mathlib.Algebra.BigOperators.Group.List.Basic
import Mathlib.Algebra.Field.Rat

/-!
Model of the coherence of the modes of a decomposition (`/repo/IMTreatment/pod/pod.py`): the answers that are kept in the
object, and the operations that keep or forget them.

The spectral computations are parameters: `tempOf` is the coherence of the temporal evolutions, `spatOf` that of the modes once
their mean has been removed (it depends on a random draw).
-/

namespace IMT.Coherence

/-- A value: `none` for NaN. -/
abbrev F := Option Rat

/-- A mode: the values of its components, one for a scalar field and two for a vector field. -/
abbrev Mode := List (List F)

/-- What the object holds: the modes, the temporal evolutions (of some type), and the two answers kept, pod.py:137-138. -/
structure MS (E : Type) where
  modes : List Mode
  evos : List E
  temp : Option (List Rat)
  spat : Option (List Rat)

/-- `np.mean(data)`: NaN as soon as a value is. -/
def mean (l : List F) : F :=
  if l.all Option.isSome then some ((l.map fun v => v.getD 0).sum / l.length) else none

/-- `a - b`. -/
def subF : F → F → F
  | some a, some b => some (a - b)
  | _, _ => none

/-- `data -= np.mean(data)`, pod.py:702. -/
def center (l : List F) : List F := l.map fun v => subF v (mean l)

/-- The modes once read by `get_spatial_coherence`, pod.py:726-733: `values` and `comp_x` give the arrays of the modes
themselves, that `get_field_spec_std` changes in place (702). -/
def centerMode (m : Mode) : Mode := m.map center

variable {E : Type}

/-- `get_temporal_coherence(raw=True)`, pod.py:619-671: the object afterwards and the answer. -/
def temporal (tempOf : List E → List Rat) (s : MS E) : MS E × List Rat :=
  match s.temp with
  | some a => (s, a)
  | none => ({ s with temp := some (tempOf s.evos) }, tempOf s.evos)

/-- `get_spatial_coherence(raw=True)`, pod.py:673-747: the object afterwards and the answer. -/
def spatial (spatOf : Nat → List Mode → List Rat) (draw : Nat) (s : MS E) : MS E × List Rat :=
  match s.spat with
  | some a => (s, a)
  | none => ({ s with modes := s.modes.map centerMode, spat := some (spatOf draw (s.modes.map centerMode)) },
      spatOf draw (s.modes.map centerMode))

/-- `smooth_temporal_evolutions(inplace=True)`, pod.py:347-368. -/
def smoothT (f : E → E) (s : MS E) : MS E := { s with evos := s.evos.map f }

/-- `smooth_spatial_evolutions(inplace=True)`, pod.py:370-387. -/
def smoothS (f : Mode → Mode) (s : MS E) : MS E := { s with modes := s.modes.map f }

/-- `smooth_spatial_evolutions(inplace=False)`, pod.py:388-392: `tmp_MF.mdes`. -/
def smoothSCopy (_f : Mode → Mode) (s : MS E) : Res (MS E) :=
  if s.modes.length = 0 then .ok s else .error .attributeError

/-- `augment_temporal_resolution(inplace=True)`, pod.py:394-444. -/
def augment (f : E → E) (s : MS E) : MS E := { s with evos := s.evos.map f, temp := none, spat := none }

/-- `crop(intervt=..., inplace=True)`, pod.py:258-283. -/
def cropT (f : E → E) (s : MS E) : MS E := { s with evos := s.evos.map f, temp := none }

/-- `crop(intervx=..., intervy=..., inplace=True)`, pod.py:284-295. -/
def cropS (g : Mode → Mode) (s : MS E) : MS E := { s with modes := s.modes.map g }

/-- `scale(inplace=True)` as far as the values are concerned, pod.py:314-345. -/
def scale (f : E → E) (s : MS E) : MS E := { s with evos := s.evos.map f }

/-- `crop_modal_base(modes_to_keep=ks, inplace=True)`, pod.py:155-232, for indices of modes. -/
def keep (ks : List Nat) (s : MS E) : MS E :=
  ⟨ks.filterMap fun k => s.modes[k]?, ks.filterMap fun k => s.evos[k]?, none, none⟩

/-- A call on the object. -/
inductive Op (E : Type) where
  | temporal
  | spatial (draw : Nat)
  | smoothT (f : E → E)
  | smoothS (f : Mode → Mode)
  | augment (f : E → E)
  | cropT (f : E → E)
  | cropS (g : Mode → Mode)
  | scale (f : E → E)
  | keep (ks : List Nat)

/-- The object after a call. -/
def step (tempOf : List E → List Rat) (spatOf : Nat → List Mode → List Rat) (s : MS E) : Op E → MS E
  | .temporal => (temporal tempOf s).1
  | .spatial d => (spatial spatOf d s).1
  | .smoothT f => smoothT f s
  | .smoothS f => smoothS f s
  | .augment f => augment f s
  | .cropT f => cropT f s
  | .cropS g => cropS g s
  | .scale f => scale f s
  | .keep ks => keep ks s

/-- The object after some calls. -/
def run (tempOf : List E → List Rat) (spatOf : Nat → List Mode → List Rat) (s : MS E) (ops : List (Op E)) : MS E :=
  ops.foldl (step tempOf spatOf) s

/-- The object the constructor gives, pod.py:137-138. -/
def made (modes : List Mode) (evos : List E) : MS E := ⟨modes, evos, none, none⟩

/-- The value of a reconstructed field at a point, pod.py:510-517, from the mean field and the coefficients of the modes. -/
def recon (base : Rat) (coefs : List Rat) (vals : List F) : F :=
  (coefs.zip vals).foldl (fun acc q => match acc, q.2 with | some a, some v => some (a + q.1 * v) | _, _ => none) (some base)

end IMT.Coherence
