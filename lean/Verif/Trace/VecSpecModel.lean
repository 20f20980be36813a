import Verif.Trace.SpecModel
import Verif.Turb.Model

/-!
Model of the temporal filtering of vector fields (`/repo/IMTreatment/core/temporalvectorfields.py`).
-/

namespace IMT.Trace

open Temporal (TF mapRes)
open Turb (TVF addSs)

/-- `Vx_as_sf` and `Vy_as_sf`, core/temporalvectorfields.py:40-45, 56-61: new fields. -/
def compRecord (srt : List Rat → List Nat) (comp : VF → Res SF) (t : TVF) : Res TF :=
  match mapRes comp t.fields with
  | .error e => .error e
  | .ok fs => addSs srt .empty (t.times.zip fs) t.ut

/-- `_get_comp_spectral_filtering(comp, fmin, fmax, order)`, core/temporalfields.py:844-874, for the component of vector fields. -/
def compFiltering (srt : List Rat → List Nat) (g : List Rat → List Rat → List Rat) (comp : VF → Res SF) (t : TVF) : Res TF :=
  match compRecord srt comp t with
  | .error e => .error e
  | .ok T => match filterNodes srt g (nodes T) T with
    | (_, .error e) => .error e
    | (T', .ok _) => .ok T'

/-- `field.comp_x = values; field.comp_y = values`, core/temporalvectorfields.py:242-244 and core/vectorfield.py:297-305, 324-332: the mask stays. -/
def putComps (f : VF) (s : SF × SF) : Res VF :=
  if s.1.val.nx ≠ f.ax.length ∨ s.1.val.ny ≠ f.ay.length ∨ s.2.val.nx ≠ f.ax.length ∨ s.2.val.ny ≠ f.ay.length then .error .valueError
  else .ok { f with cx := s.1.values, cy := s.2.values }

/-- `get_spectral_filtering(fmin, fmax, order, inplace)` of vector fields, core/temporalvectorfields.py:216-247: the object afterwards, and what is
returned. -/
def vecFiltering (srt : List Rat → List Nat) (g : List Rat → List Rat → List Rat) (t : TVF) (inplace : Bool) : TVF × Res (Option TVF) :=
  match compFiltering srt g Mirror.compX t, compFiltering srt g Mirror.compY t with
  | .error e, _ => (t, .error e)
  | .ok _, .error e => (t, .error e)
  | .ok X, .ok Y =>
    match mapRes (fun p => putComps p.1 p.2) (t.fields.zip (X.fields.zip Y.fields)) with
    | .error e => (t, .error e)
    | .ok fs => if inplace then ({ t with fields := fs }, .ok none) else (t, .ok (some { t with fields := fs }))

end IMT.Trace
