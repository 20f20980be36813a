import Verif.Trace.Model

/-!
Model of the temporal spectra and of the temporal filtering of scalar fields: `get_temporal_spectrum`,
`get_temporal_spectrum_over_area`, `get_spectrum_map`, `_get_comp_spectral_filtering` (`/repo/IMTreatment/core/temporalfields.py`) and
`get_spectral_filtering` (`/repo/IMTreatment/core/temporalscalarfields.py`).  The magnitudes of the spectrum of a profile without masked
point (`mg`, from its abscissas and values), their frequencies (`fr`) and the Butterworth filter (`g`) are parameters: they are the
subject of `Profile/SpectrumModel.lean`.
-/

namespace IMT.Trace

open Temporal (TF)
open Profile (Prof)

/-- `fill(kind='linear')`, core/profile.py:1549-1617: `Profile.fill` with an interpolation that does with one value. -/
def fillLinear (p : Prof) : Res Prof :=
  if p.m.any id = false then .ok p
  else if p.m.all id then .error .exception
  else .ok { p with y := Profile.filledY p 0, m := List.replicate p.m.length false }

/-- `get_spectrum(fill='linear')`, core/profile.py:714-801: the magnitudes. -/
def magnitudes (mg : List Rat → List Rat → List Rat) (p : Prof) : Res (List Rat) :=
  match fillLinear p with
  | .error e => .error e
  | .ok q => .ok (mg q.x (q.y.map fun v => v.getD 0))

/-- `get_temporal_spectrum(component, pt, ind)`, core/temporalfields.py:566-637. -/
def pointSpectrum (srt : List Rat → List Nat) (mg : List Rat → List Rat → List Rat) (t : TF) (w : Where) : Res (List Rat) :=
  match timeProfile srt t w none with
  | .error e => .error e
  | .ok p => magnitudes mg p

/-- The loop of core/temporalfields.py:724-739: `none` is the number 0 the sum begins with. -/
def sumSpectra (srt : List Rat → List Nat) (mg : List Rat → List Rat → List Rat) (t : TF) : Option (List Rat) → List (Nat × Nat) → Res (Option (List Rat))
  | s, [] => .ok s
  | s, c :: r => match pointSpectrum srt mg t (.ind c.1 c.2) with
    | .error e => .error e
    | .ok v => sumSpectra srt mg t (some (match s with
        | none => v
        | some s => List.zipWith (· + ·) s v)) r

/-- The indices of the loops, core/temporalfields.py:727-728. -/
def areaCells (i0 : Nat) (i1 : Int) (j0 : Nat) (j1 : Int) : List (Nat × Nat) :=
  (List.range' i0 (i1 + 1 - i0).toNat).flatMap fun i => (List.range' j0 (j1 + 1 - j0).toNat).map fun j => (i, j)

/-- `nmb_fields`, core/temporalfields.py:725. -/
def areaCount (i0 : Nat) (i1 : Int) (j0 : Nat) (j1 : Int) : Int := (i1 - i0 + 1) * (j1 - j0 + 1)

/-- core/temporalfields.py:723-748: the mean spectrum; `none` is a number instead of a profile. -/
def averaged (srt : List Rat → List Nat) (mg : List Rat → List Rat → List Rat) (t : TF) (i0 : Nat) (i1 : Int) (j0 : Nat) (j1 : Int) :
    Res (Option (List Rat)) :=
  match sumSpectra srt mg t none (areaCells i0 i1 j0 j1) with
  | .error e => .error e
  | .ok s =>
    if areaCount i0 i1 j0 j1 = 0 then .error .exception
    else .ok (s.map fun l => l.map fun v => v / (areaCount i0 i1 j0 j1 : Rat))

/-- `get_temporal_spectrum_over_area(component, intervx, intervy, ind=True)`, core/temporalfields.py:639-748. -/
def overAreaInd (srt : List Rat → List Nat) (mg : List Rat → List Rat → List Rat) (t : TF) (ix iy : Int × Int) : Res (Option (List Rat)) :=
  if ix.1 < 0 ∨ iy.1 < 0 ∨ ix.2 ≥ t.ax.length ∨ iy.2 ≥ t.ay.length then .error .valueError
  else averaged srt mg t ix.1.toNat ix.2 iy.1.toNat iy.2

/-- `get_temporal_spectrum_over_area(component, intervx, intervy)`, core/temporalfields.py:639-748: from the upper index of the beginning
to the lower index of the end. -/
def overArea (srt : List Rat → List Nat) (mg : List Rat → List Rat → List Rat) (t : TF) (ix iy : Rat × Rat) : Res (Option (List Rat)) :=
  match Axis.bounds t.ax ix.1, Axis.bounds t.ax ix.2, Axis.bounds t.ay iy.1, Axis.bounds t.ay iy.2 with
  | .ok a, .ok b, .ok c, .ok d => averaged srt mg t a.2 b.1 c.2 d.1
  | .error e, _, _, _ => .error e
  | _, .error e, _, _ => .error e
  | _, _, .error e, _ => .error e
  | _, _, _, .error e => .error e

/-- The search of the `n` highest values of a spectrum, core/temporalfields.py:806-818: a frequency that was found is masked, and its
value is `NaN`; `spec.max` is `None`, refused by `get_value_position`, when all are masked. -/
def peaks : Nat → List (Rat × Option Rat) → Res (List Rat)
  | 0, _ => .ok []
  | n + 1, l => match (l.filterMap Prod.snd).max? with
    | none => .error .typeError
    | some v => match l[l.findIdx fun p => decide (p.2 = some v)]? with
      | none => .error .indexError
      | some p => match peaks n (l.set (l.findIdx fun p => decide (p.2 = some v)) (p.1, none)) with
        | .error e => .error e
        | .ok r => .ok (p.1 :: r)

/-- One node of `get_spectrum_map`, core/temporalfields.py:792-818: `none` if it is masked.  The maps of quality and the smoothing of the
spectra are left out. -/
def mapAt (srt : List Rat → List Nat) (fr : List Rat → List Rat) (mg : List Rat → List Rat → List Rat) (t : TF) (n : Nat) (x y : Rat) :
    Res (Option (List Rat)) :=
  match timeProfile srt t (.at x y) none with
  | .error e => .error e
  | .ok p =>
    if p.m.count true * 2 > p.x.length then .ok none
    else match magnitudes mg p with
      | .error e => .error e
      | .ok s => match peaks n ((fr p.x).zip (s.map some)) with
        | .error e => .error e
        | .ok r => .ok (some r)

/-- The nodes, in the order of the loops. -/
def nodes (t : TF) : List (Rat × Rat) := t.ax.flatMap fun x => t.ay.map fun y => (x, y)

/-- `get_spectrum_map(comp, nmb_pic=n)`, core/temporalfields.py:750-846: the frequencies at each node, and the unit given to their maps,
that of the magnitudes of the last spectrum (not bound when there was none). -/
def spectrumMap (srt : List Rat → List Nat) (fr : List Rat → List Rat) (mg : List Rat → List Rat → List Rat) (t : TF) (n : Nat) :
    Res (List (Option (List Rat)) × Option Sym) :=
  match Line.collect ((nodes t).map fun c => mapAt srt fr mg t n c.1 c.2) with
  | .error e => .error e
  | .ok l =>
    if n = 0 then .ok (l, none)
    else if l.all Option.isNone then .error .nameError
    else .ok (l, t.fields.head?.map SF.uv)

/-- `spectral_filtering(fmin, fmax, order)` of a profile, core/profile.py:1288-1322. -/
def filterProf (g : List Rat → List Rat → List Rat) (p : Prof) : Res Prof :=
  match fillLinear p with
  | .error e => .error e
  | .ok q => .ok { q with y := (g q.x (q.y.map fun v => v.getD 0)).map some }

/-- The loop of core/temporalfields.py:865-873, that works on the fields it reads: their state is given with the outcome. -/
def filterNodes (srt : List Rat → List Nat) (g : List Rat → List Rat → List Rat) : List (Rat × Rat) → TF → TF × Res PUnit
  | [], t => (t, .ok ⟨⟩)
  | c :: r, t => match timeProfile srt t (.at c.1 c.2) none with
    | .error e => (t, .error e)
    | .ok p => match filterProf g p with
      | .error e => (t, .error e)
      | .ok q => match inject t (.at c.1 c.2) q with
        | .error e => (t, .error e)
        | .ok t' => filterNodes srt g r t'

/-- `get_spectral_filtering(fmin, fmax, order, inplace)` of scalar fields, core/temporalscalarfields.py:292-320: the object afterwards,
and what is returned.  `values_as_sf` (lines 39-41) is the object itself, and the fields of the result are its fields. -/
def getFiltering (srt : List Rat → List Nat) (g : List Rat → List Rat → List Rat) (t : TF) (inplace : Bool) : TF × Res (Option TF) :=
  match filterNodes srt g (nodes t) t with
  | (t', .error e) => (t', .error e)
  | (t', .ok _) => (t', .ok (if inplace then none else some t'))

end IMT.Trace
