import Verif.Vortex.Model

/-!
The velocity fields of a vortex system in time: `VortexSystem.get_temporal_vector_field`
(`/repo/IMTreatment/vortex_creation/vortex_creation.py`).  The units and the masks of the fields are left out (see
`Verif.Vortex.FieldModel` for those of one field); the units of the times are all the same, so that `add_field`
(`core/temporalfields.py`, 1137) keeps the times.
-/

namespace IMT.Vortex

/-- The components of `get_vector_field(axe_x, axe_y)`, vortex_creation.py:944-989: one list for each `x`. -/
noncomputable def Sys.shot (h : Heap) (s : Sys) (ax ay : List ℝ) : List (List (ℝ × ℝ)) := ax.map fun x => ay.map fun y => s.fieldAt h x y

/-- The loop of `get_temporal_vector_field`, vortex_creation.py:1040-1046; `t` is the variable `time`, `k` evolutions remain. -/
noncomputable def seriesLoop (h : Heap) (dt : ℝ) (ax ay : List ℝ) :
    Nat → ℝ → Sys → List (ℝ × List (List (ℝ × ℝ))) → Res (List (ℝ × List (List (ℝ × ℝ))))
  | 0, _, _, acc => .ok acc
  | k + 1, t, s, acc =>
    match s.evolution h dt with
    | .error e => .error e
    | .ok s' => seriesLoop h dt ax ay k (t + dt) s' (acc ++ [(t, s'.shot h ax ay)])

/-- `get_temporal_vector_field(dt, axe_x, axe_y, nmb_it)`, vortex_creation.py:1028-1048: the times with the fields.  The first field
refreshes the images of the system, which is then copied. -/
noncomputable def Sys.series (h : Heap) (s : Sys) (dt : ℝ) (ax ay : List ℝ) (n : Nat) : Res (List (ℝ × List (List (ℝ × ℝ)))) :=
  seriesLoop h dt ax ay n (0 + dt) s.current [(0, s.shot h ax ay)]

end IMT.Vortex
