import Verif.Phase.Props

/-! Concrete cases for C261. -/

namespace IMT.Phase

open Temporal (TF rec3)
open Turb (SRecord)

/-- A spectrum for the examples: the last value and the step. -/
def aSpectrum : Spectrum := fun l dt _ => (l.getLast?.join, some dt)

/-- Three fields on 3 by 2 points; the times up to the number of fields are 1 and 2. -/
example : ∃ A B, phaseMap Profile.argsort aSpectrum Sym.one rec3 5 none = .ok (A, B) ∧ A.WF ∧ B.WF := by
  obtain ⟨A, B, e, w1, w2, -⟩ := C261_map_partial Profile.argsort_ok Trace.rec3_record aSpectrum Sym.one 5 (tf := none) rfl (by decide +kernel) (by decide)
    (by decide) (by decide) (a := 1) (b := 2) (rest := []) (by decide +kernel)
  exact ⟨A, B, e, w1, w2⟩

example : (match phaseMap Profile.argsort aSpectrum Sym.one rec3 5 (some 10) with | .ok (A, B) => [A.cell 0 0, A.cell 2 1, B.cell 2 0] | .error _ => []) =
    [SF.sample.cell 0 0, SF.sample.cell 2 1, some 1] := by decide +kernel

/-- The same fields at the times 1, 20 and 40. -/
def late : TF := { rec3 with times := [1, 20, 40] }

theorem late_record : SRecord late SF.sample.uv :=
  ⟨⟨rfl, Temporal.rec3_consistent.wf, Temporal.rec3_consistent.ax, Temporal.rec3_consistent.ay, Temporal.rec3_consistent.ux, Temporal.rec3_consistent.uy⟩,
    by decide +kernel, by decide, Trace.rec3_record.uv, by decide +kernel, by decide +kernel⟩

example : phaseMap Profile.argsort aSpectrum Sym.one late 5 none = .error .indexError :=
  C261_default_violated Profile.argsort_ok late_record aSpectrum Sym.one 5 (first := 1) (second := 20) (rest := [40]) rfl (by decide +kernel)

/-- Four values on a square. -/
def tile (k : Rat) : SF where
  ax := [0, 1]
  ay := [0, 1]
  val := ⟨2, 2, fun i j => some (k + 10 * i + j)⟩
  mask := ⟨2, 2, fun _ _ => false⟩
  ux := Sym.m
  uy := Sym.m
  uv := Sym.one

/-- Two fields on a square. -/
def tiles : TF := ⟨[0, 1], [0, 1], Sym.m, Sym.m, [0, 1], Sym.s, [tile 0, tile 100], true⟩

theorem tile_WF (k : Rat) : (tile k).WF :=
  ⟨show Inc [0, 1] by decide +kernel, show Inc [0, 1] by decide +kernel, by simp [tile], by simp [tile], rfl, rfl, rfl, rfl,
    by intro i j _ _ h; simp [tile] at h⟩

theorem tiles_record : SRecord tiles Sym.one := by
  refine ⟨⟨rfl, ?_, ?_, ?_, ?_, ?_⟩, by decide +kernel, by simp [tiles], ?_, by decide +kernel, by decide +kernel⟩
  all_goals
    intro f hf
    simp only [tiles, List.mem_cons, List.not_mem_nil, or_false] at hf
    rcases hf with rfl | rfl
  exacts [tile_WF _, tile_WF _, rfl, rfl, rfl, rfl, rfl, rfl, rfl, rfl, rfl, rfl]

/-- At (1, 0) the map shows what belongs to (0, 1). -/
example : (match phaseMap Profile.argsort aSpectrum Sym.one tiles 5 none with | .ok (A, _) => [A.cell 1 0, A.cell 0 1] | .error _ => []) =
    [some 101, some 110] := by decide +kernel

example : ∃ A B, phaseMap Profile.argsort aSpectrum Sym.one tiles 5 none = .ok (A, B) := by
  obtain ⟨A, B, e, -⟩ := C261_square_violated Profile.argsort_ok tiles_record aSpectrum Sym.one 5 (tf := none) rfl (by decide +kernel) (by decide) rfl
    (a := 0) (b := 1) (rest := []) (by decide +kernel)
  exact ⟨A, B, e⟩

end IMT.Phase
