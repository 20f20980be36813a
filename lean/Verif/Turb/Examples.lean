import Verif.Turb.Corr
import Verif.Turb.Scal

/-! Concrete cases meeting the hypotheses of C196–C202. -/

namespace IMT.Turb

open Temporal (TF)

/-- A velocity field whose vectors are `(k + i, k * j)`, masked where `hid` says. -/
def frame (k : Rat) (hid : Nat → Nat → Bool) : VF where
  ax := [0, 1]
  ay := [0, 2]
  cx := ⟨2, 2, fun i j => if hid i j then none else some (k + (i : Rat))⟩
  cy := ⟨2, 2, fun i j => if hid i j then none else some (k * (j : Rat))⟩
  mask := ⟨2, 2, hid⟩
  ux := Sym.m
  uy := Sym.m
  uv := Sym.ms

theorem frame_WF (k : Rat) (hid : Nat → Nat → Bool) : (frame k hid).WF := by
  refine ⟨(by decide +kernel : Inc [0, 1]), (by decide +kernel : Inc [0, 2]), List.cons_ne_nil _ _, List.cons_ne_nil _ _, rfl, rfl, rfl, rfl, rfl, rfl, ?_, ?_⟩
  · intro i j _ _ h
    show hid i j = true
    have h : (if hid i j then none else some (k + (i : Rat))) = none := h
    by_contra c
    simp [c] at h
  · intro i j _ _ h
    show hid i j = true
    have h : (if hid i j then none else some (k * (j : Rat))) = none := h
    by_contra c
    simp [c] at h

/-- Three fields: the point (0, 1) is seen by the last one only, the point (1, 1) by the last two. -/
def film : TVF where
  ax := [0, 1]
  ay := [0, 2]
  ux := Sym.m
  uy := Sym.m
  times := [1, 2, 4]
  ut := Sym.s
  fields := [frame 1 fun _ j => decide (j = 1), frame 2 fun i j => decide (i = 0 ∧ j = 1), frame 6 fun _ _ => false]

theorem film_record : Record film Sym.ms := by
  refine ⟨rfl, by decide +kernel, by decide, ?_, ?_, ?_, ?_, ?_, ?_, by decide +kernel, by decide +kernel, by decide, by decide⟩ <;>
    intro f hf <;> simp only [film, List.mem_cons, List.not_mem_nil, or_false] at hf <;> rcases hf with rfl | rfl | rfl
  exacts [frame_WF _ _, frame_WF _ _, frame_WF _ _, rfl, rfl, rfl, rfl, rfl, rfl, rfl, rfl, rfl, rfl, rfl, rfl, rfl, rfl, rfl]

example : Record film Sym.ms := film_record

/-- The cells of the four points of a vector field, as lists. -/
def cells (f : VF) : List (Option (Rat × Rat)) := [f.cell 0 0, f.cell 1 0, f.cell 0 1, f.cell 1 1]

/-- The cells of the four points of a scalar field. -/
def scells (f : SF) : List (Option Rat) := [f.cell 0 0, f.cell 1 0, f.cell 0 1, f.cell 1 1]

example : ((vmean film 1).toOption.map cells) = some [some (3, 0), some (4, 0), none, some (5, 4)] := by decide +kernel

example : ((vfluct Profile.argsort film 1).toOption.map fun T => T.times) = some [1, 2, 4] := by decide +kernel

example : ((vfluct Profile.argsort film 1).toOption.map fun T => T.fields.map cells) = some
    [[some (-2, 0), some (-2, 0), none, none], [some (-1, 0), some (-1, 0), none, some (-2, -2)], [some (3, 0), some (3, 0), none, some (2, 2)]] := by
  decide +kernel

example : ((tke Profile.argsort film).toOption.map fun T => T.fields.map scells) = some
    [[some 2, some 2, none, none], [some (1 / 2), some (1 / 2), none, some 4], [some (9 / 2), some (9 / 2), none, some 4]] := by decide +kernel

example : ((meanKinetic film).toOption.map scells) = some [some (9 / 2), some 8, none, some (41 / 2)] := by decide +kernel

example : ((meanTke Profile.argsort film).toOption.map scells) = some [some (7 / 3), some (7 / 3), none, some 4] := by decide +kernel

example : ((reynolds Profile.argsort film 1).toOption.map fun r => [scells r.1, scells r.2.1, scells r.2.2]) = some
    [[some (14 / 3), some (14 / 3), none, some 4], [some 0, some 0, none, some 4], [some 0, some 0, none, some 4]] := by decide +kernel

example : Shows film 0 2 [none, none, some (6, 6)] :=
  (shows_cells film_record (i := 0) (j := 1) rfl rfl _).mpr (by decide +kernel)

example : (seen [none, none, some ((6 : Rat), (6 : Rat))]).length = 1 := rfl

/-- Two fields without masked points. -/
def clear : TVF where
  ax := [0, 1]
  ay := [0, 2]
  ux := Sym.m
  uy := Sym.m
  times := [0, 1]
  ut := Sym.s
  fields := [frame 1 fun _ _ => false, frame 3 fun _ _ => false]

theorem clear_record : Record clear Sym.ms := by
  refine ⟨rfl, by decide +kernel, by decide, ?_, ?_, ?_, ?_, ?_, ?_, by decide +kernel, by decide +kernel, by decide, by decide⟩ <;>
    intro f hf <;> simp only [clear, List.mem_cons, List.not_mem_nil, or_false] at hf <;> rcases hf with rfl | rfl
  exacts [frame_WF _ _, frame_WF _ _, rfl, rfl, rfl, rfl, rfl, rfl, rfl, rfl, rfl, rfl]

example : Full clear (fun k i j => ((if k = 0 then 1 else 3) + (i : Rat), (if k = 0 then 1 else 3) * (j : Rat))) := by
  intro k f hf i j _ _
  match k with
  | 0 => cases hf; rfl
  | 1 => cases hf; rfl
  | k + 2 => simp [clear] at hf

example : autoCorr clear = .ok [.fin 1, .fin (7 / 3)] := by decide +kernel

example : ((autoCorr film).toOption.map fun l => l) = some [.nan, .nan, .nan] := by decide +kernel

example : SRecord Temporal.rec3 SF.sample.uv := by
  refine ⟨Temporal.rec3_consistent, by decide +kernel, by decide, ?_, by decide +kernel, by decide +kernel⟩
  intro f hf
  simp only [Temporal.rec3, List.mem_cons, List.not_mem_nil, or_false] at hf
  rcases hf with rfl | rfl | rfl <;> rfl

example : ((sfluct Profile.argsort Temporal.rec3 1).toOption.map fun T => T.fields.map scells) = some
    [[some 0, some (20 / 3), some (2 / 3), none], [some 0, some (-40 / 3), some (-4 / 3), none], [some 0, some (20 / 3), some (2 / 3), none]] := by
  decide +kernel

/-- The hypotheses of C202 are met by the first component as magnitude. -/
example : ∀ f ∈ film.fields, ∃ s, Mirror.compX f = .ok s ∧ OnS film Sym.ms s := fun f hf => by
  obtain ⟨s, e, o, _⟩ := compX_spec film_record.lx film_record.ly (film_record.on hf)
  exact ⟨s, e, o⟩

example : (intensity Profile.argsort id Mirror.compX film).toOption.isNone = true := by decide +kernel

end IMT.Turb
