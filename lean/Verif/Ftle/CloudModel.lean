import Verif.Ftle.Model

/-!
Model of `get_displaced_point_field` (`/repo/IMTreatment/vortex_criterions/FTLE/ftle.py`).
-/

namespace IMT.Ftle

/-- A loop on the elements of a list, each of which may fail or never end (`none`). -/
def each {α β : Type} (f : α → Res (Option β)) : List α → Res (Option (List β))
  | [] => .ok (some [])
  | a :: l => match f a with
    | .error e => .error e
    | .ok none => .ok none
    | .ok (some b) => match each f l with
      | .error e => .error e
      | .ok none => .ok none
      | .ok (some bs) => .ok (some (b :: bs))

/-- A place kept in the arrays, hidden by the mask when the particle left, ftle.py:210-217 (the two coordinates are masked together; without any particle
out the arrays are plain ones, which show the same). -/
def hide (q : ℂ × Bool) : Option ℂ := if q.2 then none else some q.1

/-- The double loop, ftle.py:198-214, on the points of the coordinates `xs` and `ys`, each particle being given `n` rounds. -/
noncomputable def displaceAll (v : ℂ → ℂ) (k : Box) (dx dt relErr dampl : ℝ) (n : ℕ) (xs ys : List ℝ) : Res (Option (List (List (Option ℂ)))) :=
  each (fun x => each (fun y => match displacement v k dx ⟨x, y⟩ dt relErr dampl n with
    | .error e => .error e
    | .ok none => .ok none
    | .ok (some q) => .ok (some (hide q))) ys) xs

/-- `get_displaced_point_field(res, dt, rel_err, dampl)`, ftle.py:184-218. -/
noncomputable def displacedField (v : ℂ → ℂ) (k : Box) (dx resX resY dt relErr dampl : ℝ) (n : ℕ) : Res (Option (List (List (Option ℂ)))) :=
  displaceAll v k dx dt relErr dampl n
    (positions k.xa k.xb (delta (spacing k.xa k.xb resX) (spacing k.ya k.yb resY)))
    (positions k.ya k.yb (delta (spacing k.xa k.xb resX) (spacing k.ya k.yb resY)))

end IMT.Ftle
