import Verif.Crit.LocalModel
import Mathlib.Analysis.Real.Sqrt

/-! Model of `get_improved_swirling_strength` (`/repo/IMTreatment/vortex_criterions/vortex_criterions.py`), on whole fields, over the reals. -/

namespace IMT.Crit

/-- `lambcr/lambci` at one point, vortex_criterions.py:1053-1059: masked (`none`) where the eigenvalues are real. -/
noncomputable def improved (J : Jac ℝ) : Option ℝ :=
  if 0 ≤ discr J then none else some ((J.xx + J.yy) / 2 / (Real.sqrt (-discr J) / 2))

/-- `np.gradient(comp_x, dx, dy)` and `np.gradient(comp_y, dx, dy)` at one point, vortex_criterions.py:1043-1046: the arrays of the components, with
NaN (`none`) where there is no value; `none` when one of the four derivatives is NaN. -/
noncomputable def jacAt (f : VF) (i j : Nat) : Option (Jac ℝ) :=
  match Treat.gradX f.ax f.cx.get i j, Treat.gradY f.ay f.cx.get i j, Treat.gradX f.ax f.cy.get i j, Treat.gradY f.ay f.cy.get i j with
  | some a, some b, some c, some d => some ⟨a, b, c, d⟩
  | _, _, _, _ => none

/-- One turn of the loop, vortex_criterions.py:1050-1060: `np.linalg.eigvals` refuses (LinAlgError) a matrix with NaN. -/
noncomputable def improvedCell (f : VF) (i j : Nat) : Res (Option ℝ) :=
  if f.mask.get i j then .ok none
  else match jacAt f i j with
    | none => .error .exception
    | some J => .ok (improved J)

/-- The nodes in the order of the loops, vortex_criterions.py:1050-1051. -/
def gridNodes (f : VF) : List (Nat × Nat) := (List.range f.ax.length).flatMap fun i => (List.range f.ay.length).map fun j => (i, j)

/-- The two loops: the first exception stops them, vortex_criterions.py:1050-1060. -/
noncomputable def improvedCells (f : VF) : List (Nat × Nat) → Res (List (Option ℝ))
  | [] => .ok []
  | p :: l => match improvedCell f p.1 p.2 with
    | .error e => .error e
    | .ok v => match improvedCells f l with
      | .error e => .error e
      | .ok r => .ok (v :: r)

/-- `get_improved_swirling_strength(vf)`, vortex_criterions.py:1017-1074, its values node after node (`none` is masked), on the axes of the field;
`fill` is what `tmp_vf.fill()` returns, that is not used. -/
noncomputable def improvedField (fill : VF → Res VF) (f : VF) : Res (List (Option ℝ)) :=
  match fill f with
  | .error e => .error e
  | .ok _ => if f.ax.length < 2 ∨ f.ay.length < 2 then .error .indexError else improvedCells f (gridNodes f)

end IMT.Crit
