import Verif.Pbi.Theta
import Verif.Units

/-! Model of `get_iota` (`/repo/IMTreatment/vortex_criterions/vortex_criterions.py`), over the reals. -/

namespace IMT.Crit.Iota

open Real

/-- A vector field: axes, and the vector of a node, `none` if it is masked. -/
structure Fld where
  ax : List ℝ
  ay : List ℝ
  vec : ℕ → ℕ → Option (ℝ × ℝ)

/-- `vectorfield.theta`, core/vectorfield.py:442-470: 0 for a masked or null vector. -/
noncomputable def Fld.theta (f : Fld) (i j : ℕ) : ℝ :=
  match f.vec i j with
  | none => 0
  | some v => Pbi.theta v.1 v.2

/-- `theta2`, vortex_criterions.py:581-582. -/
noncomputable def back (t : ℝ) : ℝ := if t > π then t - 2 * π else t

/-- `np.gradient` along an axis of `n` nodes, without spacing. -/
noncomputable def grad (n : ℕ) (g : ℕ → ℝ) (i : ℕ) : ℝ :=
  if i = 0 then g 1 - g 0
  else if i = n - 1 then g (n - 1) - g (n - 2)
  else (g (i + 1) - g (i - 1)) / 2

/-- `theta_x` or `theta_y`, vortex_criterions.py:583-590. -/
noncomputable def small (n : ℕ) (g : ℕ → ℝ) (i : ℕ) : ℝ :=
  if |grad n g i| > |grad n (fun k => back (g k)) i| then grad n (fun k => back (g k)) i else grad n g i

/-- `get_iota(vectorfield, mask, radius)`, vortex_criterions.py:532-604: the value at a node, `none` if it is masked.  `g` is the
smoothed field, or the field itself without `radius`.  The mask made from the argument is not used. -/
noncomputable def iota (f g : Fld) (_mask : ℕ → ℕ → Bool) (i j : ℕ) : Res (Option ℝ) :=
  if f.ax.length < 2 ∨ f.ay.length < 2 then .error .valueError
  else match f.vec i j with
    | none => .ok none
    | some _ => .ok (some (1 / 2 * √((small f.ax.length (fun k => g.theta k j) i) ^ 2 + (small f.ay.length (fun k => g.theta i k) j) ^ 2)))

/-- The unit of the values, vortex_criterions.py:603. -/
def iotaUnit (_ux : Sym) : Sym := Sym.one

end IMT.Crit.Iota
