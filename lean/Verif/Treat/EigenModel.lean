import Verif.Units
import Mathlib.Data.Complex.Basic

/-!
Model of `get_jacobian_eigenproperties` and `get_Kenwright_field` (`/repo/IMTreatment/field_treatment/field_treatment.py`), at one
node of the field, over the reals.  numpy's `eig` is a parameter.
-/

namespace IMT.Eigen

/-- The Jacobian matrix at a node: dVx/dx, dVx/dy, dVy/dx, dVy/dy, field_treatment.py:422-423. -/
structure Jac where
  xx : ℝ
  xy : ℝ
  yx : ℝ
  yy : ℝ

/-- What `np.linalg.eig` returns for a matrix of size 2: the eigenvalues, and the components of the eigenvectors. -/
structure Pair where
  l0 : ℂ
  l1 : ℂ
  v0 : ℂ × ℂ
  v1 : ℂ × ℂ

/-- `w` is beyond `z` in the order of numpy on complex numbers. -/
def Beyond (z w : ℂ) : Prop := z.re < w.re ∨ (z.re = w.re ∧ z.im < w.im)

open Classical in
/-- The eigenvalues and vectors, the largest first, field_treatment.py:424-438; the arrays of the vectors are real, so that only
the real parts are stored. -/
noncomputable def sorted (p : Pair) : (ℂ × ℂ) × (ℝ × ℝ) × (ℝ × ℝ) :=
  if Beyond p.l0 p.l1 then ((p.l1, p.l0), (p.v1.1.re, p.v1.2.re), (p.v0.1.re, p.v0.2.re))
  else ((p.l0, p.l1), (p.v0.1.re, p.v0.2.re), (p.v1.1.re, p.v1.2.re))

/-- `get_jacobian_eigenproperties(field)` at a node, field_treatment.py:369-490: masked where a gradient is. -/
noncomputable def eigen (eig : Jac → Pair) (J : Option Jac) : Option ((ℂ × ℂ) × (ℝ × ℝ) × (ℝ × ℝ)) := J.map fun j => sorted (eig j)

/-- The unit of the eigenvalues, field_treatment.py:458-477. -/
def eigenUnit (_ux _uv : Sym) : Sym := Sym.one

/-- The vector product of field_treatment.py:523-526. -/
def cross (e v : ℝ × ℝ) : ℝ := e.1 * v.2 - e.2 * v.1

/-- `get_Kenwright_field(field)` at a node, field_treatment.py:493-542: NaN, then masked, where the eigenvectors are masked. -/
noncomputable def kenwright (eig : Jac → Pair) (J : Option Jac) (v : ℝ × ℝ) : Option (ℝ × ℝ) :=
  (eigen eig J).map fun r => (cross r.2.1 v, cross r.2.2 v)

end IMT.Eigen
