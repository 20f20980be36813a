import Verif.Treat.Model

/-! Model of `get_shear_stress` and `get_swirling_vector` (`/repo/IMTreatment/field_treatment/field_treatment.py`). -/

namespace IMT.Treat

/-- `tmp_vf.crop_masked_border(inplace=True)`, field_treatment.py:1047 and core/vectorfield.py:1007-1064. -/
def trimV (f : VF) : Res VF := if f.maskF.anyMasked = false then .ok f else f.softCrop

/-- field_treatment.py:1049-1070: `np.gradient` on the arrays of the components, with the mask and the unit of the field. -/
def shearOf (t : VF) : Res VF :=
  if t.ax.length < 2 ∨ t.ay.length < 2 then .error .indexError
  else VF.importArrays t.ax t.ay ⟨t.ax.length, t.ay.length, gradX t.ax t.cy.get⟩ ⟨t.ax.length, t.ay.length, gradY t.ay t.cx.get⟩
    (.array t.mask) t.ux t.uy t.uv

/-- `get_shear_stress(vf)`, field_treatment.py:1032-1070; `fill` is what `tmp_vf.fill()` returns, that is not used. -/
def shear (fill : VF → Res VF) (f : VF) : Res VF :=
  match trimV f with
  | .error e => .error e
  | .ok t => match fill t with
    | .error e => .error e
    | .ok _ => shearOf t

/-- `get_swirling_vector(vf)`, field_treatment.py:1073-1091: `raise Warning` is the first statement. -/
def swirlingVector (_ : VF) : Res VF := .error .exception

end IMT.Treat
