import Verif.Vector.Model

/-!
Model of the arithmetic of `ScalarField` and `VectorField` with numbers, quantities (`unum.Unum`) and arrays
(`/repo/IMTreatment/core/scalarfield.py`, "sf.py", and `/repo/IMTreatment/core/vectorfield.py`, "vf.py").

Infinities are not represented: where a division by zero would give one, the model says what it gives instead and the theorems exclude it.
-/

namespace IMT

/-- `u ** n`. -/
def Sym.npow (u : Sym) (n : Nat) : Sym := ⟨n * u.len, n * u.time, n * u.mass, u.size ^ n⟩

namespace SF

/-- `tmpsf.values op= …` on a copy, sf.py:137, 147, 163, 168, 210, 215, 295: the setter masks the NaN values. -/
def mapV (f : SF) (φ : Rat → Rat) : SF := f.setValues (f.values.map (Option.map φ))

/-- `__add__` with a quantity, sf.py:139-148. -/
def addQty (f : SF) (u : Unum) : Res SF :=
  if f.uv.Compat u.sym then .ok (f.mapV (· + Unum.ratio u ⟨1, f.uv⟩)) else .error .valueError

/-- `__sub__` with a number and `__rsub__`, sf.py:155-158. -/
def subNum (f : SF) (q : Rat) : SF := f.addNum (-q)
def rsubNum (q : Rat) (f : SF) : SF := f.neg.addNum q

/-- `__truediv__` with a number other than 0, sf.py:161-164 (division by 0 gives infinities). -/
def divNum (f : SF) (q : Rat) : SF := f.mapV (· / q)

/-- `__truediv__` with a quantity, sf.py:165-171: unum raises for a null quantity. -/
def divQty (f : SF) (u : Unum) : Res SF :=
  if u.num = 0 then .error .zeroDivision
  else .ok { f.mapV (· * (unitNum (f.uv.div u.sym) / u.num)) with uv := unitSym (f.uv.div u.sym) }

/-- The setter of `unit_values`, sf.py:390-396: the number of the unit may be at most (a little more than) 1. -/
def unitAllowed (w : Sym) : Bool := decide (unitNum w - 1 < 1 / 10000000000)

/-- `__mul__` with a quantity, sf.py:251-256: `obj/obj.asNumber()` raises for a null quantity; a product of units without dimension keeps its number. -/
def mulQty (f : SF) (u : Unum) : Res SF :=
  if u.num = 0 then .error .zeroDivision
  else if unitAllowed (f.uv.mul u.sym) then .ok { f.mulNum u.num with uv := f.uv.mul u.sym }
  else .error .valueError

/-- `__rtruediv__` with a quantity, sf.py:212-216, for fields without null values (they give infinities). -/
def rdivQty (u : Unum) (f : SF) : Res SF :=
  if u.num = 0 then .error .zeroDivision
  else if unitAllowed (u.sym.div f.uv) then .ok { f.mapV (u.num / ·) with uv := u.sym.div f.uv }
  else .error .valueError

/-- `__mul__` with an array, sf.py:257-265. -/
def mulArr (f : SF) (a : Grid Rat) : Res SF :=
  if a.nx = f.val.nx ∧ a.ny = f.val.ny then
    .ok (({ f with val := ⟨f.val.nx, f.val.ny, fun i j => if f.mask.get i j then f.cell i j else (f.cell i j).map (· * a.get i j)⟩ } : SF).setMask f.mask)
  else .error .valueError

/-- `__pow__` with a natural exponent, sf.py:298-307. -/
def pow (f : SF) (n : Nat) : SF := { f.powN n with uv := f.uv.npow n }

end SF

namespace VF

/-- `tmpvf.comp_x = …; tmpvf.comp_y = …; tmpvf.mask = self.mask`, vf.py:125-157, 178-196, 213-229. -/
def mapC (f : VF) (φ ψ : Rat → Rat) : VF := ({ f with cx := f.cx.map (Option.map φ), cy := f.cy.map (Option.map ψ) } : VF).setMask f.mask

/-- `__add__` with a number, vf.py:148-153. -/
def addNum (f : VF) (q : Rat) : VF := f.mapC (· + q) (· + q)

/-- `__add__` with a single vector, vf.py:133-138. -/
def addPair (f : VF) (a b : Rat) : VF := f.mapC (· + a) (· + b)

/-- `__sub__` with a single vector, vf.py:161-164: `other.__neg__()` does not exist for lists and tuples. -/
def subPair (isArray : Bool) (f : VF) (a b : Rat) : Res VF := if isArray then .ok (f.addPair (-a) (-b)) else .error .attributeError

/-- `__add__` with an array, vf.py:125-132. -/
def addArr (f : VF) (a : Grid Rat) : Res VF :=
  if a.nx = f.ax.length ∧ a.ny = f.ay.length then
    .ok (({ f with cx := ⟨f.cx.nx, f.cx.ny, fun i j => (f.cx.get i j).map (· + a.get i j)⟩,
                   cy := ⟨f.cy.nx, f.cy.ny, fun i j => (f.cy.get i j).map (· + a.get i j)⟩ } : VF).setMask f.mask)
  else .error .valueError

/-- `(other / self.unit_values).asNumber()`, vf.py:142: for units of different dimensions it is the number of the quotient (what unum simplifies in it is
not represented). -/
def factOf (f : VF) (u : Unum) : Rat := if f.uv.Compat u.sym then Unum.ratio u ⟨1, f.uv⟩ else u.num

/-- `__add__` with a quantity, vf.py:140-147: the dimensions are not compared. -/
def addQty (f : VF) (u : Unum) : VF := f.addNum (f.factOf u)

/-- `__truediv__` with a number other than 0, vf.py:190-195. -/
def divNum (f : VF) (q : Rat) : VF := f.mapC (· / q) (· / q)

/-- `__truediv__` with an array, vf.py:171-179. -/
def divArr (f : VF) (a : Grid Rat) : Res VF :=
  if a.nx = f.ax.length ∧ a.ny = f.ay.length then
    .ok (({ f with cx := ⟨f.cx.nx, f.cx.ny, fun i j => (f.cx.get i j).map (· / a.get i j)⟩,
                   cy := ⟨f.cy.nx, f.cy.ny, fun i j => (f.cy.get i j).map (· / a.get i j)⟩ } : VF).setMask
        ⟨f.mask.nx, f.mask.ny, fun i j => f.mask.get i j || decide (a.get i j = 0)⟩)
  else .error .valueError

/-- `__mul__` with an array, vf.py:205-213. -/
def mulArr (f : VF) (a : Grid Rat) : Res VF :=
  if a.nx = f.ax.length ∧ a.ny = f.ay.length then
    .ok (({ f with cx := ⟨f.cx.nx, f.cx.ny, fun i j => (f.cx.get i j).map (· * a.get i j)⟩,
                   cy := ⟨f.cy.nx, f.cy.ny, fun i j => (f.cy.get i j).map (· * a.get i j)⟩ } : VF).setMask f.mask)
  else .error .valueError

/-- The scale and the unit of a product or quotient, vf.py:182-188, 216-222: `new_unit /= scale` raises for a null one. -/
def scaleTo (f : VF) (num : Rat) (w : Sym) : Res VF :=
  if num = 0 then .error .zeroDivision
  else .ok { f.mapC (· * (SF.unitNum w * num)) (· * (SF.unitNum w * num)) with uv := SF.unitSym w }

/-- `__truediv__` with a quantity, vf.py:180-189: unum raises for a null quantity. -/
def divQty (f : VF) (u : Unum) : Res VF := if u.num = 0 then .error .zeroDivision else f.scaleTo (1 / u.num) (f.uv.div u.sym)

/-- `__mul__` with a quantity, vf.py:214-223. -/
def mulQty (f : VF) (u : Unum) : Res VF := f.scaleTo u.num (f.uv.mul u.sym)

/-- `__abs__`, vf.py:253-257. -/
def abs (f : VF) : VF := { f with cx := f.cx.map (Option.map fun v => |v|), cy := f.cy.map (Option.map fun v => |v|) }

/-- numpy's `np.power` with a natural exponent: NaN to the power 0 is 1. -/
def npPow (n : Nat) (v : Option Rat) : Option Rat := if n = 0 then some 1 else v.map (· ^ n)

/-- `__pow__` with a natural exponent, vf.py:243-251. -/
def pow (f : VF) (n : Nat) : VF := { f with cx := f.cx.map (npPow n), cy := f.cy.map (npPow n), uv := f.uv.npow n }

end VF
end IMT
