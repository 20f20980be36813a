import Verif.Prelude

/-!
Model of the unit objects (`unum.Unum`) as used by the code: a number times a symbolic unit.
-/

namespace IMT

/-- A symbolic unit of `unum` (`m`, `mm`, `s`, products of powers of them): exponents of length, time and
mass, and its size in SI base units.  Example: millimetre is `⟨1, 0, 0, 1/1000⟩`.  Only these three
dimensions are represented. -/
structure Sym where
  len : Int
  time : Int
  mass : Int
  size : Rat
  deriving DecidableEq, Repr

namespace Sym
/-- `make_unit("")`: the dimensionless unit (utils/units.py:36-75). -/
def one : Sym := ⟨0, 0, 0, 1⟩
/-- Product of units. -/
def mul (a b : Sym) : Sym := ⟨a.len + b.len, a.time + b.time, a.mass + b.mass, a.size * b.size⟩
/-- Quotient of units. -/
def div (a b : Sym) : Sym := ⟨a.len - b.len, a.time - b.time, a.mass - b.mass, a.size / b.size⟩
/-- Same dimension: unum accepts to add quantities in these units. -/
def Compat (a b : Sym) : Prop := a.len = b.len ∧ a.time = b.time ∧ a.mass = b.mass
instance (a b : Sym) : Decidable (Compat a b) := by unfold Compat; infer_instance
def mm : Sym := ⟨1, 0, 0, 1/1000⟩
def cm : Sym := ⟨1, 0, 0, 1/100⟩
def m : Sym := ⟨1, 0, 0, 1⟩
def s : Sym := ⟨0, 1, 0, 1⟩
def ms : Sym := ⟨0, 1, 0, 1/1000⟩
end Sym

/-- A `unum.Unum` object: `num` (what `asNumber()` returns) times the symbolic unit `sym`. -/
structure Unum where
  num : Rat
  sym : Sym
  deriving DecidableEq, Repr

namespace Unum
/-- The physical quantity designated by a Unum, in SI base units. -/
def phys (u : Unum) : Rat := u.num * u.sym.size
/-- `a * b`. -/
def mul (a b : Unum) : Unum := ⟨a.num * b.num, a.sym.mul b.sym⟩
/-- `a / b`. -/
def div (a b : Unum) : Unum := ⟨a.num / b.num, a.sym.div b.sym⟩
/-- `old.asUnit(new)`: the same quantity written in the unit of `new`; unum raises IncompatibleUnitsError
(modelled as ValueError) when the dimensions differ.  The numeric part of `new` is ignored, as unum
requires a unit. -/
def asUnit (old new : Unum) : Res Unum :=
  if old.sym.Compat new.sym then .ok ⟨old.num * old.sym.size / new.sym.size, new.sym⟩
  else .error .valueError
/-- `(a / b).asNumber()` for compatible units: unum normalises a dimensionless quotient, so that
`(cm/m).asNumber()` is `1/100`. -/
def ratio (a b : Unum) : Rat := a.phys / b.phys
end Unum

end IMT
