import Verif.Scalar.Model

/-! Model of the arithmetic of `ScalarField` (core/scalarfield.py:73-307). -/

namespace IMT

/-- A float as it can be shown by a field: NaN, an infinity, or a number. -/
inductive Num where
  | nan
  | inf
  | fin (q : Rat)
  deriving DecidableEq, Repr

/-- numpy's `a / b` (`none` is NaN): division by zero gives an infinity, or NaN for `0 / 0`.  The sign of
infinities is not represented. -/
def npDiv (a b : Option Rat) : Num :=
  match a, b with
  | some a, some b => if b = 0 then (if a = 0 then .nan else .inf) else .fin (a / b)
  | _, _ => .nan

/-- numpy's elementwise operations with NaN propagation. -/
def nanOp (op : Rat → Rat → Rat) (a b : Option Rat) : Option Rat :=
  match a, b with
  | some a, some b => some (op a b)
  | _, _ => none

namespace SF

/-- `ScalarField.__neg__`, core/scalarfield.py:73-78. -/
def neg (f : SF) : SF := f.setValues (f.values.map (Option.map (fun v => -v)))

/-- `[val in other for val in axe]` turned into the list of the selected indices, core/scalarfield.py:102-109. -/
def sharedIdx (l m : List Rat) : List Nat :=
  (List.range l.length).filter fun i => match l[i]? with
    | some x => decide (x ∈ m)
    | none => false

/-- Unit compatibility tests of the addition, core/scalarfield.py:84-89. -/
def unitsMatch (f g : SF) : Bool :=
  decide (f.uv.Compat g.uv) && decide (f.ux.Compat g.ux) && decide (f.uy.Compat g.uy)

/-- `fact.asNumber()` of the addition, core/scalarfield.py:94, 119. -/
def addFact (f g : SF) : Rat := Unum.ratio ⟨1, g.uv⟩ ⟨1, f.uv⟩

/-- The branch "identical shape and axis" of the addition, core/scalarfield.py:93-97. -/
def addSame (f g : SF) : SF :=
  (f.setValues ⟨f.val.nx, f.val.ny, fun i j =>
    nanOp (· + ·) (f.cell i j) ((g.cell i j).map (· * f.addFact g))⟩).setMask
    ⟨f.mask.nx, f.mask.ny, fun i j => f.mask.get i j || g.mask.get i j⟩

/-- The shared coordinates, `self.axe_x[new_ind_x]`, core/scalarfield.py:117-118. -/
def sharedAx (l m : List Rat) : List Rat := l.filter (fun x => decide (x ∈ m))

/-- `new_values` of the addition on shared points, core/scalarfield.py:120-124. -/
def sharedVals (f g : SF) : Grid (Option Rat) :=
  ⟨(sharedAx f.ax g.ax).length, (sharedAx f.ay g.ay).length, fun i j =>
    nanOp (· + ·) (f.cell ((sharedIdx f.ax g.ax).getD i 0) ((sharedIdx f.ay g.ay).getD j 0))
      ((g.cell ((sharedIdx g.ax f.ax).getD i 0) ((sharedIdx g.ay f.ay).getD j 0)).map (· * f.addFact g))⟩

/-- `new_mask` of the addition on shared points, core/scalarfield.py:125-127. -/
def sharedMask (f g : SF) : Grid Bool :=
  ⟨(sharedAx f.ax g.ax).length, (sharedAx f.ay g.ay).length, fun i j =>
    f.mask.get ((sharedIdx f.ax g.ax).getD i 0) ((sharedIdx f.ay g.ay).getD j 0) ||
      g.mask.get ((sharedIdx g.ax f.ax).getD i 0) ((sharedIdx g.ay f.ay).getD j 0)⟩

/-- The branch "different shape, partially same axis" of the addition, core/scalarfield.py:99-132. -/
def addShared (f g : SF) : Res SF :=
  if sharedIdx f.ax g.ax = [] ∨ sharedIdx f.ay g.ay = [] then .error .valueError
  else importArrays (sharedAx f.ax g.ax) (sharedAx f.ay g.ay) (f.sharedVals g) (.array (f.sharedMask g)) f.ux f.uy f.uv

/-- `ScalarField.__add__` with a ScalarField, core/scalarfield.py:80-133.  The two axis comparisons (91-92) are
modelled as equality of the lists (for arrays of different lengths numpy's `==` yields `False`; numpy's
broadcasting of a one-point axis is not modelled).  Axis units are only checked for compatibility, as in the
code. -/
def add (f g : SF) : Res SF :=
  if f.unitsMatch g = false then .error .valueError
  else if f.ax = g.ax ∧ f.ay = g.ay then .ok (f.addSame g)
  else f.addShared g

/-- `ScalarField.__sub__`, core/scalarfield.py:155-156. -/
def sub (f g : SF) : Res SF := f.add g.neg

/-- `ScalarField.__add__` with a number, core/scalarfield.py:135-138. -/
def addNum (f : SF) (q : Rat) : SF := f.setValues (f.values.map (Option.map (· + q)))

/-- `ScalarField.__mul__` with a number, core/scalarfield.py:246-250. -/
def mulNum (f : SF) (q : Rat) : SF := (f.setValues (f.values.map (Option.map (· * q)))).setMask f.mask

/-- The consistency test of products and quotients, core/scalarfield.py:183-187, 276-280. -/
def sameGrid (f g : SF) : Bool :=
  decide (f.ax = g.ax) && decide (f.ay = g.ay) && decide (f.ux = g.ux) && decide (f.uy = g.uy)

/-- `unit.asNumber()` of a product or quotient of units: unum turns a dimensionless unit into a number. -/
def unitNum (u : Sym) : Rat := if u.Compat Sym.one then u.size else 1
/-- `unit / unit.asNumber()`. -/
def unitSym (u : Sym) : Sym := if u.Compat Sym.one then Sym.one else u

/-- `ScalarField.__mul__` with a ScalarField, core/scalarfield.py:275-288. -/
def mul (f g : SF) : Res SF :=
  if f.sameGrid g = false then .error .valueError
  else .ok { (f.setValues ⟨f.val.nx, f.val.ny, fun i j =>
      (nanOp (· * ·) (f.cell i j) (g.cell i j)).map (· * unitNum (f.uv.mul g.uv))⟩).setMask
        ⟨f.mask.nx, f.mask.ny, fun i j => f.mask.get i j || g.mask.get i j⟩ with
      uv := unitSym (f.uv.mul g.uv) }

/-- `values` of the division, core/scalarfield.py:189-191: `filt` is `obj.values != 0`, true for NaN;
elsewhere the value stays 0. -/
def divVal (a b : Option Rat) : Option Rat := if b ≠ some 0 then nanOp (· / ·) a b else some 0

/-- `ScalarField.__truediv__` with a ScalarField, core/scalarfield.py:182-198. -/
def div (f g : SF) : Res SF :=
  if f.sameGrid g = false then .error .valueError
  else .ok { (f.setValues ⟨f.val.nx, f.val.ny, fun i j =>
      (divVal (f.cell i j) (g.cell i j)).map (· * unitNum (f.uv.div g.uv))⟩).setMask
        ⟨f.mask.nx, f.mask.ny, fun i j =>
          (f.mask.get i j || g.mask.get i j) || decide (g.cell i j = some 0)⟩ with
      uv := unitSym (f.uv.div g.uv) }

/-- `ScalarField.__truediv__` with an array, core/scalarfield.py:172-181: the cells of `self` and the zeros of
the array are masked; the setter of the mask touches no value.  The array may hold NaN (`none`). -/
def divArr (f : SF) (a : Grid (Option Rat)) : Res SF :=
  if a.nx = f.val.nx ∧ a.ny = f.val.ny then
    .ok ({ f with val := ⟨f.val.nx, f.val.ny, fun i j =>
        if f.mask.get i j || decide (a.get i j = some 0) then f.cell i j
        else nanOp (· / ·) (f.cell i j) (a.get i j)⟩ }.setMask
      ⟨f.mask.nx, f.mask.ny, fun i j => f.mask.get i j || decide (a.get i j = some 0)⟩)
  else .error .valueError

/-- `number / field`, core/scalarfield.py:207-211: what the resulting field shows at a cell, and its mask
(the NaN positions). -/
def rdivNum (q : Rat) (f : SF) : Grid Num × Grid Bool :=
  let v := f.values.map fun x => npDiv (some q) x
  (v, v.map fun x => decide (x = .nan))

/-- `array / field`, core/scalarfield.py:218-227: cells where the *array* is zero are masked. -/
def rdivArr (a : Grid Rat) (f : SF) : Grid Num × Grid Bool :=
  let m := f.mask.map2 (fun b x => b || decide (x = 0)) a
  (⟨f.val.nx, f.val.ny, fun i j => if m.get i j then .nan else npDiv (some (a.get i j)) (f.cell i j)⟩, m)

/-- `ScalarField.__abs__`, core/scalarfield.py:293-296. -/
def absF (f : SF) : SF := f.setValues (f.values.map (Option.map (fun v => |v|)))

/-- `ScalarField.__pow__` with a natural exponent, core/scalarfield.py:298-307 (the unit is raised too; unit
not represented). -/
def powN (f : SF) (n : Nat) : SF :=
  { f with val := ⟨f.val.nx, f.val.ny, fun i j =>
      if f.mask.get i j then none else (f.cell i j).map (· ^ n)⟩ }

end SF
end IMT
