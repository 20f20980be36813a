import Verif.Temporal.Model

/-!
Model of the rotation in place of a collection of scalar fields (`/repo/IMTreatment/core/fields.py`) whose fields are objects of a memory, which
may be shared (`add_field(copy=False)`, fields.py:123-138).
-/

namespace IMT.Temporal

/-- A collection: its grid, its times and the addresses of its fields. -/
structure Held where
  ax : List Rat
  ay : List Rat
  ux : Sym
  uy : Sym
  times : List Rat
  ut : Sym
  held : List Nat

/-- The parent `Field` seen as a field without values. -/
def Held.frame (t : Held) : SF :=
  ⟨t.ax, t.ay, Grid.const t.ax.length t.ay.length none, Grid.const t.ax.length t.ay.length true, t.ux, t.uy, Sym.one⟩

/-- `for i in np.arange(len(tmp_field.fields)): tmp_field.fields[i].rotate(angle=angle, inplace=True)`, fields.py:117-118.
Simplification: an address without object, which python does not have, is passed over. -/
def rotateHeld (angle : Int) (m : List SF) : List Nat → List SF × Res PUnit
  | [] => (m, .ok ⟨⟩)
  | a :: as => match m[a]? with
    | none => rotateHeld angle m as
    | some f => match f.rotate angle with
      | .error e => (m, .error e)
      | .ok g => rotateHeld angle (m.set a g) as

/-- `Fields.rotate(angle, inplace=True)`, fields.py:82-121: the memory, and the collection afterwards.  The parent is rotated first
(core/field.py:367-425 writes its own axes only). -/
def rotateInPlace (m : List SF) (t : Held) (angle : Int) : List SF × Res Held :=
  if angle % 90 ≠ 0 then (m, .error .valueError)
  else match t.frame.rotate (angle % 360) with
    | .error e => (m, .error e)
    | .ok g => match rotateHeld (angle % 360) m t.held with
      | (m', .error e) => (m', .error e)
      | (m', .ok _) => (m', .ok { t with ax := g.ax, ay := g.ay, ux := g.ux, uy := g.uy })

end IMT.Temporal
