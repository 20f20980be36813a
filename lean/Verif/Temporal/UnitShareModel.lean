import Verif.Temporal.ShareModel

/-!
Model of `change_unit` of a record of scalar fields (`/repo/IMTreatment/core/temporalfields.py:1051-1083`) whose fields are objects of a memory, which
may be shared (`add_field(copy=False)`), the state after an exception included.
-/

namespace IMT.Temporal

/-- `for field in self.fields: field.change_unit(axe, new_unit)`, temporalfields.py:1072-1073.  Simplification: an address without object, which
python does not have, is passed over. -/
def unitHeld (w : SF.Which) (new : Sym) (m : List SF) : List Nat → List SF × Res PUnit
  | [] => (m, .ok ⟨⟩)
  | a :: as => match m[a]? with
    | none => unitHeld w new m as
    | some f => match f.changeUnit w new with
      | .error e => (m, .error e)
      | .ok g => unitHeld w new (m.set a g) as

/-- The setters `unit_x` and `axe_x` of the record, temporalfields.py:177-182 and 191-195: the fields are given the unit and the axis. -/
def writeX (u : Sym) (v : List Rat) (m : List SF) : List Nat → List SF
  | [] => m
  | a :: as => writeX u v (m.modify a fun f => { f with ux := u, ax := v }) as

/-- The setters `unit_y` and `axe_y` of the record, temporalfields.py:184-189 and 197-201. -/
def writeY (u : Sym) (v : List Rat) (m : List SF) : List Nat → List SF
  | [] => m
  | a :: as => writeY u v (m.modify a fun f => { f with uy := u, ay := v }) as

/-- `change_unit(axe, new_unit)` for 'x', 'y' and 'values', temporalfields.py:1071-1083: the memory, the record and the outcome. -/
def changeHeld (m : List SF) (t : Held) (w : SF.Which) (new : Sym) : List SF × Held × Res PUnit :=
  match unitHeld w new m t.held with
  | (m1, .error e) => (m1, t, .error e)
  | (m1, .ok _) => match w with
    | .values => (m1, t, .ok ⟨⟩)
    | .x => match Unum.asUnit ⟨1, t.ux⟩ ⟨1, new⟩ with
      | .error e => (m1, t, .error e)
      | .ok u => (writeX u.sym (t.ax.map (· * u.num)) m1 t.held, { t with ux := u.sym, ax := t.ax.map (· * u.num) }, .ok ⟨⟩)
    | .y => match Unum.asUnit ⟨1, t.uy⟩ ⟨1, new⟩ with
      | .error e => (m1, t, .error e)
      | .ok u => (writeY u.sym (t.ay.map (· * u.num)) m1 t.held, { t with uy := u.sym, ay := t.ay.map (· * u.num) }, .ok ⟨⟩)

end IMT.Temporal
