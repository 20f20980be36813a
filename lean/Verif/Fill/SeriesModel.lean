import Verif.Fill.Model

/-!
Model of the smoothing of collections of fields (`/repo/IMTreatment/core/fields.py`), with the failures of the smoothing of one field
(`/repo/IMTreatment/core/scalarfield.py`, "sf.py"; `/repo/IMTreatment/core/vectorfield.py`, "vf.py").  The fields are objects of a memory, which a collection may share (`add_field(copy=False)`,
fields.py:123-138).
-/

namespace IMT.Fill

/-- The arguments `tos` and `size`; `other` is any other string. -/
inductive Tos where
  | uniform (size : Option Nat)
  | gaussian (size : Option Rat)
  | other

/-- `ndimage.gaussian_filter(values, size)`. -/
abbrev Gauss := Rat → Grid (Option Rat) → Grid (Option Rat)

/-- `ScalarField.smooth(tos, size, inplace=True)`, sf.py:1882-1930: the field afterwards, and the outcome.  The field is filled before `tos` is looked
at. -/
noncomputable def smoothField (s : Scipy) (g : Gauss) (tos : Tos) (f : SF) : SF × Res PUnit :=
  match fill s .linear true f with
  | .error e => (f, .error e)
  | .ok h => match tos with
    | .uniform size =>
      ({ h with val := ⟨h.val.nx, h.val.ny, fun i j => some (uniform h.val.nx h.val.ny (size.getD 3) (fun i j => (h.cell i j).getD 0) i j)⟩ }, .ok ⟨⟩)
    | .gaussian size => ({ h with val := g (size.getD 1) h.values }, .ok ⟨⟩)
    | .other => (h, .error .valueError)

/-- `VectorField.smooth(tos, size, inplace=True)`, vf.py:837-882: the field afterwards, and the outcome.  The field is filled before `tos` is looked
at. -/
noncomputable def smoothVector (s : Scipy) (g : Gauss) (tos : Tos) (f : VF) : VF × Res PUnit :=
  match vfill s .linear .linear true f with
  | .error e => (f, .error e)
  | .ok h => match tos with
    | .uniform size =>
      ({ h with
        cx := ⟨h.cx.nx, h.cx.ny, fun i j => some (uniform h.cx.nx h.cx.ny (size.getD 3) (fun i j => (h.cx.get i j).getD 0) i j)⟩
        cy := ⟨h.cy.nx, h.cy.ny, fun i j => some (uniform h.cy.nx h.cy.ny (size.getD 3) (fun i j => (h.cy.get i j).getD 0) i j)⟩ }, .ok ⟨⟩)
    | .gaussian size => ({ h with cx := g (size.getD 1) h.cx, cy := g (size.getD 1) h.cy }, .ok ⟨⟩)
    | .other => (h, .error .valueError)

/-- A collection: the times, their unit, and the addresses of the fields. -/
structure Coll where
  times : List Rat
  ut : Sym
  at_ : List Nat

/-- `copy.deepcopy`, fields.py:52-56: new objects, shared in the same way. -/
def copyAll {α : Type} (m : List α) (c : Coll) : List α × Coll := (m ++ m, { c with at_ := c.at_.map (· + m.length) })

/-- `for i, _ in enumerate(tmp_f.fields): tmp_f.fields[i].smooth(..., inplace=True)`, fields.py:201-202; `step` is the smoothing of one field and `m`
the objects in memory. -/
def smoothLoop {α : Type} (step : α → α × Res PUnit) (m : List α) : List Nat → List α × Res PUnit
  | [] => (m, .ok ⟨⟩)
  | a :: as => match m[a]? with
    | none => smoothLoop step m as
    | some f => match step f with
      | (q, .error e) => (m.set a q, .error e)
      | (q, .ok _) => smoothLoop step (m.set a q) as

/-- `Fields.smooth(tos, size, inplace)`, fields.py:174-205: the memory, and the collection that is returned (the collection itself in place). -/
def smoothColl {α : Type} (step : α → α × Res PUnit) (m : List α) (c : Coll) (inplace : Bool) : List α × Res Coll :=
  match if inplace then (m, c) else copyAll m c with
  | (m0, c0) => match smoothLoop step m0 c0.at_ with
    | (m1, .error e) => (m1, .error e)
    | (m1, .ok _) => (m1, .ok c0)

end IMT.Fill
