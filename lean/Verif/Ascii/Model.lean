import Verif.Vector.Model

/-!
Model of the text tables of `/repo/IMTreatment/file_operation/file_operation.py`: `export_to_ascii`,
`import_sf_from_ascii` and `import_vf_from_ascii`.

A file is the list of its rows.  Writing a float with `str.format` and reading it with `np.genfromtxt` is exact (the shortest
decimal that rounds to the float is written) and NaN is written `nan`; this layer and the header, which is a comment, are not
modelled.  A file with a single row, which `genfromtxt` reads as a one-dimensional array, never has two points per axis.
-/

namespace IMT.Ascii

/-- A row of the table of a scalar field: `x`, `y`, value. -/
abbrev Row := Rat × Rat × Option Rat

/-- A row of the table of a vector field: `x`, `y`, the two components. -/
abbrev VRow := Rat × Rat × Option Rat × Option Rat

/-- `export_to_ascii(obj, filepath)` of a ScalarField, file_operation.py:1923-1937. -/
def exportSF (f : SF) : List Row :=
  f.ax.zipIdx.flatMap fun p => f.ay.zipIdx.map fun q => (p.1, q.1, f.values.get p.2 q.2)

/-- `export_to_ascii(obj, filepath)` of a VectorField, file_operation.py:1907-1922; the getters `comp_x`, `comp_y` return the
raw arrays (core/vectorfield.py:294-295). -/
def exportVF (f : VF) : List VRow :=
  f.ax.zipIdx.flatMap fun p => f.ay.zipIdx.map fun q => (p.1, q.1, f.cx.get p.2 q.2, f.cy.get p.2 q.2)

/-- Insertion in a sorted list without repetition. -/
def ins (x : Rat) : List Rat → List Rat
  | [] => [x]
  | a :: l => if x < a then x :: a :: l else if x = a then a :: l else a :: ins x l

/-- `np.unique`, file_operation.py:1693, 1695, 1781, 1783: the distinct values, sorted. -/
def uniq (l : List Rat) : List Rat := l.foldr ins []

/-- `l.reshape(n, m)`: ValueError when the sizes do not match. -/
def reshape {α : Type} [Inhabited α] (l : List α) (n m : Nat) : Res (Grid α) :=
  if l.length = n * m then .ok ⟨n, m, fun i j => l.getD (i * m + j) default⟩ else .error .valueError

/-- `np.mean(X, axis=1)`. -/
def rowMeans (g : Grid Rat) : List Rat :=
  (List.range g.nx).map fun i => (((List.range g.ny).map fun j => g.get i j).sum) / g.ny

/-- `np.mean(X, axis=0)`. -/
def colMeans (g : Grid Rat) : List Rat :=
  (List.range g.ny).map fun j => (((List.range g.nx).map fun i => g.get i j).sum) / g.nx

/-- `np.allclose(a, b)` for lists of one length, with its default tolerances. -/
def allclose (a b : List Rat) : Bool :=
  (a.zip b).all fun p => decide (|p.1 - p.2| ≤ 1 / 100000000 + 1 / 100000 * |p.2|)

/-- `np.where(x == l)[0][0]` for an element of `l`, and the loops of file_operation.py:1801-1807. -/
def pos (l : List Rat) (x : Rat) : Nat := l.findIdx fun a => decide (a = x)

/-- `a[i, j] = v`. -/
def put {α : Type} (a : Nat → Nat → α) (i j : Nat) (v : α) : Nat → Nat → α :=
  fun i' j' => if i' = i ∧ j' = j then v else a i' j'

/-- The loop on the rows, file_operation.py:1710-1727: cells are `none` while masked. -/
def scatter (xs ys : List Rat) (rows : List Row) : Nat → Nat → Option (Option Rat) :=
  rows.foldl (fun a r => put a (pos ys r.2.1) (pos xs r.1) (some r.2.2)) (fun _ _ => none)

/-- Fields from a table on a grid that is neither by columns nor by rows, file_operation.py:1708-1734: the array has the shape
`(len(y_org), len(x_org))`; cells no row designates keep the value 0 and are masked. -/
def unstructured (xs ys : List Rat) (rows : List Row) (ux uy uv : Sym) : Res SF :=
  SF.importArrays xs ys ⟨ys.length, xs.length, fun i j => (scatter xs ys rows i j).getD (some 0)⟩
    (.array ⟨ys.length, xs.length, fun i j => match scatter xs ys rows i j with
      | some (some _) => false
      | _ => true⟩) ux uy uv

/-- The branches of `import_sf_from_ascii` once the axes are known, file_operation.py:1698-1734. -/
def importOn (xs ys : List Rat) (rows : List Row) (ux uy uv : Sym) : Res SF :=
  match reshape (rows.map (·.1)) xs.length ys.length, reshape (rows.map (·.1)) ys.length xs.length,
        reshape (rows.map (·.2.2)) xs.length ys.length, reshape (rows.map (·.2.2)) ys.length xs.length with
  | .ok x1, .ok x2, .ok v1, .ok v2 =>
    if allclose (rowMeans x1) xs then SF.importArrays xs ys v1 (.array (v1.map (·.isNone))) ux uy uv
    else if allclose (colMeans x2) xs then
      SF.importArrays xs ys v2.transpose.flipY (.array (v2.transpose.flipY.map (·.isNone))) ux uy uv
    else unstructured xs ys rows ux uy uv
  | _, _, _, _ => .error .valueError

/-- `import_sf_from_ascii(filepath, unit_x=…, unit_y=…, unit_values=…)` with the default columns,
file_operation.py:1653-1734. -/
def importSF (rows : List Row) (ux uy uv : Sym) : Res SF :=
  importOn (uniq (rows.map (·.1))) (uniq (rows.map (·.2.1))) rows ux uy uv

/-- The loop on the rows for one component, file_operation.py:1796-1810. -/
def scatterV (xs ys : List Rat) (c : VRow → Option Rat) (rows : List VRow) : Nat → Nat → Option (Option Rat) :=
  rows.foldl (fun a r => put a (pos xs r.1) (pos ys r.2.1) (some (c r))) (fun _ _ => none)

/-- `import_vf_from_ascii` once the axes are known, file_operation.py:1785-1818: the mask is the one of the first component;
`import_from_arrays` adds the NaNs of both. -/
def importOnV (xs ys : List Rat) (rows : List VRow) (ux uy uv : Sym) : Res VF :=
  VF.importArrays xs ys
    ⟨xs.length, ys.length, fun i j => (scatterV xs ys (·.2.2.1) rows i j).getD (some 0)⟩
    ⟨xs.length, ys.length, fun i j => (scatterV xs ys (·.2.2.2) rows i j).getD (some 0)⟩
    (.array ⟨xs.length, ys.length, fun i j => match scatterV xs ys (·.2.2.1) rows i j with
      | some (some _) => false
      | _ => true⟩) ux uy uv

/-- `import_vf_from_ascii(filepath, unit_x=…, unit_y=…, unit_values=…)` with the default columns,
file_operation.py:1736-1818. -/
def importVF (rows : List VRow) (ux uy uv : Sym) : Res VF :=
  importOnV (uniq (rows.map (·.1))) (uniq (rows.map (·.2.1))) rows ux uy uv

end IMT.Ascii
