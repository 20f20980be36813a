import Verif.File.Model
import Verif.Profile.Model

/-!
Model of the matlab files of fields and profiles (`/repo/IMTreatment/file_operation/file_operation.py`, "fo.py": `matlab_parser`,
`export_to_matlab`, `import_from_matlab`).

A file is a dictionary of matrices, given as the lists of their rows; `scipy.io` gives back what was written, a list of `n` numbers being a matrix of
one row (of no row when empty).  Units are written by `strUnit` and read by `make_unit` exactly.  Not modelled: points, critical points, the pivmat
format, and names of keys other than the default ones.
-/

namespace IMT.Mat

open Profile (Prof)

abbrev F := Option Rat

/-- A matrix, row by row. -/
abbrev Rows := List (List F)

/-- The keys of the dictionaries, fo.py:163-245. -/
inductive Key where
  | axeX | axeY | bigX | bigY | values | compX | compY | mask | x | y
deriving DecidableEq

/-- A matlab file. -/
structure File where
  get : Key → Option Rows
  ux : Sym
  uy : Sym
  uv : Sym

/-- A list of numbers, as `scipy.io.savemat` writes it. -/
def asRow (l : List F) : Rows := if l = [] then [] else [l]

/-- `[list(comp) for comp in array]`. -/
def rowsOf {α : Type} (f : α → F) (g : Grid α) : Rows := (List.range g.nx).map fun i => (List.range g.ny).map fun j => f (g.get i j)

/-- Booleans are written as 0 and 1. -/
def bit (b : Bool) : F := if b then some 1 else some 0

/-- `matlab_parser(sf, name)`, fo.py:223-245. -/
def exportSF (f : SF) : File where
  get
    | .axeX => some (asRow (f.ax.map some))
    | .axeY => some (asRow (f.ay.map some))
    | .bigX => some (f.ax.map fun x => f.ay.map fun _ => some x)
    | .bigY => some (f.ax.map fun _ => f.ay.map fun y => some y)
    | .values => some (rowsOf id f.values)
    | .mask => some (rowsOf bit f.mask)
    | _ => none
  ux := f.ux
  uy := f.uy
  uv := f.uv

/-- `matlab_parser(vf, name)`, fo.py:198-222. -/
def exportVF (f : VF) : File where
  get
    | .axeX => some (asRow (f.ax.map some))
    | .axeY => some (asRow (f.ay.map some))
    | .bigX => some (f.ax.map fun x => f.ay.map fun _ => some x)
    | .bigY => some (f.ax.map fun _ => f.ay.map fun y => some y)
    | .compX => some (rowsOf id f.cx)
    | .compY => some (rowsOf id f.cy)
    | .mask => some (rowsOf bit f.mask)
    | _ => none
  ux := f.ux
  uy := f.uy
  uv := f.uv

/-- `matlab_parser(profile, name)`, fo.py:190-197. -/
def exportProf (p : Prof) : File where
  get
    | .x => some (asRow (p.x.map some))
    | .y => some (asRow (Profile.getY p))
    | .mask => some (asRow (p.m.map bit))
    | _ => none
  ux := p.ux
  uy := p.uy
  uv := Sym.one

/-- An array once its outer dimensions of length one are removed. -/
inductive Arr where
  | mat (r : Rows)
  | vec (l : List F)
deriving DecidableEq

/-- `while not isinstance(tdata, str) and len(tdata) == 1: tdata = tdata[0]`, fo.py:504-506: a number has no length. -/
def peel : Rows → Res Arr
  | [[_]] => .error .typeError
  | [row] => .ok (.vec row)
  | rows => .ok (.mat rows)

/-- The argument of the given key, if the file has it. -/
def arg (d : File) (k : Key) : Res (Option Arr) :=
  match d.get k with
  | none => .ok none
  | some r => match peel r with
    | .error e => .error e
    | .ok a => .ok (some a)

/-- One dimensional arguments; a missing one raises TypeError, a matrix is not modelled (the exported files have none, except empty ones). -/
def vecArg : Option Arr → Res (List F)
  | none => .error .typeError
  | some (.vec l) => .ok l
  | some (.mat []) => .ok []
  | some (.mat _) => .error .valueError

/-- Two dimensional arguments. -/
def gridArg {α : Type} (g : F → α) : Option Arr → Res (Grid α)
  | some (.mat r) => .ok ⟨r.length, (r.headD []).length, fun i j => g ((r.getD i []).getD j none)⟩
  | _ => .error .valueError

def numbers (l : List F) : List Rat := l.map fun a => a.getD 0

def isTrue (a : F) : Bool := decide (a ≠ some 0)

/-- The results of several steps, in order. -/
def bind {α β : Type} (a : Res α) (f : α → Res β) : Res β := match a with
  | .error e => .error e
  | .ok x => f x

/-- `import_from_matlab(filepath, 'ScalarField')`, fo.py:419-533; all the keys are read before the field is made. -/
def importSF (d : File) : Res SF :=
  bind (arg d .axeX) fun ax => bind (arg d .axeY) fun ay => bind (arg d .values) fun v => bind (arg d .mask) fun m =>
    bind (vecArg ax) fun ax => bind (vecArg ay) fun ay => bind (gridArg id v) fun v => bind (gridArg isTrue m) fun m =>
      SF.importArrays (numbers ax) (numbers ay) v (.array m) d.ux d.uy d.uv

/-- `import_from_matlab(filepath, 'VectorField')`, fo.py:419-533. -/
def importVF (d : File) : Res VF :=
  bind (arg d .axeX) fun ax => bind (arg d .axeY) fun ay => bind (arg d .compX) fun cx => bind (arg d .compY) fun cy => bind (arg d .mask) fun m =>
    bind (vecArg ax) fun ax => bind (vecArg ay) fun ay => bind (gridArg id cx) fun cx => bind (gridArg id cy) fun cy =>
      bind (gridArg isTrue m) fun m => VF.importArrays (numbers ax) (numbers ay) cx cy (.array m) d.ux d.uy d.uv

/-- `import_from_matlab(filepath, 'Profile')`, fo.py:419-536. -/
def importProf (srt : List Rat → List Nat) (d : File) : Res Prof :=
  bind (arg d .x) fun x => bind (arg d .y) fun y => bind (arg d .mask) fun m =>
    bind (vecArg x) fun x => bind (vecArg y) fun y => bind (vecArg m) fun m =>
      Profile.new srt (numbers x) y (.arr (m.map isTrue)) d.ux d.uy

end IMT.Mat
