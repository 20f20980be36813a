import Verif.Temporal.Model
import Verif.File.Model
import Mathlib.Order.Defs.LinearOrder
import Mathlib.Data.List.Sort

/-!
Model of the functions that make a record of several files (`/repo/IMTreatment/file_operation/file_operation.py`, "fo.py":
`import_from_pictures`, `import_from_IM7s`, `import_from_VC7s`, `imts_to_imt`, `IM7_to_imt`, `VC7_to_imt`).

The contents of single files are modelled in `Verif/File/Model.lean`; here a file is any value `α`, and `load` gives its field.
-/

namespace IMT.Series

open Temporal (TF addField)

/-- `sorted(paths)`, fo.py:1345, and `paths[np.argsort(filenames)]`, fo.py:893-895, 1093-1095: the files in the order of their names. -/
def inOrder {N α : Type} [LinearOrder N] (l : List (N × α)) : List α := (l.insertionSort fun a b => a.1 ≤ b.1).map Prod.snd

/-- `np.arange(start, end, incr)` and the ranks of `paths[start:end:incr]` for `0 ≤ start` and `0 < incr`. -/
def ranks (start stop incr : Nat) : List Nat := (List.range ((stop - start + incr - 1) / incr)).map fun k => start + k * incr

/-- One file loaded and added, in the order of the ranks. -/
def loadAt {α : Type} (srt : List Rat → List Nat) (load : α → Res SF) (files : List α) (times : List Rat) (u : Sym) : TF → List Nat → Res TF
  | t, [] => .ok t
  | t, i :: is => match files[i]?, times[i]? with
    | some p, some x => match load p with
      | .error e => .error e
      | .ok f => match addField srt t f x u with
        | (_, .error e) => .error e
        | (t', .ok _) => loadAt srt load files times u t' is
    | _, _ => .error .indexError

/-! ### pictures -/

/-- The argument `fieldnumbers`: two integers, in a list or in an object that cannot be changed (a tuple). -/
structure Window where
  lo : Int
  hi : Int
  frozen : Bool
deriving DecidableEq

/-- The interval of pictures, fo.py:1353-1362: the argument after the call, and the interval. -/
def window (n : Nat) : Option Window → Option Window × Res (Nat × Nat)
  | none => (none, .ok (0, n))
  | some w =>
    if w.lo < 0 then (some w, .error .valueError)
    else if w.hi > n then
      if w.frozen then (some w, .error .typeError) else (some { w with hi := n }, .ok (w.lo.toNat, n))
    else (some w, .ok (w.lo.toNat, w.hi.toNat))

/-- The times of the pictures, fo.py:1348-1351. -/
def pictureTimes (n : Nat) : Option (List Rat) → Res (List Rat)
  | none => .ok ((List.range n).map fun k : Nat => (k : Rat))
  | some ts => if ts.length ≠ n then .error .valueError else .ok ts

/-- `import_from_pictures(filepath, times=, unit_times=, fieldnumbers=, incr=)`, fo.py:1311-1379, on the files that match; `np.arange` refuses a
null increment.  The result comes with the argument `fieldnumbers` as the call leaves it. -/
def importPictures {N α : Type} [LinearOrder N] (srt : List Rat → List Nat) (load : α → Res SF) (found : List (N × α)) (times : Option (List Rat))
    (u : Sym) (w : Option Window) (incr : Nat) : Option Window × Res TF :=
  match pictureTimes found.length times with
  | .error e => (w, .error e)
  | .ok ts => match window found.length w with
    | (w', .error e) => (w', .error e)
    | (w', .ok (s, e)) =>
      if incr = 0 then (w', .error .zeroDivision) else (w', loadAt srt load (inOrder found) ts u TF.empty (ranks s e incr))

/-! ### DaVis files -/

/-- The time step a file gives, fo.py:920-925, 1140-1147 (`FrameDt0`), or the default one. -/
def stepOf (dt : Option (Rat × Sym)) : Rat × Sym := dt.getD (1, Sym.one)

/-- The times given to the files that are read, in their order, fo.py:917-926, 1127-1160; `t` is the time reached.  Additions are exact. -/
def davisTimes (incr : Nat) : Rat → List (Option (Rat × Sym)) → List (Rat × Sym)
  | _, [] => []
  | t, d :: ds => (t + (stepOf d).1 * incr, (stepOf d).2) :: davisTimes incr (t + (stepOf d).1 * incr) ds

/-- The fields added one after the other at given times. -/
def addTimed (srt : List Rat → List Nat) : TF → List (SF × Rat × Sym) → Res TF
  | t, [] => .ok t
  | t, (f, x, u) :: l => match addField srt t f x u with
    | (_, .error e) => .error e
    | (t', .ok _) => addTimed srt t' l

/-- Some elements of a list. -/
def pick {α : Type} (l : List α) (is : List Nat) : List α := is.filterMap fun i => l[i]?

/-- `import_from_IM7s(folder, kind='TSF', fieldnumbers=(start, end), incr)`, fo.py:850-931, on the files of the folder with their field and time step;
`start` and `end` are not negative. -/
def importIM7s {N : Type} [LinearOrder N] (srt : List Rat → List Nat) (found : List (N × SF × Option (Rat × Sym))) (w : Option (Nat × Nat))
    (incr : Int) : Res TF :=
  if incr ≤ 0 then .error .valueError
  else addTimed srt TF.empty ((pick (inOrder found) (ranks (w.getD (0, found.length)).1 (min (w.getD (0, found.length)).2 found.length) incr.toNat)).map
    Prod.fst |>.zip (davisTimes incr.toNat 0 ((pick (inOrder found) (ranks (w.getD (0, found.length)).1
      (min (w.getD (0, found.length)).2 found.length) incr.toNat)).map Prod.snd)))

/-- `import_from_VC7s(folder, kind='SVF', ...)`, fo.py:1050-1165, without additional fields: `add_field` of a spatial record takes the field only
(core/spatialfields.py:151), and raises TypeError at the first file. -/
def importVC7sSpatial {N α S : Type} [LinearOrder N] (empty : S) (found : List (N × α)) (w : Option (Nat × Nat)) (incr : Int) : Res S :=
  if incr ≤ 0 then .error .valueError
  else match pick (inOrder found) (ranks (w.getD (0, found.length)).1 (min (w.getD (0, found.length)).2 found.length) incr.toNat) with
    | [] => .ok empty
    | _ :: _ => .error .typeError

/-! ### records of saved fields -/

/-- What a saved file holds. -/
inductive Obj where
  | sf (f : SF)
  | vf (f : VF)
  | tsf (t : TF)
  | other

/-- The scalar fields of the `.imt` and `.cimt` files, in the order of `glob`, fo.py:402-412. -/
def scalars (found : List (File.Path × Obj)) : List SF :=
  found.filterMap fun p => if File.ext p.1 = File.imt ∨ File.ext p.1 = File.cimt then (match p.2 with | .sf f => some f | _ => none) else none

/-- `imts_to_imt(imts_path, imt_path, 'TSF')`, fo.py:366-416: the files of the folder in the order of `glob`, the store of saved objects. -/
def imtsToImt (srt : List Rat → List Nat) (found : List (File.Path × Obj)) (s : File.Store Obj) (p : File.Path) : File.Store Obj × Res PUnit :=
  match Temporal.addAll srt TF.empty (scalars found) with
  | .error e => (s, .error e)
  | .ok t => (File.exportFile s (.tsf t) p true, .ok ⟨⟩)

/-! ### conversions -/

/-- What a path designates: nothing, a file (its name and its field when it can be read) or a folder of such files. -/
inductive Node (α : Type) where
  | missing
  | file (p : File.Path) (a : α)
  | dir (l : List (File.Path × α))

def im7 : File.Path := ['.', 'i', 'm', '7']
def IM7 : File.Path := ['.', 'I', 'M', '7']
def vc7 : File.Path := ['.', 'v', 'c', '7']
def VC7 : File.Path := ['.', 'V', 'C', '7']

/-- `import_from_IM7(path)`, fo.py:764-775: other extensions are refused. -/
def readIM7 {α : Type} (load : α → Res Obj) (p : File.Path) (a : α) : Res Obj :=
  if File.ext p = im7 ∨ File.ext p = IM7 then load a else .error .valueError

/-- `path.splitext(path.basename(p))[0]`. -/
def stem (p : File.Path) : File.Path := (File.base p).take ((File.base p).length - (File.ext p).length)

/-- The conversion of a folder file by file, fo.py:1193-1201, 1233-1241. -/
def convertAll {α : Type} (exts : List File.Path) (load : α → Res Obj) (dst : File.Path) (compressed : Bool) :
    File.Store Obj → List (File.Path × α) → File.Store Obj × Res PUnit
  | s, [] => (s, .ok ⟨⟩)
  | s, (p, a) :: l =>
    if File.ext p ∈ exts then match load a with
      | .error e => (s, .error e)
      | .ok o => convertAll exts load dst compressed (File.exportFile s o (dst ++ '/' :: stem p) compressed) l
    else convertAll exts load dst compressed s l

/-- `IM7_to_imt(im7_path, imt_path, kind='SF', compressed)`, fo.py:1166-1206; the folder of `imt_path` exists. -/
def im7ToImt {α : Type} (load : α → Res Obj) (src : Node α) (dst : File.Path) (compressed : Bool) (s : File.Store Obj) : File.Store Obj × Res PUnit :=
  match src with
  | .missing => (s, .error .osError)
  | .dir l => convertAll [im7, IM7] load dst compressed s l
  | .file p a => match readIM7 load p a with
    | .error e => (s, .error e)
    | .ok o => (File.exportFile s o dst true, .ok ⟨⟩)

/-- `VC7_to_imt(vc7_path, imt_path, kind='VF', compressed)`, fo.py:1208-1246; `there` tells whether `imt_path` exists. -/
def vc7ToImt {α : Type} (load : α → Res Obj) (src : Node α) (dst : File.Path) (there : Bool) (compressed : Bool) (s : File.Store Obj) :
    File.Store Obj × Res PUnit :=
  match src with
  | .missing => (s, .error .osError)
  | .dir l => if there then convertAll [vc7, VC7] load dst compressed s l else (s, .error .osError)
  | .file p a => if there then match readIM7 load p a with
      | .error e => (s, .error e)
      | .ok o => (File.exportFile s o dst true, .ok ⟨⟩)
    else (s, .error .osError)

end IMT.Series
