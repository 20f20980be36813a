import Verif.Cleaning.Model

/-!
# The tree of a list of files (`Files.build_tree`, `/repo/IMTreatment/utils/files.py`)
-/

namespace IMT.Cleaning

open IMT.Utils (Files)

/-- A dictionary of `build_tree`, in the order of its keys: a key holds a list
of names (only the key `'files'` does) or a dictionary. -/
inductive Dic
  | nil
  | names (key : String) (l : List String) (rest : Dic)
  | node (key : String) (d : Dic) (rest : Dic)
  deriving DecidableEq

namespace Dic

/-- `d[fold] = new_dic` for a key that is not there (utils/files.py:251-253). -/
def addNode (key : String) : Dic → Dic → Dic
  | nil, new => node key new nil
  | names k l r, new => names k l (addNode key r new)
  | node k d r, new => node k d (addNode key r new)

/-- The keys. -/
def keys : Dic → List String
  | nil => []
  | names k _ r => k :: r.keys
  | node k _ r => k :: r.keys

/-- A file (utils/files.py:254-258): its name is added to the list under
`'files'`; a dictionary under that key has no `append`. -/
def addFile (f : String) : Dic → Res Dic
  | nil => .ok (names "files" [f] nil)
  | names k l r => if k = "files" then .ok (names k (l ++ [f]) r)
      else (addFile f r).map (names k l)
  | node k d r => if k = "files" then .error .attributeError else (addFile f r).map (node k d)

end Dic

/-- The dictionary of a new chain of folders, ended by a file or not. -/
def chain (isdir : Bool) : Path → Dic
  | [] => .nil
  | c :: cs =>
    if isdir = false ∧ cs = [] then .names "files" [c] .nil else .node c (chain isdir cs) .nil

/-- Where the value under a key is a dictionary it goes on with `f`; a list is
left by a folder that ends there and has no keys otherwise. -/
def intoKey (c : String) (f : Dic → Res Dic) (last : Bool) : Dic → Res Dic
  | .nil => .ok .nil
  | .names k l r =>
    if k = c then (if last then .ok (.names k l r) else .error .attributeError)
    else (intoKey c f last r).map (.names k l)
  | .node k d r =>
    if k = c then (f d).map (fun d1 => .node k d1 r) else (intoKey c f last r).map (.node k d)

/-- One path of `build_tree` (utils/files.py:240-258). -/
def insert (isdir : Bool) : Path → Dic → Res Dic
  | [], d => .ok d
  | c :: cs, d =>
    if isdir = false ∧ cs = [] then d.addFile c
    else if c ∈ d.keys then intoKey c (insert isdir cs) (decide (cs = [])) d
    else .ok (d.addNode c (chain isdir cs))

/-- The loop of `build_tree` (utils/files.py:240). -/
def insertAll : Dic → List (Option Bool × Path) → Res Dic
  | d, [] => .ok d
  | d, (k, p) :: ps =>
    match insert (decide (k = some true)) p d with
    | .error e => .error e
    | .ok d1 => insertAll d1 ps

/-- `Files.build_tree` (utils/files.py:235-260). -/
def buildTree (s : Files Path) : Res Dic := insertAll .nil (s.isdir.zip s.paths)

end IMT.Cleaning
