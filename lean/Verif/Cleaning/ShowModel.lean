import Verif.Cleaning.TreeModel

/-!
# The text of the tree of files (`Files.get_tree_representation`, `/repo/IMTreatment/utils/files.py`)

A line is its depth (the number of `tab2`) and its label; colours and marks are left out.
-/

namespace IMT.Cleaning

open IMT.Utils (Files)

/-- What a line shows after its marks. -/
inductive Label
  | folder (n : String)
  | file (n : String)
  | number (k : Nat)
  deriving DecidableEq

/-- A line. -/
structure Row where
  depth : Nat
  label : Label
  deriving DecidableEq

/-- `fold['files']` as `len` and `for` see it: the names, or the keys of a dictionary. -/
def under : Dic → Option (List String)
  | .nil => none
  | .names k l r => if k = "files" then some l else under r
  | .node k d r => if k = "files" then some d.keys else under r

/-- The number of files in place of a long list (utils/files.py:91-96). -/
def countRow (max : Nat) (d : Dic) : List Row :=
  match under d with
  | none => []
  | some l => if l.length > max then [⟨0, .number l.length⟩] else []

/-- The names of files (utils/files.py:106-109). -/
def fileRows (max : Nat) (d : Dic) : List Row :=
  match under d with
  | none => []
  | some l => if l.length ≤ max then l.map fun f => ⟨0, .file f⟩ else []

/-- `tab2 + thing` (utils/files.py:104). -/
def deeper (r : Row) : Row := { r with depth := r.depth + 1 }

/-- The loop on the keys (utils/files.py:97-104); only the key `'files'` holds a list. -/
def folderRows (max : Nat) : Dic → List Row
  | .nil => []
  | .names _ _ r => folderRows max r
  | .node k d r =>
    if k = "files" then folderRows max r
    else ⟨0, .folder k⟩ :: (countRow max d ++ folderRows max d ++ fileRows max d).map deeper ++ folderRows max r

/-- `get_info_for_folder` (utils/files.py:87-109). -/
def rows (max : Nat) (d : Dic) : List Row := countRow max d ++ folderRows max d ++ fileRows max d

/-- The common path and the dictionary after it (utils/files.py:115-126): down as long as there is one key, which is not `'files'`. -/
def top : Dic → Path × Dic
  | .node k d .nil => if k = "files" then ([], .node k d .nil) else (k :: (top d).1, (top d).2)
  | d => ([], d)

/-- `get_tree_representation(max_file_list, hide_top)` (utils/files.py:60-137): the heading, if any, and the lines. -/
def representation (s : Files Path) (max : Nat) (hideTop : Bool) : Res (Option Path × List Row) :=
  match buildTree s with
  | .error e => .error e
  | .ok d => if hideTop then .ok (some (top d).1, rows max (top d).2) else .ok (none, rows max d)

end IMT.Cleaning
