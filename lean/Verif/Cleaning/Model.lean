import Verif.Utils.Model

/-!
# Searching and deleting files (`/repo/IMTreatment/utils/files.py`)

A path is the list of its components, read from the root of the disk.  The
disk is a forest of folders and files.  Links, rights and the normalisation of
paths are not modelled; regular expressions are predicates on paths and names.
-/

namespace IMT.Cleaning

open IMT.Utils (Files)

abbrev Path := List String

/-- The content of a folder, in the order of `os.scandir`. -/
inductive Forest
  | nil
  | file (name : String) (rest : Forest)
  | dir (name : String) (sub : Forest) (rest : Forest)
  deriving DecidableEq

namespace Forest

/-- The names in a folder. -/
def names : Forest → List String
  | nil => []
  | file n r => n :: r.names
  | dir n _ r => n :: r.names

/-- The folders in a folder. -/
def dirs : Forest → List String
  | nil => []
  | file _ r => r.dirs
  | dir n _ r => n :: r.dirs

/-- The files in a folder. -/
def files : Forest → List String
  | nil => []
  | file n r => n :: r.files
  | dir _ _ r => r.files

/-- `os.remove(path)`; `none` is the `OSError` of a path that is no file. -/
def rmFile : Forest → Path → Option Forest
  | nil, _ => none
  | file n r, p => if p = [n] then some r else (r.rmFile p).map (file n)
  | dir n s r, p =>
    if p.head? = some n ∧ p.tail ≠ [] then (s.rmFile p.tail).map (fun t => dir n t r)
    else (r.rmFile p).map (dir n s)

/-- `shutil.rmtree(path)` (`all`) and `os.rmdir(path)` (`all` false: the folder
must be empty); `none` is the `OSError`. -/
def rmDir (all : Bool) : Forest → Path → Option Forest
  | nil, _ => none
  | file n r, p => (r.rmDir all p).map (file n)
  | dir n s r, p =>
    if p = [n] then (if all = true ∨ s = nil then some r else none)
    else if p.head? = some n ∧ p.tail ≠ [] then (s.rmDir all p.tail).map (fun t => dir n t r)
    else (r.rmDir all p).map (dir n s)

/-- The content of the folder at a path. -/
def sub : Forest → Path → Option Forest
  | f, [] => some f
  | nil, _ :: _ => none
  | file _ r, n :: p => r.sub (n :: p)
  | dir m s r, n :: p => if n = m then s.sub p else r.sub (n :: p)

end Forest

/-- One step of `os.walk`: a folder, its folders and its files. -/
structure Entry where
  root : Path
  dirs : List String
  files : List String

/-- `os.walk` below a folder, top down. -/
def walkSubs (root : Path) : Forest → List Entry
  | .nil => []
  | .file _ r => walkSubs root r
  | .dir n s r => ⟨root ++ [n], s.dirs, s.files⟩ :: (walkSubs (root ++ [n]) s ++ walkSubs root r)

/-- `os.walk(root)`: nothing when `root` is no folder. -/
def walk (fs : Forest) (root : Path) : List Entry :=
  match fs.sub root with
  | none => []
  | some s => ⟨root, s.dirs, s.files⟩ :: walkSubs root s

/-- `root[len(rootpath) + len(os.path.sep):].count(os.path.sep)`
(utils/files.py:210-211). -/
def depthOf (rootpath root : Path) : Nat := root.length - rootpath.length - 1

/-- What one step of the walk gives (utils/files.py:215-229). -/
def gather (re : Path → Bool) (loadFiles loadDirs : Bool) (e : Entry) : List (Path × Bool) :=
  (if loadDirs then ((e.dirs.map (fun d => e.root ++ [d])).filter re).map (·, true) else []) ++
  (if loadFiles then ((e.files.map (fun f => e.root ++ [f])).filter re).map (·, false) else [])

/-- The loop of `load_files_from_regex` (utils/files.py:207-229); `none` is
`depth="all"`. -/
def search (rootpath : Path) (re : Path → Bool) (loadFiles loadDirs : Bool) (depth : Option Int) :
    List Entry → List (Path × Bool)
  | [] => []
  | e :: es =>
    if (match depth with | none => false | some d => decide (d < (depthOf rootpath e.root : Int)))
    then []
    else gather re loadFiles loadDirs e ++ search rootpath re loadFiles loadDirs depth es

/-- `load_files_from_regex` (utils/files.py:197-233). -/
def load (s : Files Path) (fs : Forest) (rootpath : Path) (re : Path → Bool)
    (loadFiles loadDirs : Bool) (depth : Option Int) : Files Path :=
  s.loadRegex (search rootpath re loadFiles loadDirs depth (walk fs rootpath))

/-- The answers for yes (utils/files.py:271-272). -/
def yes : List String := ["o", "O", "y", "Y", "oui", "Oui", "Yes", "yes", "YES", "OUI"]

/-- The answers for no (utils/files.py:275-276). -/
def no : List String := ["n", "N", "No", "no", "non", "Non", "NON", "NO"]

/-- The question (utils/files.py:269-278, 376-384): asked until the answer is
yes or no; `input` raises `EOFError` when there is no answer any more. -/
def ask : List String → Res Bool
  | [] => .error .eofError
  | a :: as => if a ∈ yes then .ok true else if a ∈ no then .ok false else ask as

/-- A loop of deletions; the first failure stops it. -/
def each (op : Forest → Path → Option Forest) (e : Err) : Forest → List Path → Forest × Res PUnit
  | fs, [] => (fs, .ok ⟨⟩)
  | fs, p :: ps =>
    match op fs p with
    | none => (fs, .error e)
    | some fs1 => each op e fs1 ps

/-- The existing paths with their kind (utils/files.py:263-264). -/
def listed (s : Files Path) : List (Path × Bool) :=
  ((s.paths.zip (s.exist.zip s.isdir)).filter (·.2.1)).map fun t => (t.1, decide (t.2.2 = some true))

/-- The listed paths that are files. -/
def listedFiles (s : Files Path) : List Path := ((listed s).filter (! ·.2)).map (·.1)

/-- The listed paths that are folders. -/
def listedDirs (s : Files Path) : List Path := ((listed s).filter (·.2)).map (·.1)

/-- The deletions of `delete_existing_files` (utils/files.py:287-321) on a
POSIX system, where `except WindowsError` is a `NameError` as soon as `rmdir`
fails.  The folders that `rmtree` removes before it fails are not modelled: it
fails only on a path that is no folder. -/
def deletions (recursive : Bool) (s : Files Path) (fs : Forest) : Forest × Files Path × Res PUnit :=
  match each Forest.rmFile .osError fs (listedFiles s) with
  | (fs1, .error e) => (fs1, s, .error e)
  | (fs1, .ok _) =>
    match each (Forest.rmDir recursive) (if recursive then .osError else .nameError) fs1
        (listedDirs s) with
    | (fs2, .error e) => (fs2, s, .error e)
    | (fs2, .ok _) => (fs2, { s with exist := s.exist.map fun _ => false }, .ok ⟨⟩)

/-- `delete_existing_files` (utils/files.py:262-321): the disk, the object and
the outcome.  An empty list gives arrays of numbers, that numpy does not take
as indices.  The progress counter is left out. -/
def deleteExisting (recursive : Bool) (s : Files Path) (fs : Forest) (answers : List String) :
    Forest × Files Path × Res PUnit :=
  if s.paths = [] then (fs, s, .error .indexError)
  else
    match ask answers with
    | .error e => (fs, s, .error e)
    | .ok false => (fs, s, .ok ⟨⟩)
    | .ok true => deletions recursive s fs

/-- The files to delete in one folder (utils/files.py:353-358). -/
def chosen (dirRe : Path → Bool) (fileRe : String → Bool) (e : Entry) : List Path :=
  if dirRe e.root then (e.files.filter fileRe).map (fun f => e.root ++ [f]) else []

/-- `remove_files_in_dirs(rootpath, dir_regex, file_regex, depth, remove_dir,
remove_files)` (utils/files.py:324-393).  The last three arguments are never
read. -/
def removeInDirs (fs : Forest) (rootpath : Path) (dirRe : Path → Bool) (fileRe : String → Bool)
    (_depth : Option Int) (_removeDir _removeFiles : Bool) (answers : List String) :
    Forest × Res PUnit :=
  let paths := (walk fs rootpath).flatMap (chosen dirRe fileRe)
  if paths = [] then (fs, .ok ⟨⟩)
  else
    match ask answers with
    | .error e => (fs, .error e)
    | .ok false => (fs, .ok ⟨⟩)
    | .ok true => each Forest.rmFile .osError fs paths

end IMT.Cleaning
