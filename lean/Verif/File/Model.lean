import Verif.Vector.Model
import Mathlib.Data.Rat.Floor

/-!
Model of parts of `/repo/IMTreatment/file_operation/file_operation.py`: names and contents of the `.imt`/`.cimt` files, search
of files, pictures, DaVis files, videos.

Not modelled: the binary formats themselves (pickle, gzip, png, IM7, VC7, video codecs), which are taken to give back what was
written, and the integer dtypes.
-/

namespace IMT.File

/-! ### names and contents of files -/

/-- A normalised posix path, as `check_path` makes it (`path.normpath`, file_operation.py:72). -/
abbrev Path := List Char

/-- `path.basename`, as used by `path.splitext`: what follows the last separator. -/
def base (p : Path) : Path := (p.reverse.takeWhile (· != '/')).reverse

/-- `path.splitext(p)[1]` (CPython, genericpath._splitext): what follows the last dot of the basename, dot included, when a
character other than a dot comes before it. -/
def ext (p : Path) : Path :=
  match (base p).reverse.span (· != '.') with
  | (suffix, '.' :: before) => if before.any (· != '.') then '.' :: suffix.reverse else []
  | _ => []

/-- A store of objects: what was written under a name, and whether it was compressed. -/
abbrev Store (Obj : Type) := Path → Option (Bool × Obj)

def cimt : Path := ['.', 'c', 'i', 'm', 't']
def imt : Path := ['.', 'i', 'm', 't']

/-- The name `export_to_file` writes, file_operation.py:350-361. -/
def written (compressed : Bool) (p : Path) : Path :=
  if compressed then (if ext p ≠ cimt then p ++ cimt else p) else if ext p ≠ imt then p ++ imt else p

/-- `export_to_file(obj, filepath, compressed)`, file_operation.py:327-364, in an existing directory. -/
def exportFile {Obj : Type} (s : Store Obj) (o : Obj) (p : Path) (compressed : Bool) : Store Obj :=
  fun q => if q = written compressed p then some (compressed, o) else s q

/-- `import_from_file(filepath)`, file_operation.py:286-324: a missing file is refused by `check_path`; reading with the wrong
decompression fails. -/
def importFile {Obj : Type} (s : Store Obj) (p : Path) : Res Obj :=
  match s p with
  | none => .error .osError
  | some (c, o) =>
    if ext p = imt then (if c then .error .exception else .ok o)
    else if ext p = cimt then (if c then .ok o else .error .osError)
    else .error .osError

/-! ### search of files -/

/-- The loop of `find_file_in_path` on the folders `os.walk` yields, file_operation.py:137-145.  `cur` is the local variable
`match`, `none` while it is not bound. -/
def findLoop {F : Type} (m : F → Bool) : Option Bool → List (Path × List F) → Res (List Path)
  | _, [] => .ok []
  | cur, (root, files) :: rest =>
    match (if files = [] then cur else some (files.any m)) with
    | none => .error .nameError
    | some true => (findLoop m (some true) rest).map (root :: ·)
    | some false => findLoop m (some false) rest

/-- `find_file_in_path(regs, dirpath, ask=False)`, file_operation.py:111-160: `m` tells whether one of the regular expressions
matches a name. -/
def findFiles {F : Type} (m : F → Bool) (walk : List (Path × List F)) : Res (List Path) := findLoop m none walk

/-! ### pictures -/

/-- The pixels of a picture, `export_to_picture`, file_operation.py:1489: `SF.values[:, ::-1].transpose()`.  Pixel `(r, c)`
is on the line `r` from the top and the column `c` from the left. -/
def picture (v : Grid (Option Rat)) : Grid (Option Rat) := v.flipY.transpose

/-- What `imageio.imread(...).transpose()[:, ::-1]` makes of the pixels, file_operation.py:1287. -/
def unpicture (p : Grid (Option Rat)) : Grid (Option Rat) := p.transpose.flipY

/-- `export_to_picture(SF, filepath)`, file_operation.py:1477-1490; `there` tells whether the file exists: `check_path` is called
without `newfile`. -/
def exportPicture (there : Bool) (f : SF) : Res (Grid (Option Rat)) :=
  if there then .ok (picture f.values) else .error .osError

/-- `export_to_pictures(SFs, filepath)` of a list of fields, file_operation.py:1507-1517. -/
def exportList (fs : List SF) : List (Grid (Option Rat)) := fs.map (·.values)

/-- `export_to_pictures(SFs, filepath)` of a collection, file_operation.py:1510-1517. -/
def exportCollection (fs : List SF) : List (Grid (Option Rat)) := fs.map fun f => picture f.values

/-- An axis given to `import_from_picture`, file_operation.py:1290-1299: `np.arange(n)` when missing. -/
def axisOr (l : Option (List Rat)) (n : Nat) : Res (List Rat) :=
  match l with
  | none => .ok ((List.range n).map fun i : Nat => (i : Rat))
  | some l => if l.length ≠ n then .error .valueError else .ok l

/-- `import_from_picture(filepath, axe_x, axe_y, unit_x, unit_y, unit_values)`, file_operation.py:1255-1309. -/
def importPicture (p : Grid (Option Rat)) (ax ay : Option (List Rat)) (ux uy uv : Sym) : Res SF :=
  match axisOr ax (unpicture p).nx, axisOr ay (unpicture p).ny with
  | .ok ax, .ok ay => SF.importArrays ax ay (unpicture p) .none ux uy uv
  | .error e, _ => .error e
  | _, .error e => .error e

/-- The decimal digits of a number, most significant first (`str`). -/
def digits (n : Nat) : List Nat := if n < 10 then [n] else digits (n / 10) ++ [n % 10]

/-- `{:0>5}`, file_operation.py:1517: padding on the left with zeros to five characters. -/
def pad5 (n : Nat) : List Nat := List.replicate (5 - (digits n).length) 0 ++ digits n

/-! ### DaVis files -/

/-- An axis of `import_from_IM7`, file_operation.py:811-834, and of `import_from_VC7`, 994-1027; `rev` asks for the reversed
form. -/
def davisAxis (rev : Bool) (x0 dx : Rat) (n : Nat) : List Rat :=
  if rev then (List.range n).map fun i : Nat => x0 + ((n - 1 - i : Nat) : Rat) * dx
  else (List.range n).map fun i : Nat => x0 + (i : Rat) * dx

/-- `values *= a; values += b`, file_operation.py:800-805, 982-991. -/
def affine (a b : Rat) (v : Grid (Option Rat)) : Grid (Option Rat) := v.map (Option.map fun q => q * a + b)

/-- Reversal of one or both directions. -/
def turned {α : Type} (rx ry : Bool) (g : Grid α) : Grid α :=
  if ry then (if rx then g.flipX else g).flipY else if rx then g.flipX else g

/-- `import_from_IM7`, file_operation.py:772-847, once the buffers are read: planes of values and of mask, scale of the values
(factor and offset), scales of the axes (step and origin). -/
def importIM7 (v : Grid (Option Rat)) (m : Grid Bool) (a b x0 dx y0 dy : Rat) (ux uy uv : Sym) : Res SF :=
  SF.importArrays (davisAxis (decide (dx < 0)) x0 dx v.nx) (davisAxis (decide (dy < 0)) y0 dy v.ny)
    (turned (decide (dx < 0)) (decide (dy < 0)) (affine a b v)) (.array (turned (decide (dx < 0)) (decide (dy < 0)) m)) ux uy uv

/-- The mask of a VC7 file, file_operation.py:961-970: null vectors are masked as well. -/
def vc7Mask (m : Grid Bool) (vx vy : Grid (Option Rat)) : Grid Bool :=
  ⟨vx.nx, vx.ny, fun i j => m.get i j || decide (vx.get i j = some 0 ∧ vy.get i j = some 0)⟩

/-- Elementwise opposite. -/
def opp (s : Bool) (g : Grid (Option Rat)) : Grid (Option Rat) := if s then g.map (Option.map fun q => -q) else g

/-- `import_from_VC7`, file_operation.py:938-1046, once the buffers are read; `pix` tells whether the unit of the y axis is
`'pixel'` (1016). -/
def importVC7 (vx vy : Grid (Option Rat)) (m : Grid Bool) (a b x0 dx y0 dy : Rat) (pix : Bool) (ux uy uv : Sym) : Res VF :=
  VF.importArrays (davisAxis (decide (dx < 0)) x0 dx vx.nx) (davisAxis (decide (dy < 0) || pix) y0 dy vx.ny)
    (opp (decide (dx < 0)) (turned (decide (dx < 0)) (decide (dy < 0) || pix) (affine a b vx)))
    (opp (decide (dy < 0) || pix) (turned (decide (dx < 0)) (decide (dy < 0) || pix) (affine a b vy)))
    (.array (turned (decide (dx < 0)) (decide (dy < 0) || pix) (vc7Mask m vx vy))) ux uy uv

/-! ### videos -/

/-- `np.arange(0, n*dx - 0.1*dx, dx)`, file_operation.py:1460-1461, for `dx > 0`: as many values as multiples of `dx` below the
stop. -/
def frameAxis (n : Nat) (dx : Rat) : List Rat :=
  (List.range (⌈((n : Rat) * dx - 1 / 10 * dx) / dx⌉.toNat)).map fun k : Nat => (k : Rat) * dx

/-- The loop of `import_from_video`, file_operation.py:1443-1466: `n` frames left, the next one being `i`, at time `t`.
`decode i` is the content of the frame, `none` when it cannot be decoded. -/
def videoLoop {Fr : Type} (decode : Nat → Option Fr) (first : Int) (incr : Nat) (dt : Rat) : Nat → Nat → Rat → List (Nat × Fr × Rat)
  | 0, _, _ => []
  | n + 1, i, t =>
    if (i : Int) < first ∨ i % incr ≠ 0 then videoLoop decode first incr dt n (i + 1) (t + dt)
    else match decode i with
      | none => []
      | some fr => (i, fr, t) :: videoLoop decode first incr dt n (i + 1) (t + dt)

/-- The frames kept by `import_from_video(filepath, dt=…, frame_inds=[first, last], incr=…)` with their times,
file_operation.py:1432-1466. -/
def video {Fr : Type} (decode : Nat → Option Fr) (count : Nat) (first last : Int) (incr : Nat) (dt : Rat) : List (Nat × Fr × Rat) :=
  videoLoop decode first incr dt (min last count).toNat 0 0

/-- The field made of a frame, file_operation.py:1457-1465: `unit_values` is not passed on. -/
def frameField (p : Grid (Option Rat)) (dx dy : Rat) (ux uy _uv : Sym) : Res SF :=
  SF.importArrays (frameAxis (unpicture p).nx dx) (frameAxis (unpicture p).ny dy) (unpicture p) (.bool false) ux uy Sym.one

end IMT.File
