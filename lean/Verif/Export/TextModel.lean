import Verif.Points.Model
import Verif.Profile.Model
import Verif.Cps.Model
import Verif.File.Model

/-!
Model of the text files of point sets, profiles and critical points (`/repo/IMTreatment/file_operation/file_operation.py`, "fo.py":
`export_to_ascii`, `import_pts_from_ascii`, `import_profile_from_ascii`).

As in `Verif/Ascii/Model.lean`, a file is the list of its rows; writing and reading a float is exact, NaN is written `nan`, and the header is a
comment.  The numbers of columns are not negative.
-/

namespace IMT.Text

open Points (P F)
open Profile (Prof)
open Cp (Kind kinds)
open Cps (CP)

/-- A row of a text file. -/
abbrev Row := List F

/-- `export_to_ascii(pts, filepath)`, fo.py:1949-1971: with the values if there are some. -/
def exportPts (p : P) : List Row :=
  if p.v.length = 0 then p.xy.map fun q => [q.1, q.2] else (p.xy.zip p.v).map fun q => [q.1.1, q.1.2, q.2]

/-- `export_to_ascii(profile, filepath)`, fo.py:1937-1948. -/
def exportProf (p : Prof) : List Row := (p.x.zip (Profile.getY p)).map fun q => [some q.1, q.2]

/-- `data[:, c-1]`, fo.py:1602-1603, 1643-1646, where `data` is what `np.genfromtxt` gives of the file: a table of less than two rows has
less than two dimensions, so that this index raises IndexError, as a missing column does. -/
def column (rows : List Row) (c : Nat) : Res (List F) :=
  if rows.length ≤ 1 then .error .indexError
  else if rows.all fun r => decide (c ≤ r.length) then .ok (rows.map fun r => r.getD (c - 1) none)
  else .error .indexError

/-- `import_pts_from_ascii(filepath, x_col, y_col, v_col, unit_x, unit_y, unit_v)`, fo.py:1607-1649; `vc = 0` is `None`. -/
def importPts (rows : List Row) (xc yc vc : Nat) (ux uy uv : Sym) : Res P :=
  if xc < 1 ∨ yc < 1 then .error .valueError
  else match column rows xc with
    | .error e => .error e
    | .ok x => match column rows yc with
      | .error e => .error e
      | .ok y =>
        if vc = 0 then Points.new (x.zip y) [] ux uy uv
        else match column rows vc with
          | .error e => .error e
          | .ok v => Points.new (x.zip y) v ux uy uv

/-- `import_profile_from_ascii(filepath, x_col, y_col, unit_x, unit_y)`, fo.py:1569-1604.  (Abscissae are numbers: `nan` in their column is not
represented.) -/
def importProf (srt : List Rat → List Nat) (rows : List Row) (xc yc : Nat) (ux uy : Sym) : Res Prof :=
  if xc < 1 ∨ yc < 1 then .error .valueError
  else match column rows xc with
    | .error e => .error e
    | .ok x => match column rows yc with
      | .error e => .error e
      | .ok y => Profile.new srt (x.map fun a => a.getD 0) y (.flag false) ux uy

/-- The names of the kinds of points, vd.py:464. -/
def kindName : Kind → List Char
  | .foc => "foc".toList
  | .focC => "foc_c".toList
  | .nodeI => "node_i".toList
  | .nodeO => "node_o".toList
  | .sadd => "sadd".toList

/-- `"{}/{}_t={}{}.txt".format(basename, typ, t, t_unit)`, fo.py:1985-1986; `fmt` writes a number. -/
def critName (fmt : Rat → List Char) (base tu : List Char) (k : Kind) (t : Rat) : File.Path :=
  base ++ ['/'] ++ kindName k ++ "_t=".toList ++ fmt t ++ tu ++ ".txt".toList

/-- A folder of text files. -/
abbrev Disk := File.Path → Option (List Row)

/-- One file written. -/
def write (d : Disk) (n : File.Path) (r : List Row) : Disk := fun m => if m = n then some r else d m

/-- The points of one kind, fo.py:1983-1986. -/
def exportKind (fmt : Rat → List Char) (base tu : List Char) (c : CP) (d : Disk) (k : Kind) : Disk :=
  (c.times.zip (c.pts k)).foldl (fun d q => write d (critName fmt base tu k q.1) (exportPts q.2)) d

/-- `export_to_ascii(crit_points, filepath)`, fo.py:1972-1986, where `base` is the path without its extension and `tu` the time unit. -/
def exportCrit (fmt : Rat → List Char) (base tu : List Char) (c : CP) (d : Disk) : Disk := kinds.foldl (exportKind fmt base tu c) d

end IMT.Text
