import Verif.Prelude

/-! Model of `import_vfs_from_ascii` (`/repo/IMTreatment/file_operation/file_operation.py`). -/

namespace IMT.Ascii

/-- The arguments of `import_vfs_from_ascii` that are looked at before the fields are read: `kind`, `incr` (`none` when it is not an integer), `interval` (integers)
and the number of `times` (`none` when they are not given). -/
structure SeriesArgs where
  kind : String
  incr : Option Int
  interval : Option (List Int)
  times : Option Nat

/-- The tests of `incr` and `interval`, file_operation.py:1861-1871: the increment and the sorted interval. -/
def checkArgs (a : SeriesArgs) : Res (Int × Option (Int × Int)) :=
  match a.incr with
  | none => .error .typeError
  | some n =>
    if n < 1 then .error .valueError
    else match a.interval with
      | none => .ok (n, none)
      | some [lo, hi] => .ok (n, some (if hi < lo then (hi, lo) else (lo, hi)))
      | some _ => .error .valueError

/-- One field, file_operation.py:1888-1897: `VectorField` has no method `import_from_ascii` (AttributeError), which the test of the length of the name
precedes. -/
def readOne (paths : List String) (len : Nat) (i : Int) : Res Unit :=
  match paths[i.toNat]? with
  | none => .error .indexError
  | some p => if p.length ≠ len then .error .exception else .error .attributeError

/-- The loop over `np.arange(lo, hi + 1, incr)`, file_operation.py:1887-1898, as long as `fuel`. -/
def readFrom (paths : List String) (len : Nat) (incr hi : Int) : Nat → Int → Res Unit
  | 0, _ => .ok ()
  | fuel + 1, i =>
    if hi < i then .ok ()
    else match readOne paths len i with
      | .error e => .error e
      | .ok _ => readFrom paths len incr hi fuel (i + incr)

/-- `import_vfs_from_ascii`, file_operation.py:1821-1898; `glob` is what `glob.glob(check_path(filepath))` gives. -/
def importSeries (glob : Res (List String)) (a : SeriesArgs) : Res Unit :=
  match checkArgs a with
  | .error e => .error e
  | .ok (incr, itv) => match glob with
    | .error e => .error e
    | .ok paths =>
      let lh := itv.getD (0, (paths.length : Int) - 1)
      if lh.1 < 0 ∨ lh.2 > paths.length then .error .valueError
      else if a.times.getD paths.length ≠ paths.length then .error .valueError
      else match paths with
        | [] => .error .indexError
        | p :: _ =>
          if a.kind ≠ "TVF" ∧ a.kind ≠ "SVF" then .error .valueError
          else readFrom paths p.length incr lh.2 (lh.2 + 1 - lh.1).toNat lh.1

end IMT.Ascii
