import Verif.Prelude

/-!
Model of the axis look-up and one-dimensional cropping of `Field`
(`/repo/IMTreatment/core/field.py`).
-/

namespace IMT.Axis

/-- `np.searchsorted(axe, value)` (side left) as called at core/field.py:194.  numpy does a binary
search; on a sorted array its result is the index of the first element that is not smaller than the
value, which is what is modelled. -/
def searchLeft (axe : List Rat) (v : Rat) : Nat := axe.findIdx (fun a => decide (v ≤ a))

/-- `Field.get_indice_on_axe(direction, value, kind='bounds')`, core/field.py:155-201, for one given
axis: range test 183-184/187-188, `searchsorted` 194, exact hit 195-196, neighbours 197-198.  An empty
axis raises IndexError at `axe[0]`.  The type checks 175-180 and 189-192 are not modelled. -/
def bounds (axe : List Rat) (v : Rat) : Res (Nat × Nat) :=
  match axe.head?, axe.getLast? with
  | some a, some b =>
    if v < a ∨ v > b then .error .valueError
    else
      let ind := searchLeft axe v
      match axe[ind]? with
      | none => .error .indexError
      | some c => if c = v then .ok (ind, ind) else .ok (ind - 1, ind)
  | _, _ => .error .indexError

/-- `kind='nearest'`, core/field.py:203-210. -/
def nearest (axe : List Rat) (v : Rat) : Res Nat :=
  match bounds axe v with
  | .error e => .error e
  | .ok (i, j) =>
    if i = j then .ok i
    else match axe[i]?, axe[j]? with
      | some lo, some hi => if |lo - v| < |hi - v| then .ok i else .ok j
      | _, _ => .error .indexError

/-- `kind='decimal'`, core/field.py:212-219. -/
def decimal (axe : List Rat) (v : Rat) : Res Rat :=
  match bounds axe v with
  | .error e => .error e
  | .ok (i, j) =>
    if i = j then .ok i
    else match axe[i]?, axe[j]? with
      | some lo, some hi =>
        .ok ((i : Rat) * |v - hi| / |hi - lo| + (j : Rat) * |v - lo| / |hi - lo|)
      | _, _ => .error .indexError

/-- Index window computed by `Field.crop(..., ind=False)` for one axis, core/field.py:517-518 (order
check), 533-537 (window check), 545-552 (indices).  Both axes follow the same text (545-552 for x,
553-560 for y). -/
def cropInds (axe : List Rat) (a b : Rat) : Res (Nat × Nat) :=
  if a > b then .error .valueError
  else match axe.head?, axe.getLast? with
  | some first, some last =>
    if (a < first ∧ b < first) ∨ (a > last ∧ b > last) then .error .valueError
    else
      let lo : Res Nat := if a ≤ first then .ok 0 else (bounds axe a).map (·.2)
      let hi : Res Nat := if b ≥ last then .ok (axe.length - 1) else (bounds axe b).map (·.1)
      match lo, hi with
      | .ok lo, .ok hi => .ok (lo, hi)
      | .error e, _ => .error e
      | _, .error e => .error e
  | _, _ => .error .indexError

/-- One axis of `Field.crop` by values: the slice `axe[indmin:indmax + 1]`, core/field.py:563-566,
571-572. -/
def crop (axe : List Rat) (a b : Rat) : Res (List Rat) :=
  (cropInds axe a b).map fun (lo, hi) => slice axe lo (hi + 1)

/-- Index window of `Field.crop(..., ind=True)` for one axis, core/field.py:517-518, 529-532, 540-541.
The bounds are integers here (the code converts them to float and truncates back). -/
def cropIndsInd (a b : Int) : Res (Nat × Nat) :=
  if a > b then .error .valueError
  else if a < 0 ∨ b = 0 then .error .valueError
  else .ok (a.toNat, b.toNat)

/-- One axis of `Field.crop` by indices, core/field.py:563-566, 571-572. -/
def cropInd (axe : List Rat) (a b : Int) : Res (List Rat) :=
  (cropIndsInd a b).map fun (lo, hi) => slice axe lo (hi + 1)

/-- `np.arange(x0 - dx*n, x0, dx)` for `dx > 0` in exact arithmetic: `n` values (core/field.py:600).
(With floating-point numbers `arange` may produce one more value; not modelled.) -/
def before (x0 dx : Rat) (n : Nat) : List Rat := (List.range n).map fun k : Nat => x0 - dx * n + dx * k

/-- `np.arange(x0 + dx, x0 + dx*(n+1), dx)` for `dx > 0` in exact arithmetic (core/field.py:605). -/
def after (x0 dx : Rat) (n : Nat) : List Rat := (List.range n).map fun k : Nat => x0 + dx + dx * k

/-- New points before the axis in `Field.extend`, core/field.py:597-601 (x) and 607-611 (y), with the first
spacing.  `axe[1]` raises IndexError on shorter axes. -/
def extendPre (axe : List Rat) (nl : Nat) : Res (List Rat) :=
  if nl = 0 then .ok [] else
    match axe with
    | a :: b :: _ => .ok (before a (b - a) nl)
    | _ => .error .indexError

/-- New points after the axis, core/field.py:602-606 (x) and 612-616 (y), with the last spacing. -/
def extendPost (axe : List Rat) (nr : Nat) : Res (List Rat) :=
  if nr = 0 then .ok [] else
    match axe.reverse with
    | z :: y :: _ => .ok (after z (z - y) nr)
    | _ => .error .indexError

/-- One axis of `Field.extend`, core/field.py:595-606 (x) and 607-616 (y). -/
def extend (axe : List Rat) (nl nr : Nat) : Res (List Rat) :=
  match extendPre axe nl, extendPost axe nr with
  | .ok p, .ok q => .ok (p ++ axe ++ q)
  | .error e, _ => .error e
  | _, .error e => .error e

end IMT.Axis
