import Verif.Temporal.Model

/-!
Model of `mask_cum` and `crop_masked_border` of `TemporalFields` (`/repo/IMTreatment/core/temporalfields.py`) on scalar fields.
-/

namespace IMT.Trace

open Temporal (TF mapRes)

/-- `mask_cum`, core/temporalfields.py:219-223 (and 1319-1321): the sum of the masks equals the number of fields. -/
def maskCum (t : TF) : Grid Bool :=
  ⟨t.ax.length, t.ay.length, fun i j => decide ((t.fields.filter fun f => f.mask.get i j).length = t.fields.length)⟩

/-- `mask_cum` as a field on the grid of the record; its values are not used. -/
def cum (t : TF) : SF := ⟨t.ax, t.ay, Grid.const t.ax.length t.ay.length (some 0), maskCum t, t.ux, t.uy, Sym.one⟩

/-- `crop(intervx, intervy, ind=True, inplace=True)` without time interval, core/temporalfields.py:1529-1534. -/
def cropInd (t : TF) (ix iy : Option (Int × Int)) : Res TF :=
  match t.frame.cropInd ix iy with
  | .error e => .error e
  | .ok g => match mapRes (fun f : SF => f.cropInd ix iy) t.fields with
    | .error e => .error e
    | .ok fs => .ok { t with ax := g.ax, ay := g.ay, fields := fs }

/-- The soft cropping, core/temporalfields.py:1347-1370: `none` when there is nothing to do (1352-1353). -/
def softCrop (t : TF) : Res (Option TF) :=
  match SF.firstLast ((List.range (cum t).mask.nx).filter (cum t).rowValid), SF.firstLast ((List.range (cum t).mask.ny).filter (cum t).colValid) with
  | .ok (x0, x1), .ok (y0, y1) => (cropInd t (some ((x0 : Int), (x1 : Int))) (some ((y0 : Int), (y1 : Int)))).map some
  | _, _ => .ok none

/-- `crop_masked_border(hard=False, inplace=False)`, core/temporalfields.py:1301-1305, 1346-1370; python's `None` is `none`. -/
def cropMaskedSoft (t : TF) : Res (Option TF) := if (cum t).anyMasked = false then .ok none else softCrop t

/-- The four numbers of masked points on the borders, core/temporalfields.py:1322-1326 (`mask[0, :]` raises IndexError on an empty
grid). -/
def borders (t : TF) : List Nat :=
  [(cum t).rowCount 0, (cum t).rowCount (t.ax.length - 1), (cum t).colCount 0, (cum t).colCount (t.ay.length - 1)]

/-- The removal of the worst border, core/temporalfields.py:1327-1343. -/
def hardStep (t : TF) : Res TF :=
  if (cum t).worstBorder = 0 then cropInd t (some (1, (t.ax.length : Int))) none
  else if (cum t).worstBorder = 1 then cropInd t (some (0, (t.ax.length : Int) - 2)) none
  else if (cum t).worstBorder = 2 then cropInd t none (some (1, (t.ay.length : Int)))
  else cropInd t none (some (0, (t.ay.length : Int) - 2))

/-- The loop `while True` run for at most `n` turns, core/temporalfields.py:1315-1343: `none` means that it is still running. -/
def hardLoop : Nat → TF → Option (Res TF)
  | 0, _ => none
  | n + 1, t =>
    if t.ax.length = 0 ∨ t.ay.length = 0 then some (.error .indexError)
    else if ∀ b ∈ borders t, b = 0 then some (.ok t)
    else match hardStep t with
      | .error e => some (.error e)
      | .ok t' => hardLoop n t'

/-- `crop_masked_border(hard=True, inplace=False)` run for at most `n` turns of its loop, core/temporalfields.py:1301-1345. -/
def cropMaskedHard (n : Nat) (t : TF) : Option (Res (Option TF)) :=
  if (cum t).anyMasked = false then some (.ok none)
  else match softCrop t with
    | .error e => some (.error e)
    | .ok o => (hardLoop n (o.getD t)).map (·.map some)

end IMT.Trace
