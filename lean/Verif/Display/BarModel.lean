import Verif.Display.ColorModel

/-!
Colour bar of a window (`/repo/IMTreatment/plotlib/plotlib.py`): `ButtonManager._get_cb_norm_from_displs` and the bounds used by the drawings.
The colour map is left out.
-/

namespace IMT.Color

/-- What a `Displayer` knows of colours (`plotlib.py` lines 954-956, 993-1036): `colors`, `none` when it is not made of numbers (`None` or a name; then
`mapped_colors` is False), the bounds kept, and `dargs['norm']`. -/
structure Painter where
  colors : Option (List (List (Option Rat)))
  bounds : Bounds
  norm : Option (Rat × Rat)

/-- `get_global_norm()` of a displayer (`plotlib.py` lines 1104-1119): TypeError without numbers (`for col in None`, `np.isnan('k')`). -/
def Painter.global (d : Painter) : Painter × Res (Rat × Rat) :=
  match d.colors with
  | none => (d, .error .typeError)
  | some c => ({ d with bounds := (globalNorm d.bounds c).1 }, (globalNorm d.bounds c).2)

/-- The loop of `_get_cb_norm_from_displs` (`plotlib.py` lines 480-482): the displayers afterwards, and the outcome. -/
def shareNorms : List Painter → List Painter × Res PUnit
  | [] => ([], .ok ⟨⟩)
  | d :: ds => match d.global with
    | (d', .error e) => (d' :: ds, .error e)
    | (d', .ok n) => ({ d' with norm := some n } :: (shareNorms ds).1, (shareNorms ds).2)

/-- `_get_cb_norm_from_displs(normcb)` (`plotlib.py` lines 469-489), called when a displayer has mapped colours (line 438): the displayers afterwards, and
the bounds of the bar.  `displ_cb` is the first displayer with mapped colours (lines 368-371). -/
def barNorm (normcb : Option (Rat × Rat)) (sharecb : Bool) (ds : List Painter) : List Painter × Res (Option (Rat × Rat)) :=
  match normcb with
  | some n => (ds, .ok (some n))
  | none =>
    if sharecb then
      match shareNorms ds with
      | (ds', .error e) => (ds', .error e)
      | (ds', .ok _) => (ds', .ok (((ds'.filter fun d => d.colors.isSome).head?).bind Painter.norm))
    else (ds, .ok none)

/-- The place in the colour map of the value `v` of the frame `col` once drawn (`draw_new`, `plotlib.py` lines 1228, 1266-1301): with `dargs['norm']`, or the
extremes of the frame (matplotlib) without it. -/
def Painter.drawn (d : Painter) (col : List (Option Rat)) (v : Rat) : Option Rat :=
  match d.norm with
  | some n => some (place n.1 n.2 v)
  | none => match minOf (known col), maxOf (known col) with
    | some lo, some hi => some (place lo hi v)
    | _, _ => none

end IMT.Color
