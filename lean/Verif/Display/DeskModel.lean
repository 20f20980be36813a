import Verif.Display.BrowseModel

/-!
# Animations of a figure (`/repo/IMTreatment/plotlib/plotlib.py`, `/repo/IMTreatment/core/temporalfields.py`)

The open figures are those of pyplot; a figure may have a button manager.
The content of the files is the list of the frames written in them.
-/

namespace IMT.Browse

/-- The open figures, with their button managers, and the current one. -/
structure Desk where
  figs : List (Option Bm)
  cur : Option Nat
  deriving DecidableEq

/-- `plt.gcf()`: the current figure, a new one when there is none. -/
def Desk.gcf (d : Desk) : Desk × Nat :=
  match d.cur with
  | some i => (d, i)
  | none => (⟨d.figs ++ [none], some d.figs.length⟩, d.figs.length)

/-- The argument `fields` of `save_animation` (`plotlib.py` lines 872-873):
`none` is `"all"`. -/
def interval (s : Bm) : Option (Int × Int) → Int × Int
  | none => (0, s.indMax)
  | some f => f

/-- `save_animation(animpath, fig, fields, writer)` (`plotlib.py` lines
178-216 and 868-895); `avail` is whether the writer exists.  Line 209 is
`fig = plt.gcf()`. -/
def saveAnimation (d : Desk) (avail : Bool) (_fig : Option Nat) (fields : Option (Int × Int)) : Desk × Res (List Int) :=
  let (d1, fig) := d.gcf
  match d1.figs[fig]? with
  | some (some s) =>
    if avail then
      (⟨d1.figs.set fig (some (saveAnim s (interval s fields).1 (interval s fields).2).2), d1.cur⟩,
        .ok (saveAnim s (interval s fields).1 (interval s fields).2).1)
    else (d1, .error .valueError)
  | _ => (d1, .error .exception)

/-- `record_animation(anim, filepath, kind)` (`temporalfields.py` lines
1750-1772): the writer that `anim.save` is called with, if it is called. -/
def recordWriter (kind : String) : Option String :=
  if kind = "gif" then some "imagemagick" else if kind = "mp4" then some "fmpeg" else none

end IMT.Browse
