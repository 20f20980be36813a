import Verif.Display.BufferModel

/-! Model of the marks of the buffered frames on the slider of a figure (`ButtonManager`, `/repo/IMTreatment/plotlib/plotlib.py`), its first displayer being the
only one. -/

namespace IMT.Browse

/-- `slider_faces`, in the order of the dictionary: the frame and the number of its span (plotlib.py:421); `spans`: the abscissae of the spans on the axes of the
slider, none of which is ever removed. -/
structure Marks where
  faces : List (Nat × Nat)
  spans : List Nat

/-- No mark, plotlib.py:421. -/
def Marks.init : Marks := ⟨[], []⟩

/-- `_update_slider_faces`, plotlib.py:766-773: the faces that are kept and those that are popped. -/
def keptFaces (d : Disp) (s : Marks) : List (Nat × Nat) := s.faces.filter fun p => p.1 ∈ live d
/-- `old_span`, plotlib.py:767-773. -/
def oldSpans (d : Disp) (s : Marks) : List Nat := (s.faces.filter fun p => p.1 ∉ live d).map Prod.snd

/-- `_update_slider_faces`, plotlib.py:761-786. -/
def updateFaces (d : Disp) (i : Nat) (s : Marks) : Marks :=
  if d.buf = none then s
  else if i ∈ (keptFaces d s).map Prod.fst then { s with faces := keptFaces d s }
  else match oldSpans d s with
    | k :: _ => { faces := keptFaces d s ++ [(i, k)], spans := s.spans.set k i }
    | [] => { faces := keptFaces d s ++ [(i, s.spans.length)], spans := s.spans ++ [i] }

/-- `update()`, plotlib.py:741-759: the frame is drawn, then the marks are updated. -/
def showFrame (s : Disp × Marks) (i : Nat) : Res (Disp × Marks) :=
  match draw s.1 i true with
  | .error e => .error e
  | .ok d => .ok (d, updateFaces d i s.2)

/-- A history of frames, the first one being that of `__init__` (plotlib.py:443). -/
def showAll (s : Disp × Marks) : List Nat → Res (Disp × Marks)
  | [] => .ok s
  | i :: is => match showFrame s i with
    | .error e => .error e
    | .ok s1 => showAll s1 is

end IMT.Browse
