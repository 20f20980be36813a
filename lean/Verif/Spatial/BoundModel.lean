import Verif.Spatial.Model

/-!
Model of the extent, the iteration and the mask of a `SpatialFields` (`/repo/IMTreatment/core/spatialfields.py`) of scalar fields.
-/

namespace IMT.Spatial

/-- `[f(field) for field in self.fields]`: IndexError at the first empty axis. -/
def ends (pick : SF → Option Rat) : List SF → Res (List Rat)
  | [] => .ok []
  | f :: fs => match pick f with
    | none => .error .indexError
    | some x => match ends pick fs with
      | .error e => .error e
      | .ok l => .ok (x :: l)

/-- `np.min` of a list: ValueError for an empty one. -/
def npMin : List Rat → Res Rat
  | [] => .error .valueError
  | x :: l => .ok (l.foldl min x)

/-- `np.max` of a list: ValueError for an empty one. -/
def npMax : List Rat → Res Rat
  | [] => .error .valueError
  | x :: l => .ok (l.foldl max x)

/-- An extremum of the ends of the axes. -/
def bound (red : List Rat → Res Rat) (pick : SF → Option Rat) (s : SP) : Res Rat := match ends pick s.fields with
  | .error e => .error e
  | .ok l => red l

/-- `x_min`, spatialfields.py:135-137. -/
def SP.xMin (s : SP) : Res Rat := bound npMin (fun f => f.ax.head?) s
/-- `x_max`, spatialfields.py:139-141. -/
def SP.xMax (s : SP) : Res Rat := bound npMax (fun f => f.ax.getLast?) s
/-- `y_min`, spatialfields.py:143-145. -/
def SP.yMin (s : SP) : Res Rat := bound npMin (fun f => f.ay.head?) s
/-- `y_max`, spatialfields.py:147-149. -/
def SP.yMax (s : SP) : Res Rat := bound npMax (fun f => f.ay.getLast?) s

/-- `list(collection)`, spatialfields.py:84-86: `self.times`, which no collection in space has, is read at the first field. -/
def SP.iterate (s : SP) : Res (List SF) := if s.fields.length = 0 then .ok [] else .error .attributeError

/-- `mask`, spatialfields.py:88-94: `self.shape`, which no collection in space has, is read first. -/
def SP.mask (_ : SP) : Res (List (Grid Bool)) := .error .attributeError

end IMT.Spatial
