import Verif.Prelude

/-!
# The drawings of a displayer (`Displayer.draw`, `/repo/IMTreatment/plotlib/plotlib.py`)

A displayer keeps the drawings it made, up to a number of them, so as to show
them again without drawing anew.  A drawing is known by its frame and by a
number no other drawing has.  `visible` are the drawings on the axes.
What a drawing looks like is not modelled.
-/

namespace IMT.Browse

/-- A drawing made by `draw_new` (`plotlib.py` lines 1207-1332): the frame it
shows and its identity. -/
structure Art where
  frame : Nat
  id : Nat
  deriving DecidableEq, Repr

/-- The attributes of a `Displayer` (`plotlib.py` lines 967-982): `length`,
`buffer_size`, `draws`, `displ_saved_inds`, `displ_saved_curr_ind`, `curr_draw`;
`blank` are the frames with nothing to draw, `fresh` the next free identity,
`visible` the drawings on the axes. -/
structure Disp where
  length : Nat
  buf : Option Nat
  blank : Nat → Bool
  draws : Nat → Option Art
  saved : Nat → Nat
  stamp : Nat
  cur : Option Nat
  fresh : Nat
  visible : List Art

/-- A fresh displayer of `n` frames (`Displayer.__init__`, `plotlib.py` lines
967-982). -/
def Disp.init (n : Nat) (buf : Option Nat) (blank : Nat → Bool) : Disp :=
  { length := n, buf := buf, blank := blank, draws := fun _ => none, saved := fun _ => 0,
    stamp := 1, cur := none, fresh := 0, visible := [] }

/-- `Displayer._toggle_visibility` (`plotlib.py` lines 1121-1159): a drawing on
the axes is removed; removing one that is not there raises, and it is added. -/
def toggle (vis : List Art) (a : Art) : List Art :=
  if a ∈ vis then vis.erase a else vis ++ [a]

/-- `Displayer.draw_new` (`plotlib.py` lines 1207-1332): a new drawing on the
axes, or `None` when there is nothing to draw. -/
def drawNew (d : Disp) (i : Nat) : Disp × Option Art :=
  if d.blank i then (d, none)
  else
    let a : Art := ⟨i, d.fresh⟩
    ({ d with fresh := d.fresh + 1, visible := d.visible ++ [a] }, some a)

/-- `np.where(displ_saved_inds != 0)`. -/
def live (d : Disp) : List Nat := (List.range d.length).filter (fun j => d.saved j ≠ 0)

/-- The end of `Displayer.draw` with a buffer (`plotlib.py` lines 1191-1200):
beyond `buffer_size` saved drawings the one with the lowest stamp is dropped. -/
def evict (d : Disp) (m : Nat) : Disp :=
  if (live d).length > m then
    match ((live d).map d.saved).min? with
    | none => d
    | some lo =>
      match (List.range d.length).find? (fun j => d.saved j = lo) with
      | none => d
      | some j =>
        { d with
          draws := fun x => if x = j then none else d.draws x
          saved := fun x => if x = j then 0 else d.saved x }
  else d

/-- The drawings left on the axes once the current one is removed
(`plotlib.py` lines 1174-1178). -/
def hideCurrent (d : Disp) (rm : Bool) : List Art :=
  match d.cur with
  | none => d.visible
  | some c =>
    match d.draws c with
    | none => d.visible
    | some a => if rm then toggle d.visible a else d.visible

/-- Showing the kept drawing of frame `i`, or making one (`plotlib.py` lines
1180-1188). -/
def put (d : Disp) (i : Nat) : Disp :=
  match d.draws i with
  | some a => { d with visible := toggle d.visible a, cur := some i }
  | none =>
    let r := drawNew { d with cur := some i } i
    { r.1 with draws := fun x => if x = i then r.2 else r.1.draws x }

/-- `displ_saved_inds[i] = displ_saved_curr_ind` (`plotlib.py` lines 1191-1192). -/
def mark (d : Disp) (i : Nat) : Disp :=
  { d with saved := fun x => if x = i then d.stamp else d.saved x, stamp := d.stamp + 1 }

/-- `Displayer.draw(i, remove_current=rm)` (`plotlib.py` lines 1161-1205) of
a series.  A negative index is one from the end, as in Python; `curr_draw` is
kept as the index it stands for. -/
def draw (d : Disp) (i : Int) (rm : Bool) : Res Disp :=
  if i ≥ d.length then .ok d
  else if i < -(d.length : Int) then .error .indexError
  else
    let i : Nat := (if i < 0 then i + d.length else i).toNat
    let d0 := { d with visible := hideCurrent d rm }
    match d.buf with
    | none => .ok (drawNew d0 i).1
    | some m => .ok (evict (mark (put d0 i) i) m)

/-- A history of draws. -/
def drawAll (d : Disp) (rm : Bool) : List Int → Res Disp
  | [] => .ok d
  | i :: is =>
    match draw d i rm with
    | .error e => .error e
    | .ok d1 => drawAll d1 rm is

end IMT.Browse
