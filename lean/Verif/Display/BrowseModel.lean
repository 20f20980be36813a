import Verif.Prelude

/-!
# Browsing a series of drawings (`/repo/IMTreatment/plotlib/plotlib.py`)

`ButtonManager` shows one frame of a series at a time and lets the user change
the frame with the keyboard, the buttons, the slider and a timer.  The state
below holds the attributes that decide which frame is shown; `shown` records
every index `update` hands to the displayers, in order.  Axes, colour bars,
labels and the positions of the buttons are not modelled.
-/

namespace IMT.Browse

/-- What a key asks for (`plotlib.py` lines 698-723). -/
inductive Key
  | next | prev | last | first | goto | play | incr | interv | quit | save
  | lim | golim | digit (d : Nat) | other
  deriving DecidableEq, Repr

/-- The branches of `ButtonManager.keyf` (`plotlib.py` lines 698-725), by the
name matplotlib gives to the key. -/
def Key.ofString (k : String) : Key :=
  if k ∈ [" ", "right", "+", "l"] then .next
  else if k ∈ ["left", "backspace", "-", "h"] then .prev
  else if k ∈ ["up", "k"] then .last
  else if k ∈ ["down", "j"] then .first
  else if k ∈ ["enter", "g"] then .goto
  else if k ∈ ["p", "."] then .play
  else if k ∈ ["i", "*"] then .incr
  else if k ∈ ["t", "/"] then .interv
  else if k ∈ ["q"] then .quit
  else if k ∈ ["s"] then .save
  else if k ∈ ["pagedown", "a"] then .lim
  else if k ∈ ["pageup", "b"] then .golim
  else match (List.range 10).find? (fun i => toString i = k) with
    | some d => .digit d
    | none => .other

/-- The attributes of a `ButtonManager` (`plotlib.py` lines 356-366, 423-430):
`ind_max`, `ind`, `incr`, `tmp_key_number`, `ind_lims`, whether
`ind_lims_faces` holds a drawing, `on_play`, `play_interval`, and the indices
drawn so far. -/
structure Bm where
  indMax : Nat
  ind : Int
  incr : Nat
  num : Option Nat
  lims : Option Int × Option Int
  faces : Bool × Bool
  onPlay : Bool
  interv : Nat
  shown : List Int
  deriving DecidableEq

/-- `ButtonManager._get_indmax_form_displs` with the check that there is a
displayer (`plotlib.py` lines 358-361, 520-525): the displayers must show the
same number of frames. -/
def indMaxOf (lengths : List Nat) : Res Nat :=
  match lengths with
  | [] => .error .valueError
  | n :: rest => if (n :: rest).any (· ≠ n) then .error .valueError else .ok (n - 1)

/-- `ButtonManager.update` (`plotlib.py` lines 741-759): the displayers are
asked to draw frame `ind`.  Moving the slider calls `slid` back, which returns
at once (`slid_self`). -/
def update (s : Bm) : Bm := { s with shown := s.shown ++ [s.ind] }

/-- A fresh manager over the given displayers (`ButtonManager.__init__`,
`plotlib.py` lines 348-446). -/
def create (lengths : List Nat) : Res Bm :=
  match indMaxOf lengths with
  | .error e => .error e
  | .ok n => .ok (update
      { indMax := n, ind := 0, incr := 1, num := none, lims := (none, none),
        faces := (false, false), onPlay := false, interv := 2, shown := [] })

/-- `ButtonManager.prevf` (`plotlib.py` lines 527-544). -/
def prevf (s : Bm) : Bm :=
  let incr : Int := s.num.getD s.incr
  let s1 := { s with num := none }
  if s1.ind = 0 then s1
  else
    let new := s1.ind - incr
    update { s1 with ind := if new > 0 then new else 0 }

/-- `ButtonManager.nextf` (`plotlib.py` lines 546-563). -/
def nextf (s : Bm) : Bm :=
  let incr : Int := s.num.getD s.incr
  let s1 := { s with num := none }
  if s1.ind = s1.indMax then s1
  else
    let new := s1.ind + incr
    update { s1 with ind := if new ≤ s1.indMax then new else s1.indMax }

/-- `ButtonManager._update_incr` (`plotlib.py` lines 802-805). -/
def updIncr (s : Bm) : Bm :=
  match s.num with
  | none => s
  | some n => { s with num := none, incr := n }

/-- `ButtonManager._update_interv` (`plotlib.py` lines 807-810). -/
def updInterv (s : Bm) : Bm :=
  match s.num with
  | none => s
  | some n => { s with num := none, interv := n }

/-- `ButtonManager.playf` (`plotlib.py` lines 565-577). -/
def playf (s : Bm) : Bm :=
  let s1 := updInterv s
  { s1 with onPlay := !s1.onPlay }

/-- `ButtonManager.timer_play` (`plotlib.py` lines 579-592).  When only the
second limit is set the first one is `None`, and `update` adds one to it. -/
def timerPlay (s : Bm) : Res Bm :=
  let r : Option Int × Int :=
    match s.lims.2 with
    | some b => (s.lims.1, b)
    | none => (some 0, s.indMax + 1)
  let n := s.ind + s.incr
  if n ≥ r.2 then
    match r.1 with
    | some a => .ok (update { s with ind := a })
    | none => .error .typeError
  else if n ≥ s.indMax then .ok (update { s with ind := 0 })
  else .ok (update { s with ind := n })

/-- `ButtonManager.goto` (`plotlib.py` lines 594-601). -/
def goto (s : Bm) : Bm :=
  let s1 := { s with num := none }
  match s.num with
  | none => s1
  | some k => if k > s.indMax ∨ k < 1 then s1 else update { s1 with ind := (k : Int) - 1 }

/-- `ButtonManager.goto_end` (`plotlib.py` lines 603-610). -/
def gotoEnd (s : Bm) : Bm :=
  let s1 := { s with num := none }
  let k := s.num.getD (s.indMax + 1)
  if k > s.indMax + 1 then s1 else update { s1 with ind := (k : Int) - 1 }

/-- `ButtonManager.goto_beg` (`plotlib.py` lines 612-619). -/
def gotoBeg (s : Bm) : Bm :=
  let s1 := { s with num := none }
  let k := s.num.getD 1
  if k > s.indMax + 1 then s1 else update { s1 with ind := (k : Int) - 1 }

/-- `set_lims(lim1='del')` (`plotlib.py` lines 625-629). -/
def del1 (s : Bm) : Res Bm :=
  if s.faces.1 then .ok { s with lims := (none, s.lims.2), faces := (false, s.faces.2) }
  else .error .attributeError

/-- `set_lims(lim2='del')` (`plotlib.py` lines 639-643). -/
def del2 (s : Bm) : Res Bm :=
  if s.faces.2 then .ok { s with lims := (s.lims.1, none), faces := (s.faces.1, false) }
  else .error .attributeError

/-- `set_lims(lim1=k)` (`plotlib.py` lines 630-637): nothing is sorted. -/
def set1 (s : Bm) (k : Int) : Bm :=
  { s with lims := (some k, s.lims.2), faces := (true, s.faces.2) }

/-- `set_lims(lim2=k)` (`plotlib.py` lines 644-656). -/
def set2 (s : Bm) (k : Int) : Res Bm :=
  match s.lims.1 with
  | none => .error .typeError
  | some a =>
    if k < a then .ok { s with lims := (some k, some a), faces := (true, s.faces.1) }
    else .ok { s with lims := (some a, some k), faces := (s.faces.1, true) }

/-- The index `set_lims` works on: the number typed less one, or the frame
shown (`plotlib.py` lines 658-663). -/
def limIndex (s : Bm) : Int :=
  match s.num with
  | none => s.ind
  | some n => (n : Int) - 1

/-- The rest of `ButtonManager.set_lims` without argument (`plotlib.py` lines
664-679), on index `k`. -/
def setLimsAt (s : Bm) (k : Int) : Res Bm :=
  if some k = s.lims.1 ∨ some k = s.lims.2 then
    if some k = s.lims.1 then del1 s else del2 s
  else if s.lims.2.isSome ∧ s.lims.1.isSome then
    match del1 s with
    | .error e => .error e
    | .ok s2 => del2 s2
  else if s.lims.1 = none then .ok (set1 s k)
  else set2 s k

/-- `ButtonManager.set_lims` without argument (`plotlib.py` lines 658-679). -/
def setLims (s : Bm) : Res Bm := setLimsAt { s with num := none } (limIndex s)

/-- `ButtonManager.goto_lims` (`plotlib.py` lines 681-694). -/
def gotoLims (s : Bm) : Bm :=
  let s1 := { s with num := none }
  match s.lims with
  | (none, none) => s1
  | (some a, none) => if s.ind ≠ a then update { s1 with ind := a } else s1
  | (none, some b) => if s.ind ≠ b then update { s1 with ind := b } else s1
  | (some a, some b) =>
    if s.ind ≠ a then update { s1 with ind := a }
    else if s.ind ≠ b then update { s1 with ind := b }
    else s1

/-- `int(...)` of a number: the fraction is cut. -/
def trunc (v : Rat) : Int := if v < 0 then v.ceil else v.floor

/-- `ButtonManager.slid` (`plotlib.py` lines 734-739). -/
def slid (s : Bm) (v : Rat) : Bm :=
  if v - 1 = s.ind then s else update { s with ind := trunc v - 1 }

/-- `ButtonManager.close` (`plotlib.py` lines 897-899). -/
def close (s : Bm) : Bm := if s.onPlay then playf s else s

/-- The first half of `ButtonManager.keyf`: what the key does
(`plotlib.py` lines 696-723). -/
def act (s : Bm) : Key → Res Bm
  | .next => .ok (nextf s)
  | .prev => .ok (prevf s)
  | .last => .ok (gotoEnd s)
  | .first => .ok (gotoBeg s)
  | .goto => .ok (goto s)
  | .play => .ok (playf s)
  | .incr => .ok (updIncr s)
  | .interv => .ok (updInterv s)
  | .quit => .ok (close s)
  | .save => .ok s
  | .lim => setLims s
  | .golim => .ok (gotoLims s)
  | .digit _ => .ok s
  | .other => .ok s

/-- `ButtonManager.keyf` (`plotlib.py` lines 696-732): digits pile up, every
other key forgets the number. -/
def keyf (s : Bm) (k : Key) : Res Bm :=
  match act s k with
  | .error e => .error e
  | .ok s1 =>
    match k with
    | .digit d => .ok { s1 with num := some (match s1.num with | none => d | some n => n * 10 + d) }
    | _ => .ok { s1 with num := none }

/-- What a user does: a key by its name, a click on a button, a move of the
slider, or waiting for the timer. -/
inductive Event
  | key (k : String) | clickNext | clickPrev | clickPlay | slide (v : Rat) | tick
  deriving DecidableEq

/-- One event (connections of `plotlib.py` lines 414-432).  The timer calls
back only while it runs. -/
def step (s : Bm) : Event → Res Bm
  | .key k => keyf s (Key.ofString k)
  | .clickNext => .ok (nextf s)
  | .clickPrev => .ok (prevf s)
  | .clickPlay => .ok (playf s)
  | .slide v => .ok (slid s v)
  | .tick => if s.onPlay then timerPlay s else .ok s

/-- A history of events; the first error ends it. -/
def run (s : Bm) : List Event → Res Bm
  | [] => .ok s
  | e :: es =>
    match step s e with
    | .error x => .error x
    | .ok s1 => run s1 es

/-- The loop of `ButtonManager.save_animation` (`plotlib.py` lines 890-892):
`n` times the next frame, then a snapshot of what is shown. -/
def grab (s : Bm) : Nat → Bm × List Int
  | 0 => (s, [])
  | n + 1 =>
    let s1 := nextf s
    let r := grab s1 n
    (r.1, s1.ind :: r.2)

/-- `ButtonManager.save_animation` from field `f0` to field `f1`
(`plotlib.py` lines 872-895): the frames written and the manager afterwards.
`fields="all"` is `f0 = 0`, `f1 = ind_max`. -/
def saveAnim (s : Bm) (f0 f1 : Int) : List Int × Bm :=
  let backup := s.ind
  let s1 := update { s with ind := f0 }
  let r := grab s1 (f1 - f0).toNat
  (r.2, update { r.1 with ind := backup })

/-- `set_val(ind + 1)` inside `update` comes back to `slid`, which does nothing. -/
theorem slid_self (s : Bm) : slid s ((s.ind : Rat) + 1) = s := by
  simp [slid]

end IMT.Browse
