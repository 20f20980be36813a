import Verif.Prelude

/-!
# Linked figures (`ButtonManager.link_to_other_graph`, `/repo/IMTreatment/plotlib/plotlib.py`)

Figures are known by a number.  Only their links, their indices and their
steps are kept.
-/

namespace IMT.Browse

/-- The figures: `linked_graphs`, `ind` and `incr` of each (`plotlib.py` lines
356-366). -/
structure Net where
  linked : Nat → List Nat
  ind : Nat → Int
  incr : Nat → Nat

/-- `self.linked_graphs.append(graph)` (`plotlib.py` line 833). -/
def Net.append (s : Net) (a b : Nat) : Net :=
  { s with linked := fun x => if x = a then s.linked a ++ [b] else s.linked x }

/-- `ButtonManager.link_to_other_graph` (`plotlib.py` lines 830-838): figure `a`
is linked to `b`, which links itself back; the third call finds the link and
stops.  Figures and managers are not told apart. -/
def Net.link (s : Net) (a b : Nat) : Net :=
  if b ∈ s.linked a then s
  else
    let s1 := s.append a b
    if a ∈ s1.linked b then s1 else s1.append b a

/-- `graph.ind = self.ind; graph.incr = self.incr` (`plotlib.py` lines 793-794). -/
def Net.copy (s : Net) (v g : Nat) : Net :=
  { s with
    ind := fun x => if x = g then s.ind v else s.ind x
    incr := fun x => if x = g then s.incr v else s.incr x }

/-- `ButtonManager._update_linked_graphs` of figure `v` (`plotlib.py` lines
788-795), called by `update`.  The first argument bounds the depth of the
calls; the number of figures is enough, each call being on a figure that was
on another frame. -/
def Net.push : Nat → Net → Nat → Net
  | 0, s, _ => s
  | f + 1, s, v =>
    (s.linked v).foldl
      (fun s g => if s.ind g ≠ s.ind v then Net.push f (s.copy v g) g else s) s

/-- Figure `v` among `n` figures goes to index `k` and updates. -/
def Net.move (n : Nat) (s : Net) (v : Nat) (k : Int) : Net :=
  Net.push n { s with ind := fun x => if x = v then k else s.ind x } v

end IMT.Browse
