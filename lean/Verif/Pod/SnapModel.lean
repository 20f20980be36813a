import Verif.Vector.Model
import Verif.Temporal.Model

/-!
Model of the snapshots of vector fields given to `modred`, and of the fields made from the modes it gives back (`/repo/IMTreatment/pod/pod.py`),
for fields without masked points: the record has been cropped and filled before (pod.py:927-928).
-/

namespace IMT.Snap

/-- An array of three dimensions. -/
structure Arr where
  n0 : Nat
  n1 : Nat
  n2 : Nat
  get : Nat → Nat → Nat → Rat

/-- `[tvf.fields[t].comp_x, tvf.fields[t].comp_y]` as an array, pod.py:941-942. -/
def both (f : VF) : Arr := ⟨2, f.cx.nx, f.cx.ny, fun k i j => (if k = 0 then f.cx.get i j else f.cy.get i j).getD 0⟩

/-- `np.transpose(_, (1, 2, 0))`, pod.py:944. -/
def turned (a : Arr) : Arr := ⟨a.n1, a.n2, a.n0, fun i j k => a.get k i j⟩

/-- The snapshot of a field, pod.py:941-945. -/
def snap (f : VF) : Arr := turned (both f)

/-- `np.vdot` of two arrays of one shape, pod.py:1074. -/
def vdot (a b : Arr) : Rat :=
  ((List.range a.n0).map fun i => ((List.range a.n1).map fun j => ((List.range a.n2).map fun k => a.get i j k * b.get i j k).sum).sum).sum

/-- A mode: `compute_modes` of `modred` sums the snapshots times the coefficients of the mode. -/
def combined (n0 n1 n2 : Nat) (l : List (Rat × Arr)) : Arr := ⟨n0, n1, n2, fun i j k => (l.map fun q => q.1 * q.2.get i j k).sum⟩

/-- `props`: the axes, the mask of the points masked at every time, the units, pod.py:934-938. -/
structure Props where
  ax : List Rat
  ay : List Rat
  mask : Grid Bool
  ux : Sym
  uy : Sym
  uv : Sym

/-- `modes[i].get()[:, :, k]`, pod.py:971-972. -/
def layer (a : Arr) (k : Nat) : Grid (Option Rat) := ⟨a.n0, a.n1, fun i j => some (a.get i j k)⟩

/-- The field made from a mode, pod.py:970-979. -/
def field (p : Props) (a : Arr) : Res VF := VF.importArrays p.ax p.ay (layer a 0) (layer a 1) (.array p.mask) p.ux p.uy p.uv

/-- `_POD_to_tvf(modes, props)`, pod.py:966-982. -/
def toFields (p : Props) (modes : List Arr) : Res (List VF) := Temporal.mapRes (field p) modes

end IMT.Snap
