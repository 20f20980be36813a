import Verif.Crit.Model
import Verif.Pbi.Theta
import Mathlib.Data.List.Sort
import Mathlib.Analysis.SpecialFunctions.Pow.Real

/-!
Model of `get_angle_deviation`, `/repo/IMTreatment/vortex_criterions/vortex_criterions.py:33-150`, with a radius in number of vectors
(`ind=True`), over the real numbers; the preparation is the one of the other non-local criteria (`motifInd`, `hidden`).
-/

namespace IMT.Crit

open Real

/-- The argument `local_treatment`, vortex_criterions.py:49-53. -/
inductive Treat where | plain | galilean | local'

/-- The velocities of the neighbours once treated, vortex_criterions.py:113-127; with 'local' both components lose the x component of the
centre (126). -/
noncomputable def neighbours (t : Treat) (f : Vel ℝ) (motif : List (Int × Int)) (i j : Int) : List (ℝ × ℝ) :=
  motif.map fun m =>
    match t with
    | .plain => (f.vx (m.1 + i) (m.2 + j), f.vy (m.1 + i) (m.2 + j))
    | .galilean => (f.vx (m.1 + i) (m.2 + j) - meanAround f.vx motif i j, f.vy (m.1 + i) (m.2 + j) - meanAround f.vy motif i j)
    | .local' => (f.vx (m.1 + i) (m.2 + j) - f.vx i j, f.vy (m.1 + i) (m.2 + j) - f.vx i j)

/-- The angle of a neighbour: `vectorfield.theta` without treatment (vortex_criterions.py:114, 0 for a null vector), `_get_angles` otherwise
(749-772, NaN for a null vector: a zero over a zero). -/
noncomputable def angleOf (t : Treat) (v : ℝ × ℝ) : Option ℝ :=
  match t with
  | .plain => some (Pbi.theta v.1 v.2)
  | _ => if v.1 ^ 2 + v.2 ^ 2 = 0 then none else some (Pbi.theta v.1 v.2)

/-- `d_angles` of the sorted angles, vortex_criterions.py:129-132. -/
noncomputable def gaps (s : List ℝ) : List ℝ :=
  List.zipWith (fun a b => b - a) s s.tail ++ [s.headD 0 + 2 * π - s.getLastD 0]

/-- `np.sum(np.abs(d - best_fun)**order)**(1./order)` with `best_fun = 2*pi/n` everywhere, vortex_criterions.py:96-98, 134-136. -/
noncomputable def spread (p : ℝ) (n : Nat) (d : List ℝ) : ℝ := (d.map fun x => |x - 2 * π / n| ^ p).sum ^ (1 / p)

/-- `worse_fun`, vortex_criterions.py:97. -/
noncomputable def worst (n : Nat) : List ℝ := List.replicate (n - 1) 0 ++ [2 * π]

/-- The deviation of a list of angles, vortex_criterions.py:128-136. -/
noncomputable def deviation (p : ℝ) (l : List ℝ) : ℝ :=
  1 - spread p l.length (gaps (l.insertionSort (· ≤ ·))) / spread p l.length (worst l.length)

/-- `get_angle_deviation(vectorfield, radius, ind=True, mask, local_treatment, order)` at the point of indices `i, j`,
vortex_criterions.py:33-150; `none` is a masked point: NaN values are masked by the creation of the field.  An empty motif divides by zero
(vortex_criterions.py:96). -/
noncomputable def devField (t : Treat) (p : ℝ) (nx ny : Nat) (f : Vel ℝ) (mask : Int → Int → Bool) (r : Rat) : Res (Nat → Nat → Option ℝ) :=
  if p < 1 then .error .valueError
  else match motifInd nx ny r with
    | .error e => .error e
    | .ok motif =>
      if motif = [] then .error .zeroDivision
      else .ok fun i j =>
        if hidden nx ny r mask motif i j then none
        else ((neighbours t f motif i j).mapM (angleOf t)).map (deviation p)

end IMT.Crit
