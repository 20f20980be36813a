import Verif.Panel.GridModel

/-!
Model of `get_gradP_length` and of the integration in `get_separation_position`
(`/repo/IMTreatment/potential_flow/potential_flow.py`).
-/

namespace IMT.Panel

/-- The pressure on the axis of symmetry at `x`, as `prof_P.y` holds it (potential_flow.py:756-759): NaN in a solid. -/
noncomputable def axisPressure (u : ℝ) (vel : ℝ → ℝ → ℝ × ℝ) (solids : List (ℝ → ℝ → Bool)) (x : ℝ) : Option ℝ :=
  if inSolid solids x 0 then none else some (cp u (vel x 0))

/-- `prof_P.y < perc`: false for NaN. -/
noncomputable def isBelow (perc : ℝ) : Option ℝ → Bool
  | none => false
  | some p => decide (p < perc)

/-- The position `prof_P.x[ind] + x_f` for `ind = np.where(prof_P.y < perc)[0][-1]`, with the next one `prof_P.x[ind + 1] + x_f` if there is one,
potential_flow.py:756-770.  With three points the profile, once sorted, holds `x0`, the middle and `xf` (for `x0 < xf`). -/
noncomputable def lastBelow (P : ℝ → Option ℝ) (perc x0 xf : ℝ) : Option (ℝ × Option ℝ) :=
  if isBelow perc (P xf) then some (xf, none)
  else if isBelow perc (P ((x0 + xf) / 2)) then some ((x0 + xf) / 2, some xf)
  else if isBelow perc (P x0) then some (x0, some ((x0 + xf) / 2))
  else none

/-- The loop of `get_gradP_length`, potential_flow.py:746-775, from the `i`-th turn on; the first argument bounds the number of turns:
`none` when the loop has not ended yet.  (`P_max` is 1.) -/
noncomputable def search (P : ℝ → Option ℝ) (perc eps dx : ℝ) : Nat → Nat → ℝ → ℝ → Option (Res ℝ)
  | 0, _, _, _ => none
  | fuel + 1, i, x0, xf =>
    match lastBelow P perc x0 xf with
    | none => search P perc eps dx fuel (i + 1) (x0 - dx) xf
    | some (x, next) =>
      if |perc - (P x).getD 0| < eps then some (.ok (-x))
      else if i + 1 > 100 then some (.error .exception)
      else match next with
        | none => some (.error .indexError)
        | some y => search P perc eps dx fuel (i + 1) x y

/-- `get_gradP_length(D, Vd, perc, eps)`, potential_flow.py:708-775, for an obstacle with a positive `D`, seen through the pressure `P` on the
axis of symmetry; `fuel` turns of the loop at most. -/
noncomputable def gradPLength (P : ℝ → Option ℝ) (D perc eps : ℝ) (fuel : Nat) : Option (Res ℝ) :=
  search P perc eps (5 * D) fuel 0 (-D / 2 - 5 * D) (-D / 2)

/-- `np.trapz(y, x)`. -/
noncomputable def trapzR : List (ℝ × ℝ) → ℝ
  | a :: b :: r => (b.1 - a.1) * (a.2 + b.2) / 2 + trapzR (b :: r)
  | _ => 0

/-- `theta2` of `get_separation_position`, potential_flow.py:690-695, at the `i`-th point of the profile of velocity `pts` (abscissas, velocities):
`theta_0` is null, and `U5[0:i]` stops before the point. -/
noncomputable def theta2 (nu tmax2 : ℝ) (pts : List (ℝ × ℝ)) (i : Nat) : ℝ :=
  min (0.45 * nu / ((pts[i]?.map Prod.snd).getD 0) ^ 6 * trapzR ((pts.take i).map fun p => (p.1, p.2 ^ 5))) tmax2

end IMT.Panel
