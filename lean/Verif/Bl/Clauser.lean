import Verif.Bl.ClauserModel
import Verif.Bl.Layer

/-! Clauser's thickness: C361. -/

namespace IMT.Meas

open IMT.Profile IMT.Line

variable {srt : List Rat → List Nat}

/-- Specification: Clauser's thickness, the integral of `(u_top - u) / u_star` over the points of the layer, with `u_star` the friction velocity. -/
noncomputable def clauserThickness (L : List (Rat × Rat)) (top : Rat) (tau rho : ℝ) : ℝ :=
  (trapz (L.map fun r => (r.1, top - r.2)) : Rat) / Real.sqrt (tau / rho)

/-! ### C361 -/

/-- What is computed: the velocities are multiplied by the ratio of the velocity at the top to the largest one of the layer. -/
theorem clauser_formula (hs : IsArgsort srt) {p : Prof} {t : Rat} (h : OnWall p t) {L : List (Rat × Rat)} (hL : LayerOf p t L) {U top : Rat}
    (hU : Largest L U) (hU0 : U ≠ 0) (ht : (pts p).getLast?.map Prod.snd = some (some top)) {tau rho : ℝ} (h0 : 0 < tau) (h1 : 0 < rho) :
    clauser srt p tau rho = .ok (some ((trapz (L.map fun r => (r.1, top - r.2 * (top / U))) : Rat) / Real.sqrt (tau / rho))) := by
  have hy : (getY p).getLast? = some (some top) := by
    have : getY p = (pts p).map Prod.snd := by rw [getY_valid h.valid, pts_valid h.valid, List.map_snd_zip (by rw [h.valid.1])]
    rw [this, List.getLast?_map]
    exact ht
  have hd := (C173_formula_partial hs h hL hU hU0).1
  unfold clauser
  simp only [hy, hd, Out.val]
  unfold clauserOf
  simp only [if_pos (div_pos h0 h1)]
  have e : trapz (L.map fun r => (r.1, top - r.2 * (top / U))) = trapz (L.map fun r => (r.1, 1 - r.2 / U)) * top := by
    have := trapz_lin top 0 (fun r => 1 - r.2 / U) (fun _ => 0) L
    rw [mul_comm, show top * trapz (L.map fun r => (r.1, 1 - r.2 / U)) =
      top * trapz (L.map fun r => (r.1, 1 - r.2 / U)) + 0 * trapz (L.map fun r => (r.1, 0)) by ring, ← this]
    congr 1
    refine List.map_congr_left fun r _ => ?_
    congr 1
    field_simp
    ring
  rw [e]
  push_cast
  rfl

/-- C361, when the largest velocity of the layer is that of the top: Clauser's thickness is given. -/
theorem C361_profile_partial (hs : IsArgsort srt) {p : Prof} {t : Rat} (h : OnWall p t) {L : List (Rat × Rat)} (hL : LayerOf p t L) {top : Rat}
    (hU : Largest L top) (hU0 : top ≠ 0) (ht : (pts p).getLast?.map Prod.snd = some (some top)) {tau rho : ℝ} (h0 : 0 < tau) (h1 : 0 < rho) :
    clauser srt p tau rho = .ok (some (clauserThickness L top tau rho)) := by
  rw [clauser_formula hs h hL hU hU0 ht h0 h1]
  simp [clauserThickness, div_self hU0]

/-- C361 fails when the velocity at the top is larger than those of the points below the edge of the layer: the thickness that is given is too small. -/
theorem C361_small_violated (hs : IsArgsort srt) {p : Prof} {t : Rat} (h : OnWall p t) {L : List (Rat × Rat)} (hL : LayerOf p t L) {U top : Rat}
    (hU : Largest L U) (hU0 : 0 < U) (htop : U < top) (hflow : 0 < trapz L) (ht : (pts p).getLast?.map Prod.snd = some (some top))
    {tau rho : ℝ} (h0 : 0 < tau) (h1 : 0 < rho) : ∃ d, clauser srt p tau rho = .ok (some d) ∧ d < clauserThickness L top tau rho := by
  refine ⟨_, clauser_formula hs h hL hU hU0.ne' ht h0 h1, ?_⟩
  refine div_lt_div_of_pos_right ?_ (Real.sqrt_pos.2 (div_pos h0 h1))
  have e : trapz (L.map fun r => (r.1, top - r.2 * (top / U))) =
      trapz (L.map fun r => (r.1, top - r.2)) - (top / U - 1) * trapz L := by
    have := trapz_lin 1 (-(top / U - 1)) (fun r => top - r.2) (fun r => r.2) L
    have el : (L.map fun r => (r.1, r.2)) = L := List.map_id L
    rw [el] at this
    rw [show trapz (L.map fun r => (r.1, top - r.2)) - (top / U - 1) * trapz L =
      1 * trapz (L.map fun r => (r.1, top - r.2)) + -(top / U - 1) * trapz L by ring, ← this]
    congr 1
    refine List.map_congr_left fun r _ => ?_
    congr 1
    ring
  have hr : 0 < top / U - 1 := by rw [sub_pos, lt_div_iff₀ hU0]; linarith
  have hlt : trapz (L.map fun r => (r.1, top - r.2 * (top / U))) < trapz (L.map fun r => (r.1, top - r.2)) := by
    rw [e]
    nlinarith [mul_pos hr hflow]
  exact_mod_cast hlt

/-- C361 fails for every field: there is no result. -/
theorem C361_field_violated (main : Bool) {f : SF} {d : DirArg} (h : swept f d ≠ []) (r : List (Rat × Option ℝ)) : clauserOn main srt f d ≠ .ok r := by
  unfold clauserOn
  cases e : collect ((swept f d).map (lineAt main srt f d)) with
  | error _ => simp
  | ok l =>
    cases l with
    | nil =>
      exfalso
      obtain ⟨a, m, hm⟩ := List.exists_cons_of_ne_nil h
      rw [hm, List.map_cons] at e
      cases hl : lineAt main srt f d a with
      | error _ => rw [hl] at e; cases e
      | ok _ =>
        rw [hl, collect] at e
        cases hc : collect (m.map (lineAt main srt f d)) <;> rw [hc] at e <;> cases e
    | cons a l => simp

/-! ### the hypotheses are met -/

example : ∃ d, clauser argsort exLayer 1 1 = .ok (some d) ∧ d < clauserThickness [(0, 0), (1, 4), (2, 8)] 10 1 1 :=
  C361_small_violated (t := 11 / 4) (U := 8) argsort_ok ⟨by unfold Valid; decide +kernel, by unfold Inc; decide +kernel, by decide +kernel, ⟨1, rfl, by norm_num⟩,
    by decide +kernel⟩ ⟨[(1, 4), (2, 8)], by decide +kernel, by decide +kernel⟩ ⟨by decide +kernel, by decide +kernel⟩ (by norm_num) (by norm_num)
    (by decide +kernel) (by decide +kernel) (by norm_num) (by norm_num)

/-- A wall jet: the velocity at the top is that of the edge of the layer. -/
def jet : Prof := ⟨[1, 2, 3, 4], [some 4, some 8, some 10, some 8], [false, false, false, false], Sym.m, Sym.m⟩

example : clauser argsort jet 1 1 = .ok (some (clauserThickness [(0, 0), (1, 4), (2, 8)] 8 1 1)) :=
  C361_profile_partial (t := 11 / 4) argsort_ok ⟨by unfold Valid; decide +kernel, by unfold Inc; decide +kernel, by decide +kernel, ⟨1, rfl, by norm_num⟩,
    by decide +kernel⟩ ⟨[(1, 4), (2, 8)], by decide +kernel, by decide +kernel⟩ ⟨by decide +kernel, by decide +kernel⟩ (by norm_num) (by decide +kernel)
    (by norm_num) (by norm_num)

end IMT.Meas
