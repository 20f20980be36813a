import Verif.Bl.FieldModel
import Verif.Bl.Blasius

/-!
C334: the velocity profiles of a Blasius layer, confined or not.  C335, C336: boundary layers of fields.
-/

namespace IMT.Bl

/-! ### C334 -/

theorem withConfinement_some {b : Blasius} {turb : Bool} {h x : ℝ} : ∃ d, b.withConfinement turb h [x] = .ok [d] := by
  unfold Blasius.withConfinement Blasius.properties
  simp only [Perc.coef, Blasius.turns]
  unfold Blasius.turn
  by_cases h0 : x = 0
  · exact ⟨confined edge.delta h, by simp [h0]⟩
  · by_cases h1 : b.re x < 5e5 ∧ turb = false
    · exact ⟨confined (b.laminar 4.91 x).delta h, by simp only [if_neg h0, if_pos h1]; rfl⟩
    · exact ⟨confined (b.turbulent x).delta h, by simp only [if_neg h0, if_neg h1, reduceCtorEq, if_false]; rfl⟩

/-- C334: no turbulent profile is ever returned, confined or not: `AttributeError`. -/
theorem C334_turbulent_violated (b : Blasius) (f1 : ℝ → ℝ) (x h : ℝ) (ys : List ℝ) :
    b.profile true f1 x ys = .error .attributeError ∧ b.profileConfined true f1 x h ys = .error .attributeError := by
  refine ⟨rfl, ?_⟩
  obtain ⟨d, hd⟩ := withConfinement_some (b := b) (turb := true) (h := h) (x := x)
  unfold Blasius.profileConfined
  rw [hd]
  rfl

theorem stretch {b : Blasius} (hb : b.Phys) {d : ℝ} (hd : d ≠ 0) (y : ℝ) :
    b.similar (d ^ 2 * b.U / (4.92 ^ 2 * b.nu)) y = 4.92 * y / |d| := by
  have h1 := hb.1
  have h2 := hb.2
  unfold Blasius.similar
  have e : √(d ^ 2 * b.U / (4.92 ^ 2 * b.nu)) * √(b.nu / b.U) = |d| / 4.92 := by
    rw [← Real.sqrt_mul (by positivity), show d ^ 2 * b.U / (4.92 ^ 2 * b.nu) * (b.nu / b.U) = (d / 4.92) ^ 2 by field_simp, Real.sqrt_sq_eq_abs,
      abs_div, abs_of_pos (by norm_num : (0 : ℝ) < 4.92)]
  rw [e]
  have : |d| ≠ 0 := abs_ne_zero.mpr hd
  field_simp

/-- C334: as long as the laminar position of the confined thickness `d` is not beyond a Reynolds number of 5e5, the confined
profile is the Blasius profile stretched so that the height `|d|` is at 4.92 units of similarity. -/
theorem C334_stretched_partial {b : Blasius} (hb : b.Phys) (f1 : ℝ → ℝ) (x h d : ℝ) (ys : List ℝ)
    (hd : b.withConfinement false h [x] = .ok [d]) (h0 : d ≠ 0) (hr : b.U * (d ^ 2 * b.U / (4.92 ^ 2 * b.nu)) / b.nu ≤ 5e5) :
    b.profileConfined false f1 x h ys = .ok (ys.map fun y => f1 (4.92 * y / |d|) * b.U) := by
  unfold Blasius.profileConfined
  rw [hd]
  simp only [Blasius.profile, Bool.false_eq_true, if_false, Except.ok.injEq]
  apply List.map_congr_left
  intro y _
  unfold Blasius.velocity Blasius.xFromDelta
  rw [if_neg (by unfold Blasius.re; simp only [Bool.false_eq_true, or_false, gt_iff_lt, not_lt]; exact hr), stretch hb h0]

/-- C334: beyond, the position is that of a turbulent layer but the profile is the laminar one, so that it has not the
confined thickness: the height `d` is not at 4.92 units of similarity. -/
theorem C334_switch_violated {b : Blasius} (hb : b.Phys) (f1 : ℝ → ℝ) (x h d : ℝ) (ys : List ℝ)
    (hd : b.withConfinement false h [x] = .ok [d]) (h0 : 0 < d) (hr : 5e5 < b.U * (d ^ 2 * b.U / (4.92 ^ 2 * b.nu)) / b.nu) :
    ∃ s, b.profileConfined false f1 x h ys = .ok (ys.map fun y => f1 (s * y) * b.U) ∧ s * d ≠ 4.92 := by
  have h1 := hb.1
  have h2 := hb.2
  let q := (d * b.U ^ (0.2 : ℝ) / (0.3806 * b.nu ^ (0.2 : ℝ))) ^ ((1 : ℝ) / 0.8)
  have hq : b.xFromDelta false d = q := by
    unfold Blasius.xFromDelta
    exact if_pos (Or.inl hr)
  have u0 := Real.rpow_pos_of_pos h1 0.2
  have n0 := Real.rpow_pos_of_pos h2 0.2
  have base : 0 < d * b.U ^ (0.2 : ℝ) / (0.3806 * b.nu ^ (0.2 : ℝ)) := by positivity
  have q0 : 0 < q := Real.rpow_pos_of_pos base _
  refine ⟨1 / (√q * √(b.nu / b.U)), ?_, ?_⟩
  · unfold Blasius.profileConfined
    rw [hd]
    simp only [Blasius.profile, Bool.false_eq_true, if_false, hq, Except.ok.injEq]
    apply List.map_congr_left
    intro y _
    unfold Blasius.velocity Blasius.similar
    rw [one_div_mul_eq_div]
  · intro e
    have sq : √q * √(b.nu / b.U) = √(q * (b.nu / b.U)) := by rw [Real.sqrt_mul q0.le]
    have pos : 0 < √(q * (b.nu / b.U)) := Real.sqrt_pos.mpr (by positivity)
    rw [sq, one_div_mul_eq_div, div_eq_iff pos.ne'] at e
    -- the laminar position of `d` is `q`
    have lam : d ^ 2 * b.U / (4.92 ^ 2 * b.nu) = q := by
      rw [e, mul_pow, Real.sq_sqrt (by positivity)]
      field_simp
    rw [lam] at hr
    have r5 : 5e5 ≤ b.re q := hr.le
    have lt := laminar_lt_turbulent r5
    have t8 : q ^ (0.8 : ℝ) = d * b.U ^ (0.2 : ℝ) / (0.3806 * b.nu ^ (0.2 : ℝ)) := by
      rw [← Real.rpow_mul base.le]
      norm_num
    have turb : b.nu / b.U * (0.3806 * b.re q ^ (0.8 : ℝ)) = d := by
      rw [← turbulent_delta hb q0]
      show q * 0.3806 / (b.U * q / b.nu) ^ (0.2 : ℝ) = d
      rw [Real.div_rpow (by positivity) h2.le, Real.mul_rpow h1.le q0.le]
      have qq := Real.rpow_pos_of_pos q0 0.2
      have : q / q ^ (0.2 : ℝ) = d * b.U ^ (0.2 : ℝ) / (0.3806 * b.nu ^ (0.2 : ℝ)) := by rw [div_rpow_fifth q0, t8]
      have e2 : q * 0.3806 / (b.U ^ (0.2 : ℝ) * q ^ (0.2 : ℝ) / b.nu ^ (0.2 : ℝ)) = q / q ^ (0.2 : ℝ) * (0.3806 * b.nu ^ (0.2 : ℝ) / b.U ^ (0.2 : ℝ)) := by
        field_simp
      rw [e2, this]
      field_simp
    have lamd : b.nu / b.U * (4.92 * √(b.re q)) = d := by
      rw [e]
      have : √(q * (b.nu / b.U)) = b.nu / b.U * √(b.re q) := by
        rw [show q * (b.nu / b.U) = (b.nu / b.U) ^ 2 * b.re q by unfold Blasius.re; field_simp, Real.sqrt_mul (by positivity),
          Real.sqrt_sq (by positivity)]
      rw [this]; ring
    have k : 0 < b.nu / b.U := by positivity
    have := mul_lt_mul_of_pos_left lt k
    rw [turb, lamd] at this
    exact lt_irrefl _ this

end IMT.Bl

namespace IMT.Meas

open IMT.Profile IMT.Line

/-! ### C335 -/

theorem collect_iff {α β : Type} (g : α → Res β) (l : List α) (r : List β) :
    collect (l.map g) = .ok r ↔ List.Forall₂ (fun a b => g a = .ok b) l r := by
  induction l generalizing r with
  | nil =>
    constructor
    · intro h; cases h; exact .nil
    · intro h; cases h; rfl
  | cons a l ih =>
    simp only [List.map_cons]
    cases hg : g a with
    | error e =>
      simp only [collect]
      constructor
      · intro h; cases h
      · intro h; cases h with | cons h1 _ => rw [hg] at h1; cases h1
    | ok b =>
      simp only [collect]
      cases hc : collect (l.map g) with
      | error e =>
        constructor
        · intro h; cases h
        · intro h
          cases h with
          | cons _ h2 => rw [(ih _).2 h2] at hc; cases hc
      | ok r' =>
        constructor
        · intro h; cases h; exact .cons hg ((ih _).1 hc)
        · intro h
          cases h with
          | cons h1 h2 =>
            rw [hg] at h1
            cases h1
            rw [(ih _).2 h2] at hc
            cases hc
            rfl

theorem forall2_zip {α β γ : Type} {P : α → β → Prop} {Q : β → γ → Prop} {l : List α} {m : List β} {r : List γ}
    (h1 : List.Forall₂ P l m) (h2 : List.Forall₂ Q m r) :
    (l.zip r).map Prod.fst = l ∧ ∀ a c, (a, c) ∈ l.zip r → ∃ b, P a b ∧ Q b c := by
  induction h1 generalizing r with
  | nil => cases h2; exact ⟨rfl, by intro a c h; simp at h⟩
  | cons p _ ih =>
    cases h2 with
    | cons q h2 =>
      obtain ⟨e, k⟩ := ih h2
      refine ⟨by simp [e], ?_⟩
      intro a c h
      rcases List.mem_cons.mp h with h | h
      · cases h; exact ⟨_, p, q⟩
      · exact k a c h

/-- What is expected of a thickness of a field along one axis: one point for each position of this axis, with the thickness of
the profile taken there. -/
def Shows (thick : Prof → Res F) (line : Rat → Res Prof) (axe : List Rat) (l : List (Rat × F)) : Prop :=
  l.map Prod.fst = axe ∧ ∀ x t, (x, t) ∈ l → ∃ p, line x = .ok p ∧ thick p = .ok t

/-- C335: with the direction 'y', the thicknesses of a field are those of its profiles at the positions of the second axis. -/
theorem C335_letter_partial (thick : Prof → Res F) (main : Bool) (srt : List Rat → List Nat) (f : SF) (l : List (Rat × F))
    (h : onField thick main srt f (.str "y") = .ok l) : Shows thick (fun y => getProfile main srt f .y y .linear) f.ay l := by
  unfold onField at h
  have sw : swept f (.str "y") = f.ay := rfl
  rw [sw] at h
  cases hp : collect (f.ay.map (lineAt main srt f (.str "y"))) with
  | error e => rw [hp] at h; cases h
  | ok ps =>
    rw [hp] at h
    simp only at h
    cases hv : collect (ps.map thick) with
    | error e => rw [hv] at h; cases h
    | ok vs =>
      rw [hv] at h
      cases h
      have a := (collect_iff _ _ _).1 hp
      have b := (collect_iff _ _ _).1 hv
      obtain ⟨e, k⟩ := forall2_zip a b
      refine ⟨e, fun x t hx => ?_⟩
      obtain ⟨p, p1, p2⟩ := k x t hx
      exact ⟨p, by simpa [lineAt] using p1, p2⟩

/-- C335: in particular the thickness, the displacement thickness and the momentum thickness given at a position are those of the
profile of the field there. -/
theorem C335_three_partial (main : Bool) (srt : List Rat → List Nat) (f : SF) (perc : Rat) (l : List (Rat × F)) (y : Rat) (t : F)
    (ht : (y, t) ∈ l) :
    (thicknessOn perc main srt f (.str "y") = .ok l →
      ∃ p v, getProfile main srt f .y y .linear = .ok p ∧ thickness p perc = .ok v ∧ t = some v) ∧
    (displOn main srt f (.str "y") = .ok l →
      ∃ p o, getProfile main srt f .y y .linear = .ok p ∧ displThickness srt p = .ok o ∧ t = o.val) ∧
    (momOn main srt f (.str "y") = .ok l →
      ∃ p o, getProfile main srt f .y y .linear = .ok p ∧ momThickness srt p = .ok o ∧ t = o.val) := by
  refine ⟨fun h => ?_, fun h => ?_, fun h => ?_⟩
  · obtain ⟨p, a, b⟩ := (C335_letter_partial _ main srt f l h).2 y t ht
    cases hq : thickness p perc with
    | error e => simp only [hq] at b; cases b
    | ok v => simp only [hq] at b; cases b; exact ⟨p, v, a, hq, rfl⟩
  · obtain ⟨p, a, b⟩ := (C335_letter_partial _ main srt f l h).2 y t ht
    cases hq : displThickness srt p with
    | error e => simp only [hq] at b; cases b
    | ok v => simp only [hq] at b; cases b; exact ⟨p, v, a, hq, rfl⟩
  · obtain ⟨p, a, b⟩ := (C335_letter_partial _ main srt f l h).2 y t ht
    cases hq : momThickness srt p with
    | error e => simp only [hq] at b; cases b
    | ok v => simp only [hq] at b; cases b; exact ⟨p, v, a, hq, rfl⟩

/-- C335 fails for the directions of the documentation: with 1 or 2, as with any other number, `TypeError`, for every field that has
a node. -/
theorem C335_number_violated (thick : Prof → Res F) (main : Bool) (srt : List Rat → List Nat) (f : SF) (n : Int) (hx : f.ax ≠ [])
    (hy : f.ay ≠ []) : onField thick main srt f (.num n) = .error .typeError := by
  unfold onField
  have ne : swept f (.num n) ≠ [] := by unfold swept; split <;> assumption
  cases hs : swept f (.num n) with
  | nil => exact absurd hs ne
  | cons a l => rfl

/-- C335: with the direction 'x', the positions are not those of the first axis but those of the second one. -/
theorem C335_x_violated (thick : Prof → Res F) (main : Bool) (srt : List Rat → List Nat) (f : SF) (l : List (Rat × F)) (hne : f.ax ≠ f.ay)
    (h : onField thick main srt f (.str "x") = .ok l) :
    l.map Prod.fst = f.ay ∧ ¬ Shows thick (fun x => getProfile main srt f .x x .linear) f.ax l := by
  have key : l.map Prod.fst = f.ay := by
    unfold onField at h
    have sw : swept f (.str "x") = f.ay := rfl
    rw [sw] at h
    cases hp : collect (f.ay.map (lineAt main srt f (.str "x"))) with
    | error e => rw [hp] at h; cases h
    | ok ps =>
      rw [hp] at h
      simp only at h
      cases hv : collect (ps.map thick) with
      | error e => rw [hv] at h; cases h
      | ok vs =>
        rw [hv] at h
        cases h
        exact (forall2_zip ((collect_iff _ _ _).1 hp) ((collect_iff _ _ _).1 hv)).1
  exact ⟨key, fun s => hne (s.1.symm.trans key)⟩

/-- C335: with the direction 'y', the units of the two axes of the result are exchanged. -/
theorem C335_unit_violated (f : SF) (h : f.ux ≠ f.uy) : (onFieldUnits f).1 ≠ f.uy ∧ (onFieldUnits f).2 ≠ f.ux := ⟨h, h.symm⟩

/-- C335: the shear stress of a field is never returned: `ValueError` for a direction that is not 1 or 2, `TypeError` for 1 and 2. -/
theorem C335_shear_violated (stress : List Prof → Res (List (List F))) (main : Bool) (srt : List Rat → List Nat) (f : SF) (d : DirArg)
    (nu : Rat) (hnu : 0 < nu) (hx : f.ax ≠ []) (hy : f.ay ≠ []) :
    shearOn stress main srt f d nu = .error (if d = .num 1 ∨ d = .num 2 then .typeError else .valueError) := by
  unfold shearOn
  rw [if_neg (not_le.mpr hnu)]
  by_cases h : d = .num 1 ∨ d = .num 2
  · have k : ¬ (d ≠ .num 1 ∧ d ≠ .num 2) := by rintro ⟨a, b⟩; rcases h with h | h <;> contradiction
    rw [if_neg k, if_pos h]
    obtain ⟨n, rfl⟩ : ∃ n, d = .num n := by rcases h with h | h <;> exact ⟨_, h⟩
    have ne : swept f (.num n) ≠ [] := by unfold swept; split <;> assumption
    cases hs : swept f (.num n) with
    | nil => exact absurd hs ne
    | cons a l => rfl
  · rw [not_or] at h
    rw [if_pos h, if_neg (by rintro (c | c); exact h.1 c; exact h.2 c)]

/-! ### C336 -/

/-- C336: the position of the separation of a field is never returned, whatever the field, the wall, the interval and the number of
lines: `TypeError` for a vector field, or `Exception` when there is no line to look at. -/
theorem C336_separation_violated (kind : Kind) (main : Bool) (srt : List Rat → List Nat) (f : SF) (dir : Int) (w : Rat) (nmb : Int)
    (inds : Rat → Nat × Nat) (zeros : Prof → List Rat) (fit : List (Rat × List Rat) → Res Rat) :
    ∃ e, separation kind main srt f dir w nmb inds zeros fit = .error e := by
  unfold separation
  split
  · exact ⟨_, rfl⟩
  · cases kind with
    | scalar => exact ⟨_, rfl⟩
    | vector =>
      simp only
      cases hl : linesAround (swept f (.num dir)) w nmb inds with
      | error e => exact ⟨_, rfl⟩
      | ok ls =>
        cases ls with
        | nil => exact ⟨_, rfl⟩
        | cons a l => exact ⟨_, rfl⟩

/-- C336: with a wall below the field and at least one line asked for, it is `TypeError`. -/
theorem C336_error (main : Bool) (srt : List Rat → List Nat) (f : SF) (dir : Int) (hd : dir = 1 ∨ dir = 2) (w : Rat) (nmb : Int)
    (hn : 0 < nmb) (hx : f.ax ≠ []) (hy : f.ay ≠ []) (hw : w < (swept f (.num dir)).getD 0 0)
    (inds : Rat → Nat × Nat) (zeros : Prof → List Rat) (fit : List (Rat × List Rat) → Res Rat) :
    separation .vector main srt f dir w nmb inds zeros fit = .error .typeError := by
  unfold separation linesAround
  rw [if_neg (by rintro ⟨a, b⟩; rcases hd with h | h <;> contradiction), if_pos hw]
  have ne : swept f (.num dir) ≠ [] := by unfold swept; split <;> assumption
  cases hs : swept f (.num dir) with
  | nil => exact absurd hs ne
  | cons a l =>
    obtain ⟨k, hk⟩ : ∃ k : Nat, nmb.toNat = k + 1 := ⟨nmb.toNat - 1, by omega⟩
    have : cut (a :: l) 0 nmb = a :: l.take k := by
      unfold cut slice
      rw [if_neg (by omega), if_neg (by omega), hk]
      simp
    simp only [this]
    rfl

/-- A field with profiles, and the thicknesses along its second axis. -/
def exField : SF := ⟨[0, 1, 2], [0, 1], ⟨3, 2, fun i _ => some (i : Rat)⟩, ⟨3, 2, fun _ _ => false⟩, Sym.mm, Sym.m, Sym.one⟩

example : (thicknessOn (1 / 2) false (fun l => List.range l.length) exField (.str "y")).toOption = some [(0, some 1), (1, some 1)] := by
  decide +kernel

/-- A field that increases along its second axis. -/
def exField' : SF := ⟨[0, 1, 2], [0, 1], ⟨3, 2, fun i j => some (i + j + 1 : Rat)⟩, ⟨3, 2, fun _ _ => false⟩, Sym.mm, Sym.m, Sym.one⟩

example : (thicknessOn 1 false (fun l => List.range l.length) exField' (.str "x")).toOption = some [(0, some 1), (1, some 1)] ∧
    exField'.ax ≠ exField'.ay := by decide +kernel

end IMT.Meas
