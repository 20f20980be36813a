import Verif.Points.KindsModel
import Verif.Points.Density

/-!
Property C356: density of the critical points of a kind.
-/

namespace IMT.Cloud

variable {K : List (Rat × Rat) → Rat → Rat → Rat} {f : List (Rat × Rat) → Rat} {res : Int} {c : Kinds}

/-! ### specification -/

/-- The points of a kind, in all the fields. -/
def Kinds.all (c : Kinds) : Kind → List (Rat × Rat)
  | .foc => c.foc.flatten
  | .focC => c.focC.flatten
  | .sadd => c.sadd.flatten
  | .nodeI => c.nodeI.flatten
  | .nodeO => c.nodeO.flatten
  | .other => []

/-- The number of points of all kinds. -/
def Kinds.number (c : Kinds) : Nat :=
  (c.all .foc).length + (c.all .focC).length + (c.all .nodeI).length + (c.all .nodeO).length + (c.all .sadd).length

/-! ### helper lemmas -/

theorem countPts_flatten (pts : List (List (Rat × Rat))) : countPts pts = pts.flatten.length := by
  unfold countPts
  rw [List.length_flatten]

theorem total_number : c.total = c.number := by
  unfold Kinds.total Kinds.iter Kinds.number Kinds.all
  simp only [List.map_cons, List.map_nil, List.sum_cons, List.sum_nil, countPts_flatten]
  omega

theorem of_all {k : Kind} {pts : List (List (Rat × Rat))} (h : c.of k = .ok pts) : pts.flatten = c.all k := by
  cases k <;> cases h <;> rfl

theorem scale_mass (d : Dens) (a : Rat) : ({ d with v := fun i j => d.v i j * a } : Dens).mass = d.mass * a := by
  unfold Dens.mass
  simp only [← Finset.sum_mul]
  ring

/-- The density of a kind is that of its points. -/
theorem kind_ok {fmt : Option Format} {k : Kind} {d : Dens} (h : kindDensity K f res fmt c k = .ok (some d)) :
    ∃ e, density (K (c.all k)) (f (c.all k)) res (fmt.getD .normalized) (c.all k) = .ok (some e) ∧
      (∀ g, fmt = some g → d = e) ∧ (fmt = none → d = { e with v := fun i j => e.v i j * ((c.all k).length / c.number) }) := by
  unfold kindDensity at h
  cases hk : c.of k with
  | error e => simp only [hk] at h; cases h
  | ok pts =>
    simp only [hk] at h
    rw [of_all hk] at h
    cases hd : density (K (c.all k)) (f (c.all k)) res (fmt.getD .normalized) (c.all k) with
    | error e => simp only [hd] at h; cases h
    | ok o =>
      simp only [hd] at h
      cases fmt with
      | none =>
        cases o with
        | none => cases h
        | some e =>
          cases h
          refine ⟨e, rfl, fun g hg => (by cases hg), fun _ => ?_⟩
          rw [countPts_flatten, of_all hk, total_number]
      | some g =>
        simp only at h
        by_cases hp : pts = []
        · rw [if_pos hp] at h
          cases h
        · rw [if_neg hp] at h
          cases h
          exact ⟨d, rfl, fun _ _ => rfl, fun hc => by cases hc⟩

/-! ### C356 -/

/-- C356: the density of a kind, when there is one, is that of all the points of the kind, and has the mass that its format asks for. -/
theorem C356_mass_partial (hK : ∀ l x y, 0 < K l x y) (hf : ∀ l, 0 ≤ f l) {fmt : Format} {k : Kind} {d : Dens}
    (h : kindDensity K f res (some fmt) c k = .ok (some d)) :
    density (K (c.all k)) (f (c.all k)) res fmt (c.all k) = .ok (some d) ∧ ∃ m, fmt.Asks (c.all k).length m ∧ d.mass = m := by
  obtain ⟨e, he, h1, _⟩ := kind_ok h
  rw [h1 fmt rfl]
  exact ⟨he, (C339_mass_partial _ (hK _) _ (hf _) _ _ _ _ he).1⟩

/-- C356: with 'absolute', its mass is the proportion of the points that are of the kind. -/
theorem C356_absolute_partial (hK : ∀ l x y, 0 < K l x y) (hf : ∀ l, 0 ≤ f l) {k : Kind} {d : Dens}
    (h : kindDensity K f res none c k = .ok (some d)) : d.mass = (c.all k).length / c.number := by
  obtain ⟨e, he, _, h2⟩ := kind_ok h
  obtain ⟨m, hm, hmass⟩ := (C339_mass_partial _ (hK _) _ (hf _) _ _ _ _ he).1
  rw [h2 rfl, scale_mass, hmass, show m = 1 from hm, one_mul]

/-- C356: the masses of the five kinds add up to one. -/
theorem C356_sum_partial (hK : ∀ l x y, 0 < K l x y) (hf : ∀ l, 0 ≤ f l) {d1 d2 d3 d4 d5 : Dens} (h1 : kindDensity K f res none c .foc = .ok (some d1))
    (h2 : kindDensity K f res none c .focC = .ok (some d2)) (h3 : kindDensity K f res none c .nodeI = .ok (some d3))
    (h4 : kindDensity K f res none c .nodeO = .ok (some d4)) (h5 : kindDensity K f res none c .sadd = .ok (some d5)) :
    d1.mass + d2.mass + d3.mass + d4.mass + d5.mass = 1 := by
  rw [C356_absolute_partial hK hf h1, C356_absolute_partial hK hf h2, C356_absolute_partial hK hf h3, C356_absolute_partial hK hf h4,
    C356_absolute_partial hK hf h5, ← add_div, ← add_div, ← add_div, ← add_div]
  have hn : (c.number : Rat) ≠ 0 := by
    obtain ⟨e, he, _⟩ := kind_ok h1
    intro hc
    have hc : c.number = 0 := by exact_mod_cast hc
    have hl : (c.all .foc).length < 2 := by
      unfold Kinds.number at hc
      omega
    rw [(C339_few _ _ _ _ _).1 hl] at he
    cases he
  rw [div_eq_one_iff_eq hn]
  unfold Kinds.number
  push_cast
  ring

/-- C356 fails with 'absolute' for a kind with one point or none, whose density is `None`: `TypeError`. -/
theorem C356_few_violated {k : Kind} (hk : k ≠ .other) (h : (c.all k).length < 2) : kindDensity K f res none c k = .error .typeError := by
  have hd : density (K (c.all k)) (f (c.all k)) res .normalized (c.all k) = .ok none := (C339_few _ _ _ _ _).1 h
  have key : ∀ pts, c.of k = .ok pts → kindDensity K f res none c k = .error .typeError := by
    intro pts hp
    unfold kindDensity
    simp only [hp, of_all hp, Option.getD_none, hd]
    rfl
  cases k with
  | other => exact absurd rfl hk
  | _ => exact key _ rfl

/-- C356 fails in the other formats for a record without any field, where the answer should be `None`: the name is not defined. -/
theorem C356_empty_violated {k : Kind} (hk : c.of k = .ok []) (fmt : Format) : kindDensity K f res (some fmt) c k = .error .nameError := by
  have hd : density (K []) (f []) res fmt [] = .ok none := (C339_few _ _ _ _ _).1 (by simp)
  unfold kindDensity
  simp only [hk, List.flatten_nil, Option.getD_some, hd]
  rfl

/-- C356: an unknown kind is refused. -/
theorem C356_unknown (fmt : Option Format) : kindDensity K f res fmt c .other = .error .valueError := rfl

/-! ### examples -/

/-- Two fields: two foci then one, two nodes, no saddle. -/
def someKinds : Kinds := ⟨[[(0, 0), (2, 1)], [(1, 3)]], [[], []], [[(0, 1)], [(1, 0)]], [[], []], [[], []]⟩

example : ((kindDensity (fun _ _ _ => 1) (fun _ => 0) 4 none someKinds .foc).toOption.map fun o => o.map Dens.mass) = some (some (3 / 5)) := by
  decide +kernel

example : ((kindDensity (fun _ _ _ => 1) (fun _ => 0) 4 (some .ponderated) someKinds .nodeI).toOption.map fun o => o.map Dens.mass) = some (some 2) := by
  decide +kernel

example : (someKinds.all .sadd).length < 2 := by decide

end IMT.Cloud
