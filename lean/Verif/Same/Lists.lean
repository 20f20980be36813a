import Verif.Same.Props
import Verif.Vector.Geom

/-!
Properties C213 and C214: equality of point sets and of profiles.
-/

namespace IMT.Same

open Points (P)
open Profile (Prof)

variable {mis inc : Res Bool}

/-! ### helper lemmas -/

theorem all1_feq {m : Res Bool} {a b : List (Option Rat)} (h : a.length = b.length) :
    all1 feq m a b = .ok true ↔ a = b ∧ none ∉ a := by
  rw [all1_same h]
  simp only [feq_true]
  constructor
  · intro k
    have e : a = b := by
      have : List.Forall₂ Eq a b := k.imp fun _ _ h => h.1
      rwa [List.forall₂_eq_eq_eq] at this
    subst e
    exact ⟨rfl, fun hn => (List.forall₂_same.mp k none hn).2 rfl⟩
  · rintro ⟨rfl, hn⟩
    exact List.forall₂_same.mpr fun x hx => ⟨rfl, fun e => hn (e ▸ hx)⟩

theorem peq_true {a b : Option Rat × Option Rat} : peq a b = true ↔ a = b ∧ a.1 ≠ none ∧ a.2 ≠ none := by
  unfold peq
  rw [Bool.and_eq_true, feq_true, feq_true]
  obtain ⟨a1, a2⟩ := a
  obtain ⟨b1, b2⟩ := b
  simp only [Prod.mk.injEq]
  tauto

theorem unitEq_refl (u : Sym) : unitEq inc u u = .ok true := by unfold unitEq; rw [if_pos ⟨rfl, rfl, rfl⟩]; simp

/-! ### C213: point sets -/

/-- C213, for sets with as many points and as many values, without NaN: they are equal exactly when they hold the same points with the same values in
the same order, in the same units. -/
theorem C213_points_partial (hi : inc ≠ .ok true) {p q : P} (hl : p.xy.length = q.xy.length) (hv : p.v.length = q.v.length)
    (hn : ∀ a ∈ p.xy, a.1 ≠ none ∧ a.2 ≠ none) (hw : none ∉ p.v) : eqP mis inc p q = .ok true ↔ p = q := by
  unfold eqP
  rw [both_true, both_true, both_true, both_true, all1_same hl, all1_feq hv, unitEq_true hi, unitEq_true hi, unitEq_true hi]
  simp only [peq_true]
  obtain ⟨xy, v, ux, uy, uv⟩ := p
  obtain ⟨xy', v', ux', uy', uv'⟩ := q
  simp only [Points.P.mk.injEq] at hn hw hl hv ⊢
  constructor
  · rintro ⟨k, ⟨h2, -⟩, h3⟩
    have e : List.Forall₂ Eq xy xy' := k.imp fun _ _ h => h.1
    rw [List.forall₂_eq_eq_eq] at e
    exact ⟨e, h2, h3⟩
  · rintro ⟨rfl, rfl, h3⟩
    exact ⟨List.forall₂_same.mpr fun a ha => ⟨rfl, hn a ha⟩, ⟨rfl, hw⟩, h3⟩

/-- C213 fails for a single point: it is equal to any number of copies of itself, none included. -/
theorem C213_copies_violated {x y : Rat} (n : Nat) (ux uy uv : Sym) :
    eqP mis inc ⟨[(some x, some y)], [], ux, uy, uv⟩ ⟨List.replicate n (some x, some y), [], ux, uy, uv⟩ = .ok true := by
  unfold eqP
  simp only [both_true, unitEq_refl, and_true]
  refine ⟨?_, rfl⟩
  unfold all1
  by_cases h : [(some x, some y)].length = (List.replicate n (some x, some y)).length
  · rw [if_pos h]
    have : n = 1 := by simpa using h.symm
    subst this
    simp [peq, feq]
  · rw [if_neg h]
    simp [peq, feq]

/-- C213 fails for a single point on the other side: any set without values, of any length, is equal to a single point as soon as all its points are this point
(and only then). -/
theorem C213_against_single_violated {x y : Rat} (l : List (Option Rat × Option Rat)) (ux uy uv : Sym) :
    eqP mis inc ⟨l, [], ux, uy, uv⟩ ⟨[(some x, some y)], [], ux, uy, uv⟩ = .ok true ↔ ∀ a ∈ l, a = (some x, some y) := by
  have pk : ∀ a : Option Rat × Option Rat, peq a (some x, some y) = true ↔ a = (some x, some y) := by
    rintro ⟨a | a, b | b⟩ <;> simp [peq, feq]
  unfold eqP
  simp only [both_true, unitEq_refl, and_true]
  refine (and_iff_left rfl).trans ?_
  unfold all1
  match l with
  | [] => simp
  | [a] => simp [pk]
  | a :: b :: l => simp [pk]

/-- C213 fails for a single point: with a value it is equal to the same point without value. -/
theorem C213_value_violated {x y w : Rat} (ux uy uv : Sym) :
    eqP mis inc ⟨[(some x, some y)], [some w], ux, uy, uv⟩ ⟨[(some x, some y)], [], ux, uy, uv⟩ = .ok true := by
  unfold eqP
  simp only [both_true, unitEq_refl, and_true]
  exact ⟨by unfold all1; simp [peq, feq], rfl⟩

/-- C213 fails for points with a NaN value: such a set is not equal to itself. -/
theorem C213_nan_violated {p : P} (h : none ∈ p.v) : eqP mis inc p p ≠ .ok true := by
  unfold eqP
  rw [Ne, both_true, both_true, all1_feq rfl]
  rintro ⟨-, ⟨-, hn⟩, -⟩
  exact hn h

/-! ### C214: profiles -/

/-- The points of a profile that are not masked. -/
def shown (p : Prof) : List (Rat × Rat) := (Profile.pts p).filterMap fun e => e.2.map fun v => (e.1, v)

theorem unmasked_valid {p : Prof} (h : Profile.Valid p) :
    unmasked p.x p.m = (shown p).map Prod.fst ∧ unmasked (Profile.getY p) p.m = (shown p).map fun e => some e.2 := by
  obtain ⟨x, y, m, ux, uy⟩ := p
  obtain ⟨hl, hm, -⟩ := h
  simp only at hl hm
  subst hm
  unfold unmasked shown Profile.pts Profile.getY
  simp only
  clear * - hl
  induction y generalizing x with
  | nil => simp [Profile.blank]
  | cons b y ih =>
    cases x with
    | nil => simp at hl
    | cons a x =>
      have hl' : y.length = x.length := by simpa using hl
      obtain ⟨i1, i2⟩ := ih x hl'
      cases b with
      | none =>
        simp only [List.map_cons, Option.isNone_none, List.zip_cons_cons] at *
        constructor
        · simpa [Profile.blank] using i1
        · simpa [Profile.blank] using i2
      | some b =>
        simp only [List.map_cons, Option.isNone_some, List.zip_cons_cons] at *
        constructor
        · simpa [Profile.blank] using i1
        · simpa [Profile.blank] using i2

theorem shown_length {p q : Prof} (hp : Profile.Valid p) (hq : Profile.Valid q) (hm : p.m = q.m) : (shown p).length = (shown q).length := by
  have e : ∀ {r : Prof}, Profile.Valid r → (shown r).length = (r.m.filter fun b => !b).length := by
    intro r hr
    have := (unmasked_valid hr).1
    have h1 : (shown r).length = (unmasked r.x r.m).length := by rw [this, List.length_map]
    rw [h1]
    unfold unmasked
    rw [List.length_map]
    obtain ⟨hl, hm, -⟩ := hr
    have hlen : r.x.length = r.m.length := by rw [hm, List.length_map, hl]
    clear * - hlen
    generalize r.x = x at *
    generalize r.m = m at *
    induction x generalizing m with
    | nil => cases m with
      | nil => rfl
      | cons => simp at hlen
    | cons a x ih =>
      cases m with
      | nil => simp at hlen
      | cons b m =>
        have := ih m (by simpa using hlen)
        cases b <;> simp [this]
  rw [e hp, e hq, hm]

/-- C214, for profiles with as many points: they are equal exactly when the same points are masked, the others are the same, and the units are the
same. -/
theorem C214_profile_partial (hi : inc ≠ .ok true) {p q : Prof} (hp : Profile.Valid p) (hq : Profile.Valid q) (hl : p.x.length = q.x.length) :
    eqF mis inc p q = .ok true ↔
      (Profile.getY p).map Option.isNone = (Profile.getY q).map Option.isNone ∧ shown p = shown q ∧ p.ux = q.ux ∧ p.uy = q.uy := by
  have mk : ∀ {r : Prof}, Profile.Valid r → (Profile.getY r).map Option.isNone = r.m := by
    intro r hr
    rw [Profile.getY_valid hr, hr.2.1]
  have hlm : p.m.length = q.m.length := by rw [hp.2.1, hq.2.1, List.length_map, List.length_map, hp.1, hq.1, hl]
  have e1 : all1 (fun a b : Bool => a == b) mis p.m q.m = .ok true ↔ p.m = q.m := by
    rw [all1_same hlm]
    simp only [beq_iff_eq]
    exact List.forall₂_eq_eq_eq ▸ Iff.rfl
  unfold eqF
  rw [both_true, both_true, both_true, both_true, e1, unitEq_true hi, unitEq_true hi, mk hp, mk hq]
  refine and_congr_right fun hm => ?_
  have hs := shown_length hp hq hm
  rw [(unmasked_valid hp).1, (unmasked_valid hq).1, (unmasked_valid hp).2, (unmasked_valid hq).2, all1_eq (by simpa using hs), all1_feq (by simpa using hs)]
  constructor
  · rintro ⟨h1, ⟨h2, -⟩, h3⟩
    refine ⟨?_, h3⟩
    have h2' : (shown p).map Prod.snd = (shown q).map Prod.snd := by
      have := congrArg (List.map fun o : Option Rat => o.getD 0) h2
      simpa [List.map_map, Function.comp_def] using this
    have := congrArg₂ List.zip h1 h2'
    simpa [List.zip_map', List.map_id'] using this
  · rintro ⟨h1, h3⟩
    rw [h1]
    exact ⟨rfl, ⟨rfl, by simp⟩, h3⟩

/-- C214 fails for profiles of one point: they are all equal to the empty profile. -/
theorem C214_empty_violated {x : Rat} {y : Option Rat} (b : Bool) (ux uy : Sym) :
    eqF mis inc ⟨[x], [y], [b], ux, uy⟩ ⟨[], [], [], ux, uy⟩ = .ok true := by
  unfold eqF
  simp only [both_true, unitEq_refl, and_true]
  cases b <;> exact ⟨rfl, rfl, rfl⟩

/-! ### examples -/

example : eqV (.error .valueError) (.ok false) VF.sample VF.sample = .ok true := by decide +kernel

example : (flat 1).WF ∧ (flat (1 + 1 / 1000000)).WF ∧ eqS (.error .valueError) (.ok false) (flat 1) (flat (1 + 1 / 1000000)) = .ok true ∧
    eqS (.error .valueError) (.ok false) (flat 1) (flat 2) = .ok false :=
  ⟨flat_WF _, flat_WF _, by decide +kernel, by decide +kernel⟩

example : eqP (.ok false) (.ok false) ⟨[(some 1, some 2), (some 3, some 4)], [some 5, some 6], Sym.mm, Sym.mm, Sym.s⟩
    ⟨[(some 1, some 2), (some 3, some 4)], [some 5, some 7], Sym.mm, Sym.mm, Sym.s⟩ = .ok false := by decide +kernel

example : Profile.Valid ⟨[0, 1, 2], [some 1, none, some 3], [false, true, false], Sym.mm, Sym.s⟩ ∧
    eqF (.ok false) (.ok false) ⟨[0, 1, 2], [some 1, none, some 3], [false, true, false], Sym.mm, Sym.s⟩
      ⟨[0, 3/2, 2], [some 1, none, some 3], [false, true, false], Sym.mm, Sym.s⟩ = .ok true ∧
    eqF (.ok false) (.ok false) ⟨[0, 1, 2], [some 1, none, some 3], [false, true, false], Sym.mm, Sym.s⟩
      ⟨[0, 1, 2], [some 1, none, some 4], [false, true, false], Sym.mm, Sym.s⟩ = .ok false :=
  ⟨by unfold Profile.Valid; decide +kernel, by decide +kernel, by decide +kernel⟩

end IMT.Same
