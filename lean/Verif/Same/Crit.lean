import Verif.Same.CritModel
import Verif.Same.Lists

/-!
Property C288: equality of sets of critical points.
-/

namespace IMT.Same

open Cp (Kind kinds)
open Cps (CP Trajs)
open Points (P)

variable {mis inc : Res Bool}

/-! ### helper lemmas -/

theorem allR_true {l : List (Res Bool)} : allR l = .ok true ↔ ∀ r ∈ l, r = .ok true := by
  induction l with
  | nil => simp [allR]
  | cons a l ih =>
    rw [List.forall_mem_cons, ← ih]
    cases a with
    | error e => simp [allR]
    | ok b =>
      simp only [allR]
      cases allR l with
      | error e => simp
      | ok c => simp

theorem all1R_plain {α : Type} {op : α → α → Res Bool} (hm : mis ≠ .ok true) {a b : List α} (h : Plain a b) :
    all1R op mis a b = .ok true ↔ List.Forall₂ (fun x y => op x y = .ok true) a b := by
  unfold all1R
  by_cases hl : a.length = b.length
  · rw [if_pos hl, allR_true, List.forall₂_iff_zip]
    constructor
    · intro k
      exact ⟨hl, fun {x y} hxy => k _ (List.mem_map.mpr ⟨(x, y), hxy, rfl⟩)⟩
    · intro k r hr
      obtain ⟨⟨x, y⟩, hq, rfl⟩ := List.mem_map.mp hr
      exact k.2 hq
  · rw [if_neg hl]
    have hl2 : ¬ List.Forall₂ (fun x y => op x y = .ok true) a b := fun k => hl k.length_eq
    rcases h with h | ⟨h1, h2⟩
    · exact absurd h hl
    · split
      · simp at h1
      · simp at h2
      · exact ⟨fun e => absurd e hm, fun k => absurd k hl2⟩

theorem all1_plain {α : Type} {op : α → α → Bool} (hm : mis ≠ .ok true) {a b : List α} (h : Plain a b) :
    all1 op mis a b = .ok true ↔ List.Forall₂ (fun x y => op x y = true) a b := by
  by_cases hl : a.length = b.length
  · exact all1_same hl
  · unfold all1
    rw [if_neg hl]
    have hl2 : ¬ List.Forall₂ (fun x y => op x y = true) a b := fun k => hl k.length_eq
    rcases h with h | ⟨h1, h2⟩
    · exact absurd h hl
    · split
      · simp at h1
      · simp at h2
      · exact ⟨fun e => absurd e hm, fun k => absurd k hl2⟩

theorem listR_true {α : Type} {op : α → α → Res Bool} {l k : List α} : listR op l k = .ok true ↔ List.Forall₂ (fun a b => op a b = .ok true) l k := by
  induction l generalizing k with
  | nil => cases k <;> simp [listR]
  | cons a l ih =>
    cases k with
    | nil => simp [listR]
    | cons b k =>
      unfold listR
      rw [List.forall₂_cons, ← ih]
      split
      · exact both_true
      · rename_i h
        constructor
        · intro e; cases e
        · rintro ⟨-, e⟩
          exact absurd (ih.1 e).length_eq h

theorem eqP_plain (hm : mis ≠ .ok true) (hi : inc ≠ .ok true) {p q : P} (h : PlainSets p q) : eqP mis inc p q = .ok true ↔ p = q := by
  obtain ⟨h1, h2, h3, h4⟩ := h
  by_cases hl : p.xy.length = q.xy.length
  · by_cases hv : p.v.length = q.v.length
    · exact C213_points_partial hi hl hv h3 h4
    · constructor
      · intro e
        unfold eqP at e
        rw [both_true, both_true, all1_plain hm h2] at e
        exact absurd e.2.1.length_eq hv
      · rintro rfl; exact absurd rfl hv
  · constructor
    · intro e
      unfold eqP at e
      rw [both_true, all1_plain hm h1] at e
      exact absurd e.1.length_eq hl
    · rintro rfl; exact absurd rfl hl

/-- Corresponding sets. -/
theorem sets_eq (hm : mis ≠ .ok true) (hi : inc ≠ .ok true) {l k : List P}
    (h : ∀ (i : Nat) (p q : P), l[i]? = some p → k[i]? = some q → PlainSets p q) :
    List.Forall₂ (fun a b => eqP mis inc a b = .ok true) l k ↔ l = k := by
  constructor
  · intro e
    rw [List.forall₂_iff_get] at e
    refine List.ext_getElem e.1 fun i h1 h2 => ?_
    exact (eqP_plain hm hi (h i _ _ (List.getElem?_eq_getElem h1) (List.getElem?_eq_getElem h2))).mp (e.2 i h1 h2)
  · rintro rfl
    rw [List.forall₂_same]
    intro p hp
    obtain ⟨i, hi'⟩ := List.getElem?_of_mem hp
    exact (eqP_plain hm hi (h i p p hi' hi')).mpr rfl

theorem kindsR_true {a b : CP} {l : List Kind} : kindsR mis inc a b l = .ok true ↔ ∀ k ∈ l, kindR mis inc a b k = .ok true := by
  induction l with
  | nil => simp [kindsR]
  | cons k ks ih => unfold kindsR; rw [both_true, ih, List.forall_mem_cons]

theorem mem_kinds (k : Kind) : k ∈ kinds := by cases k <;> simp [kinds]

theorem trajR_true (hm : mis ≠ .ok true) (hi : inc ≠ .ok true) {s t : Option Trajs}
    (he : ∀ r, (s = some r ∨ t = some r) → r.nd = true → r.sets ≠ [])
    (h : ∀ x y, s = some x → t = some y → Plain x.sets y.sets ∧
      ∀ (i : Nat) (p q : P), x.sets[i]? = some p → y.sets[i]? = some q → PlainSets p q) :
    trajR (eqP mis inc) mis s t = .ok true ↔ trajSets s = trajSets t := by
  match s, t with
  | none, none => simp [trajR, trajSets]
  | none, some t =>
    simp only [trajR, trajSets, Except.ok.injEq, Bool.and_eq_true, decide_eq_true_eq, Option.map_none, Option.map_some, reduceCtorEq, iff_false, not_and]
    exact fun h1 => he t (.inr rfl) h1
  | some s, none =>
    simp only [trajR, trajSets, Except.ok.injEq, Bool.and_eq_true, decide_eq_true_eq, Option.map_none, Option.map_some, reduceCtorEq, iff_false, not_and]
    exact fun h1 => he s (.inl rfl) h1
  | some s, some t =>
    obtain ⟨h1, h2⟩ := h s t rfl rfl
    simp only [trajR, trajSets, Option.map_some, Option.some.injEq]
    split
    · rw [all1R_plain hm h1, sets_eq hm hi h2]
    · rw [listR_true, sets_eq hm hi h2]

/-! ### C288 -/

/-- C288, for sets that numpy does not stretch and without NaN: two sets of critical points are equal exactly when they hold the same points
of each kind at the same instants, in the same units, with the same trajectories. -/
theorem C288_equal_partial (hm : mis ≠ .ok true) (hi : inc ≠ .ok true) (a b : CP) (ht : Plain b.times a.times)
    (hp : ∀ k, Plain (b.pts k) (a.pts k) ∧ ∀ (i : Nat) (p q : P), (b.pts k)[i]? = some p → (a.pts k)[i]? = some q → PlainSets p q)
    (he : ∀ k r, (b.traj k = some r ∨ a.traj k = some r) → r.nd = true → r.sets ≠ [])
    (hr : ∀ k x y, b.traj k = some x → a.traj k = some y → Plain x.sets y.sets ∧
      ∀ (i : Nat) (p q : P), x.sets[i]? = some p → y.sets[i]? = some q → PlainSets p q) :
    eqC mis inc a b = .ok true ↔
      a.times = b.times ∧ (∀ k, a.pts k = b.pts k) ∧ (∀ k, trajSets (a.traj k) = trajSets (b.traj k)) ∧
        a.ut = b.ut ∧ a.ux = b.ux ∧ a.uy = b.uy := by
  unfold eqC
  rw [both_true, both_true, both_true, both_true, kindsR_true, unitEq_true hi, unitEq_true hi, unitEq_true hi, all1_plain hm ht]
  have e1 : (∀ k ∈ kinds, kindR mis inc a b k = .ok true) ↔
      (∀ k, a.pts k = b.pts k) ∧ ∀ k, trajSets (a.traj k) = trajSets (b.traj k) := by
    rw [← forall_and]
    constructor
    · intro h k
      have := h k (mem_kinds k)
      unfold kindR at this
      rw [both_true, all1R_plain hm (hp k).1, sets_eq hm hi (hp k).2, trajR_true hm hi (he k) (hr k)] at this
      exact ⟨this.1.symm, this.2.symm⟩
    · intro h k _
      unfold kindR
      rw [both_true, all1R_plain hm (hp k).1, sets_eq hm hi (hp k).2, trajR_true hm hi (he k) (hr k)]
      exact ⟨(h k).1.symm, (h k).2.symm⟩
  have e2 : List.Forall₂ (fun x y : Rat => decide (x = y) = true) b.times a.times ↔ a.times = b.times := by
    simp only [decide_eq_true_eq]
    rw [List.forall₂_eq_eq_eq]
    exact eq_comm
  rw [e1, e2]
  constructor
  · rintro ⟨⟨h1, h2⟩, h3, h4, h5, h6⟩; exact ⟨h6, h1, h2, h3.symm, h4.symm, h5.symm⟩
  · rintro ⟨h6, h1, h2, h3, h4, h5⟩; exact ⟨⟨h1, h2⟩, h3.symm, h4.symm, h5.symm, h6⟩

/-- The coordinates and the values are numbers. -/
def NoNaN (p : P) : Prop := (∀ a ∈ p.xy, a.1 ≠ none ∧ a.2 ≠ none) ∧ none ∉ p.v

/-- C288: a set of critical points without NaN is equal to a copy of itself. -/
theorem C288_refl (hm : mis ≠ .ok true) (hi : inc ≠ .ok true) (a : CP) (hp : ∀ k, ∀ p ∈ a.pts k, NoNaN p)
    (ht : ∀ k t, a.traj k = some t → (t.nd = true → t.sets ≠ []) ∧ ∀ p ∈ t.sets, NoNaN p) : eqC mis inc a a = .ok true := by
  have key : ∀ l : List P, (∀ p ∈ l, NoNaN p) → ∀ (i : Nat) (p q : P), l[i]? = some p → l[i]? = some q → PlainSets p q := by
    intro l hl i p q h1 h2
    rw [h1] at h2
    cases h2
    have := hl p (List.mem_of_getElem? h1)
    exact ⟨.inl rfl, .inl rfl, this.1, this.2⟩
  rw [C288_equal_partial hm hi a a (.inl rfl) (fun k => ⟨.inl rfl, key _ (hp k)⟩)]
  · exact ⟨rfl, fun _ => rfl, fun _ => rfl, rfl, rfl, rfl⟩
  · intro k r h1 h2
    rcases h1 with h1 | h1 <;> exact (ht k r h1).1 h2
  · intro k x y h1 h2
    rw [h1] at h2
    cases h2
    exact ⟨.inl rfl, key _ (ht k x h1).2⟩

/-- C288 is violated for the empty set: it is equal to every set with a single instant in the same units, whatever the points, in both orders. -/
theorem C288_empty_violated (a e : CP) (t : Rat) (pts : Kind → P) (ha : a.times = [t]) (hp : ∀ k, a.pts k = [pts k]) (ht : ∀ k, a.traj k = none)
    (he : e.times = []) (hq : ∀ k, e.pts k = []) (hr : ∀ k, e.traj k = none) (h1 : e.ut = a.ut) (h2 : e.ux = a.ux) (h3 : e.uy = a.uy) :
    eqC mis inc a e = .ok true ∧ eqC mis inc e a = .ok true := by
  unfold eqC
  rw [both_true, both_true, both_true, both_true, both_true, both_true, both_true, both_true, kindsR_true, kindsR_true, h1, h2, h3]
  simp only [unitEq_refl, true_and]
  constructor
  · refine ⟨fun k _ => ?_, ?_⟩
    · unfold kindR
      rw [both_true, hq, hp, ht, hr]
      exact ⟨rfl, rfl⟩
    · rw [ha, he]; rfl
  · refine ⟨fun k _ => ?_, ?_⟩
    · unfold kindR
      rw [both_true, hq, hp, ht, hr]
      exact ⟨rfl, rfl⟩
    · rw [ha, he]; rfl

/-- C288 is violated for the trajectories: a set whose trajectories are all removed (an empty array) is equal to the same set without computed
trajectories. -/
theorem C288_uncomputed_violated (hm : mis ≠ .ok true) (hi : inc ≠ .ok true) (a : CP) (hp : ∀ k, ∀ p ∈ a.pts k, NoNaN p) :
    eqC mis inc { a with traj := fun _ => some ⟨true, []⟩ } { a with traj := fun _ => none } = .ok true := by
  have h := C288_refl hm hi { a with traj := fun _ => none } hp (by intro k t h; cases h)
  unfold eqC at h ⊢
  rw [both_true] at h ⊢
  refine ⟨?_, h.2⟩
  have h1 := h.1
  rw [kindsR_true] at h1 ⊢
  intro k hk
  have := h1 k hk
  unfold kindR at this ⊢
  rw [both_true] at this ⊢
  exact ⟨this.1, rfl⟩

/-- C288 is violated for the saddles: sets of oriented points that differ by all their orientations are equal. -/
theorem C288_orientations_violated {O : Type} (hi : inc ≠ .ok true) (p : P) (h : NoNaN p) (o o' : List O) :
    eqO mis inc ⟨p, o⟩ ⟨p, o'⟩ = .ok true := (C213_points_partial hi rfl rfl h.1 h.2).mpr rfl

/-! ### examples -/

/-- Two instants with two foci and a saddle. -/
def twoInstants (x : Rat) : CP where
  pts := fun k => match k with
    | .foc => [⟨[(some x, some 2), (some 3, some 4)], [], .one, .one, .one⟩, ⟨[], [], .one, .one, .one⟩]
    | .sadd => [⟨[], [], .one, .one, .one⟩, ⟨[(some 0, some 1)], [], .one, .one, .one⟩]
    | _ => [⟨[], [], .one, .one, .one⟩, ⟨[], [], .one, .one, .one⟩]
  times := [0, 1]
  ut := .s
  ux := .one
  uy := .one
  traj := fun _ => none
  eps := none

example : eqC (.error .valueError) (.ok false) (twoInstants 1) (twoInstants 1) = .ok true ∧
    eqC (.error .valueError) (.ok false) (twoInstants 1) (twoInstants 2) = .ok false := by decide +kernel

/-- The hypotheses of `C288_equal_partial` are met by two different sets. -/
example : Plain (twoInstants 1).times (twoInstants 2).times ∧
    ∀ k, Plain ((twoInstants 1).pts k) ((twoInstants 2).pts k) ∧
      ∀ (i : Nat) (p q : P), ((twoInstants 1).pts k)[i]? = some p → ((twoInstants 2).pts k)[i]? = some q → PlainSets p q := by
  refine ⟨.inl rfl, fun k => ⟨.inl (by cases k <;> rfl), fun i p q h1 h2 => ?_⟩⟩
  match i with
  | 0 => cases k <;> cases h1 <;> cases h2 <;> exact ⟨.inl rfl, .inl rfl, by simp, by simp⟩
  | 1 => cases k <;> cases h1 <;> cases h2 <;> exact ⟨.inl rfl, .inl rfl, by simp, by simp⟩
  | i + 2 => cases k <;> cases h1

end IMT.Same
