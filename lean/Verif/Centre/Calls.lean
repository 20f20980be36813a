import Verif.Centre.Props
import Mathlib.Data.Fintype.EquivFin
import Mathlib.Data.Fintype.Quotient

/-! C254 and C255: where `get_zones_centers` differs from its description, and concrete cases. -/

namespace IMT.Centre

open Zone (Cell cells Linked Linked.symm Linked.trans IsLabel mem_cells nodup_cells)
open Finset

variable {f : SF}

/-! ### C254: uneven axes, zones of zeros -/

/-- The centre of mass of two cells side by side. -/
theorem mass_two {nx ny : Nat} {z : List (Cell nx ny)} {c d : Cell nx ny} (hz : z.Nodup) (hcd : c ≠ d) (h : ∀ q, q ∈ z ↔ q = c ∨ q = d) (ind : Cell nx ny → Nat) :
    mass z (fun _ => 1) ind = some (((ind c : Rat) + ind d) / 2) := by
  classical
  have hs : z.toFinset = {c, d} := by ext q; simp [h]
  have e1 : (z.map fun _ => (1 : Rat)).sum = 2 := by
    rw [Zone.sum_map_eq z hz, hs, sum_pair hcd]; norm_num
  have e2 : (z.map fun q => 1 * (ind q : Rat)).sum = ind c + ind d := by
    rw [Zone.sum_map_eq z hz, hs, sum_pair hcd]; ring
  unfold mass
  rw [e1, e2, if_neg (by norm_num)]

theorem position_half {l : List Rat} {i : Nat} (h : i + 1 < l.length) :
    position l (((i : Nat) : Rat) / 2 + ((i + 1 : Nat) : Rat) / 2) = l.getD i 0 + (l.getD 1 0 - l.getD 0 0) / 2 := by
  have e : ((i : Nat) : Rat) / 2 + ((i + 1 : Nat) : Rat) / 2 = i + 1 / 2 := by push_cast; ring
  rw [e]
  have hf : ((i : Rat) + 1 / 2).floor = (i : Int) := by
    have h1 : (i : Int) ≤ ((i : Rat) + 1 / 2).floor := Rat.le_floor_iff.2 (by push_cast; linarith)
    have h2 : ((i : Rat) + 1 / 2).floor < (i : Int) + 1 := by
      have : (((i : Rat) + 1 / 2).floor : Rat) ≤ (i : Rat) + 1 / 2 := Rat.floor_le _
      have : (((i : Rat) + 1 / 2).floor : Rat) < (((i : Int) + 1 : Int) : Rat) := by push_cast; linarith
      exact_mod_cast this
    omega
  unfold position
  rw [hf, if_neg (by push_cast; linarith)]
  push_cast
  simp only [Int.toNat_natCast]
  ring

/-- **C254** The centre may be outside its zone: the two cells of columns `i` and `i+1` get the centre `x[i] + (x[1] - x[0]) / 2`, the first step of the
axis being used everywhere. -/
theorem C254_uneven_violated {L : Lab} (hL : IsLab L) (pick : Pick) {lo hi mn mx : Rat} (h : lo < hi) (hn : IsMin f mn) (hmx : IsMax f mx)
    {c d : Cell f.ax.length f.ay.length} (hc : d.1.1 = c.1.1 + 1 ∧ d.2 = c.2) (hb : ∀ q, Band f (bounds lo hi).1 (bounds lo hi).2 q ↔ q = c ∨ q = d)
    (hw : 2 * (f.ax.get d.1 - f.ax.get c.1) < f.ax.getD 1 0 - f.ax.getD 0 0) :
    ∃ p, zonesCenters L pick (lo, hi) false .center f = .ok (some [p]) ∧ p = (f.ax.get c.1 + (f.ax.getD 1 0 - f.ax.getD 0 0) / 2, f.ay.get c.2) ∧
      f.ax.get d.1 < p.1 := by
  have hcd : c ≠ d := fun e => by rw [e] at hc; omega
  have hbc : Band f (bounds lo hi).1 (bounds lo hi).2 c := (hb c).2 (.inl rfl)
  have hbd : Band f (bounds lo hi).1 (bounds lo hi).2 d := (hb d).2 (.inr rfl)
  obtain ⟨v, c1, c2, c3⟩ := hbc
  obtain ⟨x, y, hr⟩ := reads_iff.2 ⟨c, c1⟩
  have hbc : Band f (bounds lo hi).1 (bounds lo hi).2 c := (hb c).2 (.inl rfl)
  rw [uses_abs h hn hmx (le_trans c2 (hmx.2 x y v hr)) (le_trans (hn.2 x y v hr) c3)]
  have hlink : ∀ p q, (p = c ∨ p = d) → (q = c ∨ q = d) → Linked (Band f (bounds lo hi).1 (bounds lo hi).2) p q := by
    have near : Zone.Near c d := Or.inr ⟨hc.2.symm, Or.inl hc.1.symm⟩
    have near' : Zone.Near d c := Or.inr ⟨hc.2, Or.inr hc.1.symm⟩
    rintro p q (rfl | rfl) (rfl | rfl)
    · exact ⟨hbc, hbc, .refl⟩
    · exact ⟨hbc, hbd, .single ⟨near, hbc, hbd⟩⟩
    · exact ⟨hbd, hbc, .single ⟨near', hbd, hbc⟩⟩
    · exact ⟨hbd, hbd, .refl⟩
  obtain ⟨r, e, e1, e2⟩ := found_ok (f := f) hL (pick := pick) (k := .center) (by decide) (b := bounds lo hi)
    (R := fun _ p => p = (f.ax.get c.1 + (f.ax.getD 1 0 - f.ax.getD 0 0) / 2, f.ay.get c.2)) (by
      intro q hq
      exact absurd (((hq c).1 hbc).trans ((hq d).1 hbd).symm) hcd) (by
      intro z c' hz hc' hq
      have hz' : ∀ q, q ∈ z ↔ q = c ∨ q = d := by
        intro q
        rw [hq]
        exact ⟨fun h => (hb q).1 h.2.1, fun h => hlink c' q ((hb c').1 hc') h⟩
      refine ⟨(((c.1.1 : Nat) : Rat) / 2 + ((c.1.1 + 1 : Nat) : Rat) / 2, (c.2.1 : Rat)), ?_, ?_⟩
      · unfold centreOf
        have m1 := mass_two hz hcd hz' fun q => q.1.1
        have m2 := mass_two hz hcd hz' fun q => q.2.1
        rw [hc.1] at m1
        rw [hc.2] at m2
        simp only [m1, m2]
        congr 2
        · ring
        · ring
      · rw [position_nat c.2.2, position_half (by rw [← hc.1]; exact d.1.2)]
        simp)
  cases r with
  | none => exact absurd hbc (e1.1 rfl c)
  | some l =>
    obtain ⟨cs, m1, m2, m3, m4⟩ := e2 l rfl
    have : ∃ a, cs = [a] := by
      match cs, m1, m2, m3 with
      | [], _, _, m3 => obtain ⟨_, h, _⟩ := m3 c hbc; cases h
      | [a], _, _, _ => exact ⟨a, rfl⟩
      | a :: b :: t, m1, m2, _ =>
        exfalso
        exact (List.rel_of_pairwise_cons m2 (by simp)) (hlink a b ((hb a).1 (m1 a (by simp))) ((hb b).1 (m1 b (by simp))))
    obtain ⟨a, rfl⟩ := this
    cases m4 with
    | cons h1 h2 =>
      cases h2
      rename_i p
      refine ⟨p, e, h1, ?_⟩
      rw [h1]
      simp only
      linarith

theorem each_error {α β : Type} {g : α → Res β} {e : Err} (h : ∀ a e', g a = .error e' → e' = e) : ∀ {l : List α}, (∃ a ∈ l, g a = .error e) → each g l = .error e
  | [], ⟨_, h, _⟩ => by cases h
  | a :: l, ⟨b, hb, he⟩ => by
    rw [each]
    cases ha : g a with
    | error e' => simp only [h a e' ha]
    | ok v =>
      have : b ∈ l := by
        rcases List.mem_cons.1 hb with rfl | hb
        · rw [ha] at he; cases he
        · exact hb
      simp only [each_error h ⟨b, this, he⟩]

/-- **C254** With kind='ponderated', a zone where the field is null makes the call fail, although the zone and its points exist. -/
theorem C254_zero_violated {L : Lab} (hL : IsLab L) (pick : Pick) {lo hi mn mx : Rat} (h : lo < hi) (hn : IsMin f mn) (hmx : IsMax f mx)
    {c d : Cell f.ax.length f.ay.length} (hcd : c ≠ d) (hbc : Band f (bounds lo hi).1 (bounds lo hi).2 c) (hbd : Band f (bounds lo hi).1 (bounds lo hi).2 d)
    (h0 : ∀ q, Linked (Band f (bounds lo hi).1 (bounds lo hi).2) c q → value f q = 0) :
    zonesCenters L pick (lo, hi) false .ponderated f = .error .valueError := by
  obtain ⟨v, c1, c2, c3⟩ := id hbc
  obtain ⟨x, y, hr⟩ := reads_iff.2 ⟨c, c1⟩
  rw [uses_abs h hn hmx (le_trans c2 (hmx.2 x y v hr)) (le_trans (hn.2 x y v hr) c3)]
  unfold found
  split
  · rename_i q hq
    have hs := single hq
    exact absurd (((hs c).1 hbc).trans ((hs d).1 hbd).symm) hcd
  · rw [if_neg (by decide)]
    have : each (fun n => centreOf pick .ponderated f (bounds lo hi) (part L f (bounds lo hi) n)) (List.range (L _ _ (inside f (bounds lo hi))).2) =
        .error .valueError := by
      apply each_error
      · intro n e' he
        unfold centreOf at he
        simp only at he
        split at he
        · cases he
        · cases he; rfl
      · have hl := (hL.2 _ _ (inside f (bounds lo hi)) ((L _ _ (inside f (bounds lo hi))).1 c)).1 ⟨c, inside_iff.2 hbc, rfl⟩
        have hlt : (L _ _ (inside f (bounds lo hi))).1 c - 1 < (L _ _ (inside f (bounds lo hi))).2 := by omega
        refine ⟨(L _ _ (inside f (bounds lo hi))).1 c - 1, List.mem_range.2 hlt, ?_⟩
        obtain ⟨c', p1, p2, p3⟩ := part_spec (f := f) hL hlt
        have hm : c ∈ part L f (bounds lo hi) ((L _ _ (inside f (bounds lo hi))).1 c - 1) := by
          unfold part
          rw [List.mem_filter, beq_iff_eq]
          exact ⟨mem_cells c, by omega⟩
        have hcc' := (p3 c).1 hm
        have hz : ∀ q ∈ part L f (bounds lo hi) ((L _ _ (inside f (bounds lo hi))).1 c - 1), |(grid f q).getD 0| = 0 := by
          intro q hq
          have h1 := (p3 q).1 hq
          have hL1 := hL.1 _ _ (inside f (bounds lo hi)) c q
          rw [band_eq] at hL1
          unfold part at hq
          rw [List.mem_filter, beq_iff_eq] at hq
          have h2 := (hL1.2 (inside_iff.2 hbc) (inside_iff.2 h1.2.1)).1 (by have := hq.2; simp only; omega)
          have := h0 q h2
          unfold value at this
          unfold grid
          rw [this, abs_zero]
        have hsum : ((part L f (bounds lo hi) ((L _ _ (inside f (bounds lo hi))).1 c - 1)).map fun q => |(grid f q).getD 0|).sum = 0 := by
          apply List.sum_eq_zero
          intro w hw
          rw [List.mem_map] at hw
          obtain ⟨q, hq, rfl⟩ := hw
          exact hz q hq
        unfold centreOf mass
        simp only [if_pos hsum]
    unfold part at this
    rw [this]

/-! ### C255: repeated calls -/

theorem default_eq (n : Nat) : default n = (3 / 4 * (1 - 1 / 100000) ^ n, (1 + 1 / 100000) ^ n) := by
  induction n with
  | zero => simp [default]
  | succ n ih =>
    rw [default, ih]
    unfold widen
    have h1 : (0 : Rat) ≤ 3 / 4 * (1 - 1 / 100000) ^ n := mul_nonneg (by norm_num) (pow_nonneg (by norm_num) n)
    have h2 : (0 : Rat) ≤ (1 + 1 / 100000) ^ n := by positivity
    simp only [abs_of_nonneg h1, abs_of_nonneg h2, Prod.mk.injEq]
    constructor <;> ring

/-- **C255** Two calls may give other bounds: without `bornes`, the n-th call uses 3/4 (1 - 1e-5)^n and (1 + 1e-5)^n. -/
theorem C255_default_violated (n : Nat) : default n = (3 / 4 * (1 - 1 / 100000) ^ n, (1 + 1 / 100000) ^ n) ∧ default (n + 1) ≠ default n := by
  refine ⟨default_eq n, ?_⟩
  rw [default_eq, default_eq]
  intro h
  have h1 := congrArg Prod.snd h
  simp only at h1
  have : (1 + 1 / 100000 : Rat) ^ n < (1 + 1 / 100000) ^ (n + 1) := pow_lt_pow_right₀ (by norm_num) (by omega)
  linarith

theorem gap (mn : Rat) : ∀ l : List Rat, ∃ δ : Rat, 0 < δ ∧ ∀ v ∈ l, mn < v → mn + δ ≤ v
  | [] => ⟨1, by norm_num, by simp⟩
  | a :: l => by
    obtain ⟨δ, h1, h2⟩ := gap mn l
    by_cases ha : mn < a
    · refine ⟨min δ (a - mn), lt_min h1 (by linarith), ?_⟩
      intro v hv hm
      rcases List.mem_cons.1 hv with rfl | hv
      · have := min_le_right δ (v - mn); linarith
      · have := min_le_left δ (a - mn); have := h2 v hv hm; linarith
    · refine ⟨δ, h1, ?_⟩
      intro v hv hm
      rcases List.mem_cons.1 hv with rfl | hv
      · exact absurd hm ha
      · exact h2 v hv hm

/-- **C255** Repeated calls without `bornes` on the same field drift: after enough calls the points are those of the zones where the field is above its
minimum, not those of the upper quarter of its range. -/
theorem C255_drift_violated {L : Lab} (hL : IsLab L) (pick : Pick) (hx : Regular f.ax) (hy : Regular f.ay) {mn mx : Rat} (h0 : 0 ≤ mn) (h : mn < mx)
    (hn : IsMin f mn) (hmx : IsMax f mx) :
    ∃ N, ∀ n, N ≤ n → ∃ l, zonesCenters L pick (default n) true .ponderated f = .ok (some l) ∧
      OnePerZone (fun q => ∃ v, f.cell q.1 q.2 = some v ∧ mn < v)
        (IsBary f (fun q => ∃ v, f.cell q.1 q.2 = some v ∧ mn < v) fun q => |value f q|) l := by
  obtain ⟨δ, hδ, hg⟩ := gap mn (visible f)
  obtain ⟨N, hN⟩ := exists_pow_lt_of_lt_one (show 0 < δ / (mx - mn) from div_pos hδ (by linarith)) (show (1 - 1 / 100000 : Rat) < 1 by norm_num)
  refine ⟨N, fun n hle => ?_⟩
  have hp0 : (0 : Rat) < (1 - 1 / 100000) ^ n := pow_pos (by norm_num) n
  have hpn : (1 - 1 / 100000 : Rat) ^ n ≤ (1 - 1 / 100000) ^ N := pow_le_pow_of_le_one (by norm_num) (by norm_num) hle
  have hq1 : (1 : Rat) ≤ (1 + 1 / 100000) ^ n := one_le_pow₀ (by norm_num)
  rw [default_eq]
  generalize (1 - 1 / 100000 : Rat) ^ n = P at *
  generalize (1 + 1 / 100000 : Rat) ^ n = Q at *
  have hP1 : P * (mx - mn) < δ := by
    rw [lt_div_iff₀ (by linarith)] at hN
    nlinarith
  have hP2 : P < 1 ∨ 1 ≤ P := lt_or_ge _ _
  have hPle : P ≤ 1 := by
    have : δ ≤ mx - mn := by
      obtain ⟨x, y, hr⟩ := hmx.1
      have := hg mx (mem_visible.2 (reads_iff.1 hmx.1)) h
      linarith
    by_contra hc
    push Not at hc
    nlinarith
  have hband : Band f (relBounds (3 / 4 * P) Q mn mx).1 (relBounds (3 / 4 * P) Q mn mx).2 = fun q => ∃ v, f.cell q.1 q.2 = some v ∧ mn < v := by
    funext q
    apply propext
    unfold Band relBounds
    simp only
    constructor
    · rintro ⟨v, e, h1, -⟩
      refine ⟨v, e, ?_⟩
      have : 0 < (mx - mn) * (3 / 4 * P - 3 / 4 * P / 100000) := mul_pos (by linarith) (by linarith)
      linarith
    · rintro ⟨v, e, h1⟩
      have hv := hg v (mem_visible.2 ⟨q, e⟩) h1
      obtain ⟨x, y, hr⟩ := reads_iff.2 ⟨q, e⟩
      have hm := hmx.2 x y v hr
      refine ⟨v, e, ?_, ?_⟩
      · nlinarith
      · nlinarith
  rw [uses_rel (by linarith) (by linarith) hn hmx]
  obtain ⟨r, e, e1, e2⟩ := found_mass (f := f) hL pick (k := .ponderated) (.inr rfl) hx hy (b := relBounds (3 / 4 * P) Q mn mx) (by
    intro _ c hc
    refine ⟨c, ⟨hc, hc, .refl⟩, ?_⟩
    rw [hband] at hc
    obtain ⟨v, e, hv⟩ := hc
    unfold value
    rw [e, Option.getD_some]
    linarith)
  rw [hband] at e1 e2
  cases r with
  | none =>
    obtain ⟨q, hq⟩ := reads_iff.1 hmx.1
    exact absurd ⟨mx, hq, h⟩ (e1.1 rfl q)
  | some l =>
    refine ⟨l, e, ?_⟩
    have := e2 l rfl
    have hw : weight .ponderated f = fun q => |value f q| := by funext q; simp [weight]
    rw [hw] at this
    exact this

/-- **C255** The list given as `bornes` is changed by every call, unless it is `[0, 0]`. -/
theorem C255_list_violated (rel : Bool) {lo hi : Rat} (h : lo ≠ 0 ∨ hi ≠ 0) : bornesAfter false (lo, hi) rel f ≠ (lo, hi) := by
  unfold bornesAfter
  rw [if_pos (.inl rfl)]
  unfold widen
  intro e
  rw [Prod.mk.injEq] at e
  simp only at e
  rcases h with h | h
  · have := abs_pos.2 h; linarith [e.1]
  · have := abs_pos.2 h; linarith [e.2]

/-- **C255** Relative bounds given as an array of floating numbers become absolute: the next call with this array has other bounds. -/
theorem C255_array_violated {lo hi mn mx : Rat} (h0 : 0 ≤ lo) (h : lo < hi) (hn : IsMin f mn) (hmx : IsMax f mx) :
    bornesAfter true (lo, hi) true f = relBounds lo hi mn mx := by
  have hle : mn ≤ mx := by
    obtain ⟨x, y, hr⟩ := hn.1
    exact hmx.2 x y mn hr
  have e1 : |lo| = lo := abs_of_nonneg h0
  have e2 : |hi| = hi := abs_of_nonneg (by linarith)
  have e3 : |mx - mn| = mx - mn := abs_of_nonneg (by linarith)
  unfold bornesAfter
  rw [if_neg, min_eq hn, max_eq hmx]
  · simp only
    unfold absolute relBounds widen
    simp only
    rw [e1, e2, e3, abs_of_nonneg (by linarith : 0 ≤ lo - 1 / 100000 * lo), abs_of_nonneg (by linarith : 0 ≤ hi + 1 / 100000 * hi),
      if_neg (by linarith)]
    simp only [Prod.mk.injEq]
    constructor <;> ring
  · have hw1 : 0 ≤ (widen (lo, hi)).1 := by simp only [widen, e1]; linarith
    have hw2 : (widen (lo, hi)).1 < (widen (lo, hi)).2 := by simp only [widen, e1, e2]; linarith
    rintro (h | h | h | h)
    · cases h
    · cases h
    · exact h hw2
    · exact absurd h (not_lt.2 (mul_nonneg hw1 (by linarith)))

/-! ### concrete cases -/

/-- The cells of a zone that are in the same connected part. -/
def parts {nx ny : Nat} (m : Cell nx ny → Bool) : Setoid {p : Cell nx ny // m p = true} where
  r p q := Linked (fun p => m p = true) p.1 q.1
  iseqv := ⟨fun p => ⟨p.2, p.2, .refl⟩, fun h => Linked.symm h, fun h k => Linked.trans h k⟩

open Classical in
/-- Labels that exist: the connected parts in some order. -/
noncomputable def aLab : Lab := fun _ _ m =>
  (fun p => if h : m p = true then (Fintype.equivFin (Quotient (parts m)) (Quotient.mk (parts m) ⟨p, h⟩)).1 + 1 else 0, Fintype.card (Quotient (parts m)))

theorem isLab_aLab : IsLab aLab := by
  classical
  constructor
  · intro nx ny m p q
    constructor
    · unfold aLab
      by_cases h : m p = true
      · simp [h]
      · simp [h]
    · intro hp hq
      unfold aLab
      simp only [dif_pos hp, dif_pos hq]
      constructor
      · intro h
        have h' : Fintype.equivFin (Quotient (parts m)) (Quotient.mk (parts m) ⟨p, hp⟩) = Fintype.equivFin (Quotient (parts m)) (Quotient.mk (parts m) ⟨q, hq⟩) :=
          Fin.ext (by omega)
        exact Quotient.exact ((Fintype.equivFin (Quotient (parts m))).injective h')
      · intro h
        rw [show Quotient.mk (parts m) ⟨p, hp⟩ = Quotient.mk (parts m) ⟨q, hq⟩ from Quotient.sound h]
  · intro nx ny m k
    unfold aLab
    simp only
    constructor
    · rintro ⟨p, hp, rfl⟩
      simp only [dif_pos hp]
      have := (Fintype.equivFin (Quotient (parts m)) (Quotient.mk (parts m) ⟨p, hp⟩)).2
      omega
    · rintro ⟨h1, h2⟩
      obtain ⟨⟨p, hp⟩, h⟩ := Quotient.exists_rep ((Fintype.equivFin (Quotient (parts m))).symm ⟨k - 1, by omega⟩)
      refine ⟨p, hp, ?_⟩
      simp only [dif_pos hp, h, Equiv.apply_symm_apply]
      omega

/-- A choice of extrema that exists. -/
def aPick : Pick := fun _ _ z w => z.foldr (fun q o => match o with
  | none => some q
  | some p => if w p ≤ w q then some q else some p) none

theorem isPick_aPick : IsPick aPick := by
  intro nx ny z w hz
  have : ∀ z : List (Cell nx ny), (z = [] ∧ aPick nx ny z w = none) ∨ ∃ q ∈ z, aPick nx ny z w = some q ∧ ∀ q' ∈ z, w q' ≤ w q := by
    intro z
    induction z with
    | nil => exact .inl ⟨rfl, rfl⟩
    | cons a z ih =>
      right
      have e : aPick nx ny (a :: z) w = match aPick nx ny z w with
        | none => some a
        | some p => if w p ≤ w a then some a else some p := rfl
      rw [e]
      rcases ih with ⟨rfl, h⟩ | ⟨q, hq, h, hm⟩
      · rw [h]
        exact ⟨a, by simp, rfl, by simp⟩
      · rw [h]
        simp only
        by_cases hc : w q ≤ w a
        · refine ⟨a, by simp, by rw [if_pos hc], ?_⟩
          intro q' hq'
          rcases List.mem_cons.1 hq' with rfl | hq'
          · exact le_refl _
          · exact le_trans (hm q' hq') hc
        · refine ⟨q, List.mem_cons_of_mem _ hq, by rw [if_neg hc], ?_⟩
          intro q' hq'
          rcases List.mem_cons.1 hq' with rfl | hq'
          · exact le_of_lt (not_le.1 hc)
          · exact hm q' hq'
  exact (this z).resolve_left fun h => hz h.1

/-- Fields of three by one points. -/
def ex3 (ax : List Rat) (a b c : Rat) : SF where
  ax := ax
  ay := [0]
  val := ⟨3, 1, fun i _ => some (if i = 0 then a else if i = 1 then b else c)⟩
  mask := ⟨3, 1, fun _ _ => false⟩
  ux := .one
  uy := .one
  uv := .one

theorem ex3_min {x0 x1 x2 a b c v : Rat} (h : v = a ∨ v = b ∨ v = c) (ha : v ≤ a) (hb : v ≤ b) (hc : v ≤ c) : IsMin (ex3 [x0, x1, x2] a b c) v := by
  refine ⟨?_, ?_⟩
  · rcases h with h | h | h
    · exact ⟨x0, 0, 0, 0, rfl, rfl, by rw [h]; rfl⟩
    · exact ⟨x1, 0, 1, 0, rfl, rfl, by rw [h]; rfl⟩
    · exact ⟨x2, 0, 2, 0, rfl, rfl, by rw [h]; rfl⟩
  · rintro x y u ⟨i, j, hi, hj, e⟩
    have e := (Option.some.inj e).symm
    rw [e]
    split
    · exact ha
    · split <;> assumption

theorem ex3_max {x0 x1 x2 a b c v : Rat} (h : v = a ∨ v = b ∨ v = c) (ha : a ≤ v) (hb : b ≤ v) (hc : c ≤ v) : IsMax (ex3 [x0, x1, x2] a b c) v := by
  refine ⟨(ex3_min (x0 := x0) (x1 := x1) (x2 := x2) (a := v) (b := v) (c := v) (.inl rfl) le_rfl le_rfl le_rfl).1.elim fun _ _ => ?_, ?_⟩
  · rcases h with h | h | h
    · exact ⟨x0, 0, 0, 0, rfl, rfl, by rw [h]; rfl⟩
    · exact ⟨x1, 0, 1, 0, rfl, rfl, by rw [h]; rfl⟩
    · exact ⟨x2, 0, 2, 0, rfl, rfl, by rw [h]; rfl⟩
  · rintro x y u ⟨i, j, hi, hj, e⟩
    have e := (Option.some.inj e).symm
    rw [e]
    split
    · exact ha
    · split <;> assumption

theorem ex3_x (a d : Rat) : Regular [a, a + d, a + 2 * d] := by
  refine ⟨a, d, ?_⟩
  intro i x h
  match i with
  | 0 => simp at h; simp [← h]
  | 1 => simp at h; simp [← h]
  | 2 => simp at h; simp [← h]
  | i + 3 => simp at h

theorem ex3_y : Regular [0] := by
  refine ⟨0, 0, ?_⟩
  intro i x h
  match i with
  | 0 => simp at h; simp [← h]
  | i + 1 => simp at h

/-- Concrete case: the values 1, 8 and 4 with bounds 3 and 9. -/
example : ∃ r, zonesCenters aLab aPick (3, 9) false .ponderated (ex3 [0, 0 + 1, 0 + 2 * 1] 1 8 4) = .ok r ∧
    ∀ l, r = some l → OnePerZone (Band (ex3 [0, 0 + 1, 0 + 2 * 1] 1 8 4) (bounds 3 9).1 (bounds 3 9).2)
      (IsBary (ex3 [0, 0 + 1, 0 + 2 * 1] 1 8 4) (Band (ex3 [0, 0 + 1, 0 + 2 * 1] 1 8 4) (bounds 3 9).1 (bounds 3 9).2)
        (weight .ponderated (ex3 [0, 0 + 1, 0 + 2 * 1] 1 8 4))) l := by
  obtain ⟨r, h1, -, h2⟩ := C254_centres_partial isLab_aLab aPick (k := .ponderated) (f := ex3 [0, 0 + 1, 0 + 2 * 1] 1 8 4) (.inr rfl) (ex3_x 0 1) ex3_y
    (lo := 3) (hi := 9) (by norm_num) (ex3_min (v := 1) (by simp) (by norm_num) (by norm_num) (by norm_num))
    (ex3_max (v := 8) (by simp) (by norm_num) (by norm_num) (by norm_num)) (by
      rintro - c ⟨v, e, h1, h2⟩
      refine ⟨c, ⟨⟨v, e, h1, h2⟩, ⟨v, e, h1, h2⟩, .refl⟩, ?_⟩
      unfold value
      rw [e, Option.getD_some]
      intro h0
      rw [h0] at h1
      exact absurd h1 (by decide +kernel))
  exact ⟨r, h1, h2⟩

/-- Concrete case: the greatest value of the zone. -/
example : ∃ l, zonesCenters aLab aPick (3, 9) false .extremum (ex3 [0, 1, 5] 1 8 4) = .ok (some l) := by
  obtain ⟨l, h, -⟩ := C254_extremum (f := ex3 [0, 1, 5] 1 8 4) isLab_aLab isPick_aPick (lo := 3) (hi := 9) (by norm_num) (by norm_num)
    (ex3_min (v := 1) (by simp) (by norm_num) (by norm_num) (by norm_num)) (ex3_max (v := 8) (by simp) (by norm_num) (by norm_num) (by norm_num))
    ⟨((1 : Fin 3), (0 : Fin 1)), 8, rfl, by decide +kernel, by decide +kernel⟩
  exact ⟨l, h⟩

/-- Concrete case: the smallest value of the zone. -/
example : ∃ l, zonesCenters aLab aPick (-9, -3) false .extremum (ex3 [0, 1, 5] (-1) (-8) (-4)) = .ok (some l) := by
  obtain ⟨l, h, -⟩ := C254_minimum (f := ex3 [0, 1, 5] (-1) (-8) (-4)) isLab_aLab isPick_aPick (lo := -9) (hi := -3) (by norm_num) (by norm_num)
    (ex3_min (v := -8) (by simp) (by norm_num) (by norm_num) (by norm_num)) (ex3_max (v := -1) (by simp) (by norm_num) (by norm_num) (by norm_num))
    ⟨((1 : Fin 3), (0 : Fin 1)), -8, rfl, by decide +kernel, by decide +kernel⟩
  exact ⟨l, h⟩

/-- Concrete case: the columns 10 and 11 of the axis 0, 10, 11 get the centre 15. -/
example : ∃ p, zonesCenters aLab aPick (3, 9) false .center (ex3 [0, 10, 11] 1 5 5) = .ok (some [p]) ∧ p = (15, 0) := by
  obtain ⟨p, h1, h2, -⟩ := C254_uneven_violated (f := ex3 [0, 10, 11] 1 5 5) isLab_aLab aPick (lo := 3) (hi := 9) (by norm_num)
    (ex3_min (v := 1) (by simp) (by norm_num) (by norm_num) (by norm_num)) (ex3_max (v := 5) (by simp) (by norm_num) (by norm_num) (by norm_num))
    (c := ((1 : Fin 3), (0 : Fin 1))) (d := ((2 : Fin 3), (0 : Fin 1))) ⟨rfl, rfl⟩ (by
      have key : ∀ q : Fin 3 × Fin 1, ((bounds 3 9).1 ≤ (if q.1.1 = 0 then (1 : Rat) else if q.1.1 = 1 then 5 else 5) ∧
          (if q.1.1 = 0 then (1 : Rat) else if q.1.1 = 1 then 5 else 5) ≤ (bounds 3 9).2) ↔ q = (1, 0) ∨ q = (2, 0) := by decide +kernel
      intro q
      refine Iff.trans ?_ (key q)
      constructor
      · rintro ⟨v, e, h⟩
        have e := Option.some.inj e
        rw [e]; exact h
      · intro h
        exact ⟨_, rfl, h⟩) (by decide +kernel)
  refine ⟨p, h1, h2.trans ?_⟩
  decide +kernel

/-- Concrete case: two null values between -1 and 1. -/
example : zonesCenters aLab aPick (-1, 1) false .ponderated (ex3 [0, 1, 2] 0 0 5) = .error .valueError := by
  refine C254_zero_violated (f := ex3 [0, 1, 2] 0 0 5) isLab_aLab aPick (lo := -1) (hi := 1) (by norm_num)
    (ex3_min (v := 0) (by simp) (by norm_num) (by norm_num) (by norm_num)) (ex3_max (v := 5) (by simp) (by norm_num) (by norm_num) (by norm_num))
    (c := ((0 : Fin 3), (0 : Fin 1))) (d := ((1 : Fin 3), (0 : Fin 1))) (by decide) ⟨0, rfl, by decide +kernel, by decide +kernel⟩
    ⟨0, rfl, by decide +kernel, by decide +kernel⟩ ?_
  rintro q ⟨-, ⟨v, e, -, h⟩, -⟩
  unfold value
  rw [e, Option.getD_some]
  have e := Option.some.inj e
  rw [← e] at h ⊢
  revert h
  split
  · exact fun _ => rfl
  · split
    · exact fun _ => rfl
    · exact fun h => absurd h (by decide +kernel)

/-- Concrete case: after enough calls every value above 1 counts. -/
example : ∃ N, ∀ n, N ≤ n → ∃ l, zonesCenters aLab aPick (default n) true .ponderated (ex3 [0, 0 + 1, 0 + 2 * 1] 1 8 4) = .ok (some l) := by
  obtain ⟨N, h⟩ := C255_drift_violated (f := ex3 [0, 0 + 1, 0 + 2 * 1] 1 8 4) isLab_aLab aPick (ex3_x 0 1) ex3_y (by norm_num) (by norm_num)
    (ex3_min (v := 1) (by simp) (by norm_num) (by norm_num) (by norm_num)) (ex3_max (v := 8) (by simp) (by norm_num) (by norm_num) (by norm_num))
  exact ⟨N, fun n hn => (h n hn).imp fun l hl => hl.1⟩

/-- Concrete case: the array [0.5, 1] becomes about [4.5, 8]. -/
example : bornesAfter true (1 / 2, 1) true (ex3 [0, 1, 2] 1 8 4) = relBounds (1 / 2) 1 1 8 :=
  C255_array_violated (by norm_num) (by norm_num) (ex3_min (v := 1) (by simp) (by norm_num) (by norm_num) (by norm_num))
    (ex3_max (v := 8) (by simp) (by norm_num) (by norm_num) (by norm_num))

end IMT.Centre
