import Verif.Centre.Model
import Verif.Zone.Radius
import Verif.Scalar.Lemmas
import Mathlib.Algebra.Order.Archimedean.Basic

/-! C254 and C255: centres of the zones of a scalar field. -/

namespace IMT.Centre

open Zone (Cell cells Linked IsLabel mem_cells nodup_cells)
open Finset

variable {f : SF}

/-! ### specification -/

/-- What `scipy.ndimage.label` does: zero outside, one label for each connected part, numbered from 1. -/
def IsLab (L : Lab) : Prop :=
  IsLabel (fun nx ny m => (L nx ny m).1) ∧ ∀ nx ny m k, (∃ p, m p = true ∧ (L nx ny m).1 p = k) ↔ 1 ≤ k ∧ k ≤ (L nx ny m).2

/-- What `scipy.ndimage.extrema` does: one of the cells of the greatest value. -/
def IsPick (pick : Pick) : Prop :=
  ∀ nx ny (z : List (Cell nx ny)) (w : Cell nx ny → Rat), z ≠ [] → ∃ q ∈ z, pick nx ny z w = some q ∧ ∀ q' ∈ z, w q' ≤ w q

/-- The value of the cell is visible and between `lo` and `hi`. -/
def Band (f : SF) (lo hi : Rat) (q : Cell f.ax.length f.ay.length) : Prop := ∃ v, f.cell q.1 q.2 = some v ∧ lo ≤ v ∧ v ≤ hi

/-- The list has one item for each connected part of `m`, in relation `R` with it. -/
def OnePerZone {nx ny : Nat} {α : Type} (m : Cell nx ny → Prop) (R : Cell nx ny → α → Prop) (l : List α) : Prop :=
  ∃ cs : List (Cell nx ny), (∀ c ∈ cs, m c) ∧ cs.Pairwise (fun c d => ¬ Linked m c d) ∧ (∀ q, m q → ∃ c ∈ cs, Linked m c q) ∧ List.Forall₂ R cs l

/-- The value of a cell. -/
def value (f : SF) (q : Cell f.ax.length f.ay.length) : Rat := (f.cell q.1 q.2).getD 0

open Classical in
/-- `p` is the barycentre of the connected part of `m` around `c`, with the weights `μ`. -/
def IsBary (f : SF) (m : Cell f.ax.length f.ay.length → Prop) (μ : Cell f.ax.length f.ay.length → Rat) (c : Cell f.ax.length f.ay.length) (p : Rat × Rat) : Prop :=
  ∑ q with Linked m c q, μ q * (f.ax.get q.1 - p.1) = 0 ∧ ∑ q with Linked m c q, μ q * (f.ay.get q.2 - p.2) = 0

/-- `p` is the place of a greatest value of `w` in the connected part of `m` around `c`. -/
def IsTop (f : SF) (m : Cell f.ax.length f.ay.length → Prop) (w : Cell f.ax.length f.ay.length → Rat) (c : Cell f.ax.length f.ay.length) (p : Rat × Rat) : Prop :=
  ∃ q, Linked m c q ∧ p = (f.ax.get q.1, f.ay.get q.2) ∧ ∀ q', Linked m c q' → w q' ≤ w q

/-- `v` is the smallest visible value. -/
def IsMin (f : SF) (v : Rat) : Prop := (∃ x y, f.Reads x y (some v)) ∧ ∀ x y u, f.Reads x y (some u) → v ≤ u

/-- `v` is the greatest visible value. -/
def IsMax (f : SF) (v : Rat) : Prop := (∃ x y, f.Reads x y (some v)) ∧ ∀ x y u, f.Reads x y (some u) → u ≤ v

/-- Regular spacing. -/
def Regular (l : List Rat) : Prop := ∃ a d : Rat, ∀ (i : Nat) x, l[i]? = some x → x = a + i * d

/-- Weights of the kinds of centres. -/
def weight (k : Kind) (f : SF) (q : Cell f.ax.length f.ay.length) : Rat := if k = .center then 1 else |value f q|

/-! ### lemmas -/

theorem reads_iff {v : Rat} : (∃ x y, f.Reads x y (some v)) ↔ ∃ q : Cell f.ax.length f.ay.length, f.cell q.1 q.2 = some v := by
  constructor
  · rintro ⟨x, y, i, j, hi, hj, h⟩
    exact ⟨(⟨i, getElem?_some_lt hi⟩, ⟨j, getElem?_some_lt hj⟩), h⟩
  · rintro ⟨q, h⟩
    exact ⟨_, _, q.1, q.2, List.getElem?_eq_getElem q.1.2, List.getElem?_eq_getElem q.2.2, h⟩

theorem mem_visible {v : Rat} : v ∈ visible f ↔ ∃ q : Cell f.ax.length f.ay.length, f.cell q.1 q.2 = some v := by
  unfold visible
  rw [List.mem_filterMap]
  exact ⟨fun ⟨q, _, h⟩ => ⟨q, h⟩, fun ⟨q, h⟩ => ⟨q, mem_cells q, h⟩⟩

theorem min_eq {v : Rat} (h : IsMin f v) : (visible f).min? = some v := by
  rw [List.min?_eq_some_iff]
  refine ⟨mem_visible.2 (reads_iff.1 h.1), fun u hu => ?_⟩
  obtain ⟨x, y, hr⟩ := reads_iff.2 (mem_visible.1 hu)
  exact h.2 x y u hr

theorem max_eq {v : Rat} (h : IsMax f v) : (visible f).max? = some v := by
  rw [List.max?_eq_some_iff]
  refine ⟨mem_visible.2 (reads_iff.1 h.1), fun u hu => ?_⟩
  obtain ⟨x, y, hr⟩ := reads_iff.2 (mem_visible.1 hu)
  exact h.2 x y u hr

theorem inside_iff {b : Rat × Rat} {q : Cell f.ax.length f.ay.length} : inside f b q = true ↔ Band f b.1 b.2 q := by
  unfold inside Band grid
  cases e : f.cell q.1 q.2 with
  | none => simp
  | some v => simp

theorem band_eq (b : Rat × Rat) : (fun q => inside f b q = true) = Band f b.1 b.2 := funext fun _ => propext inside_iff

/-- The cells of one label. -/
def part (L : Lab) (f : SF) (b : Rat × Rat) (n : Nat) : List (Cell f.ax.length f.ay.length) :=
  (cells f.ax.length f.ay.length).filter fun q => (L _ _ (inside f b)).1 q == n + 1

theorem part_spec {L : Lab} (hL : IsLab L) {b : Rat × Rat} {n : Nat} (hn : n < (L _ _ (inside f b)).2) :
    ∃ c, Band f b.1 b.2 c ∧ (L _ _ (inside f b)).1 c = n + 1 ∧ ∀ q, q ∈ part L f b n ↔ Linked (Band f b.1 b.2) c q := by
  obtain ⟨c, h1, h2⟩ := (hL.2 _ _ (inside f b) (n + 1)).2 ⟨by omega, by omega⟩
  refine ⟨c, inside_iff.1 h1, h2, fun q => ?_⟩
  have hl := hL.1 _ _ (inside f b) c q
  rw [band_eq] at hl
  unfold part
  rw [List.mem_filter, beq_iff_eq]
  constructor
  · rintro ⟨-, h⟩
    have hq : inside f b q = true := by
      have := (hL.1 _ _ (inside f b) q q).1
      by_contra hc
      rw [Bool.not_eq_true] at hc
      have := this.2 hc
      simp only at this
      omega
    exact (hl.2 h1 hq).1 (h2.trans h.symm)
  · intro h
    refine ⟨mem_cells q, ?_⟩
    have := (hl.2 h1 (inside_iff.2 h.2.1)).2 h
    simp only at this
    rw [← this, h2]

theorem each_ok {α β : Type} {g : α → Res β} : ∀ {l : List α} {k : List β}, List.Forall₂ (fun a b => g a = .ok b) l k → each g l = .ok k
  | [], _, .nil => rfl
  | a :: l, b :: k, .cons h hl => by rw [each]; simp only [h, each_ok hl]

theorem forall2_of {α β : Type} {R : α → β → Prop} : ∀ (l : List α), (∀ a ∈ l, ∃ b, R a b) → ∃ k, List.Forall₂ R l k
  | [], _ => ⟨[], .nil⟩
  | a :: l, h => by
    obtain ⟨b, hb⟩ := h a (by simp)
    obtain ⟨k, hk⟩ := forall2_of l fun a ha => h a (List.mem_cons_of_mem _ ha)
    exact ⟨b :: k, .cons hb hk⟩

/-- Representatives of the labels. -/
theorem reps {L : Lab} (hL : IsLab L) (b : Rat × Rat) :
    ∃ cs : List (Cell f.ax.length f.ay.length), List.Forall₂ (fun n c => Band f b.1 b.2 c ∧ (L _ _ (inside f b)).1 c = n + 1 ∧
      ∀ q, q ∈ part L f b n ↔ Linked (Band f b.1 b.2) c q) (List.range (L _ _ (inside f b)).2) cs ∧
      (∀ c ∈ cs, Band f b.1 b.2 c) ∧ cs.Pairwise (fun c d => ¬ Linked (Band f b.1 b.2) c d) ∧ ∀ q, Band f b.1 b.2 q → ∃ c ∈ cs, Linked (Band f b.1 b.2) c q := by
  obtain ⟨cs, hcs⟩ := forall2_of (R := fun n c => Band f b.1 b.2 c ∧ (L _ _ (inside f b)).1 c = n + 1 ∧
      ∀ q, q ∈ part L f b n ↔ Linked (Band f b.1 b.2) c q) (List.range (L _ _ (inside f b)).2) fun n hn => part_spec hL (List.mem_range.1 hn)
  have hlen := hcs.length_eq
  rw [List.length_range] at hlen
  have hget : ∀ (n : Nat) (hn : n < cs.length), Band f b.1 b.2 cs[n] ∧ (L _ _ (inside f b)).1 cs[n] = n + 1 ∧
      ∀ q, q ∈ part L f b n ↔ Linked (Band f b.1 b.2) cs[n] q := by
    intro n hn
    have := hcs.get (i := n) (by rw [List.length_range]; omega) hn
    simpa using this
  refine ⟨cs, hcs, ?_, ?_, ?_⟩
  · intro c hc
    obtain ⟨n, hn, rfl⟩ := List.getElem_of_mem hc
    exact (hget n hn).1
  · rw [List.pairwise_iff_getElem]
    intro i j hi hj hij h
    have h1 := ((hget i hi).2.2 cs[j]).2 h
    unfold part at h1
    rw [List.mem_filter, beq_iff_eq, (hget j hj).2.1] at h1
    omega
  · intro q hq
    have h1 := (hL.2 _ _ (inside f b) ((L _ _ (inside f b)).1 q)).1 ⟨q, inside_iff.2 hq, rfl⟩
    have hn : (L _ _ (inside f b)).1 q - 1 < cs.length := by omega
    refine ⟨cs[(L _ _ (inside f b)).1 q - 1], List.getElem_mem hn, ((hget _ hn).2.2 q).1 ?_⟩
    unfold part
    rw [List.mem_filter, beq_iff_eq]
    exact ⟨mem_cells q, by omega⟩

/-- One zone of one cell. -/
theorem single {b : Rat × Rat} {q : Cell f.ax.length f.ay.length} (h : (cells f.ax.length f.ay.length).filter (inside f b) = [q]) :
    ∀ p, Band f b.1 b.2 p ↔ p = q := by
  intro p
  rw [← inside_iff]
  have : p ∈ (cells f.ax.length f.ay.length).filter (inside f b) ↔ inside f b p = true := by
    rw [List.mem_filter]; exact ⟨fun h => h.2, fun h => ⟨mem_cells p, h⟩⟩
  rw [← this, h, List.mem_singleton]

/-- The result from the centres of all zones. -/
theorem found_ok {L : Lab} (hL : IsLab L) {pick : Pick} {k : Kind} (hk : k ≠ .other) {b : Rat × Rat} {R : Cell f.ax.length f.ay.length → Rat × Rat → Prop}
    (h1 : ∀ q : Cell f.ax.length f.ay.length, (∀ p, Band f b.1 b.2 p ↔ p = q) → R q (f.ax.get q.1, f.ay.get q.2))
    (h2 : ∀ (z : List (Cell f.ax.length f.ay.length)) c, z.Nodup → Band f b.1 b.2 c → (∀ q, q ∈ z ↔ Linked (Band f b.1 b.2) c q) →
      ∃ p, centreOf pick k f b z = .ok p ∧ R c (position f.ax p.1, position f.ay p.2)) :
    ∃ r, found L pick k f b = .ok r ∧ (r = none ↔ ∀ q, ¬ Band f b.1 b.2 q) ∧ ∀ l, r = some l → OnePerZone (Band f b.1 b.2) R l := by
  have hne : ∀ c : Cell f.ax.length f.ay.length, Band f b.1 b.2 c → Linked (Band f b.1 b.2) c c := fun c h => ⟨h, h, .refl⟩
  unfold found
  split
  · rename_i q hq
    have hb := single hq
    refine ⟨_, rfl, ⟨fun h => (by cases h), fun h => absurd ((hb q).2 rfl) (h q)⟩, ?_⟩
    rintro l ⟨⟩
    refine ⟨[q], ?_, by simp, ?_, .cons ?_ .nil⟩
    · intro c hc; rw [List.mem_singleton] at hc; subst hc; exact (hb c).2 rfl
    · intro p hp
      have := (hb p).1 hp
      subst this
      exact ⟨p, by simp, hne p hp⟩
    · have := h1 q hb
      simpa [List.getD, List.getElem?_eq_getElem q.1.2, List.getElem?_eq_getElem q.2.2] using this
  · rw [if_neg hk]
    obtain ⟨cs, hcs, m1, m2, m3⟩ := reps (f := f) hL b
    obtain ⟨ps, hps⟩ := forall2_of (R := fun n p => centreOf pick k f b (part L f b n) = .ok p) (List.range (L _ _ (inside f b)).2) (by
      intro n hn
      obtain ⟨c, c1, -, c3⟩ := part_spec (f := f) hL (List.mem_range.1 hn)
      obtain ⟨p, hp, -⟩ := h2 (part L f b n) c (nodup_cells.filter _) c1 c3
      exact ⟨p, hp⟩)
    have he := each_ok hps
    unfold part at he
    rw [he]
    have hR : List.Forall₂ R cs (ps.map fun p => (position f.ax p.1, position f.ay p.2)) := by
      rw [List.forall₂_map_right_iff]
      have hl1 := hcs.length_eq
      have hl2 := hps.length_eq
      rw [List.forall₂_iff_get]
      refine ⟨by omega, ?_⟩
      intro i hi hi'
      have a1 := hcs.get (i := i) (by omega) hi
      have a2 := hps.get (i := i) (by omega) hi'
      obtain ⟨p, e, hr⟩ := h2 (part L f b _) _ (nodup_cells.filter _) a1.1 a1.2.2
      rw [a2] at e
      cases e
      exact hr
    cases ps with
    | nil =>
      have : cs = [] := by simpa using hR
      subst this
      refine ⟨none, rfl, ⟨fun _ q hq => ?_, fun _ => rfl⟩, fun l h => (by cases h)⟩
      obtain ⟨c, hc, -⟩ := m3 q hq
      cases hc
    | cons p ps =>
      refine ⟨_, rfl, ⟨fun h => (by cases h), fun h => ?_⟩, ?_⟩
      · cases hR with
        | cons _ _ => rename_i c cs' _ _; exact absurd (m1 c (by simp)) (h c)
      · rintro l ⟨⟩
        exact ⟨cs, m1, m2, m3, hR⟩

/-- On a regular axis the position of an index is linear. -/
theorem position_regular {l : List Rat} {a d : Rat} (h : ∀ (i : Nat) x, l[i]? = some x → x = a + i * d) {q : Rat} (h0 : 0 ≤ q) (h1 : q < l.length)
    (h2 : 2 ≤ l.length ∨ q = q.floor) : position l q = a + q * d := by
  have hfl : (0 : Int) ≤ q.floor := Rat.le_floor_iff.2 (by exact_mod_cast h0)
  have hlt : q.floor.toNat < l.length := by
    have : (q.floor : Rat) ≤ q := Rat.floor_le q
    have h3 : (q.floor : Rat) < (l.length : Rat) := lt_of_le_of_lt this h1
    have h4 : q.floor < (l.length : Int) := by exact_mod_cast h3
    omega
  have hc : ((q.floor.toNat : Nat) : Rat) = (q.floor : Rat) := by
    have : ((q.floor.toNat : Nat) : Int) = q.floor := Int.toNat_of_nonneg hfl
    exact_mod_cast congrArg (fun z : Int => (z : Rat)) this
  have hg : ∀ n, n < l.length → l.getD n 0 = a + n * d := by
    intro n hn
    rw [List.getD_eq_getElem?_getD, List.getElem?_eq_getElem hn, Option.getD_some]
    exact h n _ (List.getElem?_eq_getElem hn)
  unfold position
  split
  · rename_i e
    rw [hg _ hlt, hc, ← e]
  · rename_i e
    have h2 := h2.resolve_right e
    rw [hg _ hlt, hg 1 (by omega), hg 0 (by omega), hc]
    push_cast
    ring

theorem position_nat {l : List Rat} {n : Nat} (h : n < l.length) : position l (n : Rat) = l.get ⟨n, h⟩ := by
  have e : ((n : Rat).floor) = (n : Int) := by
    rw [show (n : Rat) = ((n : Int) : Rat) by simp, Rat.floor_intCast]
  unfold position
  rw [e]
  simp [h]

open Classical in
theorem sum_zone {m : Cell f.ax.length f.ay.length → Prop} {c : Cell f.ax.length f.ay.length} {z : List (Cell f.ax.length f.ay.length)} (hz : z.Nodup)
    (h : ∀ q, q ∈ z ↔ Linked m c q) (g : Cell f.ax.length f.ay.length → Rat) : (z.map g).sum = ∑ q with Linked m c q, g q := by
  rw [Zone.sum_map_eq z hz]
  apply sum_congr _ fun _ _ => rfl
  ext q
  simp [h]

/-- An index of a centre of mass is between the indices. -/
theorem mass_range {nx ny : Nat} {z : List (Cell nx ny)} {μ : Cell nx ny → Rat} (hμ : ∀ q, 0 ≤ μ q) {ind : Cell nx ny → Nat} {n : Nat} (hi : ∀ q, ind q < n)
    {x : Rat} (h : mass z μ ind = some x) : 0 ≤ x ∧ x < n ∧ (2 ≤ n ∨ x = x.floor) := by
  unfold mass at h
  split at h
  · cases h
  · rename_i h0
    have e := Option.some.inj h
    have hs : ∀ l : List (Cell nx ny), 0 ≤ (l.map μ).sum ∧ 0 ≤ (l.map fun q => μ q * (ind q : Rat)).sum ∧
        (l.map fun q => μ q * (ind q : Rat)).sum ≤ (l.map μ).sum * ((n : Rat) - 1) := by
      intro l
      induction l with
      | nil => simp
      | cons q l ih =>
        simp only [List.map_cons, List.sum_cons]
        have h1 := hμ q
        have h2 : ((ind q : Nat) : Rat) ≤ (n : Rat) - 1 := by
          have : (ind q : Rat) + 1 ≤ n := by exact_mod_cast hi q
          linarith
        have h3 : (0 : Rat) ≤ ind q := by exact_mod_cast Nat.zero_le _
        have h4 := mul_le_mul_of_nonneg_left h2 h1
        have h5 := mul_nonneg h1 h3
        refine ⟨by linarith, by linarith, by linarith⟩
    obtain ⟨s1, s2, s3⟩ := hs z
    have hp : 0 < (z.map μ).sum := lt_of_le_of_ne s1 (Ne.symm h0)
    have hx0 : 0 ≤ x := by rw [← e]; exact div_nonneg s2 s1
    have hx1 : x ≤ (n : Rat) - 1 := by rw [← e, div_le_iff₀ hp]; linarith
    refine ⟨hx0, by linarith, ?_⟩
    by_cases hn : 2 ≤ n
    · exact .inl hn
    · right
      have hn1 : (n : Rat) ≤ 1 := by exact_mod_cast (by omega : n ≤ 1)
      have : x = 0 := by linarith
      rw [this]
      decide +kernel

open Classical in
theorem mass_bary {z : List (Cell f.ax.length f.ay.length)} {m : Cell f.ax.length f.ay.length → Prop} {c : Cell f.ax.length f.ay.length} (hz : z.Nodup)
    (h : ∀ q, q ∈ z ↔ Linked m c q) {μ : Cell f.ax.length f.ay.length → Rat} (hμ : ∀ q, 0 ≤ μ q) {l : List Rat}
    {ind : Cell f.ax.length f.ay.length → Fin l.length} (hr : Regular l) (h0 : (z.map μ).sum ≠ 0) :
    ∃ x, mass z μ (fun q => (ind q).1) = some x ∧ ∑ q with Linked m c q, μ q * (l.get (ind q) - position l x) = 0 := by
  obtain ⟨a, d, hr⟩ := hr
  refine ⟨(z.map fun q => μ q * ((ind q).1 : Rat)).sum / (z.map μ).sum, by unfold mass; rw [if_neg h0], ?_⟩
  obtain ⟨r1, r2, r3⟩ := mass_range (z := z) (ind := fun q => (ind q).1) (n := l.length) hμ (fun q => (ind q).2)
    (x := (z.map fun q => μ q * ((ind q).1 : Rat)).sum / (z.map μ).sum) (by unfold mass; rw [if_neg h0])
  rw [position_regular hr r1 r2 r3]
  have hg : ∀ q, l.get (ind q) = a + (ind q).1 * d := fun q => hr _ _ (List.getElem?_eq_getElem (ind q).2)
  simp only [hg]
  rw [sum_zone hz h, sum_zone hz h] at *
  set S := ∑ q with Linked m c q, μ q
  set T := ∑ q with Linked m c q, μ q * ((ind q).1 : Rat)
  have : ∑ q with Linked m c q, μ q * (a + ((ind q).1 : Rat) * d - (a + T / S * d)) = d * T - S * (T / S * d) := by
    rw [show d * T - S * (T / S * d) = ∑ q with Linked m c q, (d * (μ q * ((ind q).1 : Rat)) - μ q * (T / S * d)) by
      rw [sum_sub_distrib, ← mul_sum, ← sum_mul]]
    apply sum_congr rfl
    intro q _
    ring
  rw [this]
  field_simp
  ring

/-! ### C254 -/

/-- The bounds used when `rel` is false, a little wider than those given. -/
def bounds (lo hi : Rat) : Rat × Rat := (lo - |lo| / 100000, hi + |hi| / 100000)

theorem widen_bounds (lo hi : Rat) : widen (lo, hi) = bounds lo hi := by
  unfold widen bounds
  simp only [Prod.mk.injEq]
  constructor <;> ring

/-- The bounds used when `rel` is true, a little wider than the given parts of the way from the smallest to the greatest value. -/
def relBounds (lo hi mn mx : Rat) : Rat × Rat := (mn + (mx - mn) * (lo - lo / 100000), mn + (mx - mn) * (hi + hi / 100000))

/-- `get_zones_centers` uses these bounds. -/
theorem uses_abs {L : Lab} {pick : Pick} {k : Kind} {lo hi mn mx : Rat} (h : lo < hi) (hn : IsMin f mn) (hx : IsMax f mx)
    (h1 : (bounds lo hi).1 ≤ mx) (h2 : mn ≤ (bounds lo hi).2) :
    zonesCenters L pick (lo, hi) false k f = found L pick k f (bounds lo hi) := by
  have hw : (bounds lo hi).1 < (bounds lo hi).2 := by
    unfold bounds
    have a1 := abs_nonneg lo
    have a2 := abs_nonneg hi
    simp only
    linarith
  unfold zonesCenters
  rw [widen_bounds, if_neg (ne_of_lt hw), if_neg (by simpa using hw), if_neg (by simp), min_eq hn, max_eq hx]
  simp only
  rw [if_neg (by simp), if_neg (by rw [not_or, not_lt, gt_iff_lt, not_lt]; exact ⟨h1, h2⟩)]

theorem uses_rel {L : Lab} {pick : Pick} {k : Kind} {lo hi mn mx : Rat} (h0 : 0 ≤ lo) (h : lo < hi) (hn : IsMin f mn) (hx : IsMax f mx) :
    zonesCenters L pick (lo, hi) true k f = found L pick k f (relBounds lo hi mn mx) := by
  have hle : mn ≤ mx := by
    obtain ⟨x, y, hr⟩ := hn.1
    exact hx.2 x y mn hr
  have e : absolute (widen (lo, hi)) mn mx = relBounds lo hi mn mx := by
    unfold absolute relBounds widen
    simp only
    have e1 : |lo| = lo := abs_of_nonneg h0
    have e2 : |hi| = hi := abs_of_nonneg (by linarith)
    have e3 : |mx - mn| = mx - mn := abs_of_nonneg (by linarith)
    rw [e1, e2, e3, abs_of_nonneg (by linarith : 0 ≤ lo - 1 / 100000 * lo), abs_of_nonneg (by linarith : 0 ≤ hi + 1 / 100000 * hi),
      if_neg (by linarith)]
    simp only [Prod.mk.injEq]
    constructor <;> ring
  have hw : (widen (lo, hi)).1 < (widen (lo, hi)).2 := by
    unfold widen
    have e1 : |lo| = lo := abs_of_nonneg h0
    have e2 : |hi| = hi := abs_of_nonneg (by linarith)
    simp only [e1, e2]
    linarith
  have hp : ¬ (widen (lo, hi)).1 * (widen (lo, hi)).2 < 0 := by
    have e1 : |lo| = lo := abs_of_nonneg h0
    have e2 : |hi| = hi := abs_of_nonneg (by linarith)
    rw [not_lt]
    apply mul_nonneg <;> simp only [widen, e1, e2] <;> linarith
  unfold zonesCenters
  rw [if_neg (ne_of_lt hw), if_neg (by simpa using hw), if_neg (by simpa using hp), min_eq hn, max_eq hx]
  simp only
  rw [if_pos trivial, e]

theorem weight_nonneg (k : Kind) (q : Cell f.ax.length f.ay.length) : 0 ≤ weight k f q := by
  unfold weight
  split
  · norm_num
  · exact abs_nonneg _

/-- The centres of mass. -/
theorem found_mass {L : Lab} (hL : IsLab L) (pick : Pick) {k : Kind} (hk : k = .center ∨ k = .ponderated) (hx : Regular f.ax) (hy : Regular f.ay) {b : Rat × Rat}
    (hm : k = .ponderated → ∀ c, Band f b.1 b.2 c → ∃ q, Linked (Band f b.1 b.2) c q ∧ value f q ≠ 0) :
    ∃ r, found L pick k f b = .ok r ∧ (r = none ↔ ∀ q, ¬ Band f b.1 b.2 q) ∧
      ∀ l, r = some l → OnePerZone (Band f b.1 b.2) (IsBary f (Band f b.1 b.2) (weight k f)) l := by
  classical
  refine found_ok hL (by rcases hk with rfl | rfl <;> decide) ?_ ?_
  · intro q hq
    have : ∀ p, Linked (Band f b.1 b.2) q p ↔ p = q := by
      intro p
      constructor
      · exact fun h => (hq p).1 h.2.1
      · rintro rfl
        exact ⟨(hq p).2 rfl, (hq p).2 rfl, .refl⟩
    unfold IsBary
    constructor
    · apply sum_eq_zero
      intro p hp
      rw [mem_filter, this] at hp
      rw [hp.2]; ring
    · apply sum_eq_zero
      intro p hp
      rw [mem_filter, this] at hp
      rw [hp.2]; ring
  · intro z c hz hc hq
    have hcz : c ∈ z := (hq c).2 ⟨hc, hc, .refl⟩
    have h0 : (z.map (weight k f)).sum ≠ 0 := by
      obtain ⟨q, hqz, hpos⟩ : ∃ q ∈ z, 0 < weight k f q := by
        rcases hk with rfl | rfl
        · exact ⟨c, hcz, by simp [weight]⟩
        · obtain ⟨q, h1, h2⟩ := hm rfl c hc
          exact ⟨q, (hq q).2 h1, by simp [weight, abs_pos.2 h2]⟩
      rw [Zone.sum_map_eq z hz]
      exact ne_of_gt (sum_pos' (fun q _ => weight_nonneg k q) ⟨q, List.mem_toFinset.2 hqz, hpos⟩)
    obtain ⟨x, e1, b1⟩ := mass_bary hz hq (weight_nonneg k) (ind := fun q => q.1) hx h0
    obtain ⟨y, e2, b2⟩ := mass_bary hz hq (weight_nonneg k) (ind := fun q => q.2) hy h0
    refine ⟨(x, y), ?_, b1, b2⟩
    rcases hk with rfl | rfl
    · unfold centreOf
      have hw : weight .center f = fun _ => 1 := by funext q; simp [weight]
      rw [hw] at e1 e2
      simp only [e1, e2]
    · unfold centreOf
      have hw : weight .ponderated f = fun q => |(grid f q).getD 0| := by funext q; simp [weight, value, grid]
      rw [hw] at e1 e2
      simp only [e1, e2]

/-- **C254** `get_zones_centers(bornes=[lo, hi], rel=False)` gives one point for each connected zone of visible values between the bounds: its barycentre,
the weights being the absolute values ('ponderated') or 1 ('center'); None without such values.  Missing: the axes must be regular, and no zone may have
only null values. -/
theorem C254_centres_partial {L : Lab} (hL : IsLab L) (pick : Pick) {k : Kind} (hk : k = .center ∨ k = .ponderated) (hx : Regular f.ax) (hy : Regular f.ay)
    {lo hi mn mx : Rat} (h : lo < hi) (hn : IsMin f mn) (hmx : IsMax f mx)
    (hm : k = .ponderated → ∀ c, Band f (bounds lo hi).1 (bounds lo hi).2 c → ∃ q, Linked (Band f (bounds lo hi).1 (bounds lo hi).2) c q ∧ value f q ≠ 0) :
    ∃ r, zonesCenters L pick (lo, hi) false k f = .ok r ∧ (r = none ↔ ∀ q, ¬ Band f (bounds lo hi).1 (bounds lo hi).2 q) ∧
      ∀ l, r = some l → OnePerZone (Band f (bounds lo hi).1 (bounds lo hi).2) (IsBary f (Band f (bounds lo hi).1 (bounds lo hi).2) (weight k f)) l := by
  by_cases hb : (bounds lo hi).1 ≤ mx ∧ mn ≤ (bounds lo hi).2
  · rw [uses_abs h hn hmx hb.1 hb.2]
    exact found_mass hL pick hk hx hy hm
  · have hw : (bounds lo hi).1 < (bounds lo hi).2 := by
      unfold bounds
      have a1 := abs_nonneg lo
      have a2 := abs_nonneg hi
      simp only
      linarith
    refine ⟨none, ?_, ⟨fun _ => ?_, fun _ => rfl⟩, fun l h => (by cases h)⟩
    · unfold zonesCenters
      rw [widen_bounds, if_neg (ne_of_lt hw), if_neg (by simpa using hw), if_neg (by simp), min_eq hn, max_eq hmx]
      simp only
      rw [if_neg (by simp), if_pos (by rw [not_and_or, not_le, not_le] at hb; exact hb)]
    · rintro q ⟨v, h1, h2, h3⟩
      obtain ⟨x, y, hr⟩ := reads_iff.2 ⟨q, h1⟩
      exact hb ⟨le_trans h2 (hmx.2 x y v hr), le_trans (hn.2 x y v hr) h3⟩

/-- **C254** The same with bounds relative to the extrema.  Missing: the axes must be regular, and no zone may have only null values. -/
theorem C254_relative_partial {L : Lab} (hL : IsLab L) (pick : Pick) {k : Kind} (hk : k = .center ∨ k = .ponderated) (hx : Regular f.ax) (hy : Regular f.ay)
    {lo hi mn mx : Rat} (h0 : 0 ≤ lo) (h : lo < hi) (hn : IsMin f mn) (hmx : IsMax f mx)
    (hm : k = .ponderated → ∀ c, Band f (relBounds lo hi mn mx).1 (relBounds lo hi mn mx).2 c →
      ∃ q, Linked (Band f (relBounds lo hi mn mx).1 (relBounds lo hi mn mx).2) c q ∧ value f q ≠ 0) :
    ∃ r, zonesCenters L pick (lo, hi) true k f = .ok r ∧ (r = none ↔ ∀ q, ¬ Band f (relBounds lo hi mn mx).1 (relBounds lo hi mn mx).2 q) ∧
      ∀ l, r = some l → OnePerZone (Band f (relBounds lo hi mn mx).1 (relBounds lo hi mn mx).2)
        (IsBary f (Band f (relBounds lo hi mn mx).1 (relBounds lo hi mn mx).2) (weight k f)) l := by
  rw [uses_rel h0 h hn hmx]
  exact found_mass hL pick hk hx hy hm

/-- The extrema of the zones. -/
theorem found_top {L : Lab} (hL : IsLab L) {pick : Pick} (hp : IsPick pick) {b : Rat × Rat} (hb : ¬ (if |b.1| < |b.2| then b.2 else b.1) < 0) :
    ∃ r, found L pick .extremum f b = .ok r ∧ (r = none ↔ ∀ q, ¬ Band f b.1 b.2 q) ∧
      ∀ l, r = some l → OnePerZone (Band f b.1 b.2) (IsTop f (Band f b.1 b.2) (value f)) l := by
  refine found_ok hL (by decide) ?_ ?_
  · intro q hq
    exact ⟨q, ⟨(hq q).2 rfl, (hq q).2 rfl, .refl⟩, rfl, fun q' h' => by rw [(hq q').1 h'.2.1]⟩
  · intro z c hz hc hq
    have hcz : c ∈ z := (hq c).2 ⟨hc, hc, .refl⟩
    obtain ⟨q, h1, h2, h3⟩ := hp _ _ z (fun q => (grid f q).getD 0) (List.ne_nil_of_mem hcz)
    refine ⟨(q.1.1, q.2.1), ?_, q, (hq q).1 h1, ?_, fun q' h' => h3 q' ((hq q').2 h')⟩
    · unfold centreOf
      simp only [if_neg hb, h2]
    · rw [position_nat q.1.2, position_nat q.2.2]

/-- **C254** kind='extremum' with positive bounds gives for each zone the place of its greatest value, whatever the axes. -/
theorem C254_extremum {L : Lab} (hL : IsLab L) {pick : Pick} (hp : IsPick pick) {lo hi mn mx : Rat} (h0 : 0 ≤ lo) (h : lo < hi) (hn : IsMin f mn) (hmx : IsMax f mx)
    (hin : ∃ q, Band f (bounds lo hi).1 (bounds lo hi).2 q) :
    ∃ l, zonesCenters L pick (lo, hi) false .extremum f = .ok (some l) ∧
      OnePerZone (Band f (bounds lo hi).1 (bounds lo hi).2) (IsTop f (Band f (bounds lo hi).1 (bounds lo hi).2) (value f)) l := by
  obtain ⟨q, v, c1, c2, c3⟩ := hin
  obtain ⟨x, y, hr⟩ := reads_iff.2 ⟨q, c1⟩
  rw [uses_abs h hn hmx (le_trans c2 (hmx.2 x y v hr)) (le_trans (hn.2 x y v hr) c3)]
  obtain ⟨r, e, e1, e2⟩ := found_top (f := f) hL hp (b := bounds lo hi) (by
    have a1 : |lo| = lo := abs_of_nonneg h0
    have a2 : |hi| = hi := abs_of_nonneg (by linarith)
    unfold bounds
    simp only [a1, a2]
    split <;> linarith)
  cases r with
  | none => exact absurd ⟨v, c1, c2, c3⟩ (e1.1 rfl q)
  | some l => exact ⟨l, e, e2 l rfl⟩

theorem found_bottom {L : Lab} (hL : IsLab L) {pick : Pick} (hp : IsPick pick) {b : Rat × Rat} (hb : (if |b.1| < |b.2| then b.2 else b.1) < 0) :
    ∃ r, found L pick .extremum f b = .ok r ∧ (r = none ↔ ∀ q, ¬ Band f b.1 b.2 q) ∧
      ∀ l, r = some l → OnePerZone (Band f b.1 b.2) (IsTop f (Band f b.1 b.2) fun q => -value f q) l := by
  refine found_ok hL (by decide) ?_ ?_
  · intro q hq
    exact ⟨q, ⟨(hq q).2 rfl, (hq q).2 rfl, .refl⟩, rfl, fun q' h' => by rw [(hq q').1 h'.2.1]⟩
  · intro z c hz hc hq
    have hcz : c ∈ z := (hq c).2 ⟨hc, hc, .refl⟩
    obtain ⟨q, h1, h2, h3⟩ := hp _ _ z (fun q => -(grid f q).getD 0) (List.ne_nil_of_mem hcz)
    refine ⟨(q.1.1, q.2.1), ?_, q, (hq q).1 h1, ?_, fun q' h' => h3 q' ((hq q').2 h')⟩
    · unfold centreOf
      simp only [if_pos hb, h2]
    · rw [position_nat q.1.2, position_nat q.2.2]

/-- **C254** With negative bounds it gives for each zone the place of its smallest value. -/
theorem C254_minimum {L : Lab} (hL : IsLab L) {pick : Pick} (hp : IsPick pick) {lo hi mn mx : Rat} (h0 : hi ≤ 0) (h : lo < hi) (hn : IsMin f mn) (hmx : IsMax f mx)
    (hin : ∃ q, Band f (bounds lo hi).1 (bounds lo hi).2 q) :
    ∃ l, zonesCenters L pick (lo, hi) false .extremum f = .ok (some l) ∧
      OnePerZone (Band f (bounds lo hi).1 (bounds lo hi).2) (IsTop f (Band f (bounds lo hi).1 (bounds lo hi).2) fun q => -value f q) l := by
  obtain ⟨q, v, c1, c2, c3⟩ := hin
  obtain ⟨x, y, hr⟩ := reads_iff.2 ⟨q, c1⟩
  rw [uses_abs h hn hmx (le_trans c2 (hmx.2 x y v hr)) (le_trans (hn.2 x y v hr) c3)]
  obtain ⟨r, e, e1, e2⟩ := found_bottom (f := f) hL hp (b := bounds lo hi) (by
    have a1 : |lo| = -lo := abs_of_neg (by linarith)
    have a2 : |hi| = -hi := abs_of_nonpos h0
    unfold bounds
    simp only [a1, a2]
    rw [abs_of_neg (by linarith : lo - -lo / 100000 < 0), abs_of_nonpos (by linarith : hi + -hi / 100000 ≤ 0), if_neg (by linarith)]
    linarith)
  cases r with
  | none => exact absurd ⟨v, c1, c2, c3⟩ (e1.1 rfl q)
  | some l => exact ⟨l, e, e2 l rfl⟩

/-- **C254** Bounds out of order are refused. -/
theorem C254_order (L : Lab) (pick : Pick) (k : Kind) (rel : Bool) {lo hi : Rat} (h : (bounds lo hi).2 < (bounds lo hi).1) :
    zonesCenters L pick (lo, hi) rel k f = .error .valueError := by
  unfold zonesCenters
  rw [widen_bounds, if_neg (ne_of_gt h), if_pos (not_lt.2 (le_of_lt h))]

end IMT.Centre
