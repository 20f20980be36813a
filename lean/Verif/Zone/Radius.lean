import Verif.Zone.Model
import Mathlib.Logic.Relation
import Mathlib.Tactic.IntervalCases
import Mathlib.Algebra.BigOperators.Ring.Finset
import Mathlib.Algebra.Order.BigOperators.Group.Finset

/-!
C159-C161: the zone of a vortex, its radius, its centre.
-/

namespace IMT.Zone

open Relation Finset

variable {nx ny : Nat}

/-! ### specification -/

/-- Two cells share an edge. -/
def Near (a b : Cell nx ny) : Prop :=
  (a.1 = b.1 ∧ (a.2.1 + 1 = b.2.1 ∨ b.2.1 + 1 = a.2.1)) ∨ (a.2 = b.2 ∧ (a.1.1 + 1 = b.1.1 ∨ b.1.1 + 1 = a.1.1))

/-- Two cells of a set are joined by a path in the set. -/
def Linked (m : Cell nx ny → Prop) (p q : Cell nx ny) : Prop :=
  m p ∧ m q ∧ ReflTransGen (fun a b => Near a b ∧ m a ∧ m b) p q

/-- What `scipy.ndimage.label` does: zero outside, one label for each connected part. -/
def IsLabel (L : Labeller) : Prop :=
  ∀ (nx ny : Nat) (m : Cell nx ny → Bool) (p q : Cell nx ny),
    (L nx ny m p = 0 ↔ m p = false) ∧ (m p = true → m q = true → (L nx ny m p = L nx ny m q ↔ Linked (fun r => m r = true) p q))

/-- The value at `q` is above `t`. -/
def Over (w : Cell nx ny → Option Rat) (t : Rat) (q : Cell nx ny) : Prop := ∃ v, w q = some v ∧ t < v

/-- `q` is in the connected zone of values above `t` around `c`. -/
def Around (w : Cell nx ny → Option Rat) (t : Rat) (c q : Cell nx ny) : Prop := Linked (Over w t) c q

/-- `m` is the greatest value of the connected zone above `t` around `c`. -/
def PeakAround (w : Cell nx ny → Option Rat) (t : Rat) (c : Cell nx ny) (m : Rat) : Prop :=
  (∃ q, Around w t c q ∧ w q = some m) ∧ ∀ q v, Around w t c q → w q = some v → v ≤ m

open Classical in
/-- The number of cells with a property. -/
noncomputable def count (P : Cell nx ny → Prop) : Nat := (univ.filter P).card

/-! ### the labels exist -/

theorem mem_cells (q : Cell nx ny) : q ∈ cells nx ny := by
  unfold cells
  rw [List.mem_flatMap]
  exact ⟨q.1, List.mem_finRange _, List.mem_map.2 ⟨q.2, List.mem_finRange _, rfl⟩⟩

theorem nodup_cells : (cells nx ny).Nodup := by
  unfold cells
  rw [List.nodup_flatMap]
  refine ⟨fun i _ => ?_, ?_⟩
  · exact (List.nodup_finRange ny).map fun a b h => (Prod.mk.inj h).2
  · refine (List.nodup_finRange nx).imp ?_
    intro a b hab x hx hy
    rw [List.mem_map] at hx hy
    obtain ⟨j, _, rfl⟩ := hx
    obtain ⟨k, _, hk⟩ := hy
    exact hab (Prod.mk.inj hk).1.symm

theorem Near.symm {a b : Cell nx ny} (h : Near a b) : Near b a := by
  unfold Near at *
  rcases h with ⟨h, k⟩ | ⟨h, k⟩
  · exact Or.inl ⟨h.symm, k.symm⟩
  · exact Or.inr ⟨h.symm, k.symm⟩

theorem Linked.symm {m : Cell nx ny → Prop} {p q : Cell nx ny} (h : Linked m p q) : Linked m q p :=
  ⟨h.2.1, h.1, by
    have := h.2.2
    induction this with
    | refl => exact ReflTransGen.refl
    | tail _ hab ih => exact ReflTransGen.head ⟨hab.1.symm, hab.2.2, hab.2.1⟩ (ih ⟨h.1, hab.2.1, by assumption⟩)⟩

theorem Linked.trans {m : Cell nx ny → Prop} {p q r : Cell nx ny} (h : Linked m p q) (k : Linked m q r) : Linked m p r :=
  ⟨h.1, k.2.1, h.2.2.trans k.2.2⟩

open Classical in
/-- A labeller. -/
noncomputable def someLabel : Labeller := fun nx ny m p =>
  if m p = true then 1 + (cells nx ny).findIdx (fun q => decide (Linked (fun r => m r = true) p q)) else 0

theorem isLabel_someLabel : IsLabel someLabel := by
  classical
  intro nx ny m p q
  constructor
  · unfold someLabel
    by_cases h : m p = true
    · rw [if_pos h]
      constructor
      · intro e; omega
      · intro e; rw [e] at h; exact absurd h (by decide)
    · rw [if_neg h]
      exact ⟨fun _ => Bool.eq_false_iff.2 h, fun _ => rfl⟩
  · intro hp hq
    unfold someLabel
    rw [if_pos hp, if_pos hq]
    constructor
    · intro e
      have e' := Nat.add_left_cancel e
      have hlt : (cells nx ny).findIdx (fun r => decide (Linked (fun r => m r = true) p r)) < (cells nx ny).length :=
        List.findIdx_lt_length_of_exists ⟨p, mem_cells p, by simpa using ⟨hp, hp, ReflTransGen.refl⟩⟩
      have hlt' : (cells nx ny).findIdx (fun r => decide (Linked (fun r => m r = true) q r)) < (cells nx ny).length :=
        List.findIdx_lt_length_of_exists ⟨q, mem_cells q, by simpa using ⟨hq, hq, ReflTransGen.refl⟩⟩
      have h1 := List.findIdx_getElem (w := hlt)
      have h2 := List.findIdx_getElem (w := hlt')
      have h3 := of_decide_eq_true h1
      have h4 := of_decide_eq_true h2
      have h5 : Linked (fun r => m r = true) q
          ((cells nx ny)[(cells nx ny).findIdx (fun r => decide (Linked (fun r => m r = true) p r))]) := by
        have hc : (cells nx ny)[(cells nx ny).findIdx (fun r => decide (Linked (fun r => m r = true) p r))] =
          (cells nx ny)[(cells nx ny).findIdx (fun r => decide (Linked (fun r => m r = true) q r))] := by
          congr 1
        rw [hc]; exact h4
      exact h3.trans h5.symm
    · intro hl
      have : (fun r => decide (Linked (fun r => m r = true) p r)) = fun r => decide (Linked (fun r => m r = true) q r) := by
        funext r
        rw [decide_eq_decide]
        exact ⟨fun h => hl.symm.trans h, fun h => hl.trans h⟩
      rw [this]

/-! ### lemmas -/

theorem above_iff (w : Cell nx ny → Option Rat) (t : Rat) (q : Cell nx ny) : above w (some t) q = true ↔ Over w t q := by
  unfold above Over
  cases h : w q with
  | none => simp [gt]
  | some v => simp [gt]

theorem above_fun (w : Cell nx ny → Option Rat) (t : Rat) : (fun q => above w (some t) q = true) = Over w t := by
  funext q; exact propext (above_iff w t q)

theorem mem_zone_in {L : Labeller} (hL : IsLabel L) {w : Cell nx ny → Option Rat} {t : Rat} {c : Cell nx ny} (hc : Over w t c)
    (q : Cell nx ny) : q ∈ zone L w (some t) c ↔ Around w t c q := by
  unfold zone Around
  have hc' := (above_iff w t c).2 hc
  rw [List.mem_filter, beq_iff_eq]
  constructor
  · rintro ⟨_, h⟩
    by_cases hq : above w (some t) q = true
    · have := ((hL nx ny (above w (some t)) q c).2 hq hc').1 h
      rw [above_fun] at this
      exact this.symm
    · have h0 := (hL nx ny (above w (some t)) q c).1.2 (Bool.eq_false_iff.2 hq)
      rw [h0] at h
      have := (hL nx ny (above w (some t)) c c).1.1 h.symm
      rw [this] at hc'; exact absurd hc' (by decide)
  · intro h
    refine ⟨mem_cells q, ?_⟩
    refine ((hL nx ny (above w (some t)) q c).2 ((above_iff w t q).2 h.2.1) hc').2 ?_
    rw [above_fun]; exact h.symm

theorem mem_zone_out {L : Labeller} (hL : IsLabel L) {w : Cell nx ny → Option Rat} {t : Option Rat} {c : Cell nx ny}
    (hc : above w t c = false) (q : Cell nx ny) : q ∈ zone L w t c ↔ above w t q = false := by
  unfold zone
  rw [List.mem_filter, beq_iff_eq]
  have h0 := (hL nx ny (above w t) c c).1.2 hc
  rw [h0]
  exact ⟨fun h => (hL nx ny (above w t) q c).1.1 h.2, fun h => ⟨mem_cells q, (hL nx ny (above w t) q c).1.2 h⟩⟩

theorem mem_zone_self (L : Labeller) (w : Cell nx ny → Option Rat) (t : Option Rat) (c : Cell nx ny) : c ∈ zone L w t c := by
  unfold zone
  rw [List.mem_filter, beq_iff_eq]
  exact ⟨mem_cells c, rfl⟩

theorem zone_nodup (L : Labeller) (w : Cell nx ny → Option Rat) (t : Option Rat) (c : Cell nx ny) : (zone L w t c).Nodup :=
  nodup_cells.filter _

theorem length_eq_count {l : List (Cell nx ny)} (hl : l.Nodup) {P : Cell nx ny → Prop} (h : ∀ q, q ∈ l ↔ P q) : l.length = count P := by
  classical
  unfold count
  rw [← List.toFinset_card_of_nodup hl]
  congr 1
  ext q
  simp only [List.mem_toFinset, mem_filter, mem_univ, true_and]
  exact h q

theorem npMax_spec : ∀ {l : List (Option Rat)}, l ≠ [] → (∀ a ∈ l, ∃ v, a = some v) →
    ∃ m, npMax l = some m ∧ some m ∈ l ∧ ∀ v, some v ∈ l → v ≤ m
  | [], h, _ => absurd rfl h
  | [a], _, h => by
    obtain ⟨v, hv⟩ := h a (by simp)
    subst hv
    exact ⟨v, rfl, by simp, fun u hu => by simp at hu; exact le_of_eq hu⟩
  | a :: b :: l, _, h => by
    obtain ⟨v, hv⟩ := h a (by simp)
    subst hv
    obtain ⟨m, hm, hin, hle⟩ := npMax_spec (l := b :: l) (by simp) fun x hx => h x (List.mem_cons_of_mem _ hx)
    refine ⟨max v m, ?_, ?_, ?_⟩
    · show (match some v, npMax (b :: l) with | some x, some y => some (max x y) | _, _ => none) = _
      rw [hm]
    · rcases max_choice v m with e | e
      · rw [e]; simp
      · rw [e]; exact List.mem_cons_of_mem _ hin
    · intro u hu
      rcases List.mem_cons.1 hu with e | e
      · rw [Option.some.inj e]; exact le_max_left _ _
      · exact (hle u e).trans (le_max_right _ _)

/-- The peak is the one of the first zone. -/
theorem peak_in {L : Labeller} (hL : IsLabel L) {eps v : Rat} {w : Cell nx ny → Option Rat} {c : Cell nx ny} (hv : w c = some v)
    (he : eps * v < v) : ∃ m, peak L eps w c = some m ∧ PeakAround w (eps * v) c m := by
  have hc : Over w (eps * v) c := ⟨v, hv, he⟩
  unfold peak
  rw [hv]
  show ∃ m, npMax ((zone L w (some (eps * v)) c).map w) = some m ∧ _
  obtain ⟨m, h1, h2, h3⟩ := npMax_spec (l := (zone L w (some (eps * v)) c).map w)
    (by intro h; have := mem_zone_self L w (some (eps * v)) c
        rw [List.map_eq_nil_iff] at h; rw [h] at this; exact absurd this (by simp))
    (by intro a ha
        obtain ⟨q, hq, rfl⟩ := List.mem_map.1 ha
        obtain ⟨u, hu, _⟩ := ((mem_zone_in hL hc q).1 hq).2.1
        exact ⟨u, hu⟩)
  refine ⟨m, h1, ?_, ?_⟩
  · obtain ⟨q, hq, e⟩ := List.mem_map.1 h2
    exact ⟨q, (mem_zone_in hL hc q).1 hq, e⟩
  · intro q u hq e
    exact h3 u (List.mem_map.2 ⟨q, (mem_zone_in hL hc q).2 hq, e⟩)

theorem peak_unique {w : Cell nx ny → Option Rat} {t : Rat} {c : Cell nx ny} {m m' : Rat} (h : PeakAround w t c m)
    (h' : PeakAround w t c m') : m = m' := by
  obtain ⟨⟨q, hq, e⟩, k⟩ := h
  obtain ⟨⟨q', hq', e'⟩, k'⟩ := h'
  exact le_antisymm (k' q m hq e) (k q' m' hq' e')

theorem pi_radius {L : Labeller} {eps dx dy : Rat} {w : Cell nx ny → Option Rat} {c : Cell nx ny} (hx : 0 ≤ dx) (hy : 0 ≤ dy) :
    Real.pi * radius L eps dx dy w c ^ 2 = ((area L eps dx dy w c : Rat) : ℝ) := by
  unfold radius
  have hpi := Real.pi_pos
  have ha : (0 : ℝ) ≤ ((area L eps dx dy w c : Rat) : ℝ) := by
    have : 0 ≤ area L eps dx dy w c := by unfold area; positivity
    exact_mod_cast this
  rw [Real.sq_sqrt (by positivity)]
  field_simp

/-! ### C159 -/

/-- C159: around a centre of positive vorticity, the disk has the area of the connected zone where the vorticity is above the given
part of the peak, the peak being the one of the zone above the given part of the central value.  Missing: a centre out of its own
zone, and clockwise vortices, see below. -/
theorem C159_zone_partial {L : Labeller} (hL : IsLabel L) {eps dx dy v m : Rat} {w : Cell nx ny → Option Rat} {c : Cell nx ny}
    (hx : 0 ≤ dx) (hy : 0 ≤ dy) (hv : w c = some v) (he : eps * v < v) (hm : PeakAround w (eps * v) c m) (hin : eps * m < v) :
    Real.pi * radius L eps dx dy w c ^ 2 = count (Around w (eps * m) c) * dx * dy := by
  rw [pi_radius hx hy]
  obtain ⟨m', h1, h2⟩ := peak_in hL hv he
  have := peak_unique hm h2
  subst this
  have : (vortexZone L eps w c).length = count (Around w (eps * m) c) := by
    refine length_eq_count (zone_nodup _ _ _ _) fun q => ?_
    rw [h1]
    exact mem_zone_in hL ⟨v, hv, hin⟩ q
  unfold area
  rw [this]
  push_cast
  ring

/-- C159: when the centre is the peak of its zone, the zone is the one above the given part of the central value. -/
theorem C159_peak {L : Labeller} (hL : IsLabel L) {eps dx dy v : Rat} {w : Cell nx ny → Option Rat} {c : Cell nx ny}
    (hx : 0 ≤ dx) (hy : 0 ≤ dy) (hv : w c = some v) (he : eps * v < v)
    (hm : ∀ q u, Around w (eps * v) c q → w q = some u → u ≤ v) :
    Real.pi * radius L eps dx dy w c ^ 2 = count (Around w (eps * v) c) * dx * dy :=
  C159_zone_partial hL hx hy hv he ⟨⟨c, ⟨⟨v, hv, he⟩, ⟨v, hv, he⟩, ReflTransGen.refl⟩, hv⟩, hm⟩ he

/-- C159 is violated when the vorticity at the given centre is less than the given part of the peak: the area is then the one of
everything which is not in a vortex. -/
theorem C159_outside_violated {L : Labeller} (hL : IsLabel L) {eps dx dy v m : Rat} {w : Cell nx ny → Option Rat} {c : Cell nx ny}
    (hx : 0 ≤ dx) (hy : 0 ≤ dy) (hv : w c = some v) (he : eps * v < v) (hm : PeakAround w (eps * v) c m) (hin : v ≤ eps * m) :
    Real.pi * radius L eps dx dy w c ^ 2 = count (fun q => ¬ Over w (eps * m) q) * dx * dy := by
  rw [pi_radius hx hy]
  obtain ⟨m', h1, h2⟩ := peak_in hL hv he
  have := peak_unique hm h2
  subst this
  have hout : above w (some (eps * m)) c = false := by
    rw [Bool.eq_false_iff]
    intro h
    obtain ⟨u, hu, hlt⟩ := (above_iff w _ c).1 h
    rw [hv] at hu
    rw [← Option.some.inj hu] at hlt
    exact absurd hlt (not_lt.2 hin)
  have : (vortexZone L eps w c).length = count fun q => ¬ Over w (eps * m) q := by
    refine length_eq_count (zone_nodup _ _ _ _) fun q => ?_
    rw [h1]
    refine (mem_zone_out hL hout q).trans ?_
    rw [Bool.eq_false_iff, ne_eq, above_iff]
  unfold area
  rw [this]
  push_cast
  ring

/-- C159 is violated for clockwise vortices: the area is the one of all the cells under some value, connected to the centre or not;
all the cells with a vorticity as strong as the centre are among them. -/
theorem C159_clockwise_violated {L : Labeller} (hL : IsLabel L) {eps dx dy v : Rat} {w : Cell nx ny → Option Rat} {c : Cell nx ny}
    (hx : 0 ≤ dx) (hy : 0 ≤ dy) (hv : w c = some v) (hneg : v < 0) (he0 : 0 < eps) (he1 : eps < 1) (hall : ∀ q, (w q).isSome) :
    ∃ t, v ≤ t ∧ Real.pi * radius L eps dx dy w c ^ 2 = count (fun q => ∃ u, w q = some u ∧ u ≤ t) * dx * dy := by
  have hout : above w (some (eps * v)) c = false := by
    rw [Bool.eq_false_iff]
    intro h
    obtain ⟨u, hu, hlt⟩ := (above_iff w _ c).1 h
    rw [hv] at hu
    rw [← Option.some.inj hu] at hlt
    nlinarith
  obtain ⟨m, h1, h2, h3⟩ := npMax_spec (l := (zone L w (some (eps * v)) c).map w)
    (by intro h; have := mem_zone_self L w (some (eps * v)) c
        rw [List.map_eq_nil_iff] at h; rw [h] at this; exact absurd this (by simp))
    (by intro a ha
        obtain ⟨q, hq, rfl⟩ := List.mem_map.1 ha
        exact Option.isSome_iff_exists.1 (hall q))
  have hvm : v ≤ m := h3 v (List.mem_map.2 ⟨c, mem_zone_self _ _ _ _, hv⟩)
  have hm0 : m ≤ eps * v := by
    obtain ⟨q, hq, e⟩ := List.mem_map.1 h2
    have := (mem_zone_out hL hout q).1 hq
    rw [Bool.eq_false_iff, ne_eq, above_iff] at this
    by_contra hlt
    exact this ⟨m, e, not_le.1 hlt⟩
  have hmneg : m < 0 := lt_of_le_of_lt hm0 (by nlinarith)
  have ht : v ≤ eps * m := by nlinarith
  refine ⟨eps * m, ht, ?_⟩
  have hpk : peak L eps w c = some m := by
    unfold peak; rw [hv]; exact h1
  have hout2 : above w (some (eps * m)) c = false := by
    rw [Bool.eq_false_iff]
    intro h
    obtain ⟨u, hu, hlt⟩ := (above_iff w _ c).1 h
    rw [hv] at hu
    rw [← Option.some.inj hu] at hlt
    exact absurd hlt (not_lt.2 ht)
  rw [pi_radius hx hy]
  have : (vortexZone L eps w c).length = count fun q => ∃ u, w q = some u ∧ u ≤ eps * m := by
    refine length_eq_count (zone_nodup _ _ _ _) fun q => ?_
    rw [hpk]
    refine (mem_zone_out hL hout2 q).trans ?_
    rw [Bool.eq_false_iff, ne_eq, above_iff]
    obtain ⟨u, hu⟩ := Option.isSome_iff_exists.1 (hall q)
    unfold Over
    rw [hu]
    constructor
    · intro h
      exact ⟨u, rfl, by by_contra hlt; exact h ⟨u, rfl, not_le.1 hlt⟩⟩
    · rintro ⟨u', e, hle⟩ ⟨u'', e', hlt⟩
      rw [← Option.some.inj e] at hle
      rw [← Option.some.inj e'] at hlt
      exact absurd hlt (not_lt.2 hle)
  unfold area
  rw [this]
  push_cast
  ring

/-- C159 is violated: "if no vortex is found, 0 is returned" never happens. -/
theorem C159_none_violated (L : Labeller) {eps dx dy : Rat} (w : Cell nx ny → Option Rat) (c : Cell nx ny) (hx : 0 < dx) (hy : 0 < dy) :
    0 < radius L eps dx dy w c := by
  unfold radius
  apply Real.sqrt_pos.2
  have hlen : 0 < (vortexZone L eps w c).length := List.length_pos_of_mem (mem_zone_self _ _ _ _)
  have hpos : 0 < area L eps dx dy w c := by
    unfold area
    have : (0 : Rat) < ((vortexZone L eps w c).length : Rat) := by exact_mod_cast hlen
    positivity
  have : (0 : ℝ) < ((area L eps dx dy w c : Rat) : ℝ) := by exact_mod_cast hpos
  have := Real.pi_pos
  positivity

/-- C159 is violated without any vorticity: the vortex is then the whole field. -/
theorem C159_still_violated {L : Labeller} (hL : IsLabel L) {eps dx dy : Rat} (c : Cell nx ny) (hx : 0 ≤ dx) (hy : 0 ≤ dy) :
    Real.pi * radius L eps dx dy (fun _ => some 0) c ^ 2 = (nx : ℝ) * dx * ((ny : ℝ) * dy) := by
  rw [pi_radius hx hy]
  have hz : ∀ t, zone L (fun _ : Cell nx ny => some (0 : Rat)) (some 0) t = cells nx ny := by
    intro t
    have hout : ∀ q : Cell nx ny, above (fun _ => some (0 : Rat)) (some 0) q = false := fun q => by simp [above, gt]
    apply List.filter_eq_self.2
    intro q hq
    have := (mem_zone_out hL (hout t) q).2 (hout q)
    exact (List.mem_filter.1 this).2
  have hpk : peak L eps (fun _ : Cell nx ny => some (0 : Rat)) c = some 0 := by
    unfold peak
    simp only [Option.map_some, mul_zero]
    rw [hz]
    obtain ⟨m, h1, h2, _⟩ := npMax_spec (l := (cells nx ny).map fun _ => some (0 : Rat))
      (by intro h; rw [List.map_eq_nil_iff] at h; have := mem_cells c; rw [h] at this; exact absurd this (by simp))
      (by intro a ha; obtain ⟨q, _, rfl⟩ := List.mem_map.1 ha; exact ⟨0, rfl⟩)
    obtain ⟨q, _, e⟩ := List.mem_map.1 h2
    rw [h1, e]
  have hlen : (vortexZone L eps (fun _ : Cell nx ny => some (0 : Rat)) c).length = nx * ny := by
    unfold vortexZone
    rw [hpk]
    simp only [Option.map_some, mul_zero]
    rw [hz]
    simp [cells, List.length_flatMap]
  unfold area
  rw [hlen]
  push_cast
  ring

/-! ### C160 -/

theorem above_scale {k : Rat} (hk : 0 < k) (w : Cell nx ny → Option Rat) (t : Option Rat) :
    above (fun q => (w q).map (k * ·)) (t.map (k * ·)) = above w t := by
  funext q
  unfold above
  cases h : w q <;> cases t <;> simp [gt, h, hk]

theorem zone_scale {k : Rat} (hk : 0 < k) (L : Labeller) (w : Cell nx ny → Option Rat) (t : Option Rat) (c : Cell nx ny) :
    zone L (fun q => (w q).map (k * ·)) (t.map (k * ·)) c = zone L w t c := by
  unfold zone
  rw [above_scale hk]

theorem npMax_scale {k : Rat} (hk : 0 < k) : ∀ l : List (Option Rat), npMax (l.map fun a => a.map (k * ·)) = (npMax l).map (k * ·)
  | [] => rfl
  | [a] => rfl
  | a :: b :: l => by
    have ih := npMax_scale hk (b :: l)
    show (match a.map (k * ·), npMax ((b :: l).map fun a => a.map (k * ·)) with
      | some x, some y => some (max x y) | _, _ => none) =
      (match a, npMax (b :: l) with | some x, some y => some (max x y) | _, _ => none).map (k * ·)
    rw [ih]
    cases a <;> cases npMax (b :: l) <;> simp [mul_max_of_nonneg _ _ hk.le]

theorem peak_scale {k : Rat} (hk : 0 < k) (L : Labeller) (eps : Rat) (w : Cell nx ny → Option Rat) (c : Cell nx ny) :
    peak L eps (fun q => (w q).map (k * ·)) c = (peak L eps w c).map (k * ·) := by
  unfold peak
  have : ((w c).map (k * ·)).map (eps * ·) = ((w c).map (eps * ·)).map (k * ·) := by
    cases w c <;> simp [mul_left_comm]
  rw [this, zone_scale hk, ← npMax_scale hk, List.map_map]
  rfl

theorem vortexZone_scale {k : Rat} (hk : 0 < k) (L : Labeller) (eps : Rat) (w : Cell nx ny → Option Rat) (c : Cell nx ny) :
    vortexZone L eps (fun q => (w q).map (k * ·)) c = vortexZone L eps w c := by
  unfold vortexZone
  rw [peak_scale hk]
  have : ((peak L eps w c).map (k * ·)).map (eps * ·) = ((peak L eps w c).map (eps * ·)).map (k * ·) := by
    cases peak L eps w c <;> simp [mul_left_comm]
  rw [this, zone_scale hk]

/-- C160: the radius does not depend on the scale of the velocities. -/
theorem C160_velocity {k : Rat} (hk : 0 < k) (L : Labeller) (eps dx dy : Rat) (w : Cell nx ny → Option Rat) (c : Cell nx ny) :
    radius L eps dx dy (fun q => (w q).map (k * ·)) c = radius L eps dx dy w c := by
  unfold radius area
  rw [vortexZone_scale hk]

/-- C160: the radius follows the scale of the lengths (the vorticity being divided by it). -/
theorem C160_length {k : Rat} (hk : 0 < k) (L : Labeller) (eps dx dy : Rat) (w : Cell nx ny → Option Rat) (c : Cell nx ny) :
    radius L eps (k * dx) (k * dy) (fun q => (w q).map (k⁻¹ * ·)) c = k * radius L eps dx dy w c := by
  rw [C160_velocity (inv_pos.2 hk)]
  unfold radius area
  have hk' : (0 : ℝ) ≤ (k : ℝ) := by exact_mod_cast hk.le
  rw [show ((((vortexZone L eps w c).length : Rat) * (k * dx) * (k * dy) : Rat) : ℝ) / Real.pi =
    (k : ℝ) ^ 2 * (((((vortexZone L eps w c).length : Rat) * dx * dy : Rat) : ℝ) / Real.pi) by push_cast; ring]
  rw [Real.sqrt_mul (by positivity), Real.sqrt_sq hk']

/-! ### C161 -/

theorem sum_map_eq (l : List (Cell nx ny)) (hl : l.Nodup) (f : Cell nx ny → Rat) : (l.map f).sum = ∑ q ∈ l.toFinset, f q := by
  classical
  rw [List.sum_toFinset _ hl]

open Classical in
/-- C161: the returned centre is the barycentre of the zone, the weights being the vorticities. -/
theorem C161_barycentre {L : Labeller} (hL : IsLabel L) {eps a0 d v m : Rat} {ind : Cell nx ny → Nat} {w : Cell nx ny → Option Rat}
    {c : Cell nx ny} (he0 : 0 ≤ eps) (hvpos : 0 < v) (hv : w c = some v) (he : eps * v < v) (hm : PeakAround w (eps * v) c m) (hin : eps * m < v) :
    ∃ x, centre L eps a0 d ind w c = some x ∧
      ∑ q with Around w (eps * m) c q, (w q).getD 0 * (a0 + ind q * d - x) = 0 := by
  obtain ⟨m', h1, h2⟩ := peak_in hL hv he
  have := peak_unique hm h2
  subst this
  have hmem : ∀ q, q ∈ vortexZone L eps w c ↔ Around w (eps * m) c q := fun q => by
    unfold vortexZone
    rw [h1]
    exact mem_zone_in hL ⟨v, hv, hin⟩ q
  have hvm : v ≤ m := hm.2 c v ⟨⟨v, hv, he⟩, ⟨v, hv, he⟩, ReflTransGen.refl⟩ hv
  have hmpos : 0 < m := lt_of_lt_of_le hvpos hvm
  have hpos : ∀ q ∈ vortexZone L eps w c, ∃ u, w q = some u ∧ 0 < u := fun q hq => by
    obtain ⟨u, hu, hlt⟩ := ((hmem q).1 hq).2.1
    exact ⟨u, hu, lt_of_le_of_lt (mul_nonneg he0 hmpos.le) hlt⟩
  have habs : ∀ q ∈ vortexZone L eps w c, |(w q).getD 0| = (w q).getD 0 := fun q hq => by
    obtain ⟨u, hu, hlt⟩ := hpos q hq
    rw [hu]; exact abs_of_pos hlt
  have hnd : (vortexZone L eps w c).Nodup := zone_nodup _ _ _ _
  have hset : (vortexZone L eps w c).toFinset = univ.filter fun q => Around w (eps * m) c q := by
    ext q
    simp only [List.mem_toFinset, mem_filter, mem_univ, true_and]
    exact hmem q
  have hnone : ((vortexZone L eps w c).any fun q => (w q).isNone) = false := by
    rw [List.any_eq_false]
    intro q hq
    obtain ⟨u, hu, _⟩ := hpos q hq
    simp [hu]
  have hM : ((vortexZone L eps w c).map fun q => |(w q).getD 0|).sum = ∑ q with Around w (eps * m) c q, (w q).getD 0 := by
    rw [List.map_congr_left habs, sum_map_eq _ hnd, hset]
  have hN : ((vortexZone L eps w c).map fun q => |(w q).getD 0| * (ind q : Rat)).sum =
      ∑ q with Around w (eps * m) c q, (w q).getD 0 * (ind q : Rat) := by
    rw [List.map_congr_left (g := fun q => (w q).getD 0 * (ind q : Rat)) (fun q hq => by rw [habs q hq]), sum_map_eq _ hnd, hset]
  have hMpos : 0 < ∑ q with Around w (eps * m) c q, (w q).getD 0 := by
    refine Finset.sum_pos (fun q hq => ?_) ⟨c, ?_⟩
    · obtain ⟨u, hu, hlt⟩ := hpos q ((hmem q).2 (mem_filter.1 hq).2)
      rw [hu]; exact hlt
    · rw [mem_filter]; exact ⟨mem_univ _, (hmem c).1 (mem_zone_self _ _ _ _)⟩
  refine ⟨a0 + (∑ q with Around w (eps * m) c q, (w q).getD 0 * (ind q : Rat)) /
    (∑ q with Around w (eps * m) c q, (w q).getD 0) * d, ?_, ?_⟩
  · unfold centre
    simp only [hnone, hM, hN]
    rw [if_neg (by decide), if_neg hMpos.ne']
  · set M := ∑ q with Around w (eps * m) c q, (w q).getD 0 with hMdef
    set N := ∑ q with Around w (eps * m) c q, (w q).getD 0 * (ind q : Rat) with hNdef
    have : ∀ q, (w q).getD 0 * (a0 + (ind q : Rat) * d - (a0 + N / M * d)) =
        ((w q).getD 0 * (ind q : Rat)) * d - (w q).getD 0 * (N / M * d) := fun q => by ring
    simp only [this]
    rw [Finset.sum_sub_distrib, ← Finset.sum_mul, ← Finset.sum_mul, ← hMdef, ← hNdef]
    field_simp
    ring

open Classical in
/-- C161: the centre is within the bounds of the zone. -/
theorem C161_within {L : Labeller} (hL : IsLabel L) {eps a0 d v m lo hi : Rat} {ind : Cell nx ny → Nat} {w : Cell nx ny → Option Rat}
    {c : Cell nx ny} (he0 : 0 ≤ eps) (hvpos : 0 < v) (hv : w c = some v) (he : eps * v < v) (hm : PeakAround w (eps * v) c m) (hin : eps * m < v)
    (hb : ∀ q, Around w (eps * m) c q → lo ≤ a0 + ind q * d ∧ a0 + ind q * d ≤ hi) :
    ∃ x, centre L eps a0 d ind w c = some x ∧ lo ≤ x ∧ x ≤ hi := by
  obtain ⟨x, hx, hs⟩ := C161_barycentre hL (a0 := a0) (d := d) (ind := ind) he0 hvpos hv he hm hin
  have hvm : v ≤ m := hm.2 c v ⟨⟨v, hv, he⟩, ⟨v, hv, he⟩, ReflTransGen.refl⟩ hv
  have hcin : Around w (eps * m) c c := ⟨⟨v, hv, hin⟩, ⟨v, hv, hin⟩, ReflTransGen.refl⟩
  have hpos : ∀ q, Around w (eps * m) c q → 0 < (w q).getD 0 := by
    intro q hq
    obtain ⟨u, hu, hlt⟩ := hq.2.1
    rw [hu]
    show 0 < u
    exact lt_of_le_of_lt (mul_nonneg he0 (hvpos.le.trans hvm)) hlt
  refine ⟨x, hx, ?_, ?_⟩
  · by_contra hlt
    have hlt' := not_le.1 hlt
    have : 0 < ∑ q with Around w (eps * m) c q, (w q).getD 0 * (a0 + ind q * d - x) := by
      refine Finset.sum_pos (fun q hq => ?_) ⟨c, by rw [mem_filter]; exact ⟨mem_univ _, hcin⟩⟩
      have hq' := (mem_filter.1 hq).2
      exact mul_pos (hpos q hq') (by linarith [(hb q hq').1])
    rw [hs] at this
    exact lt_irrefl _ this
  · by_contra hlt
    have hlt' := not_le.1 hlt
    have : ∑ q with Around w (eps * m) c q, (w q).getD 0 * (a0 + ind q * d - x) < 0 := by
      refine Finset.sum_neg (fun q hq => ?_) ⟨c, by rw [mem_filter]; exact ⟨mem_univ _, hcin⟩⟩
      have hq' := (mem_filter.1 hq).2
      exact mul_neg_of_pos_of_neg (hpos q hq') (by linarith [(hb q hq').2])
    rw [hs] at this
    exact lt_irrefl _ this

/-! ### an example -/

/-- A line of four cells: a vortex on the first two, another on the last one. -/
def exW : Cell 4 1 → Option Rat := fun q => some (match q.1.1 with | 0 => 10 | 1 => 5 | 2 => 0 | _ => 8)

theorem ex_around (q : Cell 4 1) : Around exW 1 (0, 0) q ↔ q.1.1 < 2 := by
  have hov : ∀ q : Cell 4 1, Over exW 1 q ↔ q.1.1 ≠ 2 := by
    intro q
    unfold Over exW
    obtain ⟨⟨i, hi⟩, j⟩ := q
    interval_cases i <;> simp
  constructor
  · intro h
    have : ∀ r, ReflTransGen (fun a b => Near a b ∧ Over exW 1 a ∧ Over exW 1 b) (0, 0) r → r.1.1 < 2 := by
      intro r hr
      induction hr with
      | refl => decide
      | tail _ hs ih =>
        obtain ⟨hn, _, hb⟩ := hs
        rw [hov] at hb
        rcases hn with ⟨_, h⟩ | ⟨_, h⟩
        · omega
        · omega
    exact this q h.2.2
  · intro h
    refine ⟨(hov _).2 (by decide), (hov _).2 (by omega), ?_⟩
    by_cases h0 : q.1.1 = 0
    · have : q = (0, 0) := by ext <;> simp [h0]
      rw [this]
    · refine ReflTransGen.single ⟨Or.inr ⟨by ext; simp, Or.inl ?_⟩, (hov _).2 (by decide), (hov _).2 (by omega)⟩
      show 0 + 1 = q.1.1
      omega

/-- Concrete case: with the labels that exist, cells of 1/2 by 1/2 and one tenth of the peak, the vortex has two cells. -/
example : Real.pi * radius someLabel (1 / 10) (1 / 2) (1 / 2) exW (0, 0) ^ 2 = 1 / 2 := by
  have h1 : (1 / 10 : Rat) * 10 = 1 := by norm_num
  have := C159_peak isLabel_someLabel (eps := 1 / 10) (dx := 1 / 2) (dy := 1 / 2) (v := 10) (w := exW) (c := (0, 0)) (by norm_num)
    (by norm_num) rfl (by norm_num) (by
      intro q u hq hu
      rw [h1] at hq
      have := (ex_around q).1 hq
      unfold exW at hu
      obtain ⟨⟨i, hi⟩, j⟩ := q
      simp only at this
      interval_cases i
      all_goals simp at hu; linarith)
  rw [this, h1]
  have hc : count (Around exW 1 (0, 0)) = 2 := by
    classical
    unfold count
    have : (univ.filter fun q => Around exW 1 (0, 0) q) = univ.filter fun q : Cell 4 1 => q.1.1 < 2 := by
      ext q; simp only [mem_filter, mem_univ, true_and]; exact ex_around q
    rw [this]; decide
  rw [hc]
  norm_num

end IMT.Zone
