import Verif.Detect.Model
import Verif.Centre.Calls
import Verif.Cp.Props
import Verif.Scalar.Border

/-! C274: positions of the vortices from the zones of a criterion. -/

namespace IMT.Detect

open Zone (Cell Linked)
open Centre (IsLab Band OnePerZone IsBary Regular IsMin IsMax bounds value weight Lab Pick zonesCenters visible reads_iff mem_visible)
open Cp (CP Pts Kind At Valid UnitsMatch)

/-! ### specification -/

/-- The cells whose visible value is at least `t`, up to the hundred-thousandth of `t`. -/
def High (f : SF) (t : Rat) (q : Cell f.ax.length f.ay.length) : Prop := ∃ v, f.cell q.1 q.2 = some v ∧ t - t / 100000 ≤ v

/-- The cells whose visible value is at most `-t`, up to the hundred-thousandth of `t`. -/
def Low (f : SF) (t : Rat) (q : Cell f.ax.length f.ay.length) : Prop := ∃ v, f.cell q.1 q.2 = some v ∧ v ≤ -(t - t / 100000)

/-- `m` is the greatest absolute value of the visible values. -/
def IsPeak (f : SF) (m : Rat) : Prop := (∃ x y v, f.Reads x y (some v) ∧ |v| = m) ∧ ∀ x y v, f.Reads x y (some v) → |v| ≤ m

/-- The same visible values at the same places, with the same units. -/
def SameVisible (g f : SF) : Prop := (∀ x y v, g.Reads x y (some v) ↔ f.Reads x y (some v)) ∧ g.ux = f.ux ∧ g.uy = f.uy ∧ g.ax <:+: f.ax ∧ g.ay <:+: f.ay

/-- One point for each zone of the cells `m`, at its barycentre with the absolute values as weights, in the units of the axes; nothing without such cells. -/
def Places (f : SF) (m : Cell f.ax.length f.ay.length → Prop) (p : Option Pts) : Prop :=
  (p = none ↔ ∀ q, ¬ m q) ∧ ∀ s, p = some s → s.ux = f.ux ∧ s.uy = f.uy ∧ OnePerZone m (IsBary f m fun q => |value f q|) s.xy

/-! ### the criterion -/

theorem sameVisible_refl (f : SF) : SameVisible f f := ⟨fun _ _ _ => Iff.rfl, rfl, rfl, List.infix_rfl, List.infix_rfl⟩

/-- **C274** Cropping the borders of the criterion loses no visible value and moves none. -/
theorem C274_crop {f g : SF} (hf : f.WF) (h : cropped (.ok f) = .ok g) : SameVisible g f := by
  unfold cropped at h
  simp only at h
  cases hc : f.cropMaskedSoft with
  | error e => rw [hc] at h; cases h
  | ok r =>
    rw [hc] at h
    cases r with
    | none => cases h; exact sameVisible_refl f
    | some k =>
      cases h
      obtain ⟨⟨h1, h2, h3, h4, h5, -⟩, h6, -⟩ := SF.C19_soft_bounding_box hf hc
      exact ⟨fun x y v => ⟨fun hr => ((h3 x y _).1 hr).1, h6 x y v⟩, h4, h5, h1, h2⟩

theorem peak_same {f g : SF} (h : SameVisible g f) {m : Rat} (hm : IsPeak f m) : IsPeak g m := by
  obtain ⟨⟨x, y, v, h1, h2⟩, h3⟩ := hm
  exact ⟨⟨x, y, v, (h.1 x y v).2 h1, h2⟩, fun x y v hr => h3 x y v ((h.1 x y v).1 hr)⟩

theorem peak_eq {f : SF} {m : Rat} (h : IsPeak f m) : peak f = some m := by
  unfold peak
  rw [List.max?_eq_some_iff]
  obtain ⟨⟨x, y, v, h1, h2⟩, h3⟩ := h
  refine ⟨List.mem_map.2 ⟨v, mem_visible.2 (reads_iff.1 ⟨x, y, h1⟩), h2⟩, fun u hu => ?_⟩
  obtain ⟨w, hw, rfl⟩ := List.mem_map.1 hu
  obtain ⟨x', y', hr⟩ := reads_iff.2 (mem_visible.1 hw)
  exact h3 x' y' w hr

theorem extrema {f : SF} {m : Rat} (h : IsPeak f m) : (∃ a, IsMin f a) ∧ ∃ b, IsMax f b := by
  obtain ⟨⟨x, y, v, h1, -⟩, -⟩ := h
  have hv : v ∈ visible f := mem_visible.2 (reads_iff.1 ⟨x, y, h1⟩)
  constructor
  · cases e : (visible f).min? with
    | none => rw [List.min?_eq_none_iff] at e; rw [e] at hv; cases hv
    | some a =>
      rw [List.min?_eq_some_iff] at e
      exact ⟨a, reads_iff.2 (mem_visible.1 e.1), fun x y u hu => e.2 u (mem_visible.2 (reads_iff.1 ⟨x, y, hu⟩))⟩
  · cases e : (visible f).max? with
    | none => rw [List.max?_eq_none_iff] at e; rw [e] at hv; cases hv
    | some a =>
      rw [List.max?_eq_some_iff] at e
      exact ⟨a, reads_iff.2 (mem_visible.1 e.1), fun x y u hu => e.2 u (mem_visible.2 (reads_iff.1 ⟨x, y, hu⟩))⟩

/-! ### the zones -/

theorem cell_le {f : SF} {m : Rat} (h : IsPeak f m) {q : Cell f.ax.length f.ay.length} {v : Rat} (hv : f.cell q.1 q.2 = some v) : |v| ≤ m := by
  obtain ⟨x, y, hr⟩ := reads_iff.2 ⟨q, hv⟩
  exact h.2 x y v hr

theorem high_band {f : SF} {m t : Rat} (h : IsPeak f m) (ht : 0 < t) : Band f (bounds (upper m t).1 (upper m t).2).1 (bounds (upper m t).1 (upper m t).2).2 = High f t := by
  funext q
  apply propext
  have e1 : (bounds (upper m t).1 (upper m t).2).1 = t - t / 100000 := by
    unfold upper bounds; split <;> simp only [abs_of_pos ht]
  rw [e1]
  constructor
  · rintro ⟨v, h1, h2, -⟩; exact ⟨v, h1, h2⟩
  · rintro ⟨v, h1, h2⟩
    refine ⟨v, h1, h2, ?_⟩
    have hm := le_trans (le_abs_self v) (cell_le h h1)
    unfold upper bounds
    split
    · have := abs_nonneg m; simp only; linarith
    · have := abs_nonneg (t * (11 / 10)); simp only; linarith

theorem low_band {f : SF} {m t : Rat} (h : IsPeak f m) (ht : 0 < t) : Band f (bounds (lower m t).1 (lower m t).2).1 (bounds (lower m t).1 (lower m t).2).2 = Low f t := by
  funext q
  apply propext
  have e1 : (bounds (lower m t).1 (lower m t).2).2 = -(t - t / 100000) := by
    unfold lower bounds; split <;> simp only [abs_neg, abs_of_pos ht] <;> ring
  rw [e1]
  constructor
  · rintro ⟨v, h1, -, h2⟩; exact ⟨v, h1, h2⟩
  · rintro ⟨v, h1, h2⟩
    refine ⟨v, h1, ?_, h2⟩
    have hm := le_trans (neg_abs_le v |> neg_le.1) (cell_le h h1)
    unfold lower bounds
    split
    · have := abs_nonneg (-m); simp only; linarith
    · have := abs_nonneg (-(t * (11 / 10))); simp only; linarith

theorem lower_lt {m t : Rat} (ht : 0 < t) : (lower m t).1 < (lower m t).2 := by
  unfold lower
  split
  · simp only; linarith
  · simp only; linarith

theorem upper_lt {m t : Rat} (ht : 0 < t) : (upper m t).1 < (upper m t).2 := by
  unfold upper
  split
  · simp only; linarith
  · simp only; linarith

theorem weight_pond (f : SF) : weight .ponderated f = fun q => |value f q| := by funext q; simp [weight]

theorem pond_ne {f : SF} {m : Cell f.ax.length f.ay.length → Prop} (h : ∀ q, m q → ∃ v, f.cell q.1 q.2 = some v ∧ v ≠ 0) (c : Cell f.ax.length f.ay.length) (hc : m c) :
    ∃ q, Linked m c q ∧ value f q ≠ 0 := by
  obtain ⟨v, h1, h2⟩ := h c hc
  refine ⟨c, ⟨hc, hc, .refl⟩, ?_⟩
  unfold value
  rw [h1]
  exact h2

theorem places_asPts {f : SF} {m : Cell f.ax.length f.ay.length → Prop} {r : Option (List (Rat × Rat))} (h1 : r = none ↔ ∀ q, ¬ m q)
    (h2 : ∀ l, r = some l → OnePerZone m (IsBary f m fun q => |value f q|) l) : Places f m (asPts f r) := by
  unfold asPts
  refine ⟨by rw [Option.map_eq_none_iff]; exact h1, fun s hs => ?_⟩
  rw [Option.map_eq_some_iff] at hs
  obtain ⟨l, hl, rfl⟩ := hs
  exact ⟨rfl, rfl, h2 l hl⟩

/-- The threshold in values of the criterion. -/
def thresh (rel : Bool) (thr m : Rat) : Rat := if rel then thr * m else thr

/-- **C274** The zones of one field: one point for each connected zone of the values of the criterion below the opposite of the threshold, one for each
connected zone above the threshold.  Missing: the axes must be regular and the threshold must not be null. -/
theorem C274_zones_partial {L : Lab} (hL : IsLab L) (pick : Pick) {f g : SF} (hf : f.WF) (hg : cropped (.ok f) = .ok g) (hx : Regular g.ax) (hy : Regular g.ay)
    {thr : Rat} {rel : Bool} (h0 : 0 ≤ thr) (h1 : rel = true → thr ≤ 1) {m : Rat} (hm : IsPeak f m) (ht : 0 < thresh rel thr m) :
    SameVisible g f ∧ ∃ n p, onField L pick thr rel (.ok f) = .ok (n, p) ∧ Places g (Low g (thresh rel thr m)) n ∧ Places g (High g (thresh rel thr m)) p := by
  have hs := C274_crop hf hg
  refine ⟨hs, ?_⟩
  have hm' := peak_same hs hm
  obtain ⟨⟨a, ha⟩, ⟨b, hb⟩⟩ := extrema hm'
  have hneg : ∀ q, Low g (thresh rel thr m) q → ∃ v, g.cell q.1 q.2 = some v ∧ v ≠ 0 := by
    rintro q ⟨v, h1, h2⟩
    exact ⟨v, h1, by intro h; rw [h] at h2; linarith⟩
  have hpos : ∀ q, High g (thresh rel thr m) q → ∃ v, g.cell q.1 q.2 = some v ∧ v ≠ 0 := by
    rintro q ⟨v, h1, h2⟩
    exact ⟨v, h1, by intro h; rw [h] at h2; linarith⟩
  have en := low_band hm' ht
  have ep := high_band hm' ht
  obtain ⟨n, n1, n2, n3⟩ := Centre.C254_centres_partial hL pick (k := .ponderated) (.inr rfl) hx hy (lower_lt (m := m) ht) ha hb
    (by intro _; rw [en]; exact pond_ne hneg)
  obtain ⟨p, p1, p2, p3⟩ := Centre.C254_centres_partial hL pick (k := .ponderated) (.inr rfl) hx hy (upper_lt (m := m) ht) ha hb
    (by intro _; rw [ep]; exact pond_ne hpos)
  rw [en, weight_pond] at n3
  rw [en] at n2
  rw [ep, weight_pond] at p3
  rw [ep] at p2
  refine ⟨asPts g n, asPts g p, ?_, places_asPts n2 n3, places_asPts p2 p3⟩
  unfold onField
  rw [if_neg (not_lt.2 h0), if_neg (by simpa using h1), hg]
  simp only
  rw [peak_eq hm']
  simp only
  unfold thresh at n1 p1
  rw [n1]
  simp only
  rw [p1]

/-- **C274** With a relative threshold, at least one vortex is found where the criterion is not null everywhere. -/
theorem C274_found_partial {L : Lab} (hL : IsLab L) (pick : Pick) {f g : SF} (hf : f.WF) (hg : cropped (.ok f) = .ok g) (hx : Regular g.ax) (hy : Regular g.ay)
    {thr : Rat} (h0 : 0 < thr) (h1 : thr ≤ 1) {m : Rat} (hm : IsPeak f m) (hpos : 0 < m) :
    ∃ n p, onField L pick thr true (.ok f) = .ok (n, p) ∧ (n ≠ none ∨ p ≠ none) := by
  have ht : thresh true thr m = thr * m := rfl
  have hp : 0 < thresh true thr m := by rw [ht]; positivity
  obtain ⟨hs, n, p, e, hn, hp'⟩ := C274_zones_partial hL pick hf hg hx hy h0.le (rel := true) (fun _ => h1) hm hp
  refine ⟨n, p, e, ?_⟩
  obtain ⟨⟨x, y, v, hr, hv⟩, -⟩ := peak_same hs hm
  obtain ⟨q, hq⟩ := reads_iff.1 ⟨x, y, hr⟩
  have hle : thr * m ≤ m := by nlinarith
  rcases abs_choice v with h | h
  · right
    rw [Ne, hp'.1, not_forall]
    refine ⟨q, not_not.2 ⟨v, hq, ?_⟩⟩
    rw [ht]; rw [h] at hv; rw [ht] at hp; linarith
  · left
    rw [Ne, hn.1, not_forall]
    refine ⟨q, not_not.2 ⟨v, hq, ?_⟩⟩
    rw [ht]; rw [h] at hv; rw [ht] at hp; linarith

/-! ### the collection -/

/-- What the entry of one kind is: the points found, or an empty set. -/
def Entry (found : Option Pts) (p : Pts) : Prop := found = some p ∨ (found = none ∧ p.xy = [])

/-- The points found for the kind: zones of positive values are `foc`, zones of negative values `foc_c`. -/
def sign (n p : Option Pts) : Kind → Option Pts
  | .foc => p
  | .focC => n
  | _ => none

theorem given_sign (n p : Option Pts) : given (n, p) = sign n p := by
  funext k; cases k <;> rfl

/-- All the sets are in these units. -/
def InUnits (ux uy : Sym) (r : Option Pts × Option Pts) : Prop := ∀ s, r.1 = some s ∨ r.2 = some s → s.ux = ux ∧ s.uy = uy

variable {Tr : Type}

theorem first_units {c : CP Tr} {ux uy : Sym} {r : Option Pts × Option Pts} (hr : InUnits ux uy r) (hc : (c.ux = ux ∧ c.uy = uy) ∨ (c.times = [] ∧ (r.1 ≠ none ∨ r.2 ≠ none))) :
    (Cp.firstUnits c (given r)).ux = ux ∧ (Cp.firstUnits c (given r)).uy = uy := by
  obtain ⟨n, p⟩ := r
  unfold Cp.firstUnits
  by_cases ht : c.times = []
  · rw [if_pos ht]
    cases p with
    | some s =>
      have := hr s (.inr rfl)
      simpa [Cp.kinds, given] using this
    | none =>
      cases n with
      | some s =>
        exact hr s (.inl rfl)
      | none =>
        rcases hc with hc | ⟨-, hc | hc⟩
        · exact hc
        · exact absurd rfl hc
        · exact absurd rfl hc
  · rw [if_neg ht]
    rcases hc with hc | ⟨hc, -⟩
    · exact hc
    · exact absurd hc ht

theorem after_units (c : CP Tr) (g : Kind → Option Pts) (t : Rat) (ht : t ∉ c.times) (hu : UnitsMatch c g) :
    (Cp.addPoint c g t).1.ux = (Cp.firstUnits c g).ux ∧ (Cp.addPoint c g t).1.uy = (Cp.firstUnits c g).uy := by
  unfold Cp.addPoint
  rw [if_neg ht, if_neg (Cp.units_cond hu)]
  exact ⟨rfl, rfl⟩

theorem match_units {c : CP Tr} {ux uy : Sym} {r : Option Pts × Option Pts} (hr : InUnits ux uy r)
    (hf : (Cp.firstUnits c (given r)).ux = ux ∧ (Cp.firstUnits c (given r)).uy = uy) : UnitsMatch c (given r) := by
  intro k p hp
  rw [hf.1, hf.2]
  cases k
  · exact hr p (.inr hp)
  · exact hr p (.inl hp)
  · cases hp
  · cases hp
  · cases hp

/-- One more field. -/
theorem add_field {c : CP Tr} (hv : Valid c) {ux uy : Sym} {r : Option Pts × Option Pts} (hr : InUnits ux uy r)
    (hc : (c.ux = ux ∧ c.uy = uy) ∨ (c.times = [] ∧ (r.1 ≠ none ∨ r.2 ≠ none))) {t : Rat} (ht : t ∉ c.times) :
    ∃ c', Cp.addPoint c (given r) t = (c', .ok ⟨⟩) ∧ Valid c' ∧ (c'.ux = ux ∧ c'.uy = uy) ∧
      ∀ t' k p, At c' t' k p ↔ At c t' k p ∨ (t' = t ∧ Entry (sign r.1 r.2 k) p ∧ p.ux = ux ∧ p.uy = uy) := by
  have hf := first_units hr hc
  have hu := match_units hr hf
  obtain ⟨h1, h2, h3⟩ := Cp.C61_add hv ht hu
  obtain ⟨u1, u2⟩ := after_units c (given r) t ht hu
  refine ⟨(Cp.addPoint c (given r) t).1, Prod.ext rfl h1, h2, ⟨u1.trans hf.1, u2.trans hf.2⟩, ?_⟩
  intro t' k p
  rw [h3, u1, u2, hf.1, hf.2, ← given_sign]
  apply or_congr_right
  apply and_congr_right
  intro _
  unfold Entry
  constructor
  · rintro (h | ⟨h, h', h''⟩)
    · have := hu k p h
      rw [hf.1, hf.2] at this
      exact ⟨.inl h, this⟩
    · exact ⟨.inr ⟨h, h'⟩, h''⟩
  · rintro ⟨h | ⟨h, h'⟩, h''⟩
    · exact .inl h
    · exact .inr ⟨h, h', h''⟩

theorem not_mem_of_at {c : CP Tr} (hv : Valid c) {t : Rat} (h : ∀ k p, ¬ At c t k p) : t ∉ c.times := by
  intro ht
  obtain ⟨i, hi⟩ := List.mem_iff_getElem?.1 ht
  have hl : i < (c.pts .foc).length := by
    rw [hv.1]
    by_contra hc
    rw [List.getElem?_eq_none (not_lt.1 hc)] at hi
    cases hi
  exact h .foc _ ⟨i, hi, List.getElem?_eq_getElem hl⟩

/-- All the sets found in one field are in the units of its axes. -/
theorem units_of {L : Lab} {pick : Pick} {thr : Rat} {rel : Bool} {r : Res SF} {q : Option Pts × Option Pts} (h : onField L pick thr rel r = .ok q) :
    ∃ g, cropped r = .ok g ∧ InUnits g.ux g.uy q := by
  unfold onField at h
  split at h
  · cases h
  · split at h
    · cases h
    · cases hc : cropped r with
      | error e => rw [hc] at h; cases h
      | ok g =>
        refine ⟨g, rfl, ?_⟩
        rw [hc] at h
        simp only at h
        split at h
        · cases h
        · split at h
          · cases h
          · split at h
            · cases h
            · cases h
              rintro s (hs | hs)
              · unfold asPts at hs
                rw [Option.map_eq_some_iff] at hs
                obtain ⟨l, -, rfl⟩ := hs
                exact ⟨rfl, rfl⟩
              · unfold asPts at hs
                rw [Option.map_eq_some_iff] at hs
                obtain ⟨l, -, rfl⟩ := hs
                exact ⟨rfl, rfl⟩

theorem not_at_new {ut : Sym} {t : Rat} {k : Kind} {s : Pts} : ¬ At (Cp.new ut : CP Tr) t k s := by
  rintro ⟨i, h, -⟩
  simp [Cp.new] at h

/-- **C274** `get_vortex_position(field)` returns one entry, for the time 0: the zones of positive values of the criterion as `foc`, those of negative
values as `foc_c`, the other kinds being empty. -/
theorem C274_field {L : Lab} {pick : Pick} {crit : VF → Res SF} {thr : Rat} {rel : Bool} {f : VF} {n p : Option Pts}
    (h : onField L pick thr rel (crit f) = .ok (n, p)) :
    ∃ c : CP Tr, vortices L pick crit thr rel f = .ok c ∧ Valid c ∧ (∀ t k s, At c t k s → t = 0 ∧ Entry (sign n p k) s) ∧ ∀ k, ∃ s, At c 0 k s := by
  have key : ∃ ux uy, InUnits ux uy (n, p) ∧ (((Cp.new Sym.one : CP Tr).ux = ux ∧ (Cp.new Sym.one : CP Tr).uy = uy) ∨
      ((Cp.new Sym.one : CP Tr).times = [] ∧ ((n, p).1 ≠ none ∨ (n, p).2 ≠ none))) := by
    by_cases hn : n = none ∧ p = none
    · obtain ⟨rfl, rfl⟩ := hn
      exact ⟨Sym.one, Sym.one, (by rintro s (hs | hs) <;> cases hs), .inl ⟨rfl, rfl⟩⟩
    · obtain ⟨g, -, hu⟩ := units_of h
      exact ⟨g.ux, g.uy, hu, .inr ⟨rfl, by rw [not_and_or] at hn; exact hn⟩⟩
  obtain ⟨ux, uy, hu, hc⟩ := key
  obtain ⟨c, e, hv, -, ha⟩ := add_field (Cp.valid_new _) hu hc (t := 0) (by simp [Cp.new])
  refine ⟨c, ?_, hv, ?_, ?_⟩
  · unfold vortices
    rw [h]
    simp only
    rw [e]
  · intro t k s hs
    rcases (ha t k s).1 hs with h | ⟨h1, h2, -⟩
    · exact absurd h not_at_new
    · exact ⟨h1, h2⟩
  · intro k
    cases hk : sign n p k with
    | none => exact ⟨⟨ux, uy, []⟩, (ha 0 k _).2 (.inr ⟨rfl, by rw [hk]; exact .inr ⟨rfl, rfl⟩, rfl, rfl⟩)⟩
    | some s =>
      refine ⟨s, (ha 0 k _).2 (.inr ⟨rfl, by rw [hk]; exact .inl rfl, hu s ?_⟩)⟩
      cases k
      · exact .inr hk
      · exact .inl hk
      · cases hk
      · cases hk
      · cases hk

theorem loop_ok {L : Lab} {pick : Pick} {crit : VF → Res SF} {thr : Rat} {rel : Bool} {ux uy : Sym} (fs : List (Rat × VF))
    (h : ∀ q ∈ fs, ∃ r, onField L pick thr rel (crit q.2) = .ok r ∧ InUnits ux uy r) : ∀ (c : CP Tr), Valid c → c.ux = ux ∧ c.uy = uy →
    (∀ q ∈ fs, ∀ k s, ¬ At c q.1 k s) → (fs.map Prod.fst).Nodup →
    ∃ c', loop L pick crit thr rel c fs = .ok c' ∧ Valid c' ∧ ∀ t k s, At c' t k s ↔ At c t k s ∨
      ∃ f n p, (t, f) ∈ fs ∧ onField L pick thr rel (crit f) = .ok (n, p) ∧ Entry (sign n p k) s ∧ s.ux = ux ∧ s.uy = uy := by
  induction fs with
  | nil => exact fun c hv _ _ _ => ⟨c, rfl, hv, fun t k s => ⟨.inl, by rintro (h | ⟨_, _, _, h, -⟩); exacts [h, by cases h]⟩⟩
  | cons q fs ih =>
    intro c hv hc hd hn
    obtain ⟨t0, f0⟩ := q
    obtain ⟨⟨n0, p0⟩, e, hu⟩ := h (t0, f0) List.mem_cons_self
    obtain ⟨c1, e1, hv1, hc1, ha1⟩ := add_field hv hu (.inl hc) (not_mem_of_at hv (hd (t0, f0) List.mem_cons_self))
    rw [List.map_cons, List.nodup_cons] at hn
    have hd1 : ∀ q ∈ fs, ∀ k s, ¬ At c1 q.1 k s := by
      intro q hq k s hs
      rcases (ha1 _ _ _).1 hs with h' | ⟨h', -⟩
      · exact hd q (List.mem_cons_of_mem _ hq) k s h'
      · exact hn.1 (h' ▸ List.mem_map_of_mem hq)
    obtain ⟨c', e', hv', ha'⟩ := ih (fun q hq => h q (List.mem_cons_of_mem _ hq)) c1 hv1 hc1 hd1 hn.2
    refine ⟨c', ?_, hv', ?_⟩
    · unfold loop
      rw [e]
      simp only
      rw [e1]
      exact e'
    · intro t k s
      rw [ha', ha1]
      constructor
      · rintro ((h | ⟨rfl, h1, h2⟩) | ⟨f, n, p, h1, h2⟩)
        · exact .inl h
        · exact .inr ⟨f0, n0, p0, List.mem_cons_self, e, h1, h2⟩
        · exact .inr ⟨f, n, p, List.mem_cons_of_mem _ h1, h2⟩
      · rintro (h | ⟨f, n, p, h1, h2, h3⟩)
        · exact .inl (.inl h)
        · rcases List.mem_cons.1 h1 with h1 | h1
          · cases h1
            rw [e] at h2
            cases h2
            exact .inl (.inr ⟨rfl, h3⟩)
          · exact .inr ⟨f, n, p, h1, h2, h3⟩

/-- **C274** For a record, the collection has one entry for each time, that of its field alone, all in the same units.  Missing: a vortex must be found in
the first field (or the axes must have no unit). -/
theorem C274_record_partial {L : Lab} {pick : Pick} {crit : VF → Res SF} {thr : Rat} {rel : Bool} {ux uy : Sym} (ut : Sym) {t0 : Rat} {f0 : VF} {fs : List (Rat × VF)}
    (h : ∀ q ∈ (t0, f0) :: fs, ∃ r, onField L pick thr rel (crit q.2) = .ok r ∧ InUnits ux uy r) (hn : (((t0, f0) :: fs).map Prod.fst).Nodup)
    (h0 : (ux = Sym.one ∧ uy = Sym.one) ∨ ∃ n p, onField L pick thr rel (crit f0) = .ok (n, p) ∧ (n ≠ none ∨ p ≠ none)) :
    ∃ c : CP Tr, recordVortices L pick crit thr rel ut ((t0, f0) :: fs) = .ok c ∧ Valid c ∧
      ∀ t k s, At c t k s ↔ ∃ f n p, (t, f) ∈ (t0, f0) :: fs ∧ onField L pick thr rel (crit f) = .ok (n, p) ∧ Entry (sign n p k) s ∧ s.ux = ux ∧ s.uy = uy := by
  obtain ⟨⟨n0, p0⟩, e, hu⟩ := h (t0, f0) List.mem_cons_self
  have hc : ((Cp.new ut : CP Tr).ux = ux ∧ (Cp.new ut : CP Tr).uy = uy) ∨ ((Cp.new ut : CP Tr).times = [] ∧ ((n0, p0).1 ≠ none ∨ (n0, p0).2 ≠ none)) := by
    rcases h0 with ⟨rfl, rfl⟩ | ⟨n, p, e', h'⟩
    · exact .inl ⟨rfl, rfl⟩
    · simp only at e
      rw [e] at e'
      cases e'
      exact .inr ⟨rfl, h'⟩
  obtain ⟨c1, e1, hv1, hc1, ha1⟩ := add_field (Cp.valid_new _) hu hc (t := t0) (by simp [Cp.new])
  rw [List.map_cons, List.nodup_cons] at hn
  have hd1 : ∀ q ∈ fs, ∀ k s, ¬ At c1 q.1 k s := by
    intro q hq k s hs
    rcases (ha1 _ _ _).1 hs with h' | ⟨h', -⟩
    · exact not_at_new h'
    · have hq' := List.mem_map_of_mem (f := Prod.fst) hq
      rw [h'] at hq'
      exact hn.1 hq'
  obtain ⟨c', e', hv', ha'⟩ := loop_ok fs (fun q hq => h q (List.mem_cons_of_mem _ hq)) c1 hv1 hc1 hd1 hn.2
  refine ⟨c', ?_, hv', ?_⟩
  · unfold recordVortices loop
    rw [e]
    simp only
    rw [e1]
    exact e'
  · intro t k s
    rw [ha', ha1]
    constructor
    · rintro ((h | ⟨rfl, h1, h2⟩) | ⟨f, n, p, h1, h2⟩)
      · exact absurd h not_at_new
      · exact ⟨f0, n0, p0, List.mem_cons_self, e, h1, h2⟩
      · exact ⟨f, n, p, List.mem_cons_of_mem _ h1, h2⟩
    · rintro ⟨f, n, p, h1, h2, h3⟩
      rcases List.mem_cons.1 h1 with h1 | h1
      · cases h1
        simp only at e
        rw [e] at h2
        cases h2
        exact .inl (.inr ⟨rfl, h3⟩)
      · exact .inr ⟨f, n, p, h1, h2, h3⟩

/-- **C274** A record whose first field has no vortex while its second field has one is refused with ValueError, unless the axes have no unit: the empty
first entry fixes the units of the collection. -/
theorem C274_first_violated {L : Lab} {pick : Pick} {crit : VF → Res SF} {thr : Rat} {rel : Bool} (ut : Sym) {t0 t1 : Rat} {f0 f1 : VF} {fs : List (Rat × VF)}
    (ht : t0 ≠ t1) (h0 : onField L pick thr rel (crit f0) = .ok (none, none)) {n p : Option Pts} (h1 : onField L pick thr rel (crit f1) = .ok (n, p))
    {s : Pts} (hs : n = some s ∨ p = some s) (hu : s.ux ≠ Sym.one ∨ s.uy ≠ Sym.one) :
    (recordVortices L pick crit thr rel ut ((t0, f0) :: (t1, f1) :: fs) : Res (CP Tr)) = .error .valueError := by
  obtain ⟨c1, e1, hv1, ⟨u1, u2⟩, ha1⟩ := add_field (Tr := Tr) (Cp.valid_new ut) (ux := Sym.one) (uy := Sym.one) (r := (none, none))
    (by rintro s (hs | hs) <;> cases hs) (.inl ⟨rfl, rfl⟩) (t := t0) (by simp [Cp.new])
  have hm : t1 ∉ c1.times := by
    apply not_mem_of_at hv1
    intro k s hs
    rcases (ha1 _ _ _).1 hs with h' | ⟨h', -⟩
    · exact not_at_new h'
    · exact ht h'.symm
  have hne : c1.times ≠ [] := by
    obtain ⟨i, hi, -⟩ := (ha1 t0 .foc ⟨Sym.one, Sym.one, []⟩).2 (.inr ⟨rfl, .inr ⟨rfl, rfl⟩, rfl, rfl⟩)
    intro h
    rw [h] at hi
    simp at hi
  have hf : Cp.firstUnits c1 (given (n, p)) = c1 := by unfold Cp.firstUnits; rw [if_neg hne]
  have e2 : Cp.addPoint c1 (given (n, p)) t1 = (c1, .error .valueError) := by
    unfold Cp.addPoint
    rw [if_neg hm, hf, if_pos]
    rcases hs with rfl | rfl
    · exact ⟨.focC, by simp [Cp.kinds], by rw [u1, u2]; exact hu⟩
    · exact ⟨.foc, by simp [Cp.kinds], by rw [u1, u2]; exact hu⟩
  unfold recordVortices loop
  rw [h0]
  simp only
  rw [e1]
  simp only
  unfold loop
  rw [h1]
  simp only
  rw [e2]

/-- **C274** A negative threshold, a relative threshold above 1 and a failing criterion are refused. -/
theorem C274_refused {L : Lab} {pick : Pick} {thr : Rat} {rel : Bool} {r : Res SF} :
    ((thr < 0 ∨ (rel = true ∧ 1 < thr)) → onField L pick thr rel r = .error .valueError) ∧
    (0 ≤ thr → (rel = true → thr ≤ 1) → ∀ e, r = .error e → onField L pick thr rel r = .error .typeError) := by
  constructor
  · rintro (h | ⟨h1, h2⟩)
    · unfold onField; rw [if_pos h]
    · unfold onField
      rw [if_neg (by linarith : ¬ thr < 0), if_pos (by simp [h1, h2])]
  · rintro h0 h1 e rfl
    unfold onField
    rw [if_neg (not_lt.2 h0), if_neg (by simpa using h1)]
    rfl

/-! ### examples -/

/-- Three by one points in millimetres. -/
def exV (a b c : Rat) : SF := { Centre.ex3 [0, 0 + 1, 0 + 2 * 1] a b c with ux := Sym.mm, uy := Sym.mm }

theorem exV_WF (a b c : Rat) : (exV a b c).WF := by
  refine ⟨?_, ?_, List.cons_ne_nil _ _, List.cons_ne_nil _ _, rfl, rfl, rfl, rfl, by intro i j _ _ h; cases h⟩
  · show Inc [0, 0 + 1, 0 + 2 * 1]
    decide +kernel
  · show Inc [0]
    decide +kernel

theorem exV_crop (a b c : Rat) : cropped (.ok (exV a b c)) = .ok (exV a b c) := by
  have : (exV a b c).anyMasked = false := rfl
  unfold cropped SF.cropMaskedSoft
  simp only [this, if_true]

/-- Concrete case: the values 1, 8 and -6, a threshold of half the greatest absolute value. -/
example : ∃ n p, onField Centre.aLab Centre.aPick (1 / 2) true (.ok (exV 1 8 (-6))) = .ok (n, p) ∧
    Places (exV 1 8 (-6)) (Low (exV 1 8 (-6)) 4) n ∧ Places (exV 1 8 (-6)) (High (exV 1 8 (-6)) 4) p := by
  have hm : IsPeak (exV 1 8 (-6)) 8 := by
    refine ⟨⟨0 + 1, 0, 8, ⟨1, 0, rfl, rfl, rfl⟩, by decide +kernel⟩, ?_⟩
    rintro x y u ⟨i, j, hi, hj, e⟩
    have e := (Option.some.inj e).symm
    rw [e]
    split
    · decide +kernel
    · split <;> decide +kernel
  have ht : thresh true (1 / 2) 8 = 4 := by norm_num [thresh]
  have := C274_zones_partial Centre.isLab_aLab Centre.aPick (exV_WF 1 8 (-6)) (exV_crop 1 8 (-6)) (Centre.ex3_x 0 1) Centre.ex3_y (thr := 1 / 2) (rel := true)
    (by norm_num) (fun _ => by norm_num) hm (by rw [ht]; norm_num)
  rw [ht] at this
  exact this.2

/-- Concrete case: no value reaches the threshold 10 in the first field, one does in the second one. -/
example : ∃ n s, onField Centre.aLab Centre.aPick 10 false (.ok (exV 1 8 (-6))) = .ok (none, none) ∧
    onField Centre.aLab Centre.aPick 10 false (.ok (exV 1 20 (-6))) = .ok (n, some s) ∧ s.ux ≠ Sym.one := by
  have peakOf : ∀ b, 6 ≤ b → IsPeak (exV 1 b (-6)) b := by
    intro b hb
    have h6 : |b| = b := abs_of_nonneg (by linarith)
    refine ⟨⟨0 + 1, 0, b, ⟨1, 0, rfl, rfl, rfl⟩, h6⟩, ?_⟩
    rintro x y u ⟨i, j, hi, hj, e⟩
    have e := (Option.some.inj e).symm
    rw [e]
    split
    · rw [abs_one]; linarith
    · split
      · exact h6.le
      · rw [abs_neg, abs_of_pos (by norm_num)]; exact hb
  have val : ∀ b (q : Cell (exV 1 b (-6)).ax.length (exV 1 b (-6)).ay.length) v, (exV 1 b (-6)).cell q.1 q.2 = some v → v = 1 ∨ v = b ∨ v = -6 := by
    intro b q v e
    have e := Option.some.inj e
    rw [← e]
    split
    · exact .inl rfl
    · split
      · exact .inr (.inl rfl)
      · exact .inr (.inr rfl)
  have low : ∀ b q, 6 ≤ b → ¬ Low (exV 1 b (-6)) 10 q := by
    rintro b q hb ⟨v, e, h⟩
    rcases val b q v e with h' | h' | h' <;> rw [h'] at h <;> linarith
  obtain ⟨-, n, p, e, h1, h2⟩ := C274_zones_partial Centre.isLab_aLab Centre.aPick (exV_WF 1 8 (-6)) (exV_crop 1 8 (-6)) (Centre.ex3_x 0 1) Centre.ex3_y (thr := 10) (rel := false)
    (by norm_num) (fun h => by cases h) (peakOf 8 (by norm_num)) (by norm_num [thresh])
  obtain ⟨-, n', p', e', h1', h2'⟩ := C274_zones_partial Centre.isLab_aLab Centre.aPick (exV_WF 1 20 (-6)) (exV_crop 1 20 (-6)) (Centre.ex3_x 0 1) Centre.ex3_y (thr := 10) (rel := false)
    (by norm_num) (fun h => by cases h) (peakOf 20 (by norm_num)) (by norm_num [thresh])
  have a1 : n = none := h1.1.2 fun q => low 8 q (by norm_num)
  have a2 : p = none := by
    apply h2.1.2
    rintro q ⟨v, e, h⟩
    rcases val 8 q v e with h' | h' | h' <;> rw [h'] at h <;> norm_num [thresh] at h
  have a3 : p' ≠ none := by
    intro h
    exact h2'.1.1 h ((1 : Fin 3), (0 : Fin 1)) ⟨20, rfl, by norm_num [thresh]⟩
  obtain ⟨s, hs⟩ := Option.ne_none_iff_exists'.1 a3
  refine ⟨n', s, by rw [e, a1, a2], by rw [e', hs], ?_⟩
  rw [(h2'.2 s hs).1]
  show Sym.mm ≠ Sym.one
  decide

end IMT.Detect
