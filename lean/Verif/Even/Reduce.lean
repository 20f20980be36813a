import Verif.Even.Props

/-! C260: reducing the spatial resolution of records. -/

namespace IMT.Even

open Turb (TVF)
open Temporal (TF mapRes)

/-- What reduce_spatial_resolution by the factor `2 h` makes of an axis: the middles of the two central coordinates of each complete block. -/
def Middles (l k : List Rat) (h : Nat) : Prop :=
  k.length = l.length / (2 * h) ∧ ∀ n, n < k.length → ∃ a b, l[2 * h * n + h - 1]? = some a ∧ l[2 * h * n + h]? = some b ∧ k[n]? = some ((a + b) / 2)

/-- `g` holds the means of the visible values of the blocks of `2 h` by `2 h` points of `f`. -/
def Means (f g : SF) (h : Nat) : Prop :=
  Middles f.ax g.ax h ∧ Middles f.ay g.ay h ∧ ∀ k l, k < g.ax.length → l < g.ay.length →
    g.cell k l = SF.mean ((List.range (2 * h)).flatMap fun i => (List.range (2 * h)).filterMap fun j => f.cell (k * (2 * h) + i) (l * (2 * h) + j))

/-- The same for vectors. -/
def MeansV (f g : VF) (h : Nat) : Prop :=
  Middles f.ax g.ax h ∧ Middles f.ay g.ay h ∧ ∀ k l, k < g.ax.length → l < g.ay.length → g.cell k l = meanV (blockV f (2 * h) k l)

theorem middles_unique {l k k' : List Rat} {h : Nat} (h1 : Middles l k h) (h2 : Middles l k' h) : k = k' := by
  apply List.ext_getElem?
  intro i
  by_cases hi : i < k.length
  · obtain ⟨a, b, q1, q2, q3⟩ := h1.2 i hi
    obtain ⟨a', b', p1, p2, p3⟩ := h2.2 i (by rw [h2.1, ← h1.1]; exact hi)
    rw [q1] at p1
    rw [q2] at p2
    cases p1
    cases p2
    rw [q3, p3]
  · rw [List.getElem?_eq_none (by omega), List.getElem?_eq_none (by rw [h2.1, ← h1.1]; omega)]

theorem map_same {α : Type} {g : α → α} {l : List α} (h : ∀ a ∈ l, g a = a) : l.map g = l := by
  conv_rhs => rw [← List.map_id l]
  exact List.map_congr_left h

theorem reduce_means {f : SF} (hf : f.WF) {h : Nat} (hh : 1 ≤ h) (h2x : 2 ≤ f.ax.length / (2 * h)) (h2y : 2 ≤ f.ay.length / (2 * h)) :
    ∃ g, f.reduce (2 * h) true = .ok g ∧ g.WF ∧ Means f g h := by
  obtain ⟨g, e, w, lx, ly, ax, ay, c⟩ := SF.C21_reduce_blocks hf hh h2x h2y true
  exact ⟨g, e, w, ⟨lx, ax⟩, ⟨ly, ay⟩, c⟩

/-- The fields of the result. -/
theorem reduce_fields {t : TF} (ht : Temporal.Consistent t) (hne : t.fields ≠ []) {h : Nat} (hh : 1 ≤ h) (h2x : 2 ≤ t.ax.length / (2 * h))
    (h2y : 2 ≤ t.ay.length / (2 * h)) : ∃ g l, mapRes (fun f => f.reduce (2 * h) true) t.fields = .ok (g :: l) ∧ (g :: l).length = t.fields.length ∧
      (∀ (k : Nat) f r, t.fields[k]? = some f → (g :: l)[k]? = some r → r.WF ∧ Means f r h) ∧
      ∀ r ∈ g :: l, r.WF ∧ r.ax = g.ax ∧ r.ay = g.ay ∧ Middles t.ax r.ax h ∧ Middles t.ay r.ay h ∧ r.ux = Sym.one ∧ r.uy = Sym.one ∧ r.uv = Sym.one := by
  have each : ∀ f ∈ t.fields, ∃ g, f.reduce (2 * h) true = .ok g ∧ g.WF ∧ Means f g h := fun f hf =>
    reduce_means (ht.wf f hf) hh (by rw [ht.ax f hf]; exact h2x) (by rw [ht.ay f hf]; exact h2y)
  obtain ⟨k, hk⟩ := Temporal.mapRes_exists (g := fun f => SF.reduce f (2 * h) true) (l := t.fields) fun f hf => by
    obtain ⟨g, e, -⟩ := each f hf
    exact ⟨g, e⟩
  obtain ⟨hl, hget⟩ := Temporal.mapRes_get hk
  cases k with
  | nil => exact absurd (List.length_eq_zero_iff.1 hl.symm) hne
  | cons g l =>
    have main : ∀ (k : Nat) f r, t.fields[k]? = some f → (g :: l)[k]? = some r → r.WF ∧ Means f r h ∧ Middles t.ax r.ax h ∧ Middles t.ay r.ay h ∧
        r.ux = Sym.one ∧ r.uy = Sym.one ∧ r.uv = Sym.one := by
      intro k f r hf hr
      have e := hget k f r hf hr
      have mf := List.mem_of_getElem? hf
      obtain ⟨r', e', w, m⟩ := each f mf
      rw [e] at e'
      cases e'
      exact ⟨w, m, by rw [← ht.ax f mf]; exact m.1, by rw [← ht.ay f mf]; exact m.2.1, SF.C21_inplace_units_violated e⟩
    have all : ∀ r ∈ g :: l, r.WF ∧ Middles t.ax r.ax h ∧ Middles t.ay r.ay h ∧ r.ux = Sym.one ∧ r.uy = Sym.one ∧ r.uv = Sym.one := by
      intro r hr
      obtain ⟨i, hi⟩ := List.getElem?_of_mem hr
      have hlt : i < t.fields.length := by rw [← hl]; exact getElem?_some_lt hi
      obtain ⟨w, -, m⟩ := main i _ r (List.getElem?_eq_getElem hlt) hi
      exact ⟨w, m⟩
    refine ⟨g, l, hk, hl, fun k f r hf hr => ⟨(main k f r hf hr).1, (main k f r hf hr).2.1⟩, fun r hr => ?_⟩
    obtain ⟨w, m1, m2, u⟩ := all r hr
    obtain ⟨-, n1, n2, -⟩ := all g (by simp)
    exact ⟨w, middles_unique m1 n1, middles_unique m2 n2, m1, m2, u⟩

/-- **C260** In place, reduce_spatial_resolution of a record by an even factor averages the blocks of each field, sets the axes of the record to the new
ones, and leaves the times.  Missing: the units (see `C260_units_violated`), odd factors, and the copy (see `C260_copy_violated`). -/
theorem C260_inplace_partial {t : TF} (ht : Temporal.Consistent t) (hne : t.fields ≠ []) {h : Nat} (hh : 1 ≤ h) (h2x : 2 ≤ t.ax.length / (2 * h))
    (h2y : 2 ≤ t.ay.length / (2 * h)) : ∃ r, reduceT t (2 * h) true = .ok (r, r) ∧ r.times = t.times ∧ r.ut = t.ut ∧ r.fields.length = t.fields.length ∧
      Middles t.ax r.ax h ∧ Middles t.ay r.ay h ∧
      ∀ (k : Nat) f g, t.fields[k]? = some f → r.fields[k]? = some g → g.WF ∧ g.ax = r.ax ∧ g.ay = r.ay ∧ Means f g h := by
  obtain ⟨g, l, e, hl, hm, all⟩ := reduce_fields ht hne hh h2x h2y
  have same : ((g :: l).map fun f : SF => { f with ax := g.ax, ay := g.ay }) = g :: l := by
    apply map_same
    intro r hr
    obtain ⟨-, h1, h2, -⟩ := all r hr
    rw [← h1, ← h2]
  have hset : setAxes { t with fields := g :: l } g.ax g.ay = { t with fields := g :: l, ax := g.ax, ay := g.ay } := by
    unfold setAxes
    simp only
    rw [same]
  obtain ⟨-, -, -, m1, m2, -⟩ := all g (by simp)
  refine ⟨{ t with fields := g :: l, ax := g.ax, ay := g.ay }, ?_, rfl, rfl, hl, m1, m2, ?_⟩
  · unfold reduceT
    rw [e]
    simp only [if_true]
    rw [hset]
  · intro k f r hf hr
    obtain ⟨w, m⟩ := hm k f r hf hr
    obtain ⟨-, a1, a2, -⟩ := all r (List.mem_of_getElem? hr)
    exact ⟨w, a1, a2, m⟩

/-- **C260** Whatever the units of the record were, its reduced fields have none, in place or not, while the record says it has kept them. -/
theorem C260_units_violated {t : TF} (ht : Temporal.Consistent t) (hne : t.fields ≠ []) {h : Nat} (hh : 1 ≤ h) (h2x : 2 ≤ t.ax.length / (2 * h))
    (h2y : 2 ≤ t.ay.length / (2 * h)) (inplace : Bool) : ∃ s r, reduceT t (2 * h) inplace = .ok (s, r) ∧ r.ux = t.ux ∧ r.uy = t.uy ∧
      ∀ g ∈ r.fields, g.ux = Sym.one ∧ g.uy = Sym.one ∧ g.uv = Sym.one := by
  obtain ⟨g, l, e, hl, hm, all⟩ := reduce_fields ht hne hh h2x h2y
  unfold reduceT
  rw [e]
  simp only
  cases inplace with
  | true =>
    rw [if_pos rfl]
    refine ⟨_, _, rfl, rfl, rfl, ?_⟩
    intro q hq
    obtain ⟨r, hr, rfl⟩ := List.mem_map.1 hq
    exact (all r hr).2.2.2.2.2
  | false =>
    rw [if_neg (by simp)]
    exact ⟨_, _, rfl, rfl, rfl, fun r hr => (all r hr).2.2.2.2.2⟩

/-- **C260** Not in place, the record itself stays as it was, but the copy that is returned keeps the axes of the record: its fields, which have been
reduced, are no more on them. -/
theorem C260_copy_violated {t : TF} (ht : Temporal.Consistent t) (hne : t.fields ≠ []) {h : Nat} (hh : 1 ≤ h) (h2x : 2 ≤ t.ax.length / (2 * h))
    (h2y : 2 ≤ t.ay.length / (2 * h)) : ∃ r, reduceT t (2 * h) false = .ok (t, r) ∧ r.ax = t.ax ∧ r.ay = t.ay ∧ r.fields ≠ [] ∧
      ∀ g ∈ r.fields, g.ax.length < r.ax.length ∧ g.ay.length < r.ay.length := by
  obtain ⟨g, l, e, hl, hm, all⟩ := reduce_fields ht hne hh h2x h2y
  have less : ∀ n : Nat, 2 ≤ n / (2 * h) → n / (2 * h) < n := fun n hn => Nat.div_lt_self (by by_contra h0; have : n = 0 := by omega
                                                                                              subst this; simp at hn) (by omega)
  unfold reduceT
  rw [e]
  simp only
  rw [if_neg (by simp)]
  refine ⟨{ t with fields := g :: l }, ?_, rfl, rfl, by simp, ?_⟩
  · have same : setAxes t ((t.fields.head?.map SF.ax).getD []) ((t.fields.head?.map SF.ay).getD []) = t := by
      cases hf : t.fields with
      | nil => exact absurd hf hne
      | cons f k =>
        have mf : f ∈ t.fields := by rw [hf]; simp
        simp only [List.head?_cons, Option.map_some, Option.getD_some]
        rw [ht.ax f mf, ht.ay f mf]
        unfold setAxes
        rw [map_same]
        intro r hr
        rw [← ht.ax r hr, ← ht.ay r hr]
    rw [same]
  · intro r hr
    obtain ⟨-, -, -, m1, m2, -⟩ := all r hr
    exact ⟨by rw [m1.1]; exact less _ h2x, by rw [m2.1]; exact less _ h2y⟩

/-! ### records of vector fields -/

theorem reduce_vectors {t : TVF} {u : Sym} (ht : Turb.Record t u) {h : Nat} (hh : 1 ≤ h) (h2x : 2 ≤ t.ax.length / (2 * h))
    (h2y : 2 ≤ t.ay.length / (2 * h)) : ∃ g l, mapRes (fun f => reduceV f (2 * h) true) t.fields = .ok (g :: l) ∧ (g :: l).length = t.fields.length ∧
      (∀ (k : Nat) f r, t.fields[k]? = some f → (g :: l)[k]? = some r → r.WF ∧ MeansV f r h) ∧
      ∀ r ∈ g :: l, r.WF ∧ r.ax = g.ax ∧ r.ay = g.ay ∧ Middles t.ax r.ax h ∧ Middles t.ay r.ay h ∧ r.ux = Sym.one ∧ r.uy = Sym.one ∧ r.uv = Sym.one := by
  have each : ∀ f ∈ t.fields, ∃ g, reduceV f (2 * h) true = .ok g ∧ g.WF ∧ MeansV f g h := by
    intro f hf
    obtain ⟨g, e, w, lx, ly, ax, ay, c, -⟩ := C259_blocks_partial (ht.wf f hf) hh (by rw [ht.ax f hf]; exact h2x) (by rw [ht.ay f hf]; exact h2y) true
    exact ⟨g, e, w, ⟨lx, ax⟩, ⟨ly, ay⟩, c⟩
  obtain ⟨k, hk⟩ := Temporal.mapRes_exists (g := fun f => reduceV f (2 * h) true) (l := t.fields) fun f hf => by
    obtain ⟨g, e, -⟩ := each f hf
    exact ⟨g, e⟩
  obtain ⟨hl, hget⟩ := Temporal.mapRes_get hk
  cases k with
  | nil => exact absurd (List.length_eq_zero_iff.1 hl.symm) ht.ne
  | cons g l =>
    have main : ∀ (k : Nat) f r, t.fields[k]? = some f → (g :: l)[k]? = some r → r.WF ∧ MeansV f r h ∧ Middles t.ax r.ax h ∧ Middles t.ay r.ay h ∧
        r.ux = Sym.one ∧ r.uy = Sym.one ∧ r.uv = Sym.one := by
      intro k f r hf hr
      have e := hget k f r hf hr
      have mf := List.mem_of_getElem? hf
      obtain ⟨r', e', w, m⟩ := each f mf
      rw [e] at e'
      cases e'
      exact ⟨w, m, by rw [← ht.ax f mf]; exact m.1, by rw [← ht.ay f mf]; exact m.2.1, C259_units_violated e⟩
    have all : ∀ r ∈ g :: l, r.WF ∧ Middles t.ax r.ax h ∧ Middles t.ay r.ay h ∧ r.ux = Sym.one ∧ r.uy = Sym.one ∧ r.uv = Sym.one := by
      intro r hr
      obtain ⟨i, hi⟩ := List.getElem?_of_mem hr
      have hlt : i < t.fields.length := by rw [← hl]; exact getElem?_some_lt hi
      obtain ⟨w, -, m⟩ := main i _ r (List.getElem?_eq_getElem hlt) hi
      exact ⟨w, m⟩
    refine ⟨g, l, hk, hl, fun k f r hf hr => ⟨(main k f r hf hr).1, (main k f r hf hr).2.1⟩, fun r hr => ?_⟩
    obtain ⟨w, m1, m2, u⟩ := all r hr
    obtain ⟨-, n1, n2, -⟩ := all g (by simp)
    exact ⟨w, middles_unique m1 n1, middles_unique m2 n2, m1, m2, u⟩

/-- **C260** The same for records of vector fields, in place; the fields have lost their units. -/
theorem C260_vectors_partial {t : TVF} {u : Sym} (ht : Turb.Record t u) {h : Nat} (hh : 1 ≤ h) (h2x : 2 ≤ t.ax.length / (2 * h))
    (h2y : 2 ≤ t.ay.length / (2 * h)) : ∃ r, reduceTV t (2 * h) true = .ok (r, r) ∧ r.times = t.times ∧ r.ut = t.ut ∧ r.ux = t.ux ∧ r.uy = t.uy ∧
      r.fields.length = t.fields.length ∧ Middles t.ax r.ax h ∧ Middles t.ay r.ay h ∧
      ∀ (k : Nat) f g, t.fields[k]? = some f → r.fields[k]? = some g → g.WF ∧ g.ax = r.ax ∧ g.ay = r.ay ∧ MeansV f g h ∧
        g.ux = Sym.one ∧ g.uy = Sym.one ∧ g.uv = Sym.one := by
  obtain ⟨g, l, e, hl, hm, all⟩ := reduce_vectors ht hh h2x h2y
  have same : ((g :: l).map fun f : VF => { f with ax := g.ax, ay := g.ay }) = g :: l := by
    apply map_same
    intro r hr
    obtain ⟨-, h1, h2, -⟩ := all r hr
    rw [← h1, ← h2]
  have hset : setAxesV { t with fields := g :: l } g.ax g.ay = { t with fields := g :: l, ax := g.ax, ay := g.ay } := by
    unfold setAxesV
    simp only
    rw [same]
  obtain ⟨-, -, -, m1, m2, -⟩ := all g (by simp)
  refine ⟨{ t with fields := g :: l, ax := g.ax, ay := g.ay }, ?_, rfl, rfl, rfl, rfl, hl, m1, m2, ?_⟩
  · unfold reduceTV
    rw [e]
    simp only [if_true]
    rw [hset]
  · intro k f r hf hr
    obtain ⟨w, m⟩ := hm k f r hf hr
    obtain ⟨-, a1, a2, -, -, u⟩ := all r (List.mem_of_getElem? hr)
    exact ⟨w, a1, a2, m, u⟩

/-- **C260** The same for copies of records of vector fields. -/
theorem C260_copies_violated {t : TVF} {u : Sym} (ht : Turb.Record t u) {h : Nat} (hh : 1 ≤ h) (h2x : 2 ≤ t.ax.length / (2 * h))
    (h2y : 2 ≤ t.ay.length / (2 * h)) : ∃ r, reduceTV t (2 * h) false = .ok (t, r) ∧ r.ax = t.ax ∧ r.ay = t.ay ∧ r.fields ≠ [] ∧
      ∀ g ∈ r.fields, g.ax.length < r.ax.length ∧ g.ay.length < r.ay.length := by
  obtain ⟨g, l, e, hl, hm, all⟩ := reduce_vectors ht hh h2x h2y
  have less : ∀ n : Nat, 2 ≤ n / (2 * h) → n / (2 * h) < n := fun n hn => Nat.div_lt_self (by by_contra h0; have : n = 0 := by omega
                                                                                              subst this; simp at hn) (by omega)
  unfold reduceTV
  rw [e]
  simp only
  rw [if_neg (by simp)]
  refine ⟨{ t with fields := g :: l }, ?_, rfl, rfl, by simp, ?_⟩
  · have same : setAxesV t ((t.fields.head?.map VF.ax).getD []) ((t.fields.head?.map VF.ay).getD []) = t := by
      cases hf : t.fields with
      | nil => exact absurd hf ht.ne
      | cons f k =>
        have mf : f ∈ t.fields := by rw [hf]; simp
        simp only [List.head?_cons, Option.map_some, Option.getD_some]
        rw [ht.ax f mf, ht.ay f mf]
        unfold setAxesV
        rw [map_same]
        intro r hr
        rw [← ht.ax r hr, ← ht.ay r hr]
    rw [same]
  · intro r hr
    obtain ⟨-, -, -, m1, m2, -⟩ := all r hr
    exact ⟨by rw [m1.1]; exact less _ h2x, by rw [m2.1]; exact less _ h2y⟩

end IMT.Even
