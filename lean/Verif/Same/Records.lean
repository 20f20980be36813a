import Verif.Same.Props
import Verif.Turb.Scal
import Verif.Trace.Props
import Verif.Fill.Examples

/-! C262: equality of records.  Model of `TemporalFields.__eq__` (`/repo/IMTreatment/core/temporalfields.py`, "tf.py"). -/

namespace IMT.Same

open Turb (TVF Record SRecord)
open Temporal (TF)

variable {mis inc : Res Bool}

/-! ### model -/

/-- Comparison of two lists of fields by Python: the lengths, then the fields one after the other up to the first difference.  (A field and itself are not
compared by Python; they are equal for `eqf`.) -/
def eqL {α : Type} (eqf : α → α → Res Bool) : List α → List α → Res Bool
  | [], [] => .ok true
  | a :: l, b :: k => if l.length = k.length then both (eqf a b) (eqL eqf l k) else .ok false
  | _, _ => .ok false

/-- `TemporalVectorFields.__eq__`, tf.py:160-175, between two distinct objects.  Neither `Field` nor `Fields` defines `__eq__`, so that the first two calls
give `NotImplemented`, whose truth value `ni` depends on the version of Python: true up to 3.13, TypeError from 3.14 on.  `field_type` is that of vector
fields for both. -/
def eqTV (ni mis inc : Res Bool) (t r : TVF) : Res Bool :=
  both ni <| both ni <| both (eqL (eqV mis inc) t.fields r.fields) <| both (all1 (fun a b => decide (a = b)) mis t.times r.times) <|
    both (all1 (fun a b => decide (a = b)) mis t.ax r.ax) <| both (all1 (fun a b => decide (a = b)) mis t.ay r.ay) <|
      both (unitEq inc t.ux r.ux) <| both (unitEq inc t.uy r.uy) (unitEq inc t.ut r.ut)

/-- `TemporalScalarFields.__eq__`, tf.py:160-175, likewise. -/
def eqTS (ni mis inc : Res Bool) (t r : TF) : Res Bool :=
  both ni <| both ni <| both (eqL (eqS mis inc) t.fields r.fields) <| both (all1 (fun a b => decide (a = b)) mis t.times r.times) <|
    both (all1 (fun a b => decide (a = b)) mis t.ax r.ax) <| both (all1 (fun a b => decide (a = b)) mis t.ay r.ay) <|
      both (unitEq inc t.ux r.ux) <| both (unitEq inc t.uy r.uy) (unitEq inc t.ut r.ut)

/-! ### lemmas -/

theorem eqL_true {α : Type} {eqf : α → α → Res Bool} {l k : List α} : eqL eqf l k = .ok true ↔ List.Forall₂ (fun a b => eqf a b = .ok true) l k := by
  induction l generalizing k with
  | nil => cases k <;> simp [eqL]
  | cons a l ih =>
    cases k with
    | nil => simp [eqL]
    | cons b k =>
      unfold eqL
      rw [List.forall₂_cons, ← ih]
      split
      · exact both_true
      · rename_i h
        constructor
        · intro e; cases e
        · rintro ⟨-, e⟩
          exact absurd (ih.1 e).length_eq h

theorem both_error {e : Err} {b : Res Bool} : both (.error e) b = .error e := rfl

/-! ### C262 -/

/-- **C262** Up to Python 3.13, two records of vector fields are equal exactly when they have the same times, coordinates and units and show the same vectors
at every point at each time. -/
theorem C262_vectors_partial (hi : inc ≠ .ok true) {t r : TVF} {u w : Sym} (ht : Record t u) (hr : Record r w) :
    eqTV (.ok true) mis inc t r = .ok true ↔
      t.times = r.times ∧ t.ax = r.ax ∧ t.ay = r.ay ∧ t.ux = r.ux ∧ t.uy = r.uy ∧ t.ut = r.ut ∧ u = w ∧
        ∀ (n : Nat) f g, t.fields[n]? = some f → r.fields[n]? = some g → ∀ x y v, f.Reads x y v ↔ g.Reads x y v := by
  unfold eqTV
  simp only [both_true, eqL_true, true_and, unitEq_true hi]
  constructor
  · rintro ⟨hf, htm, hx, hy, h1, h2, h3⟩
    have hl := hf.length_eq
    rw [all1_eq (by rw [ht.paired, hr.paired, hl])] at htm
    have hv : ∀ (n : Nat) f g, t.fields[n]? = some f → r.fields[n]? = some g →
        f.ax = g.ax ∧ f.ay = g.ay ∧ (∀ x y r, f.Reads x y r ↔ g.Reads x y r) ∧ f.ux = g.ux ∧ f.uy = g.uy ∧ f.uv = g.uv := by
      intro n f g e1 e2
      have hfm := List.mem_of_getElem? e1
      have hgm := List.mem_of_getElem? e2
      rw [← C211_vector (mis := mis) hi (ht.wf f hfm) (hr.wf g hgm)]
      obtain ⟨a1, a2⟩ := List.getElem?_eq_some_iff.1 e1
      obtain ⟨b1, b2⟩ := List.getElem?_eq_some_iff.1 e2
      rw [← a2, ← b2]
      exact hf.get a1 b1
    obtain ⟨f, l, hfl⟩ := List.exists_cons_of_ne_nil ht.ne
    obtain ⟨g, k, hgk⟩ := List.exists_cons_of_ne_nil hr.ne
    obtain ⟨a1, a2, -, -, -, a3⟩ := hv 0 f g (by rw [hfl]; rfl) (by rw [hgk]; rfl)
    have hfm : f ∈ t.fields := by rw [hfl]; simp
    have hgm : g ∈ r.fields := by rw [hgk]; simp
    rw [ht.ax f hfm, hr.ax g hgm] at a1
    rw [ht.ay f hfm, hr.ay g hgm] at a2
    rw [ht.uv f hfm, hr.uv g hgm] at a3
    exact ⟨htm, a1, a2, h1, h2, h3, a3, fun n f g e1 e2 => (hv n f g e1 e2).2.2.1⟩
  · rintro ⟨htm, hx, hy, h1, h2, h3, h4, hv⟩
    have hl : t.fields.length = r.fields.length := by rw [← ht.paired, ← hr.paired, htm]
    refine ⟨List.forall₂_iff_get.2 ⟨hl, fun n a b => ?_⟩, (all1_eq (by rw [htm])).2 htm, (all1_eq (by rw [hx])).2 hx, (all1_eq (by rw [hy])).2 hy, h1, h2, h3⟩
    have hfm := List.get_mem t.fields ⟨n, a⟩
    have hgm := List.get_mem r.fields ⟨n, b⟩
    rw [C211_vector hi (ht.wf _ hfm) (hr.wf _ hgm), ht.ax _ hfm, hr.ax _ hgm, ht.ay _ hfm, hr.ay _ hgm, ht.ux _ hfm, hr.ux _ hgm, ht.uy _ hfm, hr.uy _ hgm,
      ht.uv _ hfm, hr.uv _ hgm]
    exact ⟨hx, hy, hv n _ _ (by simp) (by simp), h1, h2, h4⟩

/-- **C262** Up to Python 3.13, two records of scalar fields on grids of the same size are equal exactly when they have the same times, coordinates and units and
their values, compared as those of two scalar fields (C212), agree at every point at each time. -/
theorem C262_scalars_partial (hi : inc ≠ .ok true) {t r : TF} {u w : Sym} (ht : SRecord t u) (hr : SRecord r w) (lx : t.ax.length = r.ax.length)
    (ly : t.ay.length = r.ay.length) :
    eqTS (.ok true) mis inc t r = .ok true ↔
      t.times = r.times ∧ t.ax = r.ax ∧ t.ay = r.ay ∧ t.ux = r.ux ∧ t.uy = r.uy ∧ t.ut = r.ut ∧ u = w ∧
        ∀ (n : Nat) f g, t.fields[n]? = some f → r.fields[n]? = some g → ∀ x y a b, f.Reads x y a → g.Reads x y b → Agree a b := by
  unfold eqTS
  simp only [both_true, eqL_true, true_and, unitEq_true hi, all1_eq lx, all1_eq ly]
  have key : ∀ f ∈ t.fields, ∀ g ∈ r.fields, eqS mis inc f g = .ok true ↔ _ := fun f hf g hg =>
    C212_scalar_partial (mis := mis) hi (ht.ok.wf f hf) (hr.ok.wf g hg) (by rw [ht.ok.ax f hf, hr.ok.ax g hg, lx]) (by rw [ht.ok.ay f hf, hr.ok.ay g hg, ly])
  constructor
  · rintro ⟨hf, htm, hx, hy, h1, h2, h3⟩
    have hl := hf.length_eq
    have p1 : t.times.length = t.fields.length := ht.ok.paired
    have p2 : r.times.length = r.fields.length := hr.ok.paired
    rw [all1_eq (by rw [p1, p2, hl])] at htm
    have hv : ∀ (n : Nat) f g, t.fields[n]? = some f → r.fields[n]? = some g → eqS mis inc f g = .ok true := by
      intro n f g e1 e2
      obtain ⟨a1, a2⟩ := List.getElem?_eq_some_iff.1 e1
      obtain ⟨b1, b2⟩ := List.getElem?_eq_some_iff.1 e2
      rw [← a2, ← b2]
      exact hf.get a1 b1
    obtain ⟨f, l, hfl⟩ := List.exists_cons_of_ne_nil ht.ne
    obtain ⟨g, k, hgk⟩ := List.exists_cons_of_ne_nil hr.ne
    have hfm : f ∈ t.fields := by rw [hfl]; simp
    have hgm : g ∈ r.fields := by rw [hgk]; simp
    have a3 := ((key f hfm g hgm).1 (hv 0 f g (by rw [hfl]; rfl) (by rw [hgk]; rfl))).2.2.2.2.2
    rw [ht.uv f hfm, hr.uv g hgm] at a3
    refine ⟨htm, hx, hy, h1, h2, h3, a3, ?_⟩
    rintro n f g e1 e2 x y a b ⟨i, j, i1, j1, c1⟩ ⟨i', j', i2, j2, c2⟩
    have hfm := List.mem_of_getElem? e1
    have hgm := List.mem_of_getElem? e2
    have wf := ht.ok.wf f hfm
    have ex : f.ax = g.ax := by rw [ht.ok.ax f hfm, hr.ok.ax g hgm, hx]
    have ey : f.ay = g.ay := by rw [ht.ok.ay f hfm, hr.ok.ay g hgm, hy]
    rw [← ex] at i2
    rw [← ey] at j2
    have q1 := wf.incx.idx_inj' i2 i1
    have q2 := wf.incy.idx_inj' j2 j1
    subst q1 q2
    rw [← c1, ← c2]
    exact ((key f hfm g hgm).1 (hv n f g e1 e2)).2.2.1 _ (getElem?_some_lt i1) _ (getElem?_some_lt j1)
  · rintro ⟨htm, hx, hy, h1, h2, h3, h4, hv⟩
    have p1 : t.times.length = t.fields.length := ht.ok.paired
    have p2 : r.times.length = r.fields.length := hr.ok.paired
    have hl : t.fields.length = r.fields.length := by rw [← p1, ← p2, htm]
    refine ⟨List.forall₂_iff_get.2 ⟨hl, fun n a b => ?_⟩, (all1_eq (by rw [htm])).2 htm, hx, hy, h1, h2, h3⟩
    have hfm := List.get_mem t.fields ⟨n, a⟩
    have hgm := List.get_mem r.fields ⟨n, b⟩
    have ex : (t.fields.get ⟨n, a⟩).ax = (r.fields.get ⟨n, b⟩).ax := by rw [ht.ok.ax _ hfm, hr.ok.ax _ hgm, hx]
    have ey : (t.fields.get ⟨n, a⟩).ay = (r.fields.get ⟨n, b⟩).ay := by rw [ht.ok.ay _ hfm, hr.ok.ay _ hgm, hy]
    refine (key _ hfm _ hgm).2 ⟨by rw [ex]; exact List.forall₂_same.mpr fun _ _ => near_self _, by rw [ey]; exact List.forall₂_same.mpr fun _ _ => near_self _,
      fun i hi j hj => ?_, by rw [ht.ok.ux _ hfm, hr.ok.ux _ hgm, h1], by rw [ht.ok.uy _ hfm, hr.ok.uy _ hgm, h2], by rw [ht.uv _ hfm, hr.uv _ hgm, h4]⟩
    refine hv n _ _ (by simp) (by simp) _ _ _ _ ⟨i, j, List.getElem?_eq_getElem hi, List.getElem?_eq_getElem hj, rfl⟩
      ⟨i, j, by rw [← ex]; exact List.getElem?_eq_getElem hi, by rw [← ey]; exact List.getElem?_eq_getElem hj, rfl⟩

/-- **C262** From Python 3.14 on, no two distinct records can be compared, not even a record and its copy. -/
theorem C262_python_violated (t r : TVF) (p q : TF) :
    eqTV (.error .typeError) mis inc t r = .error .typeError ∧ eqTS (.error .typeError) mis inc p q = .error .typeError := ⟨rfl, rfl⟩

/-! ### examples -/

example : eqTV (.ok true) (.ok false) (.ok false) Fill.film Fill.film = .ok true :=
  (C262_vectors_partial (by simp) Fill.film_record Fill.film_record).2
    ⟨rfl, rfl, rfl, rfl, rfl, rfl, rfl, fun n f g e1 e2 => by rw [e1] at e2; cases e2; exact fun _ _ _ => Iff.rfl⟩

example : eqTV (.ok true) (.ok false) (.ok false) Fill.film { Fill.film with times := [0, 1, 2, 5] } = .ok false := by decide +kernel

example : eqTS (.ok true) (.ok false) (.ok false) Temporal.rec3 Temporal.rec3 = .ok true := by decide +kernel

example : SRecord Temporal.rec3 SF.sample.uv := Trace.rec3_record

end IMT.Same
