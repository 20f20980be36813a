import Verif.Temporal.UnitShareModel
import Verif.Temporal.Share
import Mathlib.Data.Finset.Max
import Mathlib.Algebra.Order.Ring.Rat

/-! C387: changes of unit of records that share fields. -/

namespace IMT.Temporal

/-- Specification: at the physical place `(X, Y)` (in the base units) the field shows the physical value `R` (`none`: masked). -/
def Shows (f : SF) (X Y : Rat) (R : Option Rat) : Prop :=
  ∃ x y r, f.Reads x y r ∧ X = x * f.ux.size ∧ Y = y * f.uy.size ∧ R = r.map (· * f.uv.size)

/-- Specification: the same physical values at the same physical places. -/
def SameThings (f g : SF) : Prop := ∀ X Y R, Shows f X Y R ↔ Shows g X Y R

/-- Specification: the unit of the quantity that is changed. -/
def unitOf (w : SF.Which) (f : SF) : Sym := match w with | .x => f.ux | .y => f.uy | .values => f.uv

/-- Specification: the units of the field are units. -/
def Sized (f : SF) : Prop := 0 < f.ux.size ∧ 0 < f.uy.size ∧ 0 < f.uv.size

theorem same_of_change {f g : SF} (hf : f.WF) (hs : Sized f) {w : SF.Which} {new : Sym} (hn : 0 < new.size) (h : f.changeUnit w new = .ok g) :
    g.WF ∧ Sized g ∧ unitOf w g = new ∧ SameThings f g := by
  obtain ⟨wf, hr, hu, p⟩ := SF.C13_changeUnit_physical hf hs.1 hs.2.1 hs.2.2 hn h
  refine ⟨wf, p, ?_, fun X Y R => ⟨?_, ?_⟩⟩
  · cases w
    · exact hu.1
    · exact hu.2.1
    · exact hu.2.2
  · rintro ⟨x, y, r, e, rfl, rfl, rfl⟩
    have hx := ne_of_gt p.1
    have hy := ne_of_gt p.2.1
    have hv := ne_of_gt p.2.2
    have e1 : x * f.ux.size / g.ux.size * g.ux.size = x * f.ux.size := div_mul_cancel₀ _ hx
    have e2 : y * f.uy.size / g.uy.size * g.uy.size = y * f.uy.size := div_mul_cancel₀ _ hy
    have e3 : (r.map (fun v : Rat => v * f.uv.size / g.uv.size)).map (fun v : Rat => v * g.uv.size) = r.map (fun v : Rat => v * f.uv.size) := by
      cases r
      · rfl
      · simp [div_mul_cancel₀ _ hv]
    exact ⟨_, _, _, (hr _ _ _).2 ⟨x, y, r, e, e1, e2, e3⟩, e1.symm, e2.symm, e3.symm⟩
  · rintro ⟨x, y, r, e, rfl, rfl, rfl⟩
    obtain ⟨x', y', r', e', h1, h2, h3⟩ := (hr _ _ _).1 e
    exact ⟨x', y', r', e', h1, h2, h3⟩

/-- The grid of the record in the new unit. -/
def newGrid (t : Held) (w : SF.Which) (new : Sym) : Held := match w with
  | .x => { t with ux := new, ax := t.ax.map (· * (1 * t.ux.size / new.size)) }
  | .y => { t with uy := new, ay := t.ay.map (· * (1 * t.uy.size / new.size)) }
  | .values => t

theorem map_one_size {l : List Rat} {s : Rat} (h : 0 < s) : l.map (fun x : Rat => x * (1 * s / s)) = l := by
  have : 1 * s / s = 1 := by rw [one_mul, div_self (ne_of_gt h)]
  simp only [this, mul_one, List.map_id']

theorem OnGrid.change {t : Held} {f g : SF} {w : SF.Which} {new : Sym} (hn : 0 < new.size) (h : OnGrid t f ∨ OnGrid (newGrid t w new) f) (hg : g.WF)
    (e : f.changeUnit w new = .ok g) : OnGrid (newGrid t w new) g := by
  cases w with
  | x =>
    unfold SF.changeUnit Unum.asUnit at e
    simp only at e
    split at e
    · cases e
      rcases h with h | h
      · exact ⟨hg, by simp only [newGrid, h.2.1, h.2.2.2.1], h.2.2.1, rfl, h.2.2.2.2⟩
      · have hu : f.ux = new := h.2.2.2.1
        exact ⟨hg, by rw [← h.2.1]; simp only [hu]; exact map_one_size hn, h.2.2.1, rfl, h.2.2.2.2⟩
    · cases e
  | y =>
    unfold SF.changeUnit Unum.asUnit at e
    simp only at e
    split at e
    · cases e
      rcases h with h | h
      · exact ⟨hg, h.2.1, by simp only [newGrid, h.2.2.1, h.2.2.2.2], h.2.2.2.1, rfl⟩
      · have hu : f.uy = new := h.2.2.2.2
        exact ⟨hg, h.2.1, by rw [← h.2.2.1]; simp only [hu]; exact map_one_size hn, h.2.2.2.1, rfl⟩
    · cases e
  | values =>
    unfold SF.changeUnit Unum.asUnit at e
    simp only at e
    split at e
    · cases e
      have h : OnGrid t f := h.elim id id
      exact ⟨hg, h.2⟩
    · cases e

/-- What the loop on the fields does, whatever the sharing and the outcome. -/
theorem unitHeld_inv {w : SF.Which} {new : Sym} {P Q : SF → Prop} {R : SF → SF → Prop} (hR : ∀ f, R f f) (hT : ∀ f g h, R f g → R g h → R f h)
    (step : ∀ f g, P f → f.changeUnit w new = .ok g → P g ∧ Q g ∧ R f g) : ∀ (l : List Nat) (m : List SF), (∀ a ∈ l, ∃ f, m[a]? = some f ∧ P f) →
    ∃ m' r, unitHeld w new m l = (m', r) ∧
      (∀ (a : Nat) (f : SF), m[a]? = some f → P f → ∃ g, m'[a]? = some g ∧ P g ∧ R f g ∧ (Q f → Q g) ∧ (r = .ok ⟨⟩ → a ∈ l → Q g)) ∧
      ∀ a, a ∉ l → m'[a]? = m[a]? := by
  intro l
  induction l with
  | nil => exact fun m _ => ⟨m, _, rfl, fun a f h p => ⟨f, h, p, hR f, id, fun _ h => absurd h List.not_mem_nil⟩, fun _ _ => rfl⟩
  | cons b l ih =>
    intro m hw
    obtain ⟨p, hp, hP⟩ := hw b List.mem_cons_self
    rw [unitHeld]
    simp only [hp]
    cases hc : p.changeUnit w new with
    | error e => exact ⟨m, _, rfl, fun a f h p => ⟨f, h, p, hR f, id, fun h => by cases h⟩, fun _ _ => rfl⟩
    | ok q =>
      obtain ⟨hq, hQ, hRpq⟩ := step p q hP hc
      have hb : (m.set b q)[b]? = some q := List.getElem?_set_self (getElem?_some_lt hp)
      have hne : ∀ {a : Nat}, b ≠ a → (m.set b q)[a]? = m[a]? := fun h => List.getElem?_set_ne h
      obtain ⟨m', r, e, h1, h2⟩ := ih (m.set b q) (fun a ha => by
        by_cases h : b = a
        · subst h; exact ⟨q, hb, hq⟩
        · rw [hne h]; exact hw a (List.mem_cons_of_mem _ ha))
      refine ⟨m', r, e, ?_, ?_⟩
      · intro a f hf hPf
        by_cases h : b = a
        · subst h
          rw [hp] at hf
          cases hf
          obtain ⟨g, e1, e2, e3, e4, e5⟩ := h1 b q hb hq
          exact ⟨g, e1, e2, hT _ _ _ hRpq e3, fun _ => e4 hQ, fun _ _ => e4 hQ⟩
        · obtain ⟨g, e1, e2, e3, e4, e5⟩ := h1 a f (by rw [hne h]; exact hf) hPf
          exact ⟨g, e1, e2, e3, e4, fun hr ha => e5 hr ((List.mem_cons.1 ha).resolve_left (fun h' => h h'.symm))⟩
      · intro a ha
        rw [h2 a (fun h' => ha (List.mem_cons_of_mem _ h')), hne (fun h' : b = a => ha (h' ▸ List.mem_cons_self))]

theorem modify_same {m : List SF} {a : Nat} {F : SF → SF} (h : ∀ f, m[a]? = some f → F f = f) : m.modify a F = m := by
  apply List.ext_getElem?
  intro i
  rw [List.getElem?_modify]
  by_cases e : a = i
  · subst e
    cases hm : m[a]? with
    | none => rfl
    | some f => simp [h f hm]
  · cases hm : m[i]? <;> simp [e]

theorem writeX_same {u : Sym} {v : List Rat} {m : List SF} : ∀ {l : List Nat}, (∀ a ∈ l, ∀ f : SF, m[a]? = some f → f.ux = u ∧ f.ax = v) → writeX u v m l = m := by
  intro l
  induction l with
  | nil => exact fun _ => rfl
  | cons b l ih =>
    intro h
    rw [writeX, modify_same (fun f hf => by obtain ⟨rfl, rfl⟩ := h b List.mem_cons_self f hf; rfl)]
    exact ih (fun a ha => h a (List.mem_cons_of_mem _ ha))

theorem writeY_same {u : Sym} {v : List Rat} {m : List SF} : ∀ {l : List Nat}, (∀ a ∈ l, ∀ f : SF, m[a]? = some f → f.uy = u ∧ f.ay = v) → writeY u v m l = m := by
  intro l
  induction l with
  | nil => exact fun _ => rfl
  | cons b l ih =>
    intro h
    rw [writeY, modify_same (fun f hf => by obtain ⟨rfl, rfl⟩ := h b List.mem_cons_self f hf; rfl)]
    exact ih (fun a ha => h a (List.mem_cons_of_mem _ ha))

/-- C387, for fields on the grid of the record, shared or not, whatever the outcome: every field shows the same physical values at the same physical
places, the objects that are not held are left; when no exception is raised the fields have the new unit and are on the grid of the record. -/
theorem C387_content_partial {m : List SF} {t : Held} (hw : ∀ a ∈ t.held, ∃ f, m[a]? = some f ∧ OnGrid t f ∧ Sized f) (w : SF.Which) {new : Sym}
    (hn : 0 < new.size) :
    ∃ m' t' r, changeHeld m t w new = (m', t', r) ∧ t'.held = t.held ∧ t'.times = t.times ∧ t'.ut = t.ut ∧
      (∀ a ∈ t.held, ∃ f g, m[a]? = some f ∧ m'[a]? = some g ∧ g.WF ∧ SameThings f g ∧ (r = .ok ⟨⟩ → unitOf w g = new ∧ OnGrid t' g)) ∧
      ∀ a, a ∉ t.held → m'[a]? = m[a]? := by
  obtain ⟨m1, r, e, h1, h2⟩ := unitHeld_inv (w := w) (new := new) (P := fun f => f.WF ∧ Sized f ∧ (OnGrid t f ∨ OnGrid (newGrid t w new) f))
    (Q := fun f => unitOf w f = new ∧ OnGrid (newGrid t w new) f) (R := SameThings) (fun f X Y R => Iff.rfl)
    (fun f g h a b X Y R => (a X Y R).trans (b X Y R)) (by
      rintro f g ⟨p1, p2, p3⟩ hc
      obtain ⟨a1, a2, a3, a4⟩ := same_of_change p1 p2 hn hc
      have a5 := OnGrid.change hn p3 a1 hc
      exact ⟨⟨a1, a2, .inr a5⟩, ⟨a3, a5⟩, a4⟩) t.held m (fun a ha => by
      obtain ⟨f, e, o, s⟩ := hw a ha
      exact ⟨f, e, o.1, s, .inl o⟩)
  have key : ∀ a ∈ t.held, ∃ f g, m[a]? = some f ∧ m1[a]? = some g ∧ g.WF ∧ SameThings f g ∧ (r = .ok ⟨⟩ → unitOf w g = new ∧ OnGrid (newGrid t w new) g) := by
    intro a ha
    obtain ⟨f, e, o, s⟩ := hw a ha
    obtain ⟨g, e1, e2, e3, -, e4⟩ := h1 a f e ⟨o.1, s, .inl o⟩
    exact ⟨f, g, e, e1, e2.1, e3, fun h => e4 h ha⟩
  have weak : ∀ (t' : Held) (r' : Res PUnit), r' ≠ .ok ⟨⟩ → ∀ a ∈ t.held, ∃ f g, m[a]? = some f ∧ m1[a]? = some g ∧ g.WF ∧ SameThings f g ∧
      (r' = .ok ⟨⟩ → unitOf w g = new ∧ OnGrid t' g) := by
    intro t' r' hne a ha
    obtain ⟨f, g, e1, e2, e3, e4, -⟩ := key a ha
    exact ⟨f, g, e1, e2, e3, e4, fun h => absurd h hne⟩
  cases r with
  | error x => exact ⟨m1, t, .error x, by unfold changeHeld; simp only [e], rfl, rfl, rfl, weak _ _ (by simp), h2⟩
  | ok x =>
    cases x
    cases w with
    | values => exact ⟨m1, t, .ok ⟨⟩, by unfold changeHeld; simp only [e], rfl, rfl, rfl, key, h2⟩
    | x =>
      by_cases hc : t.ux.Compat new
      · have ha : Unum.asUnit ⟨1, t.ux⟩ ⟨1, new⟩ = .ok ⟨1 * t.ux.size / new.size, new⟩ := by unfold Unum.asUnit; simp only [hc, if_true]
        have hs : writeX new (t.ax.map (· * (1 * t.ux.size / new.size))) m1 t.held = m1 := writeX_same (fun a ha f hf => by
          obtain ⟨-, g, -, e2, -, -, hq⟩ := key a ha
          rw [hf] at e2
          cases e2
          exact ⟨(hq rfl).1, (hq rfl).2.2.1⟩)
        exact ⟨m1, newGrid t .x new, .ok ⟨⟩, by unfold changeHeld; simp only [e, ha, hs]; rfl, rfl, rfl, rfl, key, h2⟩
      · have ha : Unum.asUnit ⟨1, t.ux⟩ ⟨1, new⟩ = .error .valueError := by unfold Unum.asUnit; simp only [hc, if_false]
        exact ⟨m1, t, .error .valueError, by unfold changeHeld; simp only [e, ha], rfl, rfl, rfl, weak _ _ (by simp), h2⟩
    | y =>
      by_cases hc : t.uy.Compat new
      · have ha : Unum.asUnit ⟨1, t.uy⟩ ⟨1, new⟩ = .ok ⟨1 * t.uy.size / new.size, new⟩ := by unfold Unum.asUnit; simp only [hc, if_true]
        have hs : writeY new (t.ay.map (· * (1 * t.uy.size / new.size))) m1 t.held = m1 := writeY_same (fun a ha f hf => by
          obtain ⟨-, g, -, e2, -, -, hq⟩ := key a ha
          rw [hf] at e2
          cases e2
          exact ⟨(hq rfl).1, (hq rfl).2.2.2.1⟩)
        exact ⟨m1, newGrid t .y new, .ok ⟨⟩, by unfold changeHeld; simp only [e, ha, hs]; rfl, rfl, rfl, rfl, key, h2⟩
      · have ha : Unum.asUnit ⟨1, t.uy⟩ ⟨1, new⟩ = .error .valueError := by unfold Unum.asUnit; simp only [hc, if_false]
        exact ⟨m1, t, .error .valueError, by unfold changeHeld; simp only [e, ha], rfl, rfl, rfl, weak _ _ (by simp), h2⟩

theorem changeUnit_ok {f : SF} {w : SF.Which} {new : Sym} (h : (unitOf w f).Compat new) : ∃ g, f.changeUnit w new = .ok g ∧ unitOf w g = new := by
  cases w <;> simp only [unitOf] at h <;> unfold SF.changeUnit Unum.asUnit <;> simp only [h, if_true, Except.map] <;> exact ⟨_, rfl, rfl⟩

theorem changeUnit_no {f : SF} {w : SF.Which} {new : Sym} (h : ¬ (unitOf w f).Compat new) : f.changeUnit w new = .error .valueError := by
  cases w <;> simp only [unitOf] at h <;> unfold SF.changeUnit Unum.asUnit <;> simp only [h, if_false, Except.map]

theorem unitHeld_ok {w : SF.Which} {new : Sym} : ∀ (l : List Nat) (m : List SF), (∀ a ∈ l, ∃ f, m[a]? = some f ∧ (unitOf w f).Compat new) →
    ∃ m', unitHeld w new m l = (m', .ok ⟨⟩) := by
  intro l
  induction l with
  | nil => exact fun m _ => ⟨m, rfl⟩
  | cons b l ih =>
    intro m h
    obtain ⟨f, hf, hc⟩ := h b List.mem_cons_self
    obtain ⟨g, hg, hu⟩ := changeUnit_ok hc
    rw [unitHeld]
    simp only [hf, hg]
    refine ih _ (fun a ha => ?_)
    by_cases e : b = a
    · subst e
      exact ⟨g, List.getElem?_set_self (getElem?_some_lt hf), by rw [hu]; exact ⟨rfl, rfl, rfl⟩⟩
    · rw [List.getElem?_set_ne e]
      exact h a (List.mem_cons_of_mem _ ha)

/-- C387: a change to units of the same dimension raises no exception. -/
theorem C387_accepted {m : List SF} {t : Held} {w : SF.Which} {new : Sym} (hw : ∀ a ∈ t.held, ∃ f, m[a]? = some f ∧ (unitOf w f).Compat new)
    (ht : (w = .x → t.ux.Compat new) ∧ (w = .y → t.uy.Compat new)) : (changeHeld m t w new).2.2 = .ok ⟨⟩ := by
  obtain ⟨m', e⟩ := unitHeld_ok t.held m hw
  unfold changeHeld Unum.asUnit
  cases w
  · simp only [e, ht.1 rfl, if_true]
  · simp only [e, ht.2 rfl, if_true]
  · simp only [e]

/-- C387: when the first field refuses the unit, ValueError is raised and nothing is changed. -/
theorem C387_refused_partial {m : List SF} {t : Held} {w : SF.Which} {new : Sym} {a : Nat} {l : List Nat} (hl : t.held = a :: l) {f : SF} (hf : m[a]? = some f)
    (h : ¬ (unitOf w f).Compat new) : changeHeld m t w new = (m, t, .error .valueError) := by
  unfold changeHeld
  rw [hl, unitHeld]
  simp only [hf, changeUnit_no h]

/-- C387 fails when a later field refuses the unit: the exception leaves the first field in the new unit, the second one and the record in the old. -/
theorem C387_halfway_violated {m : List SF} {t : Held} {w : SF.Which} {new : Sym} {a b : Nat} {l : List Nat} (hl : t.held = a :: b :: l) (hab : a ≠ b)
    {f g : SF} (hf : m[a]? = some f) (hg : m[b]? = some g) (h1 : (unitOf w f).Compat new) (h2 : ¬ (unitOf w g).Compat new) :
    ∃ m' f', changeHeld m t w new = (m', t, .error .valueError) ∧ m'[a]? = some f' ∧ unitOf w f' = new ∧ m'[b]? = some g := by
  obtain ⟨f', e, hu⟩ := changeUnit_ok h1
  have hb : (m.set a f')[b]? = some g := by rw [List.getElem?_set_ne hab]; exact hg
  refine ⟨m.set a f', f', ?_, List.getElem?_set_self (getElem?_some_lt hf), hu, hb⟩
  unfold changeHeld
  rw [hl, unitHeld]
  simp only [hf, e]
  rw [unitHeld]
  simp only [hb, changeUnit_no h2]

/-- C387 fails for a field whose axis has the numbers of the axis of the record in another unit, which `add_field` accepts: after a change of the unit
along x it shows its values at other physical places. -/
theorem C387_foreign_violated {m : List SF} {t : Held} {new : Sym} (hn : 0 < new.size) {a : Nat} (hl : t.held = [a]) {f : SF} (hf : m[a]? = some f)
    (hw : f.WF) (hs : Sized f) (hx : f.ax = t.ax) (hne : ∃ x ∈ t.ax, x ≠ 0) (ht : 0 < t.ux.size) (hu : f.ux.size ≠ t.ux.size) (h1 : f.ux.Compat new)
    (h2 : t.ux.Compat new) :
    ∃ m' t' g, changeHeld m t .x new = (m', t', .ok ⟨⟩) ∧ m'[a]? = some g ∧ g.ux = new ∧
      (∀ x y r, f.Reads x y r ↔ g.Reads (x * (t.ux.size / new.size)) y r) ∧ ¬ SameThings f g := by
  obtain ⟨f', e, -⟩ := changeUnit_ok (f := f) (w := .x) h1
  have ef : f' = { f with ux := new, ax := f.ax.map (· * (1 * f.ux.size / new.size)) } := by
    unfold SF.changeUnit Unum.asUnit at e
    simp only [h1, if_true, Except.map] at e
    cases e
    rfl
  have hal := getElem?_some_lt hf
  have hset : (m.set a f')[a]? = some f' := List.getElem?_set_self hal
  let g : SF := { f with ux := new, ax := t.ax.map (· * (t.ux.size / new.size)) }
  have hc : 0 < t.ux.size / new.size := div_pos ht hn
  have hread : ∀ x y r, f.Reads x y r ↔ g.Reads (x * (t.ux.size / new.size)) y r := by
    intro x y r
    constructor
    · rintro ⟨i, j, e1, e2, e3⟩
      exact ⟨i, j, by simp only [g, List.getElem?_map, ← hx, e1, Option.map_some], e2, e3⟩
    · rintro ⟨i, j, e1, e2, e3⟩
      refine ⟨i, j, ?_, e2, e3⟩
      simp only [g, List.getElem?_map, Option.map_eq_some_iff] at e1
      obtain ⟨x', e1, h⟩ := e1
      rw [hx, e1, mul_right_cancel₀ (ne_of_gt hc) h]
  refine ⟨(m.set a f').modify a (fun f => { f with ux := new, ax := t.ax.map (· * (1 * t.ux.size / new.size)) }), newGrid t .x new, g, ?_, ?_, rfl, hread, ?_⟩
  · unfold changeHeld Unum.asUnit
    simp only [hl, unitHeld, hf, e, h2, if_true, writeX, newGrid]
  · rw [List.getElem?_modify, hset]
    simp only [if_true, ef, one_mul, g]
    rfl
  · intro hsame
    obtain ⟨x0, hx0, hx0'⟩ := hne
    obtain ⟨M, hM, hmax⟩ := t.ax.toFinset.exists_max_image (fun x : Rat => |x|) ⟨x0, List.mem_toFinset.2 hx0⟩
    have hM0 : 0 < |M| := lt_of_lt_of_le (abs_pos.2 hx0') (hmax x0 (List.mem_toFinset.2 hx0))
    obtain ⟨i, hi⟩ := List.mem_iff_getElem?.1 (List.mem_toFinset.1 hM)
    obtain ⟨y0, hy0⟩ := List.exists_mem_of_ne_nil _ hw.ney
    obtain ⟨j, hj⟩ := List.mem_iff_getElem?.1 hy0
    have hr : f.Reads M y0 (f.cell i j) := ⟨i, j, by rw [hx]; exact hi, hj, rfl⟩
    have hin : ∀ {x y : Rat} {r : Option Rat}, f.Reads x y r → |x| ≤ |M| := by
      rintro x y r ⟨i', j', e1, -, -⟩
      exact hmax x (List.mem_toFinset.2 (by rw [← hx]; exact List.mem_of_getElem? e1))
    have hcan : ∀ x : Rat, x * (t.ux.size / new.size) * new.size = x * t.ux.size := fun x => by
      rw [mul_assoc, div_mul_cancel₀ _ (ne_of_gt hn)]
    have le1 : f.ux.size ≤ t.ux.size := by
      obtain ⟨x, y, r, hx', e1, -, -⟩ := (hsame _ _ _).1 ⟨M, y0, _, hr, rfl, rfl, rfl⟩
      obtain ⟨x', hx'', rfl⟩ : ∃ x', f.Reads x' y r ∧ x = x' * (t.ux.size / new.size) := by
        refine ⟨x / (t.ux.size / new.size), ?_, (div_mul_cancel₀ _ (ne_of_gt hc)).symm⟩
        rw [hread, div_mul_cancel₀ _ (ne_of_gt hc)]
        exact hx'
      have e1 : M * f.ux.size = x' * t.ux.size := by rw [e1]; exact hcan x'
      have e2 := congrArg abs e1
      rw [abs_mul, abs_mul, abs_of_pos hs.1, abs_of_pos ht] at e2
      have := mul_le_mul_of_nonneg_right (hin hx'') ht.le
      rw [← e2] at this
      exact le_of_mul_le_mul_left this hM0
    have le2 : t.ux.size ≤ f.ux.size := by
      obtain ⟨x, y, r, hx', e1, -, -⟩ := (hsame _ _ _).2 ⟨_, y0, _, (hread _ _ _).1 hr, rfl, rfl, rfl⟩
      have e1 : M * t.ux.size = x * f.ux.size := by rw [← e1]; exact (hcan M).symm
      have e2 := congrArg abs e1
      rw [abs_mul, abs_mul, abs_of_pos hs.1, abs_of_pos ht] at e2
      have := mul_le_mul_of_nonneg_right (hin hx') hs.1.le
      rw [← e2] at this
      exact le_of_mul_le_mul_left this hM0
    exact hu (le_antisymm le1 le2)

/-! ### the hypotheses are met -/

theorem sample_sized : Sized SF.sample := by unfold Sized; decide +kernel

example : (changeHeld [SF.sample] (sampleHeld [0, 0]) .x .cm).2.2 = .ok ⟨⟩ ∧
    ∃ m' t' r, changeHeld [SF.sample] (sampleHeld [0, 0]) .x .cm = (m', t', r) ∧ t'.held = [0, 0] := by
  refine ⟨C387_accepted (fun a ha => ⟨SF.sample, ?_, by decide +kernel⟩) ⟨fun _ => by decide +kernel, fun h => by cases h⟩, ?_⟩
  · simp only [sampleHeld, List.mem_cons, List.not_mem_nil, or_false, or_self] at ha
    rw [ha]; rfl
  · obtain ⟨m', t', r, e, h, -⟩ := C387_content_partial (m := [SF.sample]) (t := sampleHeld [0, 0]) (fun a ha => ⟨SF.sample, by
      simp only [sampleHeld, List.mem_cons, List.not_mem_nil, or_false, or_self] at ha
      rw [ha]; rfl, sample_on _, sample_sized⟩) .x (new := .cm) (by decide +kernel)
    exact ⟨m', t', r, e, h⟩

example : changeHeld [SF.sample] (sampleHeld [0, 0]) .x .s = ([SF.sample], sampleHeld [0, 0], .error .valueError) :=
  C387_refused_partial rfl rfl (by decide +kernel)

example : ∃ m' f', changeHeld [SF.sample, { SF.sample with ux := .s }] (sampleHeld [0, 1]) .x .cm = (m', sampleHeld [0, 1], .error .valueError) ∧
    m'[0]? = some f' ∧ unitOf .x f' = .cm ∧ m'[1]? = some { SF.sample with ux := .s } :=
  C387_halfway_violated rfl (by decide) rfl rfl (by decide +kernel) (by decide +kernel)

example : ∃ m' t' g, changeHeld [{ SF.sample with ux := .m }] (sampleHeld [0]) .x .cm = (m', t', .ok ⟨⟩) ∧ m'[0]? = some g ∧
    ¬ SameThings { SF.sample with ux := .m } g := by
  have hw := SF.sample_WF
  obtain ⟨m', t', g, e, e', -, -, h⟩ := C387_foreign_violated (m := [{ SF.sample with ux := .m }]) (t := sampleHeld [0]) (new := .cm) (by decide +kernel) rfl rfl
    ⟨hw.incx, hw.incy, hw.nex, hw.ney, hw.vx, hw.vy, hw.mx, hw.my, hw.nan⟩ (by unfold Sized; decide +kernel) rfl (by decide +kernel) (by decide +kernel)
    (by decide +kernel) (by decide +kernel) (by decide +kernel)
  exact ⟨m', t', g, e, e', h⟩

end IMT.Temporal
