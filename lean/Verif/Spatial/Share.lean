import Verif.Spatial.ShareModel
import Verif.Scalar.Geom
import Mathlib.Algebra.Order.Ring.Rat
import Mathlib.Tactic.Ring
import Mathlib.Tactic.Linarith
import Mathlib.Data.Finset.Max
import Mathlib.Logic.Function.Iterate

/-! C386: changes in place of collections that share fields. -/

namespace IMT.Spatial

/-- Specification: `g` is `f` moved, the new origin being at `(ox, oy)`. -/
def MovedBy (ox oy : Rat) (f g : SF) : Prop :=
  g.WF ∧ (∀ x y r, f.Reads x y r ↔ g.Reads (x - ox) (y - oy) r) ∧ g.ux = f.ux ∧ g.uy = f.uy ∧ g.uv = f.uv

/-- Specification: `g` is `f` with the positions multiplied by `cx` and `cy` and the values by `cv`. -/
def ScaledBy (cx cy cv : Rat) (f g : SF) : Prop :=
  g.WF ∧ ∀ x y r, g.Reads x y r ↔ ∃ x' y' r', f.Reads x' y' r' ∧ x = x' * cx ∧ y = y' * cy ∧ r = r'.map (· * cv)

theorem MovedBy.refl {f : SF} (hf : f.WF) : MovedBy 0 0 f f := ⟨hf, fun x y r => by simp, rfl, rfl, rfl⟩

theorem MovedBy.trans {a b c d : Rat} {f g h : SF} (h1 : MovedBy a b f g) (h2 : MovedBy c d g h) : MovedBy (a + c) (b + d) f h := by
  refine ⟨h2.1, fun x y r => ?_, h2.2.2.1.trans h1.2.2.1, h2.2.2.2.1.trans h1.2.2.2.1, h2.2.2.2.2.trans h1.2.2.2.2⟩
  rw [h1.2.1, h2.2.1, sub_sub, sub_sub]

theorem ScaledBy.refl {f : SF} (hf : f.WF) : ScaledBy 1 1 1 f f := by
  refine ⟨hf, fun x y r => ⟨fun h => ⟨x, y, r, h, by simp, by simp, by cases r <;> simp⟩, ?_⟩⟩
  rintro ⟨x', y', r', h, rfl, rfl, rfl⟩
  have : r'.map (fun v : Rat => v * 1) = r' := by cases r' <;> simp
  rw [this, mul_one, mul_one]
  exact h

theorem ScaledBy.trans {a b c a' b' c' : Rat} {f g h : SF} (h1 : ScaledBy a b c f g) (h2 : ScaledBy a' b' c' g h) :
    ScaledBy (a * a') (b * b') (c * c') f h := by
  have hm : ∀ r : Option Rat, (r.map (fun v : Rat => v * c)).map (fun v : Rat => v * c') = r.map (fun v : Rat => v * (c * c')) := by
    intro r; cases r <;> simp [mul_assoc]
  refine ⟨h2.1, fun x y r => ?_⟩
  rw [h2.2]
  constructor
  · rintro ⟨x1, y1, r1, e, rfl, rfl, rfl⟩
    obtain ⟨x2, y2, r2, e', rfl, rfl, rfl⟩ := (h1.2 _ _ _).1 e
    exact ⟨x2, y2, r2, e', mul_assoc _ _ _, mul_assoc _ _ _, hm _⟩
  · rintro ⟨x2, y2, r2, e, rfl, rfl, rfl⟩
    exact ⟨x2 * a, y2 * b, _, (h1.2 _ _ _).2 ⟨x2, y2, r2, e, rfl, rfl, rfl⟩, (mul_assoc _ _ _).symm, (mul_assoc _ _ _).symm, (hm _).symm⟩

/-- A loop in place changes an object as often as it is held. -/
theorem eachHeld_get (step : SF → SF) (a : Nat) : ∀ (l : List Nat) (m : List SF), (eachHeld step m l)[a]? = m[a]?.map (step^[l.count a]) := by
  intro l
  induction l with
  | nil => intro m; cases h : m[a]? <;> simp [eachHeld, h]
  | cons b l ih =>
    intro m
    rw [eachHeld, ih, List.getElem?_modify]
    by_cases e : b = a
    · subst e
      cases h : m[b]? <;> simp
    · rw [List.count_cons_of_ne e]
      cases h : m[a]? <;> simp [e]

theorem setOrigin_moved {f : SF} (hf : f.WF) (ox oy : Option Rat) : MovedBy (ox.getD 0) (oy.getD 0) f (f.setOrigin ox oy) := by
  obtain ⟨w, h, u⟩ := SF.C12_setOrigin_shifts hf ox oy
  exact ⟨w, fun x y r => by rw [h, sub_add_cancel, sub_add_cancel], u⟩

theorem iterate_moved (ox oy : Option Rat) : ∀ (n : Nat) {f : SF}, f.WF →
    MovedBy (n * ox.getD 0) (n * oy.getD 0) f ((fun f : SF => f.setOrigin ox oy)^[n] f) := by
  intro n
  induction n with
  | zero => intro f hf; simpa using MovedBy.refl hf
  | succ n ih =>
    intro f hf
    have h1 := setOrigin_moved hf ox oy
    have h2 := h1.trans (ih h1.1)
    rw [Function.iterate_succ_apply]
    convert h2 using 1 <;> push_cast <;> ring

theorem iterate_scaled (sx sy sv : Option Unum) (hx : SF.factor sx ≠ 0) (hy : SF.factor sy ≠ 0) : ∀ (n : Nat) {f : SF}, f.WF →
    ScaledBy (SF.factor sx ^ n) (SF.factor sy ^ n) (SF.factor sv ^ n) f ((fun f : SF => f.scale sx sy sv)^[n] f) := by
  intro n
  induction n with
  | zero => intro f hf; simpa using ScaledBy.refl hf
  | succ n ih =>
    intro f hf
    have h1 : ScaledBy _ _ _ f (f.scale sx sy sv) := SF.C10_scale_moves_readings hf sx sy sv hx hy
    have h2 := h1.trans (ih h1.1)
    rw [Function.iterate_succ_apply, pow_succ', pow_succ', pow_succ']
    exact h2

/-- What `set_origin` does to an object held `n` times. -/
theorem originHeld_get {m : List SF} {held : List Nat} (ox oy : Option Rat) {a : Nat} {f : SF} (hf : m[a]? = some f) (hw : f.WF) :
    ∃ g, (originHeld m held ox oy)[a]? = some g ∧ MovedBy (held.count a * ox.getD 0) (held.count a * oy.getD 0) f g := by
  have h0 : ∀ {f g : SF} {c d : Rat}, MovedBy c d f g → ∀ {c' d' : Rat}, c = c' → d = d' → MovedBy c' d' f g := by
    intro f g c d h c' d' e e'; subst e e'; exact h
  cases ox with
  | none => cases oy with
    | none => exact ⟨f, hf, h0 (MovedBy.refl hw) (by simp) (by simp)⟩
    | some y => exact ⟨_, by simp only [originHeld, eachHeld_get, hf, Option.map_some], h0 (iterate_moved none (some y) _ hw) rfl rfl⟩
  | some x => cases oy with
    | none => exact ⟨_, by simp only [originHeld, eachHeld_get, hf, Option.map_some], h0 (iterate_moved (some x) none _ hw) rfl rfl⟩
    | some y =>
      have h1 := iterate_moved (some x) none (held.count a) hw
      have h2 := h1.trans (iterate_moved none (some y) (held.count a) h1.1)
      exact ⟨_, by simp only [originHeld, eachHeld_get, hf, Option.map_some], h0 h2 (by simp) (by simp)⟩

/-- C386, for fields held once: `set_origin` moves each field once and leaves the other objects. -/
theorem C386_origin_partial {m : List SF} {held : List Nat} (hn : held.Nodup) (hw : ∀ a ∈ held, ∃ f, m[a]? = some f ∧ f.WF) (ox oy : Option Rat) :
    (∀ a ∈ held, ∃ f g, m[a]? = some f ∧ (originHeld m held ox oy)[a]? = some g ∧ MovedBy (ox.getD 0) (oy.getD 0) f g) ∧
    ∀ a, a ∉ held → (originHeld m held ox oy)[a]? = m[a]? := by
  constructor
  · intro a ha
    obtain ⟨f, e, w⟩ := hw a ha
    obtain ⟨g, e', h⟩ := originHeld_get (held := held) ox oy e w
    rw [List.count_eq_one_of_mem hn ha] at h
    exact ⟨f, g, e, e', by simpa using h⟩
  · intro a ha
    have hc := List.count_eq_zero_of_not_mem ha
    cases ox <;> cases oy <;> simp [originHeld, eachHeld_get, hc]

/-- C386, for fields held once: `scale` in place multiplies each field once and leaves the other objects. -/
theorem C386_scale_partial {m : List SF} {held : List Nat} (hn : held.Nodup) (hw : ∀ a ∈ held, ∃ f, m[a]? = some f ∧ f.WF) (sx sy sv : Option Unum)
    (hx : SF.factor sx ≠ 0) (hy : SF.factor sy ≠ 0) :
    (∀ a ∈ held, ∃ f g, m[a]? = some f ∧ (scaleHeld m held sx sy sv)[a]? = some g ∧ ScaledBy (SF.factor sx) (SF.factor sy) (SF.factor sv) f g) ∧
    ∀ a, a ∉ held → (scaleHeld m held sx sy sv)[a]? = m[a]? := by
  constructor
  · intro a ha
    obtain ⟨f, e, w⟩ := hw a ha
    have h := iterate_scaled sx sy sv hx hy 1 w
    refine ⟨f, _, e, by rw [scaleHeld, eachHeld_get, e, Option.map_some, List.count_eq_one_of_mem hn ha], ?_⟩
    simpa using h
  · intro a ha
    simp [scaleHeld, eachHeld_get, List.count_eq_zero_of_not_mem ha]

/-- C386, for fields held once: the result of `scale` without `inplace` holds the fields multiplied once, and every object there was is left. -/
theorem C386_copy_partial {m : List SF} {held : List Nat} (hn : held.Nodup) (hw : ∀ a ∈ held, ∃ f, m[a]? = some f ∧ f.WF) (sx sy sv : Option Unum)
    (hx : SF.factor sx ≠ 0) (hy : SF.factor sy ≠ 0) :
    (scaleCopy m held sx sy sv).2.length = held.length ∧
    (∀ i a : Nat, held[i]? = some a → ∃ (b : Nat) (f g : SF), (scaleCopy m held sx sy sv).2[i]? = some b ∧ m[a]? = some f ∧
      (scaleCopy m held sx sy sv).1[b]? = some g ∧ ScaledBy (SF.factor sx) (SF.factor sy) (SF.factor sv) f g) ∧
    ∀ a, a < m.length → (scaleCopy m held sx sy sv).1[a]? = m[a]? := by
  have hn' : (held.map (· + m.length)).Nodup := hn.map (fun a b h => by simpa using h)
  refine ⟨by simp [scaleCopy], ?_, ?_⟩
  · intro i a hi
    have ha : a ∈ held := List.mem_of_getElem? hi
    obtain ⟨f, e, w⟩ := hw a ha
    have h := iterate_scaled sx sy sv hx hy 1 w
    refine ⟨a + m.length, f, _, by simp [scaleCopy, hi], e, ?_, by simpa using h⟩
    simp only [scaleCopy]
    rw [eachHeld_get, List.count_eq_one_of_mem hn' (List.mem_map.2 ⟨a, ha, rfl⟩), List.getElem?_append_right (by omega), Nat.add_sub_cancel, e,
      Option.map_some]
    rfl
  · intro a ha
    have : a ∉ held.map (· + m.length) := by
      rw [List.mem_map]
      rintro ⟨b, -, hb⟩
      omega
    simp only [scaleCopy]
    rw [eachHeld_get, List.count_eq_zero_of_not_mem this, List.getElem?_append_left ha]
    simp

/-- C386 fails for a field held more than once: its origin is moved as often, and its columns are not where one change puts them. -/
theorem C386_origin_violated {m : List SF} {held : List Nat} {a : Nat} {f : SF} (hf : m[a]? = some f) (hw : f.WF) (h2 : 2 ≤ held.count a) {o : Rat}
    (ho : o ≠ 0) : ∃ g, (originHeld m held (some o) none)[a]? = some g ∧ MovedBy (held.count a * o) 0 f g ∧ ¬ MovedBy o 0 f g := by
  obtain ⟨g, e, h⟩ := originHeld_get (held := held) (some o) none hf hw
  simp only [Option.getD_some, Option.getD_none, mul_zero] at h
  refine ⟨g, e, h, fun h' => ?_⟩
  have hstep : ∀ x y r, f.Reads x y r ↔ f.Reads (x + (held.count a - 1) * o) y r := by
    intro x y r
    rw [h.2.1 (x + (held.count a - 1) * o), h'.2.1 x]
    have : x + ((held.count a : Rat) - 1) * o - held.count a * o = x - o := by ring
    rw [this]
  have hd : ((held.count a : Rat) - 1) * o ≠ 0 := by
    have : (2 : Rat) ≤ held.count a := by exact_mod_cast h2
    exact mul_ne_zero (by linarith) ho
  obtain ⟨x0, hx0⟩ := List.exists_mem_of_ne_nil _ hw.nex
  obtain ⟨y0, hy0⟩ := List.exists_mem_of_ne_nil _ hw.ney
  obtain ⟨j, hj⟩ := List.mem_iff_getElem?.1 hy0
  obtain ⟨M, hM, hmax⟩ := f.ax.toFinset.exists_max_image id ⟨x0, List.mem_toFinset.2 hx0⟩
  obtain ⟨i, hi⟩ := List.mem_iff_getElem?.1 (List.mem_toFinset.1 hM)
  have hr : f.Reads M y0 (f.cell i j) := ⟨i, j, hi, hj, rfl⟩
  have hup : ∀ {x : Rat}, f.Reads x y0 (f.cell i j) → x ≤ M := by
    rintro x ⟨i', j', e, -, -⟩
    exact hmax x (List.mem_toFinset.2 (List.mem_of_getElem? e))
  have u1 := hup ((hstep _ _ _).1 hr)
  have u2 := hup ((hstep (M - ((held.count a : Rat) - 1) * o) y0 _).2 (by rw [sub_add_cancel]; exact hr))
  exact hd (by linarith)

/-- C386 fails for a field held more than once: its values are multiplied as often. -/
theorem C386_scale_violated {m : List SF} {held : List Nat} {a : Nat} {f : SF} (hf : m[a]? = some f) (hw : f.WF) (h2 : 2 ≤ held.count a) {s : Unum}
    (hs : 1 < s.num) {x y v : Rat} (hv : f.Reads x y (some v)) (h0 : v ≠ 0) :
    ∃ g, (scaleHeld m held none none (some s))[a]? = some g ∧ g.Reads x y (some (v * s.num ^ held.count a)) ∧ ¬ g.Reads x y (some (v * s.num)) := by
  have h := iterate_scaled none none (some s) (by simp [SF.factor]) (by simp [SF.factor]) (held.count a) hw
  have hr := (h.2 x y (some (v * s.num ^ held.count a))).2 ⟨x, y, some v, hv, by simp [SF.factor], by simp [SF.factor], by simp [SF.factor]⟩
  refine ⟨_, by rw [scaleHeld, eachHeld_get, hf, Option.map_some], hr, fun h' => ?_⟩
  have e := SF.Reads.unique h.1 hr h'
  have e' : s.num ^ held.count a = s.num := mul_left_cancel₀ h0 (Option.some.inj e)
  have := pow_lt_pow_right₀ hs (show 1 < held.count a by omega)
  rw [pow_one] at this
  linarith

/-! ### the hypotheses are met -/

example : ∃ g, (originHeld [SF.sample] [0, 0] (some 1) none)[0]? = some g ∧ ¬ MovedBy 1 0 SF.sample g := by
  obtain ⟨g, e, -, h⟩ := C386_origin_violated (m := [SF.sample]) (held := [0, 0]) (a := 0) rfl SF.sample_WF (by decide) (o := 1) (by decide)
  exact ⟨g, e, h⟩

example : ∃ f g, [SF.sample, SF.sample][1]? = some f ∧ (originHeld [SF.sample, SF.sample] [0, 1] (some 1) (some 2))[1]? = some g ∧ MovedBy 1 2 f g :=
  (C386_origin_partial (m := [SF.sample, SF.sample]) (held := [0, 1]) (by decide) (by
    intro a ha
    simp only [List.mem_cons, List.not_mem_nil, or_false] at ha
    rcases ha with rfl | rfl <;> exact ⟨_, rfl, SF.sample_WF⟩) (some 1) (some 2)).1 1 (by decide)

example : ∃ f g, [SF.sample, SF.sample][1]? = some f ∧ (scaleHeld [SF.sample, SF.sample] [0, 1] (some ⟨-2, .one⟩) none (some ⟨3, .m⟩))[1]? = some g ∧
    ScaledBy (-2) 1 3 f g :=
  (C386_scale_partial (m := [SF.sample, SF.sample]) (held := [0, 1]) (by decide) (by
    intro a ha
    simp only [List.mem_cons, List.not_mem_nil, or_false] at ha
    rcases ha with rfl | rfl <;> exact ⟨_, rfl, SF.sample_WF⟩) (some ⟨-2, .one⟩) none (some ⟨3, .m⟩) (by decide +kernel) (by decide +kernel)).1 1 (by decide)

example : (originHeld [SF.sample] [0, 0] (some 1) none).map (·.ax) = [SF.sample.ax.map (· - 2)] := by decide +kernel

end IMT.Spatial
