import Verif.Temporal.ShareModel
import Verif.Temporal.Geom

/-! C385: rotation in place of collections that share fields. -/

namespace IMT.Temporal

/-- Specification: the field is on the grid of the collection. -/
def OnGrid (t : Held) (f : SF) : Prop := f.WF ∧ f.ax = t.ax ∧ f.ay = t.ay ∧ f.ux = t.ux ∧ f.uy = t.uy

/-- Specification: `g` is `f` turned by `k` quarter turns: what is read at a point is read at the point turned. -/
def Turned (k : Int) (f g : SF) : Prop :=
  g.WF ∧ g.uv = f.uv ∧ ∀ x y r, f.Reads x y r ↔ g.Reads (SF.turn k (x, y)).1 (SF.turn k (x, y)).2 r

variable {t : Held}

theorem OnGrid.rotated (h2x : 2 ≤ t.ax.length) (h2y : 2 ≤ t.ay.length) {f : SF} (h : OnGrid t f) (k : Int) :
    ∃ g, f.rotate (90 * k % 360) = .ok g ∧ Turned k f g := by
  obtain ⟨g, e, wf, hr, uv, -⟩ := SF.C08_rotate_moves_readings h.1 (by rw [h.2.1]; exact h2x) (by rw [h.2.2.1]; exact h2y) k
  exact ⟨g, by rw [rotate_mod]; exact e, wf, uv, hr⟩

theorem frame_rotated (t : Held) (k : Int) : ∃ g, t.frame.rotate (90 * k % 360) = .ok g := by
  rw [rotate_mod]
  unfold SF.rotate
  rw [if_neg (by omega)]
  simp only
  split_ifs <;> exact ⟨_, rfl⟩

theorem rotateHeld_nodup (h2x : 2 ≤ t.ax.length) (h2y : 2 ≤ t.ay.length) (k : Int) : ∀ (l : List Nat) (m : List SF), l.Nodup →
    (∀ a ∈ l, ∃ f, m[a]? = some f ∧ OnGrid t f) →
    ∃ m', rotateHeld (90 * k % 360) m l = (m', .ok ⟨⟩) ∧
      (∀ a ∈ l, ∃ f g, m[a]? = some f ∧ m'[a]? = some g ∧ f.rotate (90 * k % 360) = .ok g ∧ Turned k f g) ∧ ∀ a, a ∉ l → m'[a]? = m[a]? := by
  intro l
  induction l with
  | nil => exact fun m _ _ => ⟨m, rfl, fun a ha => absurd ha List.not_mem_nil, fun _ _ => rfl⟩
  | cons b l ih =>
    intro m hn hw
    obtain ⟨hb, hn'⟩ := List.nodup_cons.1 hn
    obtain ⟨p, hp, hm⟩ := hw b List.mem_cons_self
    obtain ⟨q, hq, ha⟩ := hm.rotated h2x h2y k
    have hset : ∀ a ∈ l, (m.set b q)[a]? = m[a]? := fun a h => List.getElem?_set_ne (fun e : b = a => hb (e ▸ h))
    obtain ⟨m', h1, h3, h4⟩ := ih (m.set b q) hn' (fun a h => by
      obtain ⟨r, hr, hx⟩ := hw a (List.mem_cons_of_mem _ h)
      exact ⟨r, by rw [hset a h]; exact hr, hx⟩)
    refine ⟨m', ?_, ?_, ?_⟩
    · rw [rotateHeld]
      simp only [hp, hq]
      exact h1
    · intro a h
      rcases List.mem_cons.1 h with rfl | h
      · exact ⟨p, q, hp, by rw [h4 _ hb, List.getElem?_set_self (getElem?_some_lt hp)], hq, ha⟩
      · obtain ⟨p', q', e1, e2, e3⟩ := h3 a h
        exact ⟨p', q', by rw [← hset a h]; exact e1, e2, e3⟩
    · intro a h
      rw [h4 a (fun h' => h (List.mem_cons_of_mem _ h')), List.getElem?_set_ne (fun e : b = a => h (e ▸ List.mem_cons_self))]

/-- C385, for distinct fields on a grid of two columns and two rows at least: each field is turned once, it is on the grid of the collection
afterwards, the times and the other objects are left. -/
theorem C385_once_partial {m : List SF} (h2x : 2 ≤ t.ax.length) (h2y : 2 ≤ t.ay.length) (hn : t.held.Nodup)
    (hw : ∀ a ∈ t.held, ∃ f, m[a]? = some f ∧ OnGrid t f) (k : Int) :
    ∃ m' t', rotateInPlace m t (90 * k) = (m', .ok t') ∧ t'.times = t.times ∧ t'.ut = t.ut ∧ t'.held = t.held ∧
      (∀ a ∈ t.held, ∃ f g, m[a]? = some f ∧ m'[a]? = some g ∧ Turned k f g ∧ OnGrid t' g) ∧ ∀ a, a ∉ t.held → m'[a]? = m[a]? := by
  obtain ⟨p, ep⟩ := frame_rotated t k
  obtain ⟨m', h1, h2, h3⟩ := rotateHeld_nodup h2x h2y k t.held m hn hw
  refine ⟨m', { t with ax := p.ax, ay := p.ay, ux := p.ux, uy := p.uy }, ?_, rfl, rfl, rfl, ?_, h3⟩
  · unfold rotateInPlace
    rw [if_neg (by omega)]
    simp only [ep, h1]
  · intro a ha
    obtain ⟨f, g, e1, e2, e3, e4⟩ := h2 a ha
    obtain ⟨f', e1', hf⟩ := hw a ha
    rw [e1] at e1'
    cases e1'
    exact ⟨f, g, e1, e2, e4, e4.1, rotate_axes hf.2.1 hf.2.2.1 hf.2.2.2.1 hf.2.2.2.2 e3 ep⟩

/-- C385: an angle that is not a number of quarter turns is refused and nothing is changed. -/
theorem C385_refused (m : List SF) (t : Held) {angle : Int} (h : angle % 90 ≠ 0) : rotateInPlace m t angle = (m, .error .valueError) := by
  unfold rotateInPlace
  rw [if_pos h]

/-- C385 fails when the same field is held at two times: it is turned twice, and for an odd number of quarter turns of a grid that is not square it
is no more on the grid of the collection. -/
theorem C385_twice_violated {m : List SF} (h2x : 2 ≤ t.ax.length) (h2y : 2 ≤ t.ay.length) {a : Nat} (ht : t.held = [a, a]) {f : SF}
    (hf : m[a]? = some f) (hg : OnGrid t f) (k : Int) :
    ∃ m' t' g h, rotateInPlace m t (90 * k) = (m', .ok t') ∧ m'[a]? = some h ∧ Turned k f g ∧ Turned k g h ∧
      (k % 2 = 1 → t.ax.length ≠ t.ay.length → ¬ OnGrid t' h) := by
  obtain ⟨p, ep⟩ := frame_rotated t k
  obtain ⟨g, e1, w1, r1, v1, -, l1⟩ := SF.rotate_spec hg.1 (by rw [hg.2.1]; exact h2x) (by rw [hg.2.2.1]; exact h2y) k
  have hl : 2 ≤ g.ax.length ∧ 2 ≤ g.ay.length := by
    rw [hg.2.1, hg.2.2.1] at l1
    by_cases h : k % 2 = 0
    · rw [if_pos h] at l1; simp only [Prod.mk.injEq] at l1; omega
    · rw [if_neg h] at l1; simp only [Prod.mk.injEq] at l1; omega
  obtain ⟨h, e2, w2, r2, v2, -, l2⟩ := SF.rotate_spec w1 hl.1 hl.2 k
  rw [← rotate_mod] at e1 e2
  have hpx := rotate_axes hg.2.1 hg.2.2.1 hg.2.2.2.1 hg.2.2.2.2 e1 ep
  have hal := getElem?_some_lt hf
  refine ⟨(m.set a g).set a h, { t with ax := p.ax, ay := p.ay, ux := p.ux, uy := p.uy }, g, h, ?_, ?_, ⟨w1, v1, r1⟩, ⟨w2, v2, r2⟩, ?_⟩
  · have e : (m.set a g)[a]? = some g := List.getElem?_set_self hal
    unfold rotateInPlace
    rw [if_neg (by omega)]
    simp only [ep, ht, rotateHeld, hf, e1, e, e2]
  · rw [List.getElem?_set_self (by simpa using hal)]
  · intro hk hne ho
    have h1 : h.ax = p.ax := ho.2.1
    rw [if_neg (by omega), hg.2.1, hg.2.2.1] at l1
    rw [if_neg (by omega)] at l2
    simp only [Prod.mk.injEq] at l1 l2
    rw [← hpx.1] at h1
    have := congrArg List.length h1
    omega

/-! ### the hypotheses are met -/

/-- The grid of the sample field. -/
def sampleHeld (l : List Nat) : Held := ⟨SF.sample.ax, SF.sample.ay, SF.sample.ux, SF.sample.uy, [0, 1], .one, l⟩

theorem sample_on (l : List Nat) : OnGrid (sampleHeld l) SF.sample := ⟨SF.sample_WF, rfl, rfl, rfl, rfl⟩

example : ∃ m' t', rotateInPlace [SF.sample, SF.sample] (sampleHeld [0, 1]) (90 * 1) = (m', .ok t') := by
  obtain ⟨m', t', h, -⟩ := C385_once_partial (t := sampleHeld [0, 1]) (m := [SF.sample, SF.sample]) (by decide) (by decide) (by decide) (by
    intro a ha
    simp only [sampleHeld, List.mem_cons, List.not_mem_nil, or_false] at ha
    rcases ha with rfl | rfl <;> exact ⟨_, rfl, sample_on _⟩) 1
  exact ⟨m', t', h⟩

example : ∃ m' t' h, rotateInPlace [SF.sample] (sampleHeld [0, 0]) (90 * 1) = (m', .ok t') ∧ m'[0]? = some h ∧ ¬ OnGrid t' h := by
  obtain ⟨m', t', g, h, e, e', -, -, hn⟩ := C385_twice_violated (t := sampleHeld [0, 0]) (m := [SF.sample]) (by decide) (by decide) rfl rfl (sample_on _) 1
  exact ⟨m', t', h, e, e', hn (by decide) (by decide)⟩

end IMT.Temporal
