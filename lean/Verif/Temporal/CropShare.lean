import Verif.Temporal.CropShareModel
import Verif.Temporal.Share
import Verif.Temporal.Crop

/-! C388: crops in place of records that share fields. -/

namespace IMT.Temporal

/-- Specification: `g` shows what `f` shows at the points of the window, and nothing else, in the same units. -/
def Windowed (a b c d : Rat) (f g : SF) : Prop :=
  (∀ x y r, g.Reads x y r ↔ f.Reads x y r ∧ (a ≤ x ∧ x ≤ b) ∧ (c ≤ y ∧ y ≤ d)) ∧ g.ux = f.ux ∧ g.uy = f.uy ∧ g.uv = f.uv

/-- Specification: a point of the axis is in the interval. -/
def Hit (l : List Rat) (a b : Rat) : Prop := ∃ x ∈ l, a ≤ x ∧ x ≤ b

theorem cropInds_hit {l : List Rat} (h : Inc l) {a b : Rat} (hh : Hit l a b) : ∃ lo hi, Axis.cropInds l a b = .ok (lo, hi) := by
  obtain ⟨x, hx, h1, h2⟩ := hh
  have hne : l ≠ [] := List.ne_nil_of_mem hx
  have hf : l.head? = some (l.head hne) := List.head?_eq_some_head hne
  have hl : l.getLast? = some (l.getLast hne) := List.getLast?_eq_some_getLast hne
  have b1 : l.head hne ≤ x := by
    cases l with
    | nil => cases hx
    | cons y l =>
      rcases List.mem_cons.1 hx with rfl | hx
      · exact le_refl _
      · exact le_of_lt ((List.pairwise_cons.1 h).1 x hx)
  have b2 : x ≤ l.getLast hne := by
    have hd := List.dropLast_append_getLast hne
    rw [← hd] at hx h
    rcases List.mem_append.1 hx with hx | hx
    · exact le_of_lt ((List.pairwise_append.1 h).2.2 x hx _ List.mem_cons_self)
    · exact le_of_eq (List.mem_singleton.1 hx)
  obtain ⟨lo, hi, e, -⟩ := Axis.cropInds_ok h hf hl (le_trans h1 h2) (le_trans b1 h2) (le_trans h1 b2)
  exact ⟨lo, hi, e⟩

theorem crop_hit {f : SF} (hx : Inc f.ax) (hy : Inc f.ay) {a b c d : Rat} (h1 : Hit f.ax a b) (h2 : Hit f.ay c d) :
    ∃ g, f.crop (some (a, b)) (some (c, d)) = .ok g := by
  obtain ⟨x0, x1, e1⟩ := cropInds_hit hx h1
  obtain ⟨y0, y1, e2⟩ := cropInds_hit hy h2
  unfold SF.crop
  simp only [e1, e2]
  exact ⟨_, rfl⟩

theorem mem_of_reads {f : SF} {x y : Rat} {r : Option Rat} (h : f.Reads x y r) : x ∈ f.ax ∧ y ∈ f.ay := by
  obtain ⟨i, j, e1, e2, -⟩ := h
  exact ⟨List.mem_of_getElem? e1, List.mem_of_getElem? e2⟩

theorem reads_of_mem {f : SF} {x y : Rat} (hx : x ∈ f.ax) (hy : y ∈ f.ay) : ∃ r, f.Reads x y r := by
  obtain ⟨i, hi⟩ := List.mem_iff_getElem?.1 hx
  obtain ⟨j, hj⟩ := List.mem_iff_getElem?.1 hy
  exact ⟨_, i, j, hi, hj, rfl⟩

theorem crop_step {f : SF} (hf : f.WF) {a b c d : Rat} (h1 : Hit f.ax a b) (h2 : Hit f.ay c d) :
    ∃ g, f.crop (some (a, b)) (some (c, d)) = .ok g ∧ g.WF ∧ Hit g.ax a b ∧ Hit g.ay c d ∧ Windowed a b c d f g := by
  obtain ⟨g, e⟩ := crop_hit hf.incx hf.incy h1 h2
  have hw := SF.C06_crop_keeps_readings hf e
  obtain ⟨x, hx, hx'⟩ := h1
  obtain ⟨y, hy, hy'⟩ := h2
  obtain ⟨r, hr⟩ := reads_of_mem hx hy
  have hm := mem_of_reads ((hw.1 x y r).2 ⟨hr, hx', hy'⟩)
  exact ⟨g, e, SF.C06_crop_consistent hf e ⟨x, hx, hx'⟩ ⟨y, hy, hy'⟩, ⟨x, hm.1, hx'⟩, ⟨y, hm.2, hy'⟩, hw⟩

theorem Windowed.trans {a b c d : Rat} {f g h : SF} (h1 : Windowed a b c d f g) (h2 : Windowed a b c d g h) : Windowed a b c d f h := by
  refine ⟨fun x y r => ?_, h2.2.1.trans h1.2.1, h2.2.2.1.trans h1.2.2.1, h2.2.2.2.trans h1.2.2.2⟩
  rw [h2.1, h1.1]
  tauto

/-- What a loop in place does, whatever the sharing, when its step always succeeds. -/
theorem loopHeld_inv {step : SF → Res SF} {P Q : SF → Prop} {R : SF → SF → Prop} (hR : ∀ f, R f f) (hT : ∀ f g h, R f g → R g h → R f h)
    (hs : ∀ f, P f → ∃ g, step f = .ok g ∧ P g ∧ Q g ∧ R f g) : ∀ (l : List Nat) (m : List SF), (∀ a ∈ l, ∃ f, m[a]? = some f ∧ P f) →
    ∃ m', loopHeld step m l = (m', .ok ⟨⟩) ∧
      (∀ (a : Nat) (f : SF), m[a]? = some f → P f → ∃ g, m'[a]? = some g ∧ P g ∧ R f g ∧ (Q f → Q g) ∧ (a ∈ l → Q g)) ∧
      ∀ a, a ∉ l → m'[a]? = m[a]? := by
  intro l
  induction l with
  | nil => exact fun m _ => ⟨m, rfl, fun a f h p => ⟨f, h, p, hR f, id, fun h => absurd h List.not_mem_nil⟩, fun _ _ => rfl⟩
  | cons b l ih =>
    intro m hw
    obtain ⟨p, hp, hP⟩ := hw b List.mem_cons_self
    obtain ⟨q, hc, hq, hQ, hRpq⟩ := hs p hP
    rw [loopHeld]
    simp only [hp, hc]
    have hb : (m.set b q)[b]? = some q := List.getElem?_set_self (getElem?_some_lt hp)
    have hne : ∀ {a : Nat}, b ≠ a → (m.set b q)[a]? = m[a]? := fun h => List.getElem?_set_ne h
    obtain ⟨m', e, h1, h2⟩ := ih (m.set b q) (fun a ha => by
      by_cases h : b = a
      · subst h; exact ⟨q, hb, hq⟩
      · rw [hne h]; exact hw a (List.mem_cons_of_mem _ ha))
    refine ⟨m', e, ?_, ?_⟩
    · intro a f hf hPf
      by_cases h : b = a
      · subst h
        rw [hp] at hf
        cases hf
        obtain ⟨g, e1, e2, e3, e4, e5⟩ := h1 b q hb hq
        exact ⟨g, e1, e2, hT _ _ _ hRpq e3, fun _ => e4 hQ, fun _ => e4 hQ⟩
      · obtain ⟨g, e1, e2, e3, e4, e5⟩ := h1 a f (by rw [hne h]; exact hf) hPf
        exact ⟨g, e1, e2, e3, e4, fun ha => e5 ((List.mem_cons.1 ha).resolve_left (fun h' => h h'.symm))⟩
    · intro a ha
      rw [h2 a (fun h' => ha (List.mem_cons_of_mem _ h')), hne (fun h' : b = a => ha (h' ▸ List.mem_cons_self))]

theorem mem_slice_iff {l : List Rat} {lo hi : Nat} {x : Rat} : x ∈ slice l lo hi ↔ ∃ i, lo ≤ i ∧ i < hi ∧ l[i]? = some x := by
  rw [List.mem_iff_getElem?]
  constructor
  · rintro ⟨k, hk⟩
    rw [slice_getElem?] at hk
    split at hk
    · exact ⟨lo + k, by omega, by omega, hk⟩
    · cases hk
  · rintro ⟨i, h1, h2, h3⟩
    refine ⟨i - lo, ?_⟩
    rw [slice_getElem?, if_pos (by omega), show lo + (i - lo) = i by omega]
    exact h3

/-- C388, for a window given by coordinates that holds a column and a row, whatever the sharing: every field shows what it showed in the window and
nothing else, the fields are on the grid of the record, the times and the other objects are left. -/
theorem C388_window_partial {m : List SF} {t : Held} (hw : ∀ a ∈ t.held, ∃ f, m[a]? = some f ∧ OnGrid t f) (hx : Inc t.ax) (hy : Inc t.ay) {a b c d : Rat}
    (h1 : Hit t.ax a b) (h2 : Hit t.ay c d) :
    ∃ m' t', cropHeld m t (some (a, b)) (some (c, d)) = (m', t', .ok ⟨⟩) ∧ t'.held = t.held ∧ t'.times = t.times ∧ t'.ut = t.ut ∧
      (∀ x, x ∈ t'.ax ↔ x ∈ t.ax ∧ a ≤ x ∧ x ≤ b) ∧ (∀ y, y ∈ t'.ay ↔ y ∈ t.ay ∧ c ≤ y ∧ y ≤ d) ∧
      (∀ k ∈ t.held, ∃ f g, m[k]? = some f ∧ m'[k]? = some g ∧ Windowed a b c d f g ∧ OnGrid t' g) ∧ ∀ k, k ∉ t.held → m'[k]? = m[k]? := by
  obtain ⟨p, ep⟩ := crop_hit (f := t.frame) hx hy h1 h2
  obtain ⟨x0, x1, y0, y1, hp, hall, hix, hiy⟩ := crop_cut ep
  have hpx : p.ax = slice t.ax x0 (x1 + 1) := by rw [hp]; rfl
  have hpy : p.ay = slice t.ay y0 (y1 + 1) := by rw [hp]; rfl
  let t' : Held := { t with ax := p.ax, ay := p.ay }
  obtain ⟨m', e, k1, k2⟩ := loopHeld_inv (step := fun f => f.crop (some (a, b)) (some (c, d)))
    (P := fun f => f.WF ∧ Hit f.ax a b ∧ Hit f.ay c d ∧ (OnGrid t f ∨ (OnGrid t' f ∧ ∀ x y r, f.Reads x y r → (a ≤ x ∧ x ≤ b) ∧ (c ≤ y ∧ y ≤ d))))
    (Q := fun g => OnGrid t' g ∧ ∀ x y r, g.Reads x y r → (a ≤ x ∧ x ≤ b) ∧ (c ≤ y ∧ y ≤ d))
    (R := fun f g => f = g ∨ Windowed a b c d f g) (fun f => .inl rfl) (by
      rintro f g h (rfl | r1) (rfl | r2)
      · exact .inl rfl
      · exact .inr r2
      · exact .inr r1
      · exact .inr (r1.trans r2)) (by
      rintro f ⟨q1, q2, q3, q4⟩
      obtain ⟨g, eg, w, g1, g2, hwin⟩ := crop_step q1 q2 q3
      have hin : ∀ x y r, g.Reads x y r → (a ≤ x ∧ x ≤ b) ∧ (c ≤ y ∧ y ≤ d) := fun x y r h => ((hwin.1 x y r).1 h).2
      have hon : OnGrid t' g := by
        rcases q4 with q4 | ⟨q4, q5⟩
        · have := hall f q4.2.1 q4.2.2.1
          rw [eg] at this
          cases this
          exact ⟨w, by show slice f.ax x0 (x1 + 1) = p.ax; rw [hpx, q4.2.1], by show slice f.ay y0 (y1 + 1) = p.ay; rw [hpy, q4.2.2.1],
            hwin.2.1.trans q4.2.2.2.1, hwin.2.2.1.trans q4.2.2.2.2⟩
        · have he : g.Equal f := SF.ext_of_reads w q1 (fun x y r => by
            rw [hwin.1]
            exact ⟨fun h => h.1, fun h => ⟨h, q5 x y r h⟩⟩) hwin.2.1 hwin.2.2.1 hwin.2.2.2
          exact ⟨w, he.ax.trans q4.2.1, he.ay.trans q4.2.2.1, he.ux.trans q4.2.2.2.1, he.uy.trans q4.2.2.2.2⟩
      exact ⟨g, eg, ⟨w, g1, g2, .inr ⟨hon, hin⟩⟩, ⟨hon, hin⟩, .inr hwin⟩) t.held m (fun k hk => by
      obtain ⟨f, ef, o⟩ := hw k hk
      exact ⟨f, ef, o.1, by rw [o.2.1]; exact h1, by rw [o.2.2.1]; exact h2, .inl o⟩)
  refine ⟨m', t', ?_, rfl, rfl, rfl, ?_, ?_, ?_, k2⟩
  · unfold cropHeld cropAll
    simp only [ep, e, t']
  · intro x
    show x ∈ p.ax ↔ _
    rw [hpx, mem_slice_iff]
    constructor
    · rintro ⟨i, hi, hi', hg⟩
      exact ⟨List.mem_of_getElem? hg, (hix hx i x hg).1 ⟨hi, hi'⟩⟩
    · rintro ⟨hm, hin⟩
      obtain ⟨i, hi⟩ := List.mem_iff_getElem?.1 hm
      have := (hix hx i x hi).2 hin
      exact ⟨i, this.1, this.2, hi⟩
  · intro y
    show y ∈ p.ay ↔ _
    rw [hpy, mem_slice_iff]
    constructor
    · rintro ⟨i, hi, hi', hg⟩
      exact ⟨List.mem_of_getElem? hg, (hiy hy i y hg).1 ⟨hi, hi'⟩⟩
    · rintro ⟨hm, hin⟩
      obtain ⟨i, hi⟩ := List.mem_iff_getElem?.1 hm
      have := (hiy hy i y hi).2 hin
      exact ⟨i, this.1, this.2, hi⟩
  · intro k hk
    obtain ⟨f, ef, o⟩ := hw k hk
    obtain ⟨g, eg, -, r, -, q⟩ := k1 k f ef ⟨o.1, by rw [o.2.1]; exact h1, by rw [o.2.2.1]; exact h2, .inl o⟩
    refine ⟨f, g, ef, eg, ?_, (q hk).1⟩
    rcases r with rfl | r
    · exact ⟨fun x y r => ⟨fun h => ⟨h, (q hk).2 x y r h⟩, fun h => h.1⟩, rfl, rfl, rfl⟩
    · exact r

theorem loopHeld_nodup {step : SF → Res SF} : ∀ (l : List Nat) (m : List SF), l.Nodup → (∀ a ∈ l, ∃ f g, m[a]? = some f ∧ step f = .ok g) →
    ∃ m', loopHeld step m l = (m', .ok ⟨⟩) ∧ (∀ a ∈ l, ∃ f g, m[a]? = some f ∧ step f = .ok g ∧ m'[a]? = some g) ∧ ∀ a, a ∉ l → m'[a]? = m[a]? := by
  intro l
  induction l with
  | nil => exact fun m _ _ => ⟨m, rfl, fun a ha => absurd ha List.not_mem_nil, fun _ _ => rfl⟩
  | cons b l ih =>
    intro m hn hw
    obtain ⟨hb, hn'⟩ := List.nodup_cons.1 hn
    obtain ⟨p, q, hp, hq⟩ := hw b List.mem_cons_self
    have hset : ∀ a ∈ l, (m.set b q)[a]? = m[a]? := fun a h => List.getElem?_set_ne (fun e : b = a => hb (e ▸ h))
    obtain ⟨m', h1, h3, h4⟩ := ih (m.set b q) hn' (fun a h => by
      obtain ⟨r, s, hr, hx⟩ := hw a (List.mem_cons_of_mem _ h)
      exact ⟨r, s, by rw [hset a h]; exact hr, hx⟩)
    refine ⟨m', ?_, ?_, ?_⟩
    · rw [loopHeld]
      simp only [hp, hq]
      exact h1
    · intro a h
      rcases List.mem_cons.1 h with rfl | h
      · exact ⟨p, q, hp, hq, by rw [h4 _ hb, List.getElem?_set_self (getElem?_some_lt hp)]⟩
      · obtain ⟨p', q', e1, e2, e3⟩ := h3 a h
        exact ⟨p', q', by rw [← hset a h]; exact e1, e2, e3⟩
    · intro a h
      rw [h4 a (fun h' => h (List.mem_cons_of_mem _ h')), List.getElem?_set_ne (fun e : b = a => h (e ▸ List.mem_cons_self))]

/-- C388, for a window given by indices and distinct fields: every field keeps the columns `a` to `b` and the rows `c` to `d`, the fields have the axes of
the record, the times and the other objects are left. -/
theorem C388_indices_partial {m : List SF} {t : Held} (hn : t.held.Nodup) (hw : ∀ k ∈ t.held, ∃ f, m[k]? = some f ∧ OnGrid t f) {a b c d : Int}
    (ha : 0 ≤ a) (hab : a ≤ b) (hb : b ≠ 0) (hc : 0 ≤ c) (hcd : c ≤ d) (hd : d ≠ 0) :
    ∃ m' t', cropIndHeld m t (some (a, b)) (some (c, d)) = (m', t', .ok ⟨⟩) ∧ t'.held = t.held ∧ t'.times = t.times ∧ t'.ut = t.ut ∧ t'.ux = t.ux ∧
      t'.uy = t.uy ∧ (∀ i : Nat, t'.ax[i]? = if a + i ≤ b then t.ax[a.toNat + i]? else none) ∧
      (∀ j : Nat, t'.ay[j]? = if c + j ≤ d then t.ay[c.toNat + j]? else none) ∧
      (∀ k ∈ t.held, ∃ f g, m[k]? = some f ∧ m'[k]? = some g ∧ g.ax = t'.ax ∧ g.ay = t'.ay ∧ g.ux = t'.ux ∧ g.uy = t'.uy ∧ g.uv = f.uv ∧
        ∀ i j : Nat, g.cell i j = f.cell (a.toNat + i) (c.toNat + j)) ∧
      ∀ k, k ∉ t.held → m'[k]? = m[k]? := by
  obtain ⟨p, ep, px, py, -⟩ := SF.C06_cropInd_keeps_readings (f := t.frame) ha hab hb hc hcd hd
  obtain ⟨m', e, h1, h2⟩ := loopHeld_nodup (step := fun f => f.cropInd (some (a, b)) (some (c, d))) t.held m hn (fun k hk => by
    obtain ⟨f, hf, -⟩ := hw k hk
    obtain ⟨g, eg, -⟩ := SF.C06_cropInd_keeps_readings (f := f) ha hab hb hc hcd hd
    exact ⟨f, g, hf, eg⟩)
  refine ⟨m', { t with ax := p.ax, ay := p.ay }, ?_, rfl, rfl, rfl, rfl, rfl, px, py, ?_, h2⟩
  · unfold cropIndHeld cropAll
    simp only [ep, e]
  · intro k hk
    obtain ⟨f, g, e1, e2, e3⟩ := h1 k hk
    obtain ⟨f', e1', o⟩ := hw k hk
    rw [e1] at e1'
    cases e1'
    obtain ⟨g', eg, gx, gy, gc, u1, u2, u3⟩ := SF.C06_cropInd_keeps_readings (f := f) ha hab hb hc hcd hd
    rw [e2] at eg
    cases eg
    refine ⟨f, g, e1, e3, ?_, ?_, u1.trans o.2.2.2.1, u2.trans o.2.2.2.2, u3, gc⟩
    · apply List.ext_getElem?
      intro i
      rw [gx, px, o.2.1]
      rfl
    · apply List.ext_getElem?
      intro i
      rw [gy, py, o.2.2.1]
      rfl

/-- C388 fails for a window given by indices when a field is held twice: it is cut twice, and no more on the grid of the record. -/
theorem C388_indices_violated {m : List SF} {t : Held} {k : Nat} (ht : t.held = [k, k]) {f : SF} (hf : m[k]? = some f) (ho : OnGrid t f) {a b c d : Int}
    (ha : 0 < a) (hab : a ≤ b) (hb : b < t.ax.length) (hc : 0 ≤ c) (hcd : c ≤ d) (hd : d ≠ 0) :
    ∃ m' t' h, cropIndHeld m t (some (a, b)) (some (c, d)) = (m', t', .ok ⟨⟩) ∧ t'.ax[0]? = t.ax[a.toNat]? ∧ m'[k]? = some h ∧ h.ax ≠ t'.ax := by
  obtain ⟨p, ep, px, -⟩ := SF.C06_cropInd_keeps_readings (f := t.frame) (le_of_lt ha) hab (by omega) hc hcd hd
  obtain ⟨g, eg, gx, -⟩ := SF.C06_cropInd_keeps_readings (f := f) (le_of_lt ha) hab (by omega) hc hcd hd
  obtain ⟨h, eh, hx, -⟩ := SF.C06_cropInd_keeps_readings (f := g) (le_of_lt ha) hab (by omega) hc hcd hd
  have hal := getElem?_some_lt hf
  have hset : (m.set k g)[k]? = some g := List.getElem?_set_self hal
  have hp0 : p.ax[0]? = t.ax[a.toNat]? := by
    rw [px 0, if_pos (by omega)]
    rfl
  refine ⟨(m.set k g).set k h, { t with ax := p.ax, ay := p.ay }, h, ?_, hp0, ?_, ?_⟩
  · unfold cropIndHeld cropAll
    simp only [ep, ht, loopHeld, hf, eg, hset, eh]
  · rw [List.getElem?_set_self (by simpa using hal)]
  · intro e
    have e : h.ax = p.ax := e
    have h0 : h.ax[0]? = t.ax[a.toNat]? := by rw [e, hp0]
    have hlt : a.toNat < t.ax.length := by omega
    rw [hx 0, if_pos (by omega), Nat.add_zero, gx, ho.2.1, List.getElem?_eq_getElem hlt] at h0
    split at h0
    · have hi := ho.1.incx
      rw [ho.2.1] at hi
      have := Inc.idx_inj hi h0 (List.getElem?_eq_getElem hlt)
      omega
    · cases h0

/-! ### the hypotheses are met -/

example : ∃ m' t', cropHeld [SF.sample] (sampleHeld [0, 0]) (some (0, 1)) (some (SF.sample.ay.headD 0, SF.sample.ay.headD 0)) = (m', t', .ok ⟨⟩) := by
  obtain ⟨m', t', e, -⟩ := C388_window_partial (m := [SF.sample]) (t := sampleHeld [0, 0]) (a := 0) (b := 1) (c := SF.sample.ay.headD 0) (d := SF.sample.ay.headD 0)
    (fun a ha => ⟨SF.sample, by
      simp only [sampleHeld, List.mem_cons, List.not_mem_nil, or_false, or_self] at ha
      rw [ha]; rfl, sample_on _⟩) SF.sample_WF.incx SF.sample_WF.incy (by unfold Hit; decide +kernel) (by unfold Hit; decide +kernel)
  exact ⟨m', t', e⟩

example : ∃ m' t' h, cropIndHeld [SF.sample] (sampleHeld [0, 0]) (some (1, 2)) (some (0, 1)) = (m', t', .ok ⟨⟩) ∧ t'.ax[0]? = some 1 ∧ m'[0]? = some h ∧
    h.ax ≠ t'.ax := by
  obtain ⟨m', t', h, e, e0, e1, e2⟩ := C388_indices_violated (m := [SF.sample]) (t := sampleHeld [0, 0]) rfl rfl (sample_on _) (a := 1) (b := 2) (c := 0) (d := 1)
    (by decide) (by decide) (by decide) (by decide) (by decide) (by decide)
  exact ⟨m', t', h, e, by rw [e0]; decide +kernel, e1, e2⟩

example : ∃ m' t', cropIndHeld [SF.sample, SF.sample] (sampleHeld [0, 1]) (some (1, 2)) (some (0, 1)) = (m', t', .ok ⟨⟩) := by
  obtain ⟨m', t', e, -⟩ := C388_indices_partial (m := [SF.sample, SF.sample]) (t := sampleHeld [0, 1]) (a := 1) (b := 2) (c := 0) (d := 1) (by decide)
    (fun a ha => ⟨SF.sample, by
      simp only [sampleHeld, List.mem_cons, List.not_mem_nil, or_false] at ha
      rcases ha with rfl | rfl <;> rfl, sample_on _⟩) (by decide) (by decide) (by decide) (by decide) (by decide) (by decide)
  exact ⟨m', t', e⟩

end IMT.Temporal
