import Verif.Spatial.Model
import Verif.Scalar.Geom
import Verif.Scalar.Border
import Verif.Scalar.Value

/-! Properties C49, C104 and C105: collections of fields at different positions. -/

namespace IMT.Spatial

/-! ### C105: what a collection shows -/

/-- Reading of a field in SI units. -/
def Phys (f : SF) (X Y : Rat) (V : Option Rat) : Prop :=
  ∃ x y r, f.Reads x y r ∧ X = x * f.ux.size ∧ Y = y * f.uy.size ∧ V = r.map (· * f.uv.size)

/-- Positive sizes of the units of a field. -/
def PosUnits (f : SF) : Prop := 0 < f.ux.size ∧ 0 < f.uy.size ∧ 0 < f.uv.size

theorem phys_change {f g : SF} (hf : f.WF) (hu : PosUnits f) {w : SF.Which} {new : Sym} (hn : 0 < new.size)
    (h : f.changeUnit w new = .ok g) : g.WF ∧ PosUnits g ∧ ∀ X Y V, Phys g X Y V ↔ Phys f X Y V := by
  obtain ⟨h1, h2, -, h4, h5, h6⟩ := SF.C13_changeUnit_physical hf hu.1 hu.2.1 hu.2.2 hn h
  refine ⟨h1, ⟨h4, h5, h6⟩, ?_⟩
  intro X Y V
  constructor
  · rintro ⟨x', y', r', hr, rfl, rfl, rfl⟩
    obtain ⟨x, y, r, hr', e1, e2, e3⟩ := (h2 x' y' r').mp hr
    exact ⟨x, y, r, hr', e1, e2, e3⟩
  · rintro ⟨x, y, r, hr, rfl, rfl, rfl⟩
    have hx : (x * f.ux.size / g.ux.size) * g.ux.size = x * f.ux.size := div_mul_cancel₀ _ h4.ne'
    have hy : (y * f.uy.size / g.uy.size) * g.uy.size = y * f.uy.size := div_mul_cancel₀ _ h5.ne'
    have hv : (r.map (· * f.uv.size / g.uv.size)).map (· * g.uv.size) = r.map (· * f.uv.size) := by
      rw [Option.map_map]
      congr 1
      funext v
      exact div_mul_cancel₀ _ h6.ne'
    refine ⟨_, _, r.map (· * f.uv.size / g.uv.size), (h2 _ _ _).mpr ⟨x, y, r, hr, hx, hy, hv⟩, hx.symm, hy.symm, hv.symm⟩

theorem convert_spec {s : SP} {f g : SF} (hf : f.WF) (hu : PosUnits f) (hs : 0 < s.ux.size ∧ 0 < s.uy.size ∧ 0 < s.uv.size)
    (h : convert s f = (g, .ok ⟨⟩)) :
    g.WF ∧ PosUnits g ∧ g.ux = s.ux ∧ g.uy = s.uy ∧ g.uv = s.uv ∧ ∀ X Y V, Phys g X Y V ↔ Phys f X Y V := by
  unfold convert at h
  cases h1 : f.changeUnit .x s.ux with
  | error e => rw [h1] at h; simp at h
  | ok f1 =>
    rw [h1] at h
    simp only at h
    cases h2 : f1.changeUnit .y s.uy with
    | error e => rw [h2] at h; simp at h
    | ok f2 =>
      rw [h2] at h
      simp only at h
      cases h3 : f2.changeUnit .values s.uv with
      | error e => rw [h3] at h; simp at h
      | ok f3 =>
        rw [h3] at h
        cases h
        obtain ⟨w1, u1, p1⟩ := phys_change hf hu hs.1 h1
        obtain ⟨w2, u2, p2⟩ := phys_change w1 u1 hs.2.1 h2
        obtain ⟨w3, u3, p3⟩ := phys_change w2 u2 hs.2.2 h3
        have a := (SF.C13_changeUnit_physical hf hu.1 hu.2.1 hu.2.2 hs.1 h1).2.2.1
        have b := (SF.C13_changeUnit_physical w1 u1.1 u1.2.1 u1.2.2 hs.2.1 h2).2.2.1
        have c := (SF.C13_changeUnit_physical w2 u2.1 u2.2.1 u2.2.2 hs.2.2 h3).2.2.1
        simp only at a b c
        refine ⟨w3, u3, ?_, ?_, c.2.2, fun X Y V => (p3 X Y V).trans ((p2 X Y V).trans (p1 X Y V))⟩
        · rw [c.1, b.1, a.1]
        · rw [c.2.1, b.2.1]

/-- Cropping the masked border: a sub-rectangle with every valid reading. -/
theorem border_spec {f g : SF} (hf : f.WF) (h : border f = (g, .ok ⟨⟩)) :
    SF.SubRect g f ∧ ∀ x y v, f.Reads x y (some v) → g.Reads x y (some v) := by
  unfold border at h
  cases hc : f.cropMaskedSoft with
  | error e => rw [hc] at h; simp at h
  | ok o =>
    rw [hc] at h
    cases o with
    | none =>
      cases h
      refine ⟨⟨List.infix_rfl, List.infix_rfl, ?_, rfl, rfl, rfl⟩, fun _ _ _ h => h⟩
      intro x y r
      constructor
      · intro hr
        obtain ⟨i, j, hi, hj, -⟩ := id hr
        exact ⟨hr, List.mem_of_getElem? hi, List.mem_of_getElem? hj⟩
      · exact fun h => h.1
    | some k =>
      cases h
      obtain ⟨a, b, -, -⟩ := SF.C19_soft_bounding_box hf hc
      exact ⟨a, b⟩

/-- C105: an accepted field is appended to the others, which stay as they are; in the units of the collection it shows
every valid value of the given field at its physical position, and shows nothing that the field did not show. -/
theorem C105_add {s s' : SP} {f f' : SF} (hf : f.WF) (hu : PosUnits f) (hs : 0 < s.ux.size ∧ 0 < s.uy.size ∧ 0 < s.uv.size)
    (h : addField s f = (s', f', .ok ⟨⟩)) :
    ∃ g, s'.fields = s.fields ++ [g] ∧ g.ux = s'.ux ∧ g.uy = s'.uy ∧ g.uv = s'.uv ∧
      (s.fields ≠ [] → s'.ux = s.ux ∧ s'.uy = s.uy ∧ s'.uv = s.uv) ∧
      (∀ X Y v, Phys f X Y (some v) → Phys g X Y (some v)) ∧ (∀ X Y V, Phys g X Y V → Phys f X Y V) := by
  unfold addField at h
  cases hi : inUnits s f with
  | mk f1 r1 =>
    rw [hi] at h
    cases r1 with
    | error e => simp at h
    | ok _ =>
      simp only at h
      cases hb : border f1 with
      | mk f2 r2 =>
        rw [hb] at h
        cases r2 with
        | error e => simp at h
        | ok _ =>
          simp only [Prod.mk.injEq, and_true] at h
          obtain ⟨rfl, rfl⟩ := h
          have key : f1.WF ∧ f1.ux = (adopt s f).ux ∧ f1.uy = (adopt s f).uy ∧ f1.uv = (adopt s f).uv ∧
              ∀ X Y V, Phys f1 X Y V ↔ Phys f X Y V := by
            unfold inUnits at hi
            unfold adopt
            by_cases h0 : s.fields.length = 0
            · rw [if_pos h0] at hi
              cases hi
              rw [if_pos h0]
              exact ⟨hf, rfl, rfl, rfl, fun _ _ _ => Iff.rfl⟩
            · rw [if_neg h0] at hi
              rw [if_neg h0]
              obtain ⟨w, -, e1, e2, e3, p⟩ := convert_spec hf hu hs hi
              exact ⟨w, e1, e2, e3, p⟩
          obtain ⟨w, e1, e2, e3, p⟩ := key
          obtain ⟨⟨-, -, hr, k1, k2, k3⟩, hv⟩ := border_spec w hb
          refine ⟨f2, rfl, k1.trans e1, k2.trans e2, k3.trans e3, ?_, ?_, ?_⟩
          · intro hne
            have h0 : ¬ s.fields.length = 0 := fun e => hne (List.length_eq_zero_iff.mp e)
            simp only [adopt, if_neg h0, and_self]
          · intro X Y v hX
            obtain ⟨x, y, r, hrd, rfl, rfl, hV⟩ := (p X Y (some v)).mpr hX
            cases r with
            | none => cases hV
            | some c => exact ⟨x, y, some c, hv x y c hrd, by rw [k1], by rw [k2], by rw [k3]; exact hV⟩
          · rintro X Y V ⟨x, y, r, hrd, rfl, rfl, rfl⟩
            refine (p _ _ _).mp ⟨x, y, r, ((hr x y r).mp hrd).1, by rw [k1], by rw [k2], by rw [k3]⟩

/-- C105: a field with a unit of another dimension is refused, and the collection stays as it is. -/
theorem C105_refused {s : SP} {f : SF} (h0 : s.fields ≠ [])
    (h : ¬ f.ux.Compat s.ux ∨ ¬ f.uy.Compat s.uy ∨ ¬ f.uv.Compat s.uv) :
    (addField s f).1 = s ∧ (addField s f).2.2 = .error .valueError := by
  have hl : ¬ s.fields.length = 0 := fun e => h0 (List.length_eq_zero_iff.mp e)
  have hc : ∃ g, convert s f = (g, .error .valueError) := by
    unfold convert
    cases h1 : f.changeUnit .x s.ux with
    | error e => exact ⟨_, rfl⟩
    | ok f1 =>
      simp only
      cases h2 : f1.changeUnit .y s.uy with
      | error e => exact ⟨_, rfl⟩
      | ok f2 =>
        simp only
        cases h3 : f2.changeUnit .values s.uv with
        | error e => exact ⟨_, rfl⟩
        | ok f3 =>
          exfalso
          have c1 : f.ux.Compat s.ux ∧ f1.uy = f.uy ∧ f1.uv = f.uv := by
            unfold SF.changeUnit Unum.asUnit at h1
            simp only at h1
            split at h1
            · rename_i c; cases h1; exact ⟨c, rfl, rfl⟩
            · cases h1
          have c2 : f1.uy.Compat s.uy ∧ f2.uv = f1.uv := by
            unfold SF.changeUnit Unum.asUnit at h2
            simp only at h2
            split at h2
            · rename_i c; cases h2; exact ⟨c, rfl⟩
            · cases h2
          have c3 : f2.uv.Compat s.uv := by
            unfold SF.changeUnit Unum.asUnit at h3
            simp only at h3
            split at h3
            · rename_i c; exact c
            · cases h3
          rw [c1.2.1] at c2
          rw [c2.2, c1.2.2] at c3
          rcases h with h | h | h
          · exact h c1.1
          · exact h c2.1
          · exact h c3
  obtain ⟨g, hg⟩ := hc
  unfold addField inUnits
  rw [if_neg hl, hg]
  refine ⟨?_, rfl⟩
  unfold adopt
  rw [if_neg hl]

/-! ### C49 -/

/-- C49, for a field without any masked point that is the first of its collection: the caller's field is untouched.
Missing: other units (`C49_units_violated`), masked borders (`C49_border_violated`). -/
theorem C49_first_partial {s : SP} {f : SF} (hf : f.WF) (h0 : s.fields = []) (hm : ∀ x y, ¬ f.Reads x y none) :
    (addField s f).2.1 = f ∧ (addField s f).2.2 = .ok ⟨⟩ := by
  have hb : border f = (f, .ok ⟨⟩) := by
    unfold border
    have : f.cropMaskedSoft = .ok none := by
      unfold SF.cropMaskedSoft
      rw [if_pos]
      by_contra hmm
      have hmm : f.anyMasked = true := by simpa using hmm
      obtain ⟨i, j, hi, hj, hmij⟩ := (SF.anyMasked_iff f).mp hmm
      rw [hf.mx] at hi
      rw [hf.my] at hj
      refine hm f.ax[i] f.ay[j] ⟨i, j, List.getElem?_eq_getElem hi, List.getElem?_eq_getElem hj, ?_⟩
      unfold SF.cell; rw [if_pos hmij]
    rw [this]
  unfold addField inUnits
  rw [h0]
  simp only [List.length_nil, if_true]
  rw [hb]
  exact ⟨rfl, rfl⟩

/-- C49 fails for every accepted field that is not in the units of the collection: the caller's object is rewritten in the
units of the collection. -/
theorem C49_units_violated {s s' : SP} {f f' : SF} (hf : f.WF) (hu : PosUnits f)
    (hs : 0 < s.ux.size ∧ 0 < s.uy.size ∧ 0 < s.uv.size) (h0 : s.fields ≠ []) (h : addField s f = (s', f', .ok ⟨⟩)) :
    f'.ux = s.ux ∧ f'.uy = s.uy ∧ f'.uv = s.uv ∧ (f.ux ≠ s.ux → f' ≠ f) := by
  obtain ⟨g, e1, e2, e3, e4, e5, -, -⟩ := C105_add hf hu hs h
  obtain ⟨k1, k2, k3⟩ := e5 h0
  have hg : g = f' := by
    unfold addField at h
    cases hi : inUnits s f with
    | mk f1 r1 =>
      rw [hi] at h
      cases r1 with
      | error e => simp at h
      | ok _ =>
        simp only at h
        cases hb : border f1 with
        | mk f2 r2 =>
          rw [hb] at h
          cases r2 with
          | error e => simp at h
          | ok _ =>
            simp only [Prod.mk.injEq, and_true] at h
            obtain ⟨rfl, rfl⟩ := h
            simpa using e1.symm
  subst hg
  refine ⟨e2.trans k1, e3.trans k2, e4.trans k3, fun hne e => hne ?_⟩
  rw [← e, e2, k1]

/-- C49 fails for every accepted field with a fully masked first row: the caller's object loses it. -/
theorem C49_border_violated {s s' : SP} {f f' : SF} (hf : f.WF) (hs : s.fields = [])
    {x0 : Rat} (hx : f.ax.head? = some x0) (hm : ∀ y r, f.Reads x0 y r → r = none)
    (h : addField s f = (s', f', .ok ⟨⟩)) : x0 ∉ f'.ax ∧ x0 ∈ f.ax := by
  unfold addField inUnits at h
  rw [hs] at h
  simp only [List.length_nil, if_true] at h
  have hmem : x0 ∈ f.ax := List.mem_of_head? hx
  refine ⟨?_, hmem⟩
  cases hb : border f with
  | mk f2 r2 =>
    rw [hb] at h
    cases r2 with
    | error e => simp at h
    | ok _ =>
      simp only [Prod.mk.injEq, and_true] at h
      obtain ⟨-, rfl⟩ := h
      unfold border at hb
      have i0 : f.ax[0]? = some x0 := by rw [← List.head?_eq_getElem?]; exact hx
      obtain ⟨y0, hy0⟩ : ∃ y, f.ay[0]? = some y := by
        have := List.length_pos_iff.mpr hf.ney
        exact ⟨_, List.getElem?_eq_getElem this⟩
      have hc0 : f.cell 0 0 = none := hm y0 _ ⟨0, 0, i0, hy0, rfl⟩
      cases hc : f.cropMaskedSoft with
      | error e => rw [hc] at hb; simp at hb
      | ok o =>
        rw [hc] at hb
        cases o with
        | none =>
          exfalso
          unfold SF.cropMaskedSoft at hc
          by_cases hmm : f.anyMasked = false
          · exact SF.no_mask_reads hf.loose hmm x0 y0 ⟨0, 0, i0, hy0, hc0⟩
          · rw [if_neg hmm] at hc
            cases hsc : f.softCrop with
            | error e => rw [hsc] at hc; cases hc
            | ok k => rw [hsc] at hc; cases hc
        | some k =>
          cases hb
          obtain ⟨⟨hinf, -, hr, -⟩, -, hbx, -⟩ := SF.C19_soft_bounding_box hf hc
          intro hin
          -- the first element of the result is then `x0`
          obtain ⟨i, hi⟩ := List.getElem?_of_mem hin
          obtain ⟨pre, suf, hpq⟩ := hinf
          have hhead : f2.ax.head? = some x0 := by
            cases hk : f2.ax with
            | nil => rw [hk] at hin; simp at hin
            | cons c l =>
              rw [hk] at hin hpq
              rcases List.mem_cons.mp hin with e | e
              · rw [e]; rfl
              · exfalso
                have hinc := hf.incx
                unfold Inc at hinc
                rw [← hpq] at hinc i0
                have hlt : c < x0 := by
                  have := (List.pairwise_append.mp (List.pairwise_append.mp hinc).1).2.1
                  exact (List.pairwise_cons.mp this).1 x0 e
                cases pre with
                | nil =>
                  simp at i0
                  rw [i0] at hlt
                  exact lt_irrefl _ hlt
                | cons d pre =>
                  simp at i0
                  have h2 := (List.pairwise_append.mp (List.pairwise_append.mp hinc).1).2.2 d (by simp) c (by simp)
                  rw [i0] at h2
                  exact lt_asymm h2 hlt
          obtain ⟨y, v, hyv⟩ := hbx x0 (Or.inl hhead)
          have := hm y (some v) ((hr x0 y (some v)).mp hyv).1
          cases this

/-! ### C104 -/

/-- `(x, y)` lies strictly inside the rectangle of the field. -/
def Inside (f : SF) (x y : Rat) : Prop :=
  (∃ a ∈ f.ax, a < x) ∧ (∃ a ∈ f.ax, x < a) ∧ (∃ b ∈ f.ay, b < y) ∧ (∃ b ∈ f.ay, y < b)

theorem covers_iff {f : SF} (hf : f.WF) (x y : Rat) : covers f x y = true ↔ Inside f x y := by
  have key : ∀ (l : List Rat) (hl : Inc l) (hne : l ≠ []), l.head? = some (l.head hne) ∧ l.getLast? = some (l.getLast hne) ∧
      ∀ v, ((∃ a ∈ l, a < v) ↔ l.head hne < v) ∧ ((∃ a ∈ l, v < a) ↔ v < l.getLast hne) := by
    intro l hl hne
    refine ⟨List.head?_eq_some_head hne, List.getLast?_eq_some_getLast hne, fun v => ⟨⟨?_, ?_⟩, ⟨?_, ?_⟩⟩⟩
    · rintro ⟨a, ha, hav⟩
      have : l.head hne ≤ a := by
        cases l with
        | nil => exact absurd rfl hne
        | cons c l =>
          rcases List.mem_cons.mp ha with e | e
          · rw [e]; exact le_refl _
          · exact le_of_lt ((List.pairwise_cons.mp hl).1 a e)
      linarith
    · intro h; exact ⟨_, List.head_mem hne, h⟩
    · rintro ⟨a, ha, hav⟩
      obtain ⟨i, hi⟩ := List.getElem?_of_mem ha
      have hg := List.getLast?_eq_some_getLast hne
      rw [getLast?_eq_get] at hg
      have := hl.get_le hi hg (by have := getElem?_some_lt hi; omega)
      linarith
    · intro h; exact ⟨_, List.getLast_mem hne, h⟩
  obtain ⟨a1, a2, a3⟩ := key f.ax hf.incx hf.nex
  obtain ⟨b1, b2, b3⟩ := key f.ay hf.incy hf.ney
  unfold covers Inside
  rw [a1, a2, b1, b2, (a3 x).1, (a3 x).2, (b3 y).1, (b3 y).2]
  simp only [gt_iff_lt, decide_eq_true_eq]

/-- The fields of a collection that hold the point strictly inside. -/
theorem filter_covers {s : SP} (hs : ∀ f ∈ s.fields, f.WF) (x y : Rat) (p : SF → Bool) (hp : ∀ f, p f = true ↔ Inside f x y) :
    s.fields.filter (fun f => covers f x y) = s.fields.filter p := by
  apply List.filter_congr
  intro f hf
  rw [Bool.eq_iff_iff, covers_iff (hs f hf), hp]

theorem sumValues_spec (main : SF → Bool) (x y : Rat) (fs : List SF) (v : SF → Rat)
    (h : ∀ f ∈ fs, f.getValue (main f) x y = .ok (some (v f))) (a : Rat) :
    sumValues main x y (some a) fs = .ok (some (a + (fs.map v).sum)) := by
  induction fs generalizing a with
  | nil => simp [sumValues]
  | cons f fs ih =>
    unfold sumValues
    rw [h f (by simp)]
    simp only
    rw [ih (fun g hg => h g (by simp [hg]))]
    simp [add_assoc]

/-- C104: strictly inside the rectangles of some fields that all show a value there, `get_value` returns the mean of these
values.  Missing: the border of a field (`C104_border_violated`). -/
theorem C104_mean_partial (main : SF → Bool) {s : SP} (hs : ∀ f ∈ s.fields, f.WF) {x y : Rat} (p : SF → Bool)
    (hp : ∀ f, p f = true ↔ Inside f x y) (hne : s.fields.filter p ≠ []) (v : SF → Rat)
    (h : ∀ f ∈ s.fields.filter p, f.getValue (main f) x y = .ok (some (v f))) :
    getValue main s x y = .ok (some (((s.fields.filter p).map v).sum / (s.fields.filter p).length)) := by
  unfold getValue
  rw [filter_covers hs x y p hp]
  match hm : s.fields.filter p with
  | [] => exact absurd hm hne
  | [f] => rw [hm] at h; simp only; rw [h f (by simp)]; simp
  | f :: g :: fs =>
    rw [hm] at h
    simp only
    rw [h f (by simp)]
    simp only
    rw [sumValues_spec main x y (g :: fs) v (fun k hk => h k (by simp [hk]))]
    simp [add_assoc]

/-- C104: a point outside of every rectangle is refused. -/
theorem C104_outside (main : SF → Bool) {s : SP} (hs : ∀ f ∈ s.fields, f.WF) {x y : Rat}
    (h : ∀ f ∈ s.fields, ¬ Inside f x y) : getValue main s x y = .error .valueError := by
  unfold getValue
  have : s.fields.filter (fun f => covers f x y) = [] := by
    rw [List.filter_eq_nil_iff]
    intro f hf
    rw [covers_iff (hs f hf)]
    exact h f hf
  rw [this]

/-- C104 fails on the border of a field: its first and last rows and columns belong to the field, but are refused unless
another field holds them inside. -/
theorem C104_border_violated (main : SF → Bool) {s : SP} (hs : ∀ f ∈ s.fields, f.WF) {f : SF} {x y : Rat} {r : Option Rat}
    (hf : f ∈ s.fields) (hr : f.Reads x y r) (hb : f.ax.head? = some x ∨ f.ax.getLast? = some x ∨ f.ay.head? = some y ∨
      f.ay.getLast? = some y) (ho : ∀ g ∈ s.fields, g ≠ f → ¬ Inside g x y) :
    f.getValue (main f) x y = .ok r ∧ getValue main s x y = .error .valueError := by
  refine ⟨SF.C23_node (main f) (hs f hf) hr, C104_outside main hs fun g hg => ?_⟩
  by_cases e : g = f
  · subst e
    have hw := hs g hg
    have hhead : ∀ (l : List Rat), Inc l → ∀ v, l.head? = some v → ¬ ∃ a ∈ l, a < v := by
      rintro l hl v hv ⟨a, ha, hav⟩
      cases l with
      | nil => cases hv
      | cons c l =>
        cases hv
        rcases List.mem_cons.mp ha with e | e
        · rw [e] at hav; exact lt_irrefl _ hav
        · exact lt_asymm hav ((List.pairwise_cons.mp hl).1 a e)
    have hlast : ∀ (l : List Rat), Inc l → ∀ v, l.getLast? = some v → ¬ ∃ a ∈ l, v < a := by
      rintro l hl v hv ⟨a, ha, hav⟩
      obtain ⟨i, hi⟩ := List.getElem?_of_mem ha
      rw [getLast?_eq_get] at hv
      have := hl.get_le hi hv (by have := getElem?_some_lt hi; omega)
      linarith
    rintro ⟨h1, h2, h3, h4⟩
    rcases hb with hb | hb | hb | hb
    · exact hhead _ hw.incx _ hb h1
    · exact hlast _ hw.incx _ hb h2
    · exact hhead _ hw.incy _ hb h3
    · exact hlast _ hw.incy _ hb h4
  · exact ho g hg e

/-! ### examples -/

/-- A collection of one field. -/
def one : SP := ⟨[SF.sample], .mm, .mm, .s⟩

example : (addField one { SF.sample with ux := .cm, uy := .mm, uv := .s }).2.1.ax = [0, 10, 30] := by decide +kernel

example : SF.sample.WF ∧ (∀ f ∈ one.fields, f.WF) ∧ (0 < one.ux.size ∧ 0 < one.uy.size ∧ 0 < one.uv.size) ∧
    (getValue (fun _ => true) one 1 (-1/2)).toOption.isSome :=
  ⟨SF.sample_WF, by intro f hf; simp [one] at hf; subst hf; exact SF.sample_WF, by decide +kernel, by decide +kernel⟩

example : (addField SP.empty SF.bordered).2.1.ay = [-1, 1/2] ∧ SF.bordered.ay.length = 3 ∧ (addField SP.empty SF.bordered).2.2 = .ok ⟨⟩ :=
  ⟨by decide +kernel, by decide +kernel, rfl⟩

end IMT.Spatial
