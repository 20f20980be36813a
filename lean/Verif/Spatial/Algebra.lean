import Verif.Spatial.AlgebraModel
import Verif.Spatial.Props
import Verif.Probe.Commute

/-! C277: transformations of a collection of fields. -/

namespace IMT.Spatial

open SF (factor)

/-- `g` shows the values of `f`, moved by `x ↦ kx x + cx`, `y ↦ ky y + cy` and multiplied by `q`. -/
def Moved (kx cx ky cy q : Rat) (f g : SF) : Prop :=
  ∀ x' y' r', g.Reads x' y' r' ↔ ∃ x y r, f.Reads x y r ∧ x' = kx * x + cx ∧ y' = ky * y + cy ∧ r' = r.map (· * q)

theorem inside_moved {kx cx ky cy q : Rat} (hkx : 0 < kx) (hky : 0 < ky) {f g : SF} (hf : f.WF) (hg : g.WF) (h : Moved kx cx ky cy q f g) (x y : Rat) :
    Inside g (kx * x + cx) (ky * y + cy) ↔ Inside f x y := by
  have mx : ∀ z, z ∈ g.ax ↔ ∃ z' ∈ f.ax, z = kx * z' + cx := by
    intro z
    rw [Probe.mem_ax hg]
    constructor
    · rintro ⟨y, r, hr⟩
      obtain ⟨x', y', r', h', e, -, -⟩ := (h _ _ _).1 hr
      exact ⟨x', (Probe.mem_ax hf).2 ⟨_, _, h'⟩, e⟩
    · rintro ⟨z', hz, rfl⟩
      obtain ⟨y, r, hr⟩ := (Probe.mem_ax hf).1 hz
      exact ⟨_, _, (h _ _ _).2 ⟨z', y, r, hr, rfl, rfl, rfl⟩⟩
  have my : ∀ z, z ∈ g.ay ↔ ∃ z' ∈ f.ay, z = ky * z' + cy := by
    intro z
    rw [Probe.mem_ay hg]
    constructor
    · rintro ⟨y, r, hr⟩
      obtain ⟨x', y', r', h', -, e, -⟩ := (h _ _ _).1 hr
      exact ⟨y', (Probe.mem_ay hf).2 ⟨_, _, h'⟩, e⟩
    · rintro ⟨z', hz, rfl⟩
      obtain ⟨y, r, hr⟩ := (Probe.mem_ay hf).1 hz
      exact ⟨_, _, (h _ _ _).2 ⟨y, z', r, hr, rfl, rfl, rfl⟩⟩
  have ltx : ∀ a b : Rat, kx * a + cx < kx * b + cx ↔ a < b := by
    intro a b; rw [add_lt_add_iff_right, mul_lt_mul_iff_right₀ hkx]
  have lty : ∀ a b : Rat, ky * a + cy < ky * b + cy ↔ a < b := by
    intro a b; rw [add_lt_add_iff_right, mul_lt_mul_iff_right₀ hky]
  have ex : ∀ (l m : List Rat) (k c : Rat) (_ : ∀ z, z ∈ m ↔ ∃ z' ∈ l, z = k * z' + c) (P Q : Rat → Prop) (_ : ∀ z, P (k * z + c) ↔ Q z), (∃ a ∈ m, P a) ↔ ∃ a ∈ l, Q a := by
    intro l m k c hm P Q hPQ
    constructor
    · rintro ⟨a, ha, hp⟩
      obtain ⟨z, hz, rfl⟩ := (hm a).1 ha
      exact ⟨z, hz, (hPQ z).1 hp⟩
    · rintro ⟨a, ha, hq⟩
      exact ⟨_, (hm _).2 ⟨a, ha, rfl⟩, (hPQ a).2 hq⟩
  unfold Inside
  rw [ex _ _ _ _ mx (fun a => a < kx * x + cx) (fun a => a < x) (fun z => ltx z x), ex _ _ _ _ mx (fun a => kx * x + cx < a) (fun a => x < a) (fun z => ltx x z),
    ex _ _ _ _ my (fun a => a < ky * y + cy) (fun a => a < y) (fun z => lty z y), ex _ _ _ _ my (fun a => ky * y + cy < a) (fun a => y < a) (fun z => lty y z)]

/-- Two lists of fields related one by one, seen from a position. -/
def Seen (main : SF → Bool) (q x y x' y' : Rat) (f g : SF) : Prop :=
  covers g x' y' = covers f x y ∧ g.getValue (main g) x' y' = (f.getValue (main f) x y).map (Option.map (· * q))

theorem seen_of_moved {main : SF → Bool} {kx cx ky cy q : Rat} (hkx : 0 < kx) (hky : 0 < ky) {f g : SF} (hf : f.WF) (hg : g.WF) (h : Moved kx cx ky cy q f g)
    (hm : main g = main f) (x y : Rat) : Seen main q x y (kx * x + cx) (ky * y + cy) f g := by
  refine ⟨?_, ?_⟩
  · rw [Bool.eq_iff_iff, covers_iff hg, covers_iff hf, inside_moved hkx hky hf hg h]
  · rw [hm]; exact Probe.whole (main f) hf hg hkx hky h x y

theorem sumValues_seen {main : SF → Bool} {q x y x' y' : Rat} {fs gs : List SF} (h : List.Forall₂ (Seen main q x y x' y') fs gs) (acc : Option Rat) :
    sumValues main x' y' (acc.map (· * q)) gs = (sumValues main x y acc fs).map (Option.map (· * q)) := by
  induction h generalizing acc with
  | nil => rfl
  | cons h1 h2 ih =>
    unfold sumValues
    rw [h1.2]
    rename_i f g _ _
    cases hv : f.getValue (main f) x y with
    | error e => rfl
    | ok r =>
      refine Eq.trans ?_ (ih _)
      simp only [Except.map]
      congr 1
      cases acc <;> cases r <;> simp
      ring

theorem filter_seen {main : SF → Bool} {q x y x' y' : Rat} {fs gs : List SF} (h : List.Forall₂ (Seen main q x y x' y') fs gs) :
    List.Forall₂ (Seen main q x y x' y') (fs.filter fun f => covers f x y) (gs.filter fun g => covers g x' y') := by
  induction h with
  | nil => exact .nil
  | cons h1 h2 ih =>
    rw [List.filter_cons, List.filter_cons, h1.1]
    split
    · exact .cons h1 ih
    · exact ih

theorem getValue_seen {main : SF → Bool} {q x y x' y' : Rat} {s t : SP} (h : List.Forall₂ (Seen main q x y x' y') s.fields t.fields) :
    getValue main t x' y' = (getValue main s x y).map (Option.map (· * q)) := by
  unfold getValue
  have := filter_seen h
  generalize s.fields.filter (fun f => covers f x y) = fs at this ⊢
  generalize t.fields.filter (fun g => covers g x' y') = gs at this ⊢
  cases this with
  | nil => rfl
  | cons h1 h2 =>
    rename_i f g fs gs
    cases h2 with
    | nil => simp only; exact h1.2
    | cons h3 h4 =>
      simp only
      rw [h1.2]
      cases hv : f.getValue (main f) x y with
      | error e => rfl
      | ok r =>
        simp only [Except.map]
        have e := sumValues_seen (.cons h3 h4) r
        rw [e]
        rename_i f2 g2 fs gs
        cases sumValues main x y r (f2 :: fs) with
        | error e => rfl
        | ok t =>
          simp only [Except.map]
          rw [show (g2 :: gs).length = (f2 :: fs).length from (List.Forall₂.length_eq (.cons h3 h4)).symm]
          cases t <;> simp
          ring

theorem forall₂_map {R : SF → SF → Prop} {l : List SF} {T : SF → SF} (h : ∀ f ∈ l, R f (T f)) : List.Forall₂ R l (l.map T) := by
  induction l with
  | nil => exact .nil
  | cons a l ih => exact .cons (h a (by simp)) (ih fun f hf => h f (by simp [hf]))

/-- C277: the opposite of a collection reads the opposite value at every position, and refuses the same positions. -/
theorem C277_opposite (main : SF → Bool) {s : SP} (hs : ∀ f ∈ s.fields, f.WF) (hm : ∀ f ∈ s.fields, main f.neg = main f) (x y : Rat) :
    getValue main (negAll s) x y = (getValue main s x y).map (Option.map (fun v => -v)) := by
  have := getValue_seen (main := main) (q := -1) (x := x) (y := y) (x' := x) (y' := y) (s := s) (t := negAll s) (forall₂_map fun f hf => by
    have wn : f.neg.WF := SF.setValues_WF (hs f hf) (by simp [Grid.map, SF.values, (hs f hf).vx]) (by simp [Grid.map, SF.values, (hs f hf).vy])
    have := seen_of_moved (main := main) (kx := 1) (cx := 0) (ky := 1) (cy := 0) (q := -1) one_pos one_pos (hs f hf) wn (by
      intro x' y' r'
      rw [SF.reads_map (f := f) (g := f.neg) rfl rfl (fun c => c.map (fun v => -v)) (fun i j _ _ => SF.setValues_cell _ _ _ _)]
      constructor
      · rintro ⟨r, h, rfl⟩; exact ⟨x', y', r, h, by ring, by ring, by cases r <;> simp⟩
      · rintro ⟨x, y, r, h, rfl, rfl, rfl⟩; exact ⟨r, by simpa using h, by cases r <;> simp⟩) (hm f hf) x y
    simpa using this)
  simpa using this

/-- C277: a scaling of the axes by positive factors and of the values by any factor moves the positions and multiplies the values read. -/
theorem C277_scale_partial (main : SF → Bool) {s : SP} (hs : ∀ f ∈ s.fields, f.WF) (sx sy sv : Option Unum) (hx : 0 < factor sx) (hy : 0 < factor sy)
    (hm : ∀ f ∈ s.fields, main (f.scale sx sy sv) = main f) (x y : Rat) :
    getValue main (scaleAll s sx sy sv) (x * factor sx) (y * factor sy) = (getValue main s x y).map (Option.map (· * factor sv)) := by
  refine getValue_seen (forall₂_map fun f hf => ?_)
  obtain ⟨w, hr⟩ := SF.C10_scale_moves_readings (hs f hf) sx sy sv hx.ne' hy.ne'
  have := seen_of_moved (main := main) (kx := factor sx) (cx := 0) (ky := factor sy) (cy := 0) (q := factor sv) hx hy (hs f hf) w (by
      intro x' y' r'
      rw [hr]
      constructor
      · rintro ⟨x, y, r, h, rfl, rfl, rfl⟩; exact ⟨x, y, r, h, by ring, by ring, rfl⟩
      · rintro ⟨x, y, r, h, rfl, rfl, rfl⟩; exact ⟨x, y, r, h, by ring, by ring, rfl⟩) (hm f hf) x y
  rwa [add_zero, add_zero, mul_comm, mul_comm (factor sy)] at this

/-- C277 fails for the units: a scaling by a factor with a unit changes the unit of every field and not the one of the collection,
so that the two no longer agree. -/
theorem C277_units_violated {s : SP} {f : SF} (hf : f ∈ s.fields) (hu : f.ux = s.ux) (h0 : 0 < s.ux.size) {sx : Unum} (hsx : sx.sym.size ≠ 1) :
    ∃ g ∈ (scaleAll s (some sx) none none).fields, g.ux ≠ (scaleAll s (some sx) none none).ux := by
  refine ⟨_, List.mem_map_of_mem hf, ?_⟩
  intro h
  have := (SF.C10_scale_units f (some sx) none none).1
  rw [h] at this
  simp only [scaleAll, SF.usym, hu] at this
  exact hsx (mul_left_cancel₀ h0.ne' (by linarith))

/-- C277: a change of origin moves the positions and keeps the values read. -/
theorem C277_origin (main : SF → Bool) {s : SP} (hs : ∀ f ∈ s.fields, f.WF) (ox oy : Option Rat)
    (hm : ∀ f g : SF, f.val = g.val → f.mask = g.mask → main f = main g) (x y : Rat) :
    getValue main (originAll s ox oy) (x - ox.getD 0) (y - oy.getD 0) = getValue main s x y ∧ (originAll s ox oy).ux = s.ux ∧ (originAll s ox oy).uy = s.uy ∧
      (originAll s ox oy).uv = s.uv := by
  have ez : ∀ f : SF, f.setOrigin none none = f := by intro f; simp [SF.setOrigin]
  have ef : (originAll s ox oy).fields = s.fields.map fun f => f.setOrigin ox oy := by
    unfold originAll originX originY
    cases ox <;> cases oy <;> simp [SF.setOrigin, Function.comp_def]
  refine ⟨?_, ?_⟩
  · have := getValue_seen (main := main) (q := 1) (x := x) (y := y) (x' := x - ox.getD 0) (y' := y - oy.getD 0) (s := s) (t := originAll s ox oy) (by
      rw [ef]
      refine forall₂_map fun f hf => ?_
      obtain ⟨w, hr, -⟩ := SF.C12_setOrigin_shifts (hs f hf) ox oy
      have := seen_of_moved (main := main) (kx := 1) (cx := - ox.getD 0) (ky := 1) (cy := - oy.getD 0) (q := 1) one_pos one_pos (hs f hf) w (by
        intro x' y' r'
        rw [hr]
        constructor
        · intro h
          exact ⟨_, _, _, h, by ring, by ring, by simp⟩
        · rintro ⟨x, y, r, h, rfl, rfl, rfl⟩
          simpa using h) (hm _ _ (by unfold SF.setOrigin; cases ox <;> cases oy <;> rfl) (by unfold SF.setOrigin; cases ox <;> cases oy <;> rfl)) x y
      rwa [show 1 * x + - ox.getD 0 = x - ox.getD 0 by ring, show 1 * y + - oy.getD 0 = y - oy.getD 0 by ring] at this)
    rw [this]
    cases getValue main s x y with
    | error e => rfl
    | ok r => cases r <;> simp [Except.map]
  · unfold originAll originX originY
    cases ox <;> cases oy <;> exact ⟨rfl, rfl, rfl⟩

/-- No line of the border is masked entirely: on both sides of every line there are values. -/
def Tight (f : SF) : Prop :=
  (∀ x ∈ f.ax, (∃ x' y v, f.Reads x' y (some v) ∧ x' ≤ x) ∧ ∃ x' y v, f.Reads x' y (some v) ∧ x ≤ x') ∧
  ∀ y ∈ f.ay, (∃ x y' v, f.Reads x y' (some v) ∧ y' ≤ y) ∧ ∃ x y' v, f.Reads x y' (some v) ∧ y ≤ y'

theorem infix_between {l m : List Rat} (hl : Inc l) (h : m <:+: l) {a b z : Rat} (ha : a ∈ m) (hb : b ∈ m) (hz : z ∈ l) (h1 : a ≤ z) (h2 : z ≤ b) : z ∈ m := by
  obtain ⟨p, q, rfl⟩ := h
  unfold Inc at hl
  rw [List.pairwise_append, List.pairwise_append] at hl
  obtain ⟨⟨-, -, h3⟩, -, h4⟩ := hl
  rw [List.mem_append, List.mem_append] at hz
  rcases hz with (hz | hz) | hz
  · exact absurd (h3 z hz a ha) (not_lt.2 h1)
  · exact hz
  · exact absurd (h4 b (by simp [hb]) z hz) (not_lt.2 h2)

/-- The border of a tight field is kept. -/
theorem border_tight {f g : SF} (hf : f.WF) (ht : Tight f) (h : border f = (g, .ok ⟨⟩)) : ∀ x y r, g.Reads x y r ↔ f.Reads x y r := by
  obtain ⟨⟨ix, iy, hr, -⟩, hk⟩ := border_spec hf h
  intro x y r
  rw [hr]
  refine ⟨fun h => h.1, fun h => ⟨h, ?_, ?_⟩⟩
  · have hx := (Probe.mem_ax hf).2 ⟨_, _, h⟩
    obtain ⟨⟨a, y1, v1, r1, l1⟩, b, y2, v2, r2, l2⟩ := ht.1 x hx
    exact infix_between hf.incx ix ((hr _ _ _).1 (hk _ _ _ r1)).2.1 ((hr _ _ _).1 (hk _ _ _ r2)).2.1 hx l1 l2
  · have hy := (Probe.mem_ay hf).2 ⟨_, _, h⟩
    obtain ⟨⟨x1, a, v1, r1, l1⟩, x2, b, v2, r2, l2⟩ := ht.2 y hy
    exact infix_between hf.incy iy ((hr _ _ _).1 (hk _ _ _ r1)).2.2 ((hr _ _ _).1 (hk _ _ _ r2)).2.2 hy l1 l2

theorem border_WF {f g : SF} (hf : f.WF) (h : border f = (g, .ok ⟨⟩)) (hs : ∃ x y v, f.Reads x y (some v)) : g.WF := by
  obtain ⟨x, y, v, hr⟩ := hs
  have hg := (border_spec hf h).2 x y v hr
  have hl : g.Loose := by
    unfold border at h
    cases hc : f.cropMaskedSoft with
    | error e => rw [hc] at h; simp at h
    | ok o =>
      rw [hc] at h
      cases o with
      | none => cases h; exact hf.loose
      | some k =>
        cases h
        have hs : f.softCrop = .ok g := by
          unfold SF.cropMaskedSoft at hc
          by_cases hm : f.anyMasked = false
          · rw [if_pos hm] at hc; simp at hc
          · rw [if_neg hm] at hc
            cases hs : f.softCrop with
            | error e => rw [hs] at hc; cases hc
            | ok k => rw [hs] at hc; simp only [Except.map, Except.ok.injEq, Option.some.injEq] at hc; rw [hc]
        obtain ⟨x0, x1, y0, y1, rfl, -⟩ := SF.softCrop_ok hs
        exact SF.cut_loose hf.loose _ _ _ _
  obtain ⟨i, j, hi, hj, -⟩ := hg
  exact ⟨hl.incx, hl.incy, fun e => by simp [e] at hi, fun e => by simp [e] at hj, hl.vx, hl.vy, hl.mx, hl.my, hl.nan⟩

theorem Tight.some {f : SF} (hf : f.WF) (h : Tight f) : ∃ x y v, f.Reads x y (some v) := by
  obtain ⟨x, l, e⟩ := List.exists_cons_of_ne_nil hf.nex
  obtain ⟨⟨x', y, v, h', -⟩, -⟩ := h.1 x (by simp [e])
  exact ⟨x', y, v, h'⟩

theorem reads_of_phys {f g : SF} (hu : PosUnits f) (e1 : g.ux = f.ux) (e2 : g.uy = f.uy) (e3 : g.uv = f.uv) (h : ∀ X Y V, Phys g X Y V ↔ Phys f X Y V)
    (x y : Rat) (r : Option Rat) : g.Reads x y r ↔ f.Reads x y r := by
  have key : ∀ (a b : SF), a.ux = b.ux → a.uy = b.uy → a.uv = b.uv → PosUnits b → (∀ X Y V, Phys a X Y V → Phys b X Y V) → a.Reads x y r → b.Reads x y r := by
    intro a b e1 e2 e3 hu h hr
    obtain ⟨x', y', r', hr', h1, h2, h3⟩ := h _ _ _ ⟨x, y, r, hr, rfl, rfl, rfl⟩
    rw [e1] at h1; rw [e2] at h2; rw [e3] at h3
    have k1 := mul_right_cancel₀ hu.1.ne' h1
    have k2 := mul_right_cancel₀ hu.2.1.ne' h2
    have k3 : r = r' := by
      cases r <;> cases r' <;> simp at h3 ⊢
      exact h3.resolve_right hu.2.2.ne'
    rw [k1, k2, k3]; exact hr'
  exact ⟨key g f e1 e2 e3 hu fun X Y V => (h X Y V).1, key f g e1.symm e2.symm e3.symm (by unfold PosUnits; rw [e1, e2, e3]; exact hu) fun X Y V => (h X Y V).2⟩

/-- What is stored by `add_field` for a tight field already in the units of the collection. -/
theorem add_tight {s s' : SP} {f f' : SF} (hf : f.WF) (hu : PosUnits f) (ht : Tight f) (he : s.fields ≠ [] → f.ux = s.ux ∧ f.uy = s.uy ∧ f.uv = s.uv)
    (h : addField s f = (s', f', .ok ⟨⟩)) :
    ∃ g, s'.fields = s.fields ++ [g] ∧ (∀ x y r, g.Reads x y r ↔ f.Reads x y r) ∧ s'.ux = f.ux ∧ s'.uy = f.uy ∧ s'.uv = f.uv ∧ g.ux = f.ux ∧ g.uy = f.uy ∧ g.uv = f.uv ∧ g.WF := by
  unfold addField at h
  by_cases h0 : s.fields = []
  · have h0' : s.fields.length = 0 := by rw [h0]; rfl
    unfold inUnits at h
    rw [if_pos h0'] at h
    simp only at h
    cases hb : border f with
    | mk g o =>
      rw [hb] at h
      cases o with
      | error e => simp at h
      | ok u =>
        simp only [Prod.mk.injEq] at h
        obtain ⟨rfl, rfl, -⟩ := h
        have hsub := (border_spec hf hb).1
        unfold adopt
        rw [if_pos h0']
        exact ⟨g, rfl, border_tight hf ht hb, rfl, rfl, rfl, hsub.2.2.2.1, hsub.2.2.2.2.1, hsub.2.2.2.2.2, border_WF hf hb (ht.some hf)⟩
  · have h0' : ¬ s.fields.length = 0 := fun e => h0 (List.length_eq_zero_iff.mp e)
    obtain ⟨u1, u2, u3⟩ := he h0
    unfold inUnits at h
    rw [if_neg h0'] at h
    cases hc : convert s f with
    | mk f1 o =>
      rw [hc] at h
      cases o with
      | error e => simp at h
      | ok u =>
        simp only at h
        obtain ⟨w, pu, e1, e2, e3, hph⟩ := convert_spec hf hu (by rw [← u1, ← u2, ← u3]; exact hu) hc
        have hr := reads_of_phys hu (e1.trans u1.symm) (e2.trans u2.symm) (e3.trans u3.symm) hph
        have ht' : Tight f1 := by
          have ax : ∀ x, x ∈ f1.ax ↔ x ∈ f.ax := fun x => by rw [Probe.mem_ax w, Probe.mem_ax hf]; simp only [hr]
          have ay : ∀ x, x ∈ f1.ay ↔ x ∈ f.ay := fun x => by rw [Probe.mem_ay w, Probe.mem_ay hf]; simp only [hr]
          unfold Tight
          simp only [hr, ax, ay]
          exact ht
        cases hb : border f1 with
        | mk g o =>
          rw [hb] at h
          cases o with
          | error e => simp at h
          | ok u =>
            simp only [Prod.mk.injEq] at h
            obtain ⟨rfl, rfl, -⟩ := h
            have hsub := (border_spec w hb).1
            unfold adopt
            rw [if_neg h0']
            exact ⟨g, rfl, fun x y r => (border_tight w ht' hb x y r).trans (hr x y r), u1.symm, u2.symm, u3.symm, (hsub.2.2.2.1.trans e1).trans u1.symm,
              (hsub.2.2.2.2.1.trans e2).trans u2.symm, (hsub.2.2.2.2.2.trans e3).trans u3.symm, border_WF w hb (ht'.some w)⟩

/-- What every collection made of `add_field` satisfies. -/
def Good (s : SP) : Prop := ∀ f ∈ s.fields, f.WF ∧ PosUnits f ∧ (f.ux = s.ux ∧ f.uy = s.uy ∧ f.uv = s.uv) ∧ Tight f

/-- A field showing the values of another one multiplied by `q`. -/
def Times (q : Rat) (f g : SF) : Prop := g.WF ∧ ∀ x y r, g.Reads x y r ↔ ∃ r0, f.Reads x y r0 ∧ r = r0.map (· * q)

theorem mul_times {f : SF} (hf : f.WF) (q : Rat) : Times q f (f.mulNum q) :=
  ⟨Temporal.mulNum_WF hf q, fun x y r => SF.reads_map (f := f) (g := f.mulNum q) rfl rfl (fun c => c.map (· * q)) (fun i j _ _ => Temporal.mulNum_cell q i j) x y r⟩

theorem tight_times {q : Rat} {f g : SF} (hf : f.WF) (h : Times q f g) (ht : Tight f) : Tight g := by
  have ax : ∀ x, x ∈ g.ax → x ∈ f.ax := by
    intro x hx
    obtain ⟨y, r, hr⟩ := (Probe.mem_ax h.1).1 hx
    obtain ⟨r0, h0, -⟩ := (h.2 _ _ _).1 hr
    exact (Probe.mem_ax hf).2 ⟨_, _, h0⟩
  have ay : ∀ x, x ∈ g.ay → x ∈ f.ay := by
    intro x hx
    obtain ⟨y, r, hr⟩ := (Probe.mem_ay h.1).1 hx
    obtain ⟨r0, h0, -⟩ := (h.2 _ _ _).1 hr
    exact (Probe.mem_ay hf).2 ⟨_, _, h0⟩
  have hs : ∀ {x y v}, f.Reads x y (some v) → g.Reads x y (some (v * q)) := fun h' => (h.2 _ _ _).2 ⟨_, h', rfl⟩
  refine ⟨fun x hx => ?_, fun y hy => ?_⟩
  · obtain ⟨⟨a, b, c, h1, h2⟩, a', b', c', h3, h4⟩ := ht.1 x (ax x hx)
    exact ⟨⟨a, b, _, hs h1, h2⟩, a', b', _, hs h3, h4⟩
  · obtain ⟨⟨a, b, c, h1, h2⟩, a', b', c', h3, h4⟩ := ht.2 y (ay y hy)
    exact ⟨⟨a, b, _, hs h1, h2⟩, a', b', _, hs h3, h4⟩

theorem mulLoop_spec (q : Rat) (u v w : Sym) (fs : List SF) (hf : ∀ f ∈ fs, f.WF ∧ PosUnits f ∧ (f.ux = u ∧ f.uy = v ∧ f.uv = w) ∧ Tight f) (acc t : SP)
    (ha : acc.fields ≠ [] → acc.ux = u ∧ acc.uy = v ∧ acc.uv = w) (h : mulLoop q acc fs = .ok t) :
    ∃ gs, t.fields = acc.fields ++ gs ∧ List.Forall₂ (fun f g => Times q f g ∧ g.ux = u ∧ g.uy = v ∧ g.uv = w) fs gs ∧ (t.fields ≠ [] → t.ux = u ∧ t.uy = v ∧ t.uv = w) := by
  induction fs generalizing acc with
  | nil =>
    simp only [mulLoop, Except.ok.injEq] at h
    subst h
    exact ⟨[], by simp, .nil, ha⟩
  | cons f fs ih =>
    obtain ⟨wf, pu, ⟨e1, e2, e3⟩, ht⟩ := hf f (by simp)
    unfold mulLoop at h
    cases hA : addField acc (f.mulNum q) with
    | mk s o =>
      obtain ⟨f', o⟩ := o
      rw [hA] at h
      cases o with
      | error e => cases h
      | ok o =>
        simp only at h
        have tm := mul_times wf q
        obtain ⟨g, k1, k2, k3, k4, k5, k6, k7, k8, k9⟩ := add_tight (s := acc) (f := f.mulNum q) tm.1 pu (tight_times wf tm ht)
          (fun hn => by obtain ⟨a1, a2, a3⟩ := ha hn; exact ⟨e1.trans a1.symm, e2.trans a2.symm, e3.trans a3.symm⟩) hA
        obtain ⟨gs, m1, m2, m3⟩ := ih (fun f hf' => hf f (by simp [hf'])) s (fun _ => ⟨k3.trans e1, k4.trans e2, k5.trans e3⟩) h
        refine ⟨g :: gs, by rw [m1, k1]; simp, .cons ⟨⟨k9, fun x y r => (k2 x y r).trans (tm.2 x y r)⟩, k6.trans e1, k7.trans e2, k8.trans e3⟩ m2, m3⟩

/-- C277: whenever the product of a collection with a number is computed, every field is multiplied, the units stay and so does the number of
fields; the value read at a position is multiplied, and the same positions are refused. -/
theorem C277_product_partial (main : SF → Bool) {s t : SP} (hs : Good s) (q : Rat) (h : mulAll s q = .ok t) :
    List.Forall₂ (Times q) s.fields t.fields ∧ Good t ∧ (s.fields ≠ [] → t.ux = s.ux ∧ t.uy = s.uy ∧ t.uv = s.uv) ∧
    ((∀ f g, Times q f g → main g = main f) → ∀ x y, getValue main t x y = (getValue main s x y).map (Option.map (· * q))) := by
  obtain ⟨gs, h1, h2, h3⟩ := mulLoop_spec q s.ux s.uy s.uv s.fields hs SP.empty t (fun h => absurd rfl h) h
  simp only [SP.empty, List.nil_append] at h1
  rw [h1]
  have hne : s.fields ≠ [] → t.fields ≠ [] := by
    intro hn e
    rw [h1] at e
    rw [e] at h2
    cases hq : s.fields with
    | nil => exact hn hq
    | cons a l => rw [hq] at h2; cases h2
  have hT : List.Forall₂ (Times q) s.fields gs := h2.imp fun f g h => h.1
  refine ⟨hT, ?_, fun hn => h3 (hne hn), ?_⟩
  · intro g hg
    rw [h1] at hg
    have h3' := h3 (by rw [h1]; exact List.ne_nil_of_mem hg)
    obtain ⟨f, hf, h4, h5, h6, h7⟩ : ∃ f ∈ s.fields, Times q f g ∧ g.ux = s.ux ∧ g.uy = s.uy ∧ g.uv = s.uv := by
      clear h3 hne hT h1 h3'
      generalize s.fields = l at h2
      induction h2 with
      | nil => simp at hg
      | cons k1 k2 ih =>
        rcases List.mem_cons.1 hg with rfl | hg
        · exact ⟨_, by simp, k1⟩
        · obtain ⟨f, hf, k⟩ := ih hg
          exact ⟨f, by simp [hf], k⟩
    obtain ⟨w, pu, ⟨e1, e2, e3⟩, ht⟩ := hs f hf
    refine ⟨h4.1, ?_, ⟨h5.trans h3'.1.symm, h6.trans h3'.2.1.symm, h7.trans h3'.2.2.symm⟩, tight_times w h4 ht⟩
    unfold PosUnits
    rw [h5, h6, h7, ← e1, ← e2, ← e3]
    exact pu
  · intro hm x y
    refine getValue_seen ?_
    rw [h1]
    have hw : ∀ f ∈ s.fields, f.WF := fun f hf => (hs f hf).1
    clear h3 hne h2 h1 h hs
    generalize s.fields = l at hT hw
    induction hT with
    | nil => exact .nil
    | cons k1 k2 ih =>
      refine .cons ?_ (ih fun f hf => hw f (by simp [hf]))
      have := seen_of_moved (main := main) (kx := 1) (cx := 0) (ky := 1) (cy := 0) (q := q) one_pos one_pos (hw _ (by simp)) k1.1 (by
        intro x' y' r'
        rw [k1.2]
        constructor
        · rintro ⟨r, h, rfl⟩; exact ⟨x', y', r, h, by ring, by ring, rfl⟩
        · rintro ⟨x, y, r, h, rfl, rfl, rfl⟩; exact ⟨r, by simpa using h, rfl⟩) (hm _ _ k1) x y
      simpa using this

theorem border_makes_tight {f g : SF} (hf : f.WF) (h : border f = (g, .ok ⟨⟩)) : Tight g ∧ g.WF := by
  have hb := h
  unfold border at h
  cases hc : f.cropMaskedSoft with
  | error e => rw [hc] at h; simp at h
  | ok o =>
    rw [hc] at h
    cases o with
    | none =>
      cases h
      have hm : f.anyMasked = false := by
        unfold SF.cropMaskedSoft at hc
        by_contra hm
        rw [if_neg hm] at hc
        cases hs : f.softCrop <;> rw [hs] at hc <;> simp [Except.map] at hc
      have hall : ∀ x y r, f.Reads x y r → ∃ v, r = some v := by
        intro x y r hr
        cases r with
        | none => exact absurd hr (SF.no_mask_reads hf.loose hm x y)
        | some v => exact ⟨v, rfl⟩
      refine ⟨⟨fun x hx => ?_, fun y hy => ?_⟩, hf⟩
      · obtain ⟨y, r, hr⟩ := (Probe.mem_ax hf).1 hx
        obtain ⟨v, rfl⟩ := hall _ _ _ hr
        exact ⟨⟨x, y, v, hr, le_refl _⟩, x, y, v, hr, le_refl _⟩
      · obtain ⟨x, r, hr⟩ := (Probe.mem_ay hf).1 hy
        obtain ⟨v, rfl⟩ := hall _ _ _ hr
        exact ⟨⟨x, y, v, hr, le_refl _⟩, x, y, v, hr, le_refl _⟩
    | some k =>
      cases h
      obtain ⟨hsub, hk, hx, hy⟩ := SF.C19_soft_bounding_box hf hc
      have hsome : ∃ x y v, f.Reads x y (some v) := by
        have hs : f.softCrop = .ok g := by
          unfold SF.cropMaskedSoft at hc
          by_cases hm : f.anyMasked = false
          · rw [if_pos hm] at hc; simp at hc
          · rw [if_neg hm] at hc
            cases hs : f.softCrop with
            | error e => rw [hs] at hc; cases hc
            | ok k => rw [hs] at hc; simp only [Except.map, Except.ok.injEq, Option.some.injEq] at hc; rw [hc]
        obtain ⟨x0, x1, y0, y1, -, e1, -⟩ := SF.softCrop_ok hs
        have hm := List.mem_of_head? e1
        rw [List.mem_filter, List.mem_range] at hm
        obtain ⟨hm1, hm2⟩ := hm
        unfold SF.rowValid at hm2
        simp only [List.any_eq_true, List.mem_range, Bool.not_eq_true'] at hm2
        obtain ⟨j, hj, hjv⟩ := hm2
        rw [hf.mx] at hm1
        rw [hf.my] at hj
        have hcm := hf.loose.cellMask hm1 hj
        rw [hjv] at hcm
        cases hcell : f.cell x0 j with
        | none => rw [hcell] at hcm; simp at hcm
        | some v => exact ⟨_, _, v, x0, j, List.getElem?_eq_getElem hm1, List.getElem?_eq_getElem hj, hcell⟩
      have wg := border_WF hf hb hsome
      refine ⟨⟨fun x hx' => ?_, fun y hy' => ?_⟩, wg⟩
      · obtain ⟨i, hi⟩ := List.mem_iff_getElem?.1 hx'
        obtain ⟨a, b, ha, hb', la, lb⟩ := SF.head_last_of_mem wg.incx hi
        obtain ⟨y1, v1, h1⟩ := hx a (.inl ha)
        obtain ⟨y2, v2, h2⟩ := hx b (.inr hb')
        exact ⟨⟨a, y1, v1, h1, la⟩, b, y2, v2, h2, lb⟩
      · obtain ⟨i, hi⟩ := List.mem_iff_getElem?.1 hy'
        obtain ⟨a, b, ha, hb', la, lb⟩ := SF.head_last_of_mem wg.incy hi
        obtain ⟨y1, v1, h1⟩ := hy a (.inl ha)
        obtain ⟨y2, v2, h2⟩ := hy b (.inr hb')
        exact ⟨⟨y1, a, v1, h1, la⟩, y2, b, v2, h2, lb⟩

/-- Collections made of accepted calls of `add_field`. -/
inductive Built : SP → Prop
  | empty : Built SP.empty
  | add {s s' : SP} {f f' : SF} (hs : Built s) (hf : f.WF) (hu : PosUnits f) (h : addField s f = (s', f', .ok ⟨⟩)) : Built s'

/-- C277: the hypothesis of the theorem on products holds for every collection made of `add_field`. -/
theorem C277_reachable {s : SP} (h : Built s) : Good s := by
  induction h with
  | empty => intro f hf; simp [SP.empty] at hf
  | @add s s' f f' hs hf hu h ih =>
    unfold addField at h
    by_cases h0 : s.fields = []
    · have h0' : s.fields.length = 0 := by rw [h0]; rfl
      unfold inUnits at h
      rw [if_pos h0'] at h
      simp only at h
      cases hb : border f with
      | mk g o =>
        rw [hb] at h
        cases o with
        | error e => simp at h
        | ok u =>
          simp only [Prod.mk.injEq] at h
          obtain ⟨rfl, rfl, -⟩ := h
          have hsub := (border_spec hf hb).1
          obtain ⟨t, w⟩ := border_makes_tight hf hb
          unfold adopt
          rw [if_pos h0']
          intro k hk
          simp only [h0, List.nil_append, List.mem_singleton] at hk
          subst hk
          refine ⟨w, ?_, ⟨hsub.2.2.2.1, hsub.2.2.2.2.1, hsub.2.2.2.2.2⟩, t⟩
          unfold PosUnits
          rw [hsub.2.2.2.1, hsub.2.2.2.2.1, hsub.2.2.2.2.2]; exact hu
    · have h0' : ¬ s.fields.length = 0 := fun e => h0 (List.length_eq_zero_iff.mp e)
      have hp : 0 < s.ux.size ∧ 0 < s.uy.size ∧ 0 < s.uv.size := by
        obtain ⟨k, l, e⟩ := List.exists_cons_of_ne_nil h0
        obtain ⟨-, pu, ⟨e1, e2, e3⟩, -⟩ := ih k (by simp [e])
        rw [← e1, ← e2, ← e3]; exact pu
      unfold inUnits at h
      rw [if_neg h0'] at h
      cases hc : convert s f with
      | mk f1 o =>
        rw [hc] at h
        cases o with
        | error e => simp at h
        | ok u =>
          simp only at h
          obtain ⟨w, pu, e1, e2, e3, hph⟩ := convert_spec hf hu hp hc
          cases hb : border f1 with
          | mk g o =>
            rw [hb] at h
            cases o with
            | error e => simp at h
            | ok u =>
              simp only [Prod.mk.injEq] at h
              obtain ⟨rfl, rfl, -⟩ := h
              have hsub := (border_spec w hb).1
              obtain ⟨t, wg⟩ := border_makes_tight w hb
              unfold adopt
              rw [if_neg h0']
              intro k hk
              simp only [List.mem_append, List.mem_singleton] at hk
              rcases hk with hk | rfl
              · exact ih k hk
              · refine ⟨wg, ?_, ⟨hsub.2.2.2.1.trans e1, hsub.2.2.2.2.1.trans e2, hsub.2.2.2.2.2.trans e3⟩, t⟩
                unfold PosUnits
                rw [hsub.2.2.2.1, hsub.2.2.2.2.1, hsub.2.2.2.2.2]; exact pu

/-- One line of three points, the middle one masked. -/
def line : SF := ⟨[0], [0, 1, 2], ⟨1, 3, fun _ _ => some 1⟩, ⟨1, 3, fun _ j => decide (j = 1)⟩, Sym.m, Sym.m, Sym.one⟩

theorem line_WF : line.WF := by
  refine ⟨by unfold Inc line; decide +kernel, by unfold Inc line; decide +kernel, by simp [line], by simp [line], rfl, rfl, rfl, rfl, ?_⟩
  intro i j _ _ h
  cases h

/-- C277 fails for a collection holding a single line with a masked point: it can be read, and its product with any number raises
ValueError, from the crop of a border it does not have (core/spatialfields.py:57, 170). -/
theorem C277_line_violated (q : Rat) : line.WF ∧ Tight line ∧ mulAll ⟨[line], Sym.m, Sym.m, Sym.one⟩ q = .error .valueError := by
  refine ⟨line_WF, ⟨?_, ?_⟩, ?_⟩
  · intro x hx
    simp only [line, List.mem_singleton] at hx
    subst hx
    exact ⟨⟨0, 0, 1, ⟨0, 0, rfl, rfl, by decide +kernel⟩, le_refl _⟩, 0, 0, 1, ⟨0, 0, rfl, rfl, by decide +kernel⟩, le_refl _⟩
  · intro y hy
    have : 0 ≤ y ∧ y ≤ 2 := by
      simp only [line, List.mem_cons, List.not_mem_nil, or_false] at hy
      rcases hy with rfl | rfl | rfl <;> norm_num
    exact ⟨⟨0, 0, 1, ⟨0, 0, rfl, rfl, by decide +kernel⟩, this.1⟩, 0, 2, 1, ⟨0, 2, rfl, rfl, by decide +kernel⟩, this.2⟩
  · rfl

example : (mulAll one 3).toOption.map (fun t => getValue (fun _ => true) t 2 (-1/2)) = (mulAll one 3).toOption.map (fun _ => (getValue (fun _ => true) one 2 (-1/2)).map (Option.map (· * 3))) := by
  decide +kernel

example : getValue (fun _ => true) (scaleAll one (some ⟨2, Sym.one⟩) none (some ⟨3, Sym.one⟩)) 4 (-1/2) = (getValue (fun _ => true) one 2 (-1/2)).map (Option.map (· * 3)) ∧
    (getValue (fun _ => true) one (1/2) (-1/2)).toOption.isSome := by decide +kernel

example : ∃ s, Built s ∧ s.fields ≠ [] ∧ (mulAll s 2).toOption.isSome := by
  refine ⟨_, .add .empty SF.bordered_WF (by unfold PosUnits; decide +kernel) (f' := (addField SP.empty SF.bordered).2.1) (s' := (addField SP.empty SF.bordered).1) rfl, ?_, ?_⟩
  · decide +kernel
  · decide +kernel

end IMT.Spatial
