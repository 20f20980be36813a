import Verif.Vortex.FieldModel
import Verif.Vector.Arith
import Mathlib.Algebra.Group.Prod

/-! Property C280: the vector field of a system of vortices, its units and its mask. -/

namespace IMT.SysField
open VF (sumVec shown)

variable {ax ay : List Rat} {ux uy : Sym}

/-- A custom field tells something at a point. -/
def Custom.Known (c : Custom) (x y : Rat) : Prop := c.fx x y ≠ none ∧ c.fy x y ≠ none

/-- The velocity designated by a custom field at a point where it is known, in metres per second. -/
def Custom.mps (c : Custom) (x y : Rat) : Rat × Rat := ((c.fx x y).getD 0 * c.unit.size, (c.fy x y).getD 0 * c.unit.size)

/-- The numbers given by a custom field at a point where it is known, whatever its unit. -/
def Custom.raw (c : Custom) (x y : Rat) : Rat × Rat := ((c.fx x y).getD 0, (c.fy x y).getD 0)

/-! ### lemmas -/

/-- A field on the wanted axes that shows the function `t`. -/
structure Shows (ax ay : List Rat) (ux uy : Sym) (t : Rat → Rat → Option (Rat × Rat)) (uv : Sym) (g : VF) : Prop where
  wf : g.WF
  hax : g.ax = ax
  hay : g.ay = ay
  hux : g.ux = ux
  huy : g.uy = uy
  huv : g.uv = uv
  reads : ∀ x y r, g.Reads x y r ↔ x ∈ ax ∧ y ∈ ay ∧ r = t x y

theorem fill_get {fn : Rat → Rat → Option Rat} {i j : Nat} {x y : Rat} (hi : ax[i]? = some x) (hj : ay[j]? = some y) :
    (fillGrid ax ay fn).get i j = fn x y := by simp [fillGrid, hi, hj]

theorem import_shows {fx fy : Rat → Rat → Option Rat} {m : VF.MaskArg} {uv : Sym} (hx : Inc ax) (hy : Inc ay) (h2x : 2 ≤ ax.length)
    (h2y : 2 ≤ ay.length) (hm1 : (m.grid ax.length ay.length).nx = ax.length) (hm2 : (m.grid ax.length ay.length).ny = ay.length)
    (hm : ∀ i j x y, ax[i]? = some x → ay[j]? = some y → (m.grid ax.length ay.length).get i j = true → fx x y = none ∨ fy x y = none) :
    ∃ g, VF.importArrays ax ay (fillGrid ax ay fx) (fillGrid ax ay fy) m ux uy uv = .ok g ∧
      Shows ax ay ux uy (fun x y => shown false (fx x y) (fy x y)) uv g := by
  obtain ⟨g, e, w, hr, -⟩ := VF.C111_import_reads_partial (ax := ax) (ay := ay) (cx := fillGrid ax ay fx) (cy := fillGrid ax ay fy)
    (m := m) (ux := ux) (uy := uy) (uv := uv) rfl rfl rfl rfl h2x h2y hm1 hm2 (.inl hx) (.inl hy) (.inl ⟨hx, hy⟩)
  have hd := VF.import_direct (ax := ax) (ay := ay) (cx := fillGrid ax ay fx) (cy := fillGrid ax ay fy) (m := m) (ux := ux) (uy := uy)
    (uv := uv) rfl rfl rfl rfl h2x h2y hm1 hm2
  rw [e] at hd
  have hg := Except.ok.inj hd
  have r1 : SF.isRev ax = false := SF.rev_false hx
  have r2 : SF.isRev ay = false := SF.rev_false hy
  refine ⟨g, e, w, ?_, ?_, ?_, ?_, ?_, ?_⟩
  · rw [hg]; simp [VF.setMask, r1]
  · rw [hg]; simp [VF.setMask, r2]
  · rw [hg]; rfl
  · rw [hg]; rfl
  · rw [hg]; rfl
  intro x y r
  rw [hr]
  have key : ∀ i j, ax[i]? = some x → ay[j]? = some y →
      shown ((m.grid ax.length ay.length).get i j) ((fillGrid ax ay fx).get i j) ((fillGrid ax ay fy).get i j) =
        shown false (fx x y) (fy x y) := by
    intro i j hi hj
    rw [fill_get hi hj, fill_get hi hj]
    cases hmm : (m.grid ax.length ay.length).get i j
    · rfl
    · rcases hm i j x y hi hj hmm with h | h
      · simp [shown, h]
      · simp [shown, h]
  constructor
  · rintro ⟨i, j, hi, hj, rfl⟩
    exact ⟨List.mem_of_getElem? hi, List.mem_of_getElem? hj, key i j hi hj⟩
  · rintro ⟨h1, h2, rfl⟩
    obtain ⟨i, hi⟩ := List.mem_iff_getElem?.1 h1
    obtain ⟨j, hj⟩ := List.mem_iff_getElem?.1 h2
    exact ⟨i, j, hi, hj, (key i j hi hj).symm⟩

theorem vortex_shows (w : Rat → Rat → Rat × Rat) (hx : Inc ax) (hy : Inc ay) (h2x : 2 ≤ ax.length) (h2y : 2 ≤ ay.length) :
    ∃ g, vortexField w ax ay ux uy = .ok g ∧ Shows ax ay ux uy (fun x y => some (w x y)) mps g := by
  have := import_shows (fx := fun x y => some (w x y).1) (fy := fun x y => some (w x y).2) (m := .bool false) (ux := ux) (uy := uy)
    (uv := mps) hx hy h2x h2y rfl rfl (by intro i j x y _ _ h; simp [VF.MaskArg.grid, Grid.const] at h)
  unfold vortexField
  simpa [shown] using this

theorem custom_shows (c : Custom) (hx : Inc ax) (hy : Inc ay) (h2x : 2 ≤ ax.length) (h2y : 2 ≤ ay.length) :
    ∃ g, customField c ax ay ux uy = .ok g ∧ Shows ax ay ux uy (fun x y => shown false (c.fx x y) (c.fy x y)) c.unit g := by
  refine import_shows (m := .array _) hx hy h2x h2y rfl rfl ?_
  intro i j x y hi hj h
  simpa [VF.MaskArg.grid, nanGrid, fill_get hi hj] using h

theorem start_shows (hx : Inc ax) (hy : Inc ay) (h2x : 2 ≤ ax.length) (h2y : 2 ≤ ay.length) :
    ∃ g, start ax ay ux uy = .ok g ∧ Shows ax ay ux uy (fun _ _ => some (0, 0)) mps g := by
  obtain ⟨g, e, w, hr, -⟩ := VF.C111_import_reads_partial (ax := ax) (ay := ay) (cx := Grid.const ax.length ay.length (some 0))
    (cy := Grid.const ax.length ay.length (some 0)) (m := .bool false) (ux := ux) (uy := uy) (uv := mps) rfl rfl rfl rfl h2x h2y rfl rfl
    (.inl hx) (.inl hy) (.inl ⟨hx, hy⟩)
  have hd := VF.import_direct (ax := ax) (ay := ay) (cx := Grid.const ax.length ay.length (some 0))
    (cy := Grid.const ax.length ay.length (some 0)) (m := .bool false) (ux := ux) (uy := uy) (uv := mps) rfl rfl rfl rfl h2x h2y rfl rfl
  rw [e] at hd
  have hg := Except.ok.inj hd
  have r1 : SF.isRev ax = false := SF.rev_false hx
  have r2 : SF.isRev ay = false := SF.rev_false hy
  refine ⟨g, e, w, ?_, ?_, ?_, ?_, ?_, ?_⟩
  · rw [hg]; simp [VF.setMask, r1]
  · rw [hg]; simp [VF.setMask, r2]
  · rw [hg]; rfl
  · rw [hg]; rfl
  · rw [hg]; rfl
  intro x y r
  rw [hr]
  constructor
  · rintro ⟨i, j, hi, hj, rfl⟩
    exact ⟨List.mem_of_getElem? hi, List.mem_of_getElem? hj, rfl⟩
  · rintro ⟨h1, h2, rfl⟩
    obtain ⟨i, hi⟩ := List.mem_iff_getElem?.1 h1
    obtain ⟨j, hj⟩ := List.mem_iff_getElem?.1 h2
    exact ⟨i, j, hi, hj, rfl⟩

theorem mps_size : mps.size = 1 := by decide +kernel

theorem plus_shows {t p : Rat → Rat → Option (Rat × Rat)} {f g : VF} {u : Sym} (hf : Shows ax ay ux uy t mps f)
    (hg : Shows ax ay ux uy p u g) (hc : u.Compat mps) :
    ∃ h, plus (.ok f) (.ok g) = .ok h ∧ Shows ax ay ux uy (fun x y => sumVec u.size (t x y) (p x y)) mps h := by
  have hc' : f.uv.Compat g.uv := by rw [hf.huv, hg.huv]; exact ⟨hc.1.symm, hc.2.1.symm, hc.2.2.symm⟩
  obtain ⟨h, e, w, hr, e1, e2, e3⟩ := VF.C112_add_pointwise hf.wf hg.wf (hf.hax.trans hg.hax.symm) (hf.hay.trans hg.hay.symm) hc'
    (hf.hux.trans hg.hux.symm) (hf.huy.trans hg.huy.symm)
  have hh : h = f.addSame g := by
    unfold VF.add at e
    rw [if_neg (by rw [VF.unitsMatch_true hc' (hf.hux.trans hg.hux.symm) (hf.huy.trans hg.huy.symm)]; simp),
      if_pos ⟨hf.hax.trans hg.hax.symm, hf.hay.trans hg.hay.symm⟩] at e
    exact (Except.ok.inj e).symm
  refine ⟨h, e, w, ?_, ?_, e1.trans hf.hux, e2.trans hf.huy, e3.trans hf.huv, ?_⟩
  · rw [hh]; exact hf.hax
  · rw [hh]; exact hf.hay
  intro x y r
  rw [hr, hf.huv, hg.huv, mps_size, div_one]
  constructor
  · rintro ⟨a, b, ha, hb, rfl⟩
    obtain ⟨h1, h2, rfl⟩ := (hf.reads _ _ _).1 ha
    obtain ⟨-, -, rfl⟩ := (hg.reads _ _ _).1 hb
    exact ⟨h1, h2, rfl⟩
  · rintro ⟨h1, h2, rfl⟩
    exact ⟨_, _, (hf.reads _ _ _).2 ⟨h1, h2, rfl⟩, (hg.reads _ _ _).2 ⟨h1, h2, rfl⟩, rfl⟩

theorem plus_same {f g : VF} (h1 : f.ax = g.ax) (h2 : f.ay = g.ay) (hc : f.uv.Compat g.uv) (h3 : f.ux = g.ux) (h4 : f.uy = g.uy) :
    plus (.ok f) (.ok g) = .ok (f.addSame g) := by
  show f.add g = _
  unfold VF.add
  rw [if_neg (by rw [VF.unitsMatch_true hc h3 h4]; simp), if_pos ⟨h1, h2⟩]

theorem plus_refused {t p : Rat → Rat → Option (Rat × Rat)} {f g : VF} {u : Sym} (hf : Shows ax ay ux uy t mps f)
    (hg : Shows ax ay ux uy p u g) (hc : ¬ u.Compat mps) : plus (.ok f) (.ok g) = .error .valueError := by
  show f.add g = _
  unfold VF.add
  rw [if_pos]
  unfold VF.unitsMatch
  rw [decide_eq_false (by rw [hf.huv, hg.huv]; exact fun h => hc ⟨h.1.symm, h.2.1.symm, h.2.2.symm⟩)]
  rfl

theorem vortices_shows (ws : List (Rat → Rat → Rat × Rat)) (hx : Inc ax) (hy : Inc ay) (h2x : 2 ≤ ax.length) (h2y : 2 ≤ ay.length) :
    ∀ (t : Rat → Rat → Rat × Rat) (f : VF), Shows ax ay ux uy (fun x y => some (t x y)) mps f →
      ∃ g, ws.foldl (fun r w => plus r (vortexField w ax ay ux uy)) (.ok f) = .ok g ∧
        Shows ax ay ux uy (fun x y => some (t x y + (ws.map fun w => w x y).sum)) mps g := by
  induction ws with
  | nil => intro t f hf; exact ⟨f, rfl, by simpa using hf⟩
  | cons w ws ih =>
    intro t f hf
    obtain ⟨g, e, hg⟩ := vortex_shows (ux := ux) (uy := uy) w hx hy h2x h2y
    obtain ⟨h, e', hh⟩ := plus_shows hf hg ⟨rfl, rfl, rfl⟩
    have hh' : Shows ax ay ux uy (fun x y => some (t x y + w x y)) mps h := by
      have : (fun x y => sumVec mps.size (some (t x y)) (some (w x y))) = fun x y => some (t x y + w x y) := by
        funext x y; simp [sumVec, mps_size, Prod.ext_iff]
      rw [← this]; exact hh
    obtain ⟨k, e2, hk⟩ := ih (fun x y => t x y + w x y) h hh'
    refine ⟨k, ?_, ?_⟩
    · rw [List.foldl_cons, e, e', e2]
    · simpa [add_assoc] using hk

open Classical in
theorem customs_shows (cs : List Custom) (hx : Inc ax) (hy : Inc ay) (h2x : 2 ≤ ax.length) (h2y : 2 ≤ ay.length)
    (hc : ∀ c ∈ cs, c.unit.Compat mps) :
    ∀ (t : Rat → Rat → Option (Rat × Rat)) (f : VF), Shows ax ay ux uy t mps f →
      ∃ g, cs.foldl (fun r c => plus r (customField c ax ay ux uy)) (.ok f) = .ok g ∧
        Shows ax ay ux uy (fun x y => if ∀ c ∈ cs, c.Known x y then (t x y).map (· + (cs.map fun c => c.mps x y).sum) else none)
          mps g := by
  induction cs with
  | nil => intro t f hf; exact ⟨f, rfl, by simpa using hf⟩
  | cons c cs ih =>
    intro t f hf
    obtain ⟨g, e, hg⟩ := custom_shows (ux := ux) (uy := uy) c hx hy h2x h2y
    obtain ⟨h, e', hh⟩ := plus_shows hf hg (hc c (by simp))
    obtain ⟨k, e2, hk⟩ := ih (fun d hd => hc d (by simp [hd])) _ h hh
    refine ⟨k, ?_, ?_⟩
    · rw [List.foldl_cons, e, e', e2]
    · have : (fun x y => if ∀ c ∈ cs, c.Known x y then
            (sumVec c.unit.size (t x y) (shown false (c.fx x y) (c.fy x y))).map (· + (cs.map fun c => c.mps x y).sum) else none) =
          fun x y => if ∀ d ∈ c :: cs, d.Known x y then (t x y).map (· + ((c :: cs).map fun c => c.mps x y).sum) else none := by
        funext x y
        by_cases hk : c.Known x y
        · simp only [List.forall_mem_cons, hk, true_and, List.map_cons, List.sum_cons]
          obtain ⟨k1, k2⟩ := hk
          obtain ⟨u, hu⟩ := Option.ne_none_iff_exists'.1 k1
          obtain ⟨v, hv⟩ := Option.ne_none_iff_exists'.1 k2
          split
          · cases t x y <;> simp [shown, sumVec, Custom.mps, hu, hv, Prod.ext_iff, add_assoc]
          · rfl
        · simp only [List.forall_mem_cons, hk, false_and, if_false]
          have hs : shown false (c.fx x y) (c.fy x y) = none := by
            unfold Custom.Known at hk
            unfold shown
            cases h1 : c.fx x y <;> cases h2 : c.fy x y <;> simp [h1, h2] at hk ⊢
          rw [hs]
          cases t x y <;> simp [sumVec]
      rw [← this]; exact hk

theorem customs_refused (cs : List Custom) (hx : Inc ax) (hy : Inc ay) (h2x : 2 ≤ ax.length) (h2y : 2 ≤ ay.length) {c : Custom}
    (hm : c ∈ cs) (hc : ¬ c.unit.Compat mps) :
    ∀ (t : Rat → Rat → Option (Rat × Rat)) (f : VF), Shows ax ay ux uy t mps f →
      cs.foldl (fun r c => plus r (customField c ax ay ux uy)) (.ok f) = .error .valueError := by
  have herr : ∀ l : List Custom, l.foldl (fun r c => plus r (customField c ax ay ux uy)) (.error .valueError) = .error .valueError := by
    intro l
    induction l with
    | nil => rfl
    | cons d l ih => rw [List.foldl_cons]; exact ih
  induction cs with
  | nil => simp at hm
  | cons d cs ih =>
    intro t f hf
    obtain ⟨g, e, hg⟩ := custom_shows (ux := ux) (uy := uy) d hx hy h2x h2y
    by_cases hd : d.unit.Compat mps
    · obtain ⟨h, e', hh⟩ := plus_shows hf hg hd
      rcases List.mem_cons.1 hm with rfl | hm'
      · exact absurd hd hc
      · rw [List.foldl_cons, e, e']; exact ih hm' _ h hh
    · rw [List.foldl_cons, e, plus_refused hf hg hd]; exact herr cs

theorem foldl_nan (l : List Custom) (f : Custom → Option Rat) (a : Rat) (h : ∀ c ∈ l, f c ≠ none) :
    l.foldl (fun a c => nanOp (· + ·) a (f c)) (some a) = some (a + (l.map fun c => (f c).getD 0).sum) := by
  induction l generalizing a with
  | nil => simp
  | cons c l ih =>
    obtain ⟨u, hu⟩ := Option.ne_none_iff_exists'.1 (h c (by simp))
    rw [List.foldl_cons, hu]
    show l.foldl _ (some (a + u)) = _
    rw [ih _ fun d hd => h d (by simp [hd])]
    simp [hu, add_assoc]

theorem sum_fst {α : Type} (l : List α) (f : α → Rat × Rat) : (l.map f).sum.1 = (l.map fun a => (f a).1).sum := by
  induction l <;> simp [*]
theorem sum_snd {α : Type} (l : List α) (f : α → Rat × Rat) : (l.map f).sum.2 = (l.map fun a => (f a).2).sum := by
  induction l <;> simp [*]

/-! ### C280 -/

/-- C280: on increasing axes of at least two points, when the custom fields are all given in units of velocity, the vector field
of a system exists, is on the axes asked, in metres per second; at each point of the grid it shows, where every custom field is known,
the sum of the velocities of the vortices, of their images and of the custom fields, all in metres per second, and it is masked where
a custom field is not known, and nowhere else. -/
theorem C280_field (s : System) (hx : Inc ax) (hy : Inc ay) (h2x : 2 ≤ ax.length) (h2y : 2 ≤ ay.length)
    (hc : ∀ c ∈ s.customs, c.unit.Compat mps) :
    ∃ g, s.field ax ay ux uy = .ok g ∧ g.WF ∧ g.ax = ax ∧ g.ay = ay ∧ g.ux = ux ∧ g.uy = uy ∧ g.uv = mps ∧
      (∀ x ∈ ax, ∀ y ∈ ay, (∀ c ∈ s.customs, c.Known x y) →
        g.Reads x y (some ((s.vortices.map fun w => w x y).sum + (s.customs.map fun c => c.mps x y).sum))) ∧
      (∀ x ∈ ax, ∀ y ∈ ay, (g.Reads x y none ↔ ∃ c ∈ s.customs, ¬ c.Known x y)) := by
  obtain ⟨g0, e0, h0⟩ := start_shows (ux := ux) (uy := uy) hx hy h2x h2y
  obtain ⟨g1, e1, h1⟩ := vortices_shows s.vortices hx hy h2x h2y (fun _ _ => (0, 0)) g0 h0
  obtain ⟨g2, e2, h2⟩ := customs_shows s.customs hx hy h2x h2y hc _ g1 h1
  have e : s.field ax ay ux uy = .ok g2 := by unfold System.field; rw [e0, e1, e2]
  refine ⟨g2, e, h2.wf, h2.hax, h2.hay, h2.hux, h2.huy, h2.huv, ?_, ?_⟩
  · intro x mx y my hk
    rw [h2.reads]
    refine ⟨mx, my, ?_⟩
    rw [if_pos hk]
    have : ((0, 0) : Rat × Rat) = 0 := rfl
    simp [this]
  · intro x mx y my
    rw [h2.reads]
    constructor
    · rintro ⟨-, -, h⟩
      by_contra hn
      push Not at hn
      rw [if_pos hn] at h
      simp at h
    · rintro ⟨c, hm, hk⟩
      exact ⟨mx, my, by rw [if_neg fun h => hk (h c hm)]⟩

/-- C280: where the field of a system shows a vector, the velocity returned for the same position is short of the numbers of the
custom fields counted in a wrong unit: the two agree when the custom fields are given in metres per second. -/
theorem C280_vector_partial (s : System) (hx : Inc ax) (hy : Inc ay) (h2x : 2 ≤ ax.length) (h2y : 2 ≤ ay.length)
    (hc : ∀ c ∈ s.customs, c.unit = mps) {g : VF} (e : s.field ax ay ux uy = .ok g) {x y : Rat} {r : Rat × Rat}
    (hr : g.Reads x y (some r)) : s.vector x y = (some r.1, some r.2) := by
  obtain ⟨g', e', w, hax, hay, -, -, -, hs, hn⟩ := C280_field (ux := ux) (uy := uy) s hx hy h2x h2y
    (fun c hm => by rw [hc c hm]; exact ⟨rfl, rfl, rfl⟩)
  obtain rfl : g' = g := by rw [e] at e'; exact (Except.ok.inj e').symm
  have mx : x ∈ ax := by obtain ⟨i, j, hi, hj, -⟩ := hr; rw [← hax]; exact List.mem_of_getElem? hi
  have my : y ∈ ay := by obtain ⟨i, j, hi, hj, -⟩ := hr; rw [← hay]; exact List.mem_of_getElem? hj
  have hk : ∀ c ∈ s.customs, c.Known x y := by
    by_contra hk
    push Not at hk
    have := VF.Reads.unique w hr ((hn x mx y my).2 hk)
    cases this
  have := VF.Reads.unique w hr (hs x mx y my hk)
  have hr' := Option.some.inj this
  unfold System.vector
  rw [foldl_nan s.customs (fun c => c.fx x y) _ fun c hm => (hk c hm).1, foldl_nan s.customs (fun c => c.fy x y) _ fun c hm => (hk c hm).2]
  have m1 : s.customs.map (fun c => (c.mps x y).1) = s.customs.map fun c => (c.fx x y).getD 0 :=
    List.map_congr_left fun c hm => by simp [Custom.mps, hc c hm, mps_size]
  have m2 : s.customs.map (fun c => (c.mps x y).2) = s.customs.map fun c => (c.fy x y).getD 0 :=
    List.map_congr_left fun c hm => by simp [Custom.mps, hc c hm, mps_size]
  rw [hr', Prod.fst_add, Prod.snd_add, sum_fst, sum_snd, sum_fst, sum_snd, m1, m2]

/-- C280 fails for the velocity at a position: it adds the numbers of the custom fields whatever their units.  For every system whose
custom fields are known at a point, all in units of velocity, it differs from the vector shown there by the field by the sum over the
custom fields of their numbers times one minus the size of their unit. -/
theorem C280_unit_violated (s : System) (hx : Inc ax) (hy : Inc ay) (h2x : 2 ≤ ax.length) (h2y : 2 ≤ ay.length)
    (hc : ∀ c ∈ s.customs, c.unit.Compat mps) {x y : Rat} (mx : x ∈ ax) (my : y ∈ ay) (hk : ∀ c ∈ s.customs, c.Known x y) :
    ∃ g r a b, s.field ax ay ux uy = .ok g ∧ g.Reads x y (some r) ∧ s.vector x y = (some a, some b) ∧
      a - r.1 = (s.customs.map fun c => (c.raw x y).1 * (1 - c.unit.size)).sum ∧
      b - r.2 = (s.customs.map fun c => (c.raw x y).2 * (1 - c.unit.size)).sum := by
  obtain ⟨g, e, w, -, -, -, -, -, hs, -⟩ := C280_field (ux := ux) (uy := uy) s hx hy h2x h2y hc
  refine ⟨g, _, (s.vortices.map fun w => (w x y).1).sum + (s.customs.map fun c => (c.fx x y).getD 0).sum,
    (s.vortices.map fun w => (w x y).2).sum + (s.customs.map fun c => (c.fy x y).getD 0).sum, e, hs x mx y my hk, ?_, ?_, ?_⟩
  · unfold System.vector
    rw [foldl_nan s.customs (fun c => c.fx x y) _ fun c hm => (hk c hm).1,
      foldl_nan s.customs (fun c => c.fy x y) _ fun c hm => (hk c hm).2]
  all_goals
    simp only [Prod.fst_add, Prod.snd_add, sum_fst, sum_snd, Custom.mps, Custom.raw]
    have hl : ∀ (l : List Custom) (f : Custom → Rat), (l.map f).sum - (l.map fun c => f c * c.unit.size).sum =
        (l.map fun c => f c * (1 - c.unit.size)).sum := by
      intro l f
      induction l with
      | nil => simp
      | cons c l ih => simp only [List.map_cons, List.sum_cons]; rw [← ih]; ring
    rw [← hl]; ring

/-- C280: the field of a system is refused as soon as one custom field is not given in a unit of velocity, while the velocity at each
position is returned. -/
theorem C280_refused_violated (s : System) (hx : Inc ax) (hy : Inc ay) (h2x : 2 ≤ ax.length) (h2y : 2 ≤ ay.length)
    {c : Custom} (hm : c ∈ s.customs) (hc : ¬ c.unit.Compat mps) {x y : Rat} (hk : ∀ c ∈ s.customs, c.Known x y) :
    s.field ax ay ux uy = .error .valueError ∧ ∃ a b, s.vector x y = (some a, some b) := by
  obtain ⟨g0, e0, h0⟩ := start_shows (ux := ux) (uy := uy) hx hy h2x h2y
  obtain ⟨g1, e1, h1⟩ := vortices_shows s.vortices hx hy h2x h2y (fun _ _ => (0, 0)) g0 h0
  refine ⟨?_, (s.vortices.map fun w => (w x y).1).sum + (s.customs.map fun c => (c.fx x y).getD 0).sum,
    (s.vortices.map fun w => (w x y).2).sum + (s.customs.map fun c => (c.fy x y).getD 0).sum, ?_⟩
  · unfold System.field; rw [e0, e1]; exact customs_refused s.customs hx hy h2x h2y hm hc _ g1 h1
  · unfold System.vector
    rw [foldl_nan s.customs (fun c => c.fx x y) _ fun c hm => (hk c hm).1,
      foldl_nan s.customs (fun c => c.fy x y) _ fun c hm => (hk c hm).2]

/-- C280: a custom field made without a unit is dimensionless, hence refused by the field of every system it is added to. -/
theorem C280_default_violated (s : System) (hx : Inc ax) (hy : Inc ay) (h2x : 2 ≤ ax.length) (h2y : 2 ≤ ay.length)
    {c : Custom} (hm : c ∈ s.customs) (hu : c.unit = Sym.one) : s.field ax ay ux uy = .error .valueError := by
  obtain ⟨g0, e0, h0⟩ := start_shows (ux := ux) (uy := uy) hx hy h2x h2y
  obtain ⟨g1, e1, h1⟩ := vortices_shows s.vortices hx hy h2x h2y (fun _ _ => (0, 0)) g0 h0
  unfold System.field; rw [e0, e1]
  exact customs_refused s.customs hx hy h2x h2y hm (by rw [hu]; decide +kernel) _ g1 h1

/-- C280 fails on a decreasing x axis: at a point where the custom field of a system is known, the field of the system is masked as
soon as the custom field is not known at the point of the grid of symmetric rank. -/
theorem C280_reversed_violated (c : Custom) (hx : Inc ax.reverse) (hy : Inc ay) (h2x : 2 ≤ ax.length) (h2y : 2 ≤ ay.length)
    (hc : c.unit.Compat mps) {i j : Nat} {x x' y : Rat} (hi : ax[i]? = some x) (hi' : ax[ax.length - 1 - i]? = some x')
    (hj : ay[j]? = some y) (hk : c.Known x y) (hn : ¬ c.Known x' y) :
    c.Known x y ∧ ∃ g, (System.mk [] [c]).field ax ay ux uy = .ok g ∧ g.Reads x y none := by
  refine ⟨hk, ?_⟩
  have r1 : SF.isRev ax = true := SF.rev_true hx h2x
  have r2 : SF.isRev ay = false := SF.rev_false hy
  have il := getElem?_some_lt hi
  have e0 := VF.import_direct (ax := ax) (ay := ay) (cx := Grid.const ax.length ay.length (some 0))
    (cy := Grid.const ax.length ay.length (some 0)) (m := .bool false) (ux := ux) (uy := uy) (uv := mps) rfl rfl rfl rfl h2x h2y rfl rfl
  have e1 := VF.import_direct (ax := ax) (ay := ay) (cx := fillGrid ax ay c.fx) (cy := fillGrid ax ay c.fy)
    (m := .array (nanGrid (fillGrid ax ay c.fx) (fillGrid ax ay c.fy))) (ux := ux) (uy := uy) (uv := c.unit) rfl rfl rfl rfl h2x h2y rfl rfl
  have e : (System.mk [] [c]).field ax ay ux uy = plus (start ax ay ux uy) (customField c ax ay ux uy) := rfl
  unfold start customField at e
  rw [e0, e1] at e
  refine ⟨_, e.trans (plus_same rfl rfl ⟨hc.1.symm, hc.2.1.symm, hc.2.2.symm⟩ rfl rfl), ?_⟩
  · refine ⟨ax.length - 1 - i, j, ?_, ?_, ?_⟩
    · simp only [VF.addSame, VF.setMask, r1, if_true]
      rw [List.getElem?_reverse (by omega), show ax.length - 1 - (ax.length - 1 - i) = i by omega, hi]
    · simp only [VF.addSame, VF.setMask, r2, Bool.false_eq_true, if_false]; exact hj
    · apply VF.cell_masked
      have hx' : ((fillGrid ax ay c.fx).get (ax.length - 1 - i) j).isNone || ((fillGrid ax ay c.fy).get (ax.length - 1 - i) j).isNone := by
        rw [fill_get hi' hj, fill_get hi' hj]
        unfold Custom.Known at hn
        cases h1 : c.fx x' y <;> cases h2 : c.fy x' y <;> simp [h1, h2] at hn ⊢
      simp only [VF.addSame, VF.setMask, VF.nanMask, VF.MaskArg.grid, nanGrid, hx', Bool.true_or, Bool.or_true]

/-! ### examples -/

/-- A system: a solid rotation, and a uniform flow in centimetres per second known on one side only. -/
def sample : System :=
  ⟨[fun x y => (-y, x)], [⟨fun x _ => if x < 2 then some 50 else none, fun _ _ => some 0, Sym.cm.div Sym.s⟩]⟩

example : ∃ g, sample.field [0, 1, 2] [0, 3] Sym.m Sym.m = .ok g ∧ g.Reads 1 3 (some (-5 / 2, 1)) ∧ g.Reads 2 3 none ∧
    sample.vector 1 3 = (some 47, some 1) := by
  obtain ⟨g, e, -, -, -, -, -, -, hs, hn⟩ := C280_field (ax := [0, 1, 2]) (ay := [0, 3]) (ux := Sym.m) (uy := Sym.m) sample
    (by decide +kernel) (by decide +kernel) (by decide) (by decide) (by decide +kernel)
  refine ⟨g, e, ?_, ?_, by decide +kernel⟩
  · have := hs 1 (by decide) 3 (by decide) (by unfold Custom.Known; decide +kernel)
    convert this using 2
    decide +kernel
  · refine (hn 2 (by decide) 3 (by decide)).2 ⟨_, List.mem_singleton.2 rfl, ?_⟩
    unfold Custom.Known; decide +kernel

example : (System.mk [fun x y => (-y, x)] [⟨fun _ _ => some 1, fun _ _ => some 0, Sym.one⟩]).field [0, 1] [0, 1] Sym.m Sym.m =
    .error .valueError :=
  C280_default_violated _ (by decide +kernel) (by decide +kernel) (by decide) (by decide) (List.mem_singleton.2 rfl) rfl

example : ∃ g, (System.mk [] [⟨fun x _ => if x < 2 then some 50 else none, fun _ _ => some 0, mps⟩]).field [2, 1, 0] [0, 3] Sym.m Sym.m =
    .ok g ∧ g.Reads 0 3 none :=
  (C280_reversed_violated _ (by decide +kernel) (by decide +kernel) (by decide) (by decide) ⟨rfl, rfl, rfl⟩ (i := 2) (j := 1)
    (x := 0) (x' := 2) (y := 3) rfl rfl rfl (by unfold Custom.Known; decide +kernel) (by unfold Custom.Known; decide +kernel)).2

end IMT.SysField
