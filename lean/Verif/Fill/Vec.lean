import Verif.Fill.Props
import Verif.Turb.Lemmas

/-! C250: filling of vector fields. -/

namespace IMT.Fill

open Mirror (compX compY IsComp)

variable {f : VF}

/-! ### specification -/

/-- The field `g` shows the vectors of `f` where it shows one, and a vector everywhere. -/
structure VFills (f g : VF) : Prop where
  wf : g.WF
  ax : g.ax = f.ax
  ay : g.ay = f.ay
  keep : ∀ x y w, f.Reads x y (some w) → g.Reads x y (some w)
  all : ∀ x y, ¬ g.Reads x y none
  ux : g.ux = f.ux
  uy : g.uy = f.uy
  uv : g.uv = f.uv

/-- `(x', y')` is a visible point of `f` at the smallest distance of `(x, y)`, with the vector `w`. -/
def VNearest (f : VF) (x y x' y' : Rat) (w : Rat × Rat) : Prop :=
  f.Reads x' y' (some w) ∧ ∀ x'' y'' w', f.Reads x'' y'' (some w') → dist2 x y x' y' ≤ dist2 x y x'' y''

/-- `(x, y)` is between two visible points of its line or of its column. -/
def VBetween (f : VF) (x y : Rat) : Prop :=
  (∃ a b u v, a < x ∧ x < b ∧ f.Reads a y (some u) ∧ f.Reads b y (some v)) ∨
    ∃ a b u v, a < y ∧ y < b ∧ f.Reads x a (some u) ∧ f.Reads x b (some v)

/-! ### components -/

theorem comp_reads {s : SF} {π : Rat × Rat → Rat} (h : IsComp s f π) (x y : Rat) (r : Option Rat) :
    s.Reads x y r ↔ ∃ w, f.Reads x y w ∧ r = w.map π := by
  constructor
  · rintro ⟨i, j, hi, hj, rfl⟩
    rw [h.ax] at hi; rw [h.ay] at hj
    exact ⟨_, ⟨i, j, hi, hj, rfl⟩, h.cell i j (getElem?_some_lt hi) (getElem?_some_lt hj)⟩
  · rintro ⟨w, ⟨i, j, hi, hj, rfl⟩, rfl⟩
    exact ⟨i, j, by rw [h.ax]; exact hi, by rw [h.ay]; exact hj, h.cell i j (getElem?_some_lt hi) (getElem?_some_lt hj)⟩

theorem comp_none {s : SF} {π : Rat × Rat → Rat} (h : IsComp s f π) {x y : Rat} : s.Reads x y none ↔ f.Reads x y none := by
  rw [comp_reads h]
  constructor
  · rintro ⟨w, h1, h2⟩
    cases w with
    | none => exact h1
    | some w => cases h2
  · exact fun h1 => ⟨none, h1, rfl⟩

theorem comp_some {s : SF} {π : Rat × Rat → Rat} (h : IsComp s f π) {x y v : Rat} : s.Reads x y (some v) ↔ ∃ w, f.Reads x y (some w) ∧ π w = v := by
  rw [comp_reads h]
  constructor
  · rintro ⟨w, h1, h2⟩
    cases w with
    | none => cases h2
    | some w => exact ⟨w, h1, by simpa using h2.symm⟩
  · rintro ⟨w, h1, h2⟩
    exact ⟨some w, h1, by simp [h2]⟩

theorem comps (hf : f.WF) (hx : 2 ≤ f.ax.length) (hy : 2 ≤ f.ay.length) :
    ∃ sx sy, compX f = .ok sx ∧ compY f = .ok sy ∧ IsComp sx f Prod.fst ∧ IsComp sy f Prod.snd := by
  obtain ⟨sx, e1⟩ : ∃ s, compX f = .ok s := Turb.import_defined hx hy
  obtain ⟨sy, e2⟩ : ∃ s, compY f = .ok s := Turb.import_defined hx hy
  exact ⟨sx, sy, e1, e2, Mirror.compX_ok hf e1, Mirror.compY_ok hf e2⟩

/-- The vector field made of two filled components. -/
theorem vfill_ok (s : Scipy) {kx ky : Kind} {red : Bool} (hf : f.WF) {sx sy : SF} (ex : compX f = .ok sx) (ey : compY f = .ok sy)
    (cx : IsComp sx f Prod.fst) (cy : IsComp sy f Prod.snd) {px py : SF × SF} (hx : fillCopy s kx red sx = .ok px)
    (hy : fillCopy s ky red sy = .ok py) (fx : Fills sx px.2) (fy : Fills sy py.2) :
    ∃ g, vfill s kx ky red f = .ok g ∧ VFills f g ∧
      ∀ x y u v, g.Reads x y (some (u, v)) ↔ px.2.Reads x y (some u) ∧ py.2.Reads x y (some v) := by
  have ax : px.2.ax = f.ax := fx.ax.trans cx.ax
  have ay : px.2.ay = f.ay := fx.ay.trans cx.ay
  have bx : py.2.ax = f.ax := fy.ax.trans cy.ax
  have by' : py.2.ay = f.ay := fy.ay.trans cy.ay
  have hcx : ∀ i j, i < f.ax.length → j < f.ay.length → ∃ u, px.2.cell i j = some u := by
    intro i j hi hj
    cases e : px.2.cell i j with
    | none => exact absurd ⟨i, j, by rw [ax]; exact List.getElem?_eq_getElem hi, by rw [ay]; exact List.getElem?_eq_getElem hj, e⟩ (fx.all f.ax[i] f.ay[j])
    | some u => exact ⟨u, rfl⟩
  have hcy : ∀ i j, i < f.ax.length → j < f.ay.length → ∃ u, py.2.cell i j = some u := by
    intro i j hi hj
    cases e : py.2.cell i j with
    | none => exact absurd ⟨i, j, by rw [bx]; exact List.getElem?_eq_getElem hi, by rw [by']; exact List.getElem?_eq_getElem hj, e⟩ (fy.all f.ax[i] f.ay[j])
    | some u => exact ⟨u, rfl⟩
  refine ⟨{ f with cx := px.2.values, cy := py.2.values, mask := Grid.const f.ax.length f.ay.length false }, ?_, ?_⟩
  · unfold vfill
    simp only [ex, ey, hx, hy]
    rw [if_neg]
    rw [fx.wf.vx, fx.wf.vy, fy.wf.vx, fy.wf.vy, ax, ay, bx, by']
    simp
  · set g : VF := { f with cx := px.2.values, cy := py.2.values, mask := Grid.const f.ax.length f.ay.length false } with hg
    have hcell : ∀ i j u v, px.2.cell i j = some u → py.2.cell i j = some v → g.cell i j = some (u, v) := by
      intro i j u v h1 h2
      exact VF.cell_some rfl h1 h2
    have hreads : ∀ x y u v, g.Reads x y (some (u, v)) ↔ px.2.Reads x y (some u) ∧ py.2.Reads x y (some v) := by
      intro x y u v
      constructor
      · rintro ⟨i, j, hi, hj, hc⟩
        obtain ⟨u', hu⟩ := hcx i j (getElem?_some_lt hi) (getElem?_some_lt hj)
        obtain ⟨v', hv⟩ := hcy i j (getElem?_some_lt hi) (getElem?_some_lt hj)
        rw [hcell i j u' v' hu hv] at hc
        cases hc
        exact ⟨⟨i, j, by rw [ax]; exact hi, by rw [ay]; exact hj, hu⟩, ⟨i, j, by rw [bx]; exact hi, by rw [by']; exact hj, hv⟩⟩
      · rintro ⟨⟨i, j, hi, hj, hc⟩, ⟨i', j', hi', hj', hc'⟩⟩
        rw [ax] at hi; rw [ay] at hj; rw [bx] at hi'; rw [by'] at hj'
        have e1 := hf.incx.idx_inj hi' hi
        have e2 := hf.incy.idx_inj hj' hj
        subst e1; subst e2
        exact ⟨i', j', hi, hj, hcell _ _ _ _ hc hc'⟩
    refine ⟨⟨⟨hf.incx, hf.incy, hf.nex, hf.ney, ?_, ?_, ?_, ?_, rfl, rfl, ?_, ?_⟩, rfl, rfl, ?_, ?_, rfl, rfl, rfl⟩, hreads⟩
    · show px.2.val.nx = _; rw [fx.wf.vx, ax]
    · show px.2.val.ny = _; rw [fx.wf.vy, ay]
    · show py.2.val.nx = _; rw [fy.wf.vx, bx]
    · show py.2.val.ny = _; rw [fy.wf.vy, by']
    · intro i j hi hj h
      obtain ⟨u, hu⟩ := hcx i j hi hj
      rw [show px.2.cell i j = none from h] at hu; cases hu
    · intro i j hi hj h
      obtain ⟨u, hu⟩ := hcy i j hi hj
      rw [show py.2.cell i j = none from h] at hu; cases hu
    · rintro x y ⟨u, v⟩ hr
      rw [hreads]
      exact ⟨fx.keep x y u ((comp_some cx).2 ⟨_, hr, rfl⟩), fy.keep x y v ((comp_some cy).2 ⟨_, hr, rfl⟩)⟩
    · rintro x y ⟨i, j, hi, hj, hc⟩
      obtain ⟨u, hu⟩ := hcx i j (getElem?_some_lt hi) (getElem?_some_lt hj)
      obtain ⟨v, hv⟩ := hcy i j (getElem?_some_lt hi) (getElem?_some_lt hj)
      rw [hcell i j u v hu hv] at hc
      cases hc

/-- The two components have the same nodes. -/
theorem good_same {sx sy : SF} (hf : f.WF) (cx : IsComp sx f Prod.fst) (cy : IsComp sy f Prod.snd) (red : Bool) : good sx red = good sy red := by
  have hm : ∀ {s : SF} {π : Rat × Rat → Rat}, IsComp s f π → ∀ i j, i < f.ax.length → j < f.ay.length → s.mask.get i j = (f.cell i j).isNone := by
    intro s π c i j hi hj
    rw [mask_of_cell c.wf (by rw [c.ax]; exact hi) (by rw [c.ay]; exact hj), c.cell i j hi hj, Option.isNone_map]
  have hp : sx.indexPairs = sy.indexPairs := by
    unfold SF.indexPairs
    rw [cx.ax, cx.ay, cy.ax, cy.ay]
  have hmem : ∀ q ∈ sy.indexPairs, q.1 < f.ax.length ∧ q.2 < f.ay.length := by
    intro q hq
    rw [mem_pairs, cy.ax, cy.ay] at hq
    exact hq
  have hd : ∀ i j, dilated sx i j = dilated sy i j := by
    intro i j
    rw [Bool.eq_iff_iff, dilated_iff, dilated_iff, cx.ax, cx.ay, cy.ax, cy.ay]
    constructor
    · rintro ⟨a, b, h1, h2, h3, h4⟩
      exact ⟨a, b, h1, h2, by rw [hm cy a b h1 h2, ← hm cx a b h1 h2]; exact h3, h4⟩
    · rintro ⟨a, b, h1, h2, h3, h4⟩
      exact ⟨a, b, h1, h2, by rw [hm cx a b h1 h2, ← hm cy a b h1 h2]; exact h3, h4⟩
  unfold good
  rw [hp]
  apply List.filter_congr
  intro q hq
  obtain ⟨h1, h2⟩ := hmem q hq
  rw [hm cx _ _ h1 h2, hm cy _ _ h1 h2, hd]

/-! ### C250 -/

/-- **C250** `fill(kind='nearest')` of a vector field: the visible vectors stay, and each masked point gets the whole vector of a visible point at the
smallest distance. -/
theorem C250_nearest {s : Scipy} (hs : s.Ok) (red : Bool) (hf : f.WF) (hx : 2 ≤ f.ax.length) (hy : 2 ≤ f.ay.length) {a b : Rat} {c : Rat × Rat}
    (h : f.Reads a b (some c)) :
    ∃ g, vfill s .nearest .nearest red f = .ok g ∧ VFills f g ∧
      ∀ x y, f.Reads x y none → ∃ x' y' w, VNearest f x y x' y' w ∧ g.Reads x y (some w) := by
  obtain ⟨sx, sy, ex, ey, cx, cy⟩ := comps hf hx hy
  have hvx : sx.Reads a b (some c.1) := (comp_some cx).2 ⟨c, h, rfl⟩
  have hvy : sy.Reads a b (some c.2) := (comp_some cy).2 ⟨c, h, rfl⟩
  have kx : sx.anyMasked = true → interp s (nodes sx red) .nearest = .ok (nearest s (nodes sx red)) := by
    intro hm
    obtain ⟨x, y, hr⟩ := reads_of_any cx.wf hm
    simp only [interp]
    rw [if_neg (nearest_ok hs cx.wf red hr hvx).1]
  have ky : sy.anyMasked = true → interp s (nodes sy red) .nearest = .ok (nearest s (nodes sy red)) := by
    intro hm
    obtain ⟨x, y, hr⟩ := reads_of_any cy.wf hm
    simp only [interp]
    rw [if_neg (nearest_ok hs cy.wf red hr hvy).1]
  obtain ⟨srcx, gx, e1, -, f1⟩ := (both_ok s .nearest red cx.wf kx).2 (by rw [cx.ax]; exact hx) (by rw [cx.ay]; exact hy)
  obtain ⟨srcy, gy, e2, -, f2⟩ := (both_ok s .nearest red cy.wf ky).2 (by rw [cy.ax]; exact hx) (by rw [cy.ay]; exact hy)
  obtain ⟨g, h1, h2, h3⟩ := vfill_ok s hf ex ey cx cy e1 e2 f1.1 f2.1
  refine ⟨g, h1, h2, fun x y hr => ?_⟩
  have rx := (comp_none cx).2 hr
  have ry := (comp_none cy).2 hr
  obtain ⟨-, x', y', u, k, n1, n2, n3, n4⟩ := nearest_ok hs cx.wf red rx hvx
  obtain ⟨-, x'', y'', v, k', m1, m2, m3, m4⟩ := nearest_ok hs cy.wf red ry hvy
  -- the same node of both
  have hg := good_same hf cx cy red
  have hco : (nodes sx red).map (fun n => (n.x, n.y)) = (nodes sy red).map fun n => (n.x, n.y) := by
    unfold nodes
    rw [List.map_map, List.map_map, hg]
    apply List.map_congr_left
    intro q _
    simp [node, cx.ax, cx.ay, cy.ax, cy.ay]
  have hk : k = k' := by rw [n2, m2, hco]
  have hxy : x' = x'' ∧ y' = y'' := by
    have a1 := congrArg (fun o => o.map fun n : Node => (n.x, n.y)) n3
    have a2 := congrArg (fun o => o.map fun n : Node => (n.x, n.y)) m3
    simp only [Option.map_some] at a1 a2
    rw [← List.getElem?_map] at a1 a2
    rw [hco, hk, a2] at a1
    simp only [Option.some.injEq, Prod.mk.injEq] at a1
    exact ⟨a1.1.symm, a1.2.symm⟩
  obtain ⟨rfl, rfl⟩ := hxy
  obtain ⟨w, hw, hw1⟩ := (comp_some cx).1 n1.1
  obtain ⟨w', hw', hw2⟩ := (comp_some cy).1 m1.1
  have : w = w' := Option.some.inj (hw.unique hf hw')
  subst this
  refine ⟨x', y', w, ⟨hw, fun p q w' hp => n1.2 p q w'.1 ((comp_some cx).2 ⟨w', hp, rfl⟩)⟩, ?_⟩
  obtain ⟨w1, w2⟩ := w
  simp only at hw1 hw2
  subst hw1; subst hw2
  rw [h3]
  refine ⟨?_, ?_⟩
  · have := f1.2 x y rx
    rw [n4] at this; exact this
  · have := f2.2 x y ry
    rw [m4] at this; exact this

/-- **C250** A given vector is given to the masked points. -/
theorem C250_value (s : Scipy) (red : Bool) (hf : f.WF) (hx : 2 ≤ f.ax.length) (hy : 2 ≤ f.ay.length) (a b : Rat) :
    ∃ g, vfill s (.value a) (.value b) red f = .ok g ∧ VFills f g ∧ ∀ x y, f.Reads x y none → g.Reads x y (some (a, b)) := by
  obtain ⟨sx, sy, ex, ey, cx, cy⟩ := comps hf hx hy
  obtain ⟨srcx, gx, e1, -, f1, v1⟩ := (C249_value s red cx.wf a).2 (by rw [cx.ax]; exact hx) (by rw [cx.ay]; exact hy)
  obtain ⟨srcy, gy, e2, -, f2, v2⟩ := (C249_value s red cy.wf b).2 (by rw [cy.ax]; exact hx) (by rw [cy.ay]; exact hy)
  obtain ⟨g, h1, h2, h3⟩ := vfill_ok s hf ex ey cx cy e1 e2 f1 f2
  exact ⟨g, h1, h2, fun x y hr => (h3 x y a b).2 ⟨v1 x y ((comp_none cx).2 hr), v2 x y ((comp_none cy).2 hr)⟩⟩

theorem flat_coords {ns ms : List Node} (h : ns.map (fun n => (n.x, n.y)) = ms.map fun n => (n.x, n.y)) (hf : Flat ns) : Flat ms := by
  obtain ⟨a, b, c, h0, h1⟩ := hf
  refine ⟨a, b, c, h0, fun m hm => ?_⟩
  have : (m.x, m.y) ∈ ns.map fun n => (n.x, n.y) := by rw [h]; exact List.mem_map_of_mem hm
  obtain ⟨n, hn, e⟩ := List.mem_map.1 this
  simp only [Prod.mk.injEq] at e
  rw [← e.1, ← e.2]
  exact h1 n hn

/-- **C250** `fill(kind='linear')` of a vector field: the visible vectors stay, each component stays between its bounds, and an affine velocity is
found back at every masked point between two visible points of its line or column.  Missing: the visible points next to masked ones must not be on one
line, which is said here of the points of the first component. -/
theorem C250_linear_partial {s : Scipy} (hs : s.Ok) (red : Bool) (hf : f.WF) (hx : 2 ≤ f.ax.length) (hy : 2 ≤ f.ay.length)
    (he : (∃ x y, f.Reads x y none) → ∀ sx, compX f = .ok sx → Enough sx red) :
    ∃ g, vfill s .linear .linear red f = .ok g ∧ VFills f g ∧
      (∀ lo hi, (∀ x y u v, f.Reads x y (some (u, v)) → lo ≤ u ∧ u ≤ hi) → ∀ x y u v, g.Reads x y (some (u, v)) → lo ≤ u ∧ u ≤ hi) ∧
      (∀ lo hi, (∀ x y u v, f.Reads x y (some (u, v)) → lo ≤ v ∧ v ≤ hi) → ∀ x y u v, g.Reads x y (some (u, v)) → lo ≤ v ∧ v ≤ hi) ∧
      ∀ a b c a' b' c', (∀ x y w, f.Reads x y (some w) → w = (a * x + b * y + c, a' * x + b' * y + c')) →
        ∀ x y, f.Reads x y none → VBetween f x y → g.Reads x y (some (a * x + b * y + c, a' * x + b' * y + c')) := by
  obtain ⟨sx, sy, ex, ey, cx, cy⟩ := comps hf hx hy
  have hg := good_same hf cx cy red
  have hco : (nodes sy red).map (fun n => (n.x, n.y)) = (nodes sx red).map fun n => (n.x, n.y) := by
    unfold nodes
    rw [List.map_map, List.map_map, hg]
    apply List.map_congr_left
    intro q _
    simp [node, cx.ax, cx.ay, cy.ax, cy.ay]
  have en : sx.anyMasked = true → Enough sx red := by
    intro hm
    obtain ⟨x, y, hr⟩ := reads_of_any cx.wf hm
    exact he ⟨x, y, (comp_none cx).1 hr⟩ sx ex
  have en' : sy.anyMasked = true → Enough sy red := by
    intro hm h
    obtain ⟨x, y, hr⟩ := reads_of_any cy.wf hm
    exact he ⟨x, y, (comp_none cy).1 hr⟩ sx ex (flat_coords hco h)
  obtain ⟨srcx, gx, e1, -, f1, b1, a1, -⟩ := (C248_linear_partial hs red cx.wf en).2 (by rw [cx.ax]; exact hx) (by rw [cx.ay]; exact hy)
  obtain ⟨srcy, gy, e2, -, f2, b2, a2, -⟩ := (C248_linear_partial hs red cy.wf en').2 (by rw [cy.ax]; exact hx) (by rw [cy.ay]; exact hy)
  obtain ⟨g, h1, h2, h3⟩ := vfill_ok s hf ex ey cx cy e1 e2 f1 f2
  refine ⟨g, h1, h2, ?_, ?_, ?_⟩
  · intro lo hi hb x y u v hr
    refine b1 lo hi ?_ x y u ((h3 x y u v).1 hr).1
    intro p q z hz
    obtain ⟨⟨w1, w2⟩, hw, rfl⟩ := (comp_some cx).1 hz
    exact hb p q w1 w2 hw
  · intro lo hi hb x y u v hr
    refine b2 lo hi ?_ x y v ((h3 x y u v).1 hr).2
    intro p q z hz
    obtain ⟨⟨w1, w2⟩, hw, rfl⟩ := (comp_some cy).1 hz
    exact hb p q w1 w2 hw
  · intro a b c a' b' c' ha x y hr hbt
    rw [h3]
    refine ⟨a1 a b c ?_ x y ((comp_none cx).2 hr) ?_, a2 a' b' c' ?_ x y ((comp_none cy).2 hr) ?_⟩
    · intro p q z hz
      obtain ⟨w, hw, rfl⟩ := (comp_some cx).1 hz
      rw [ha p q w hw]
    · rcases hbt with ⟨p, q, u, v, l1, l2, r1, r2⟩ | ⟨p, q, u, v, l1, l2, r1, r2⟩
      · exact .inl ⟨p, q, u.1, v.1, l1, l2, (comp_some cx).2 ⟨u, r1, rfl⟩, (comp_some cx).2 ⟨v, r2, rfl⟩⟩
      · exact .inr ⟨p, q, u.1, v.1, l1, l2, (comp_some cx).2 ⟨u, r1, rfl⟩, (comp_some cx).2 ⟨v, r2, rfl⟩⟩
    · intro p q z hz
      obtain ⟨w, hw, rfl⟩ := (comp_some cy).1 hz
      rw [ha p q w hw]
    · rcases hbt with ⟨p, q, u, v, l1, l2, r1, r2⟩ | ⟨p, q, u, v, l1, l2, r1, r2⟩
      · exact .inl ⟨p, q, u.2, v.2, l1, l2, (comp_some cy).2 ⟨u, r1, rfl⟩, (comp_some cy).2 ⟨v, r2, rfl⟩⟩
      · exact .inr ⟨p, q, u.2, v.2, l1, l2, (comp_some cy).2 ⟨u, r1, rfl⟩, (comp_some cy).2 ⟨v, r2, rfl⟩⟩

/-- **C250** A vector field masked beyond some abscissa cannot be filled with the default arguments. -/
theorem C250_wall_violated (s : Scipy) (hf : f.WF) (hx : 2 ≤ f.ax.length) (hy : 2 ≤ f.ay.length) {k : Nat} (h0 : 0 < k) (hk : k < f.ax.length)
    (hm : ∀ i j, i < f.ax.length → j < f.ay.length → ((f.cell i j).isNone ↔ k ≤ i)) : vfill s .linear .linear true f = .error .exception := by
  obtain ⟨sx, sy, ex, ey, cx, cy⟩ := comps hf hx hy
  have := (C248_wall_violated s cx.wf h0 (by rw [cx.ax]; exact hk) (fun i j hi hj => by
    rw [mask_of_cell cx.wf hi hj]
    rw [cx.ax] at hi; rw [cx.ay] at hj
    rw [cx.cell i j hi hj, Option.isNone_map, Bool.eq_iff_iff, hm i j hi hj]
    simp)).2
  unfold vfill
  simp only [ex, ey, this]

end IMT.Fill
