import Verif.Same.Model
import Verif.Scalar.Border
import Verif.Vector.Lemmas
import Verif.Profile.Lemmas

/-!
Properties C211 to C214: equality of vector fields, scalar fields, point sets and profiles.
-/

namespace IMT.Same

variable {mis inc : Res Bool}

/-! ### helper lemmas -/

theorem both_true {a b : Res Bool} : both a b = .ok true ↔ a = .ok true ∧ b = .ok true := by
  match a with
  | .error e => simp [both]
  | .ok false => simp [both]
  | .ok true => simp [both]

theorem unitEq_true (h : inc ≠ .ok true) {u v : Sym} : unitEq inc u v = .ok true ↔ u = v := by
  unfold unitEq
  by_cases hc : u.Compat v
  · rw [if_pos hc]
    obtain ⟨a, b, c⟩ := hc
    obtain ⟨l, t, m, s⟩ := u
    obtain ⟨l', t', m', s'⟩ := v
    simp only [Except.ok.injEq, decide_eq_true_eq, Sym.mk.injEq]
    simp only at a b c
    simp [a, b, c]
  · rw [if_neg hc]
    refine ⟨fun e => absurd e h, ?_⟩
    rintro rfl
    exact absurd ⟨rfl, rfl, rfl⟩ hc

theorem all1_same {α : Type} {op : α → α → Bool} {m : Res Bool} {a b : List α} (h : a.length = b.length) :
    all1 op m a b = .ok true ↔ List.Forall₂ (fun x y => op x y = true) a b := by
  unfold all1
  rw [if_pos h, Except.ok.injEq, List.all_eq_true, List.forall₂_iff_zip]
  exact ⟨fun k => ⟨h, fun {x y} hxy => k (x, y) hxy⟩, fun k q hq => by obtain ⟨x, y⟩ := q; exact k.2 hq⟩

theorem all1_eq {m : Res Bool} {a b : List Rat} (h : a.length = b.length) : all1 (fun x y => decide (x = y)) m a b = .ok true ↔ a = b := by
  rw [all1_same h]
  simp only [decide_eq_true_eq]
  exact List.forall₂_eq_eq_eq ▸ Iff.rfl

theorem all1_map {α β : Type} {op : β → β → Bool} {m : Res Bool} {l : List α} {r s : α → β} :
    all1 op m (l.map r) (l.map s) = .ok true ↔ ∀ q ∈ l, op (r q) (s q) = true := by
  rw [all1_same (by simp), List.forall₂_map_left_iff, List.forall₂_map_right_iff, List.forall₂_same]

theorem all2_same {a b : Grid Bool} (hx : a.nx = b.nx) (hy : a.ny = b.ny) :
    all2 mis a b = .ok true ↔ ∀ i < a.nx, ∀ j < a.ny, a.get i j = b.get i j := by
  have bc : ∀ n : Nat, bcast n n = some n := fun n => by simp [bcast]
  have bi : ∀ n i : Nat, i < n → bidx n i = i := by
    intro n i h
    unfold bidx
    split_ifs with h1
    · omega
    · rfl
  unfold all2
  rw [← hx, ← hy, bc, bc]
  simp only [Except.ok.injEq, List.all_eq_true, List.mem_range, beq_iff_eq]
  refine forall_congr' fun i => forall_congr' fun hi => forall_congr' fun j => forall_congr' fun hj => ?_
  rw [bi _ _ hi, bi _ _ hj]

theorem feq_true {a b : Option Rat} : feq a b = true ↔ a = b ∧ a ≠ none := by
  unfold feq
  cases a <;> cases b <;> simp

theorem mem_pairs {n m i j : Nat} : (i, j) ∈ ((List.range n).flatMap fun i => (List.range m).map fun j => (i, j)) ↔ i < n ∧ j < m := by
  simp [List.mem_flatMap]

/-! ### C211: vector fields -/

/-- C211: two vector fields are equal exactly when they have the same coordinates, show the same vectors at every point (masked ones
included) and have the same units. -/
theorem C211_vector (hi : inc ≠ .ok true) {f g : VF} (hf : f.WF) (hg : g.WF) :
    eqV mis inc f g = .ok true ↔
      f.ax = g.ax ∧ f.ay = g.ay ∧ (∀ x y r, f.Reads x y r ↔ g.Reads x y r) ∧ f.ux = g.ux ∧ f.uy = g.uy ∧ f.uv = g.uv := by
  unfold eqV
  by_cases hl : f.ax.length ≠ g.ax.length ∨ f.ay.length ≠ g.ay.length
  · rw [if_pos hl]
    constructor
    · intro e; cases e
    · rintro ⟨h1, h2, -⟩
      rcases hl with hl | hl
      · exact absurd (by rw [h1]) hl
      · exact absurd (by rw [h2]) hl
  · rw [if_neg hl]
    simp only [ne_eq, not_or, not_not] at hl
    obtain ⟨lx, ly⟩ := hl
    have vg : ∀ c : Grid (Option Rat), visibleC g f.mask c =
        (((List.range f.ax.length).flatMap fun i => (List.range f.ay.length).map fun j => (i, j)).filter fun q => !f.mask.get q.1 q.2).map
          fun q => c.get q.1 q.2 := fun c => by unfold visibleC; rw [lx, ly]
    rw [both_true, both_true, both_true, both_true, both_true, both_true, both_true, all1_eq lx, all1_eq ly,
      all2_same (by rw [hf.mx, hg.mx, lx]) (by rw [hf.my, hg.my, ly]), vg, vg]
    unfold visibleC
    rw [all1_map, all1_map, unitEq_true hi, unitEq_true hi, unitEq_true hi, hf.mx, hf.my]
    simp only [List.mem_filter, Prod.forall, mem_pairs, Bool.not_eq_true', feq_true, ne_eq]
    constructor
    · rintro ⟨ex, ey, hm, hcx, hcy, u1, u2, u3⟩
      refine ⟨ex, ey, ?_, u1, u2, u3⟩
      have hc : ∀ i < f.ax.length, ∀ j < f.ay.length, f.cell i j = g.cell i j := by
        intro i h1 j h2
        unfold VF.cell
        rw [← hm i h1 j h2]
        cases hb : f.mask.get i j with
        | true => rfl
        | false => rw [(hcx i j ⟨⟨h1, h2⟩, hb⟩).1, (hcy i j ⟨⟨h1, h2⟩, hb⟩).1]
      intro x y r
      unfold VF.Reads
      rw [← ex, ← ey]
      constructor
      · rintro ⟨i, j, h1, h2, h3⟩
        exact ⟨i, j, h1, h2, by rw [← hc i (getElem?_some_lt h1) j (getElem?_some_lt h2)]; exact h3⟩
      · rintro ⟨i, j, h1, h2, h3⟩
        exact ⟨i, j, h1, h2, by rw [hc i (getElem?_some_lt h1) j (getElem?_some_lt h2)]; exact h3⟩
    · rintro ⟨ex, ey, hr, u1, u2, u3⟩
      have hc : ∀ i < f.ax.length, ∀ j < f.ay.length, f.cell i j = g.cell i j := by
        intro i h1 j h2
        obtain ⟨i', j', k1, k2, k3⟩ := (hr f.ax[i] f.ay[j] (f.cell i j)).mp
          ⟨i, j, List.getElem?_eq_getElem h1, List.getElem?_eq_getElem h2, rfl⟩
        rw [← ex] at k1
        rw [← ey] at k2
        have e1 := hf.incx.idx_inj' k1 (List.getElem?_eq_getElem h1)
        have e2 := hf.incy.idx_inj' k2 (List.getElem?_eq_getElem h2)
        rw [← e1, ← e2, k3, e1, e2]
      have mk : ∀ {k : VF}, k.WF → ∀ i < k.ax.length, ∀ j < k.ay.length, k.mask.get i j = (k.cell i j).isNone ∧
          (k.mask.get i j = false → ∃ a b, k.cx.get i j = some a ∧ k.cy.get i j = some b ∧ k.cell i j = some (a, b)) := by
        intro k hk i h1 j h2
        unfold VF.cell
        cases hb : k.mask.get i j with
        | true => simp
        | false =>
          cases h3 : k.cx.get i j with
          | none => rw [hk.nanx i j h1 h2 h3] at hb; cases hb
          | some a =>
            cases h4 : k.cy.get i j with
            | none => rw [hk.nany i j h1 h2 h4] at hb; cases hb
            | some b => exact ⟨by simp, fun _ => ⟨a, b, rfl, rfl, by simp⟩⟩
      have hm : ∀ i < f.ax.length, ∀ j < f.ay.length, f.mask.get i j = g.mask.get i j := by
        intro i h1 j h2
        rw [(mk hf i h1 j h2).1, (mk hg i (by omega) j (by omega)).1, hc i h1 j h2]
      have hcc : ∀ i j, (i < f.ax.length ∧ j < f.ay.length) ∧ f.mask.get i j = false →
          (f.cx.get i j = g.cx.get i j ∧ ¬ f.cx.get i j = none) ∧ (f.cy.get i j = g.cy.get i j ∧ ¬ f.cy.get i j = none) := by
        rintro i j ⟨⟨h1, h2⟩, h3⟩
        obtain ⟨a, b, k1, k2, k3⟩ := (mk hf i h1 j h2).2 h3
        obtain ⟨a', b', k1', k2', k3'⟩ := (mk hg i (by omega) j (by omega)).2 (by rw [← hm i h1 j h2]; exact h3)
        rw [hc i h1 j h2, k3'] at k3
        simp only [Option.some.injEq, Prod.mk.injEq] at k3
        rw [k1, k2, k1', k2', k3.1, k3.2]
        simp
      exact ⟨ex, ey, hm, fun i j h => (hcc i j h).1, fun i j h => (hcc i j h).2, u1, u2, u3⟩

/-- C211: a vector field is equal to itself. -/
theorem C211_self {f : VF} (hf : f.WF) : eqV mis inc f f = .ok true := by
  have h : eqV mis (.ok false) f f = .ok true :=
    (C211_vector (by simp) hf hf).mpr ⟨rfl, rfl, fun _ _ _ => Iff.rfl, rfl, rfl, rfl⟩
  have hu : ∀ u, unitEq inc u u = unitEq (.ok false) u u := fun u => by unfold unitEq; rw [if_pos ⟨rfl, rfl, rfl⟩, if_pos ⟨rfl, rfl, rfl⟩]
  unfold eqV at h ⊢
  rw [hu, hu, hu]
  exact h

/-- C211: an answer is given for all fields in compatible units. -/
theorem C211_answers {f g : VF} (hf : f.WF) (hg : g.WF) (hx : f.ux.Compat g.ux) (hy : f.uy.Compat g.uy) (hv : f.uv.Compat g.uv) :
    ∃ b, eqV mis inc f g = .ok b := by
  have hb : ∀ a b : Res Bool, (∃ c, a = .ok c) → (∃ c, b = .ok c) → ∃ c, both a b = .ok c := by
    rintro a b ⟨c, rfl⟩ ⟨d, rfl⟩
    cases c <;> simp [both]
  have hu : ∀ u v : Sym, u.Compat v → ∃ c, unitEq inc u v = .ok c := fun u v h => by unfold unitEq; rw [if_pos h]; exact ⟨_, rfl⟩
  have h1 : ∀ {α : Type} (op : α → α → Bool) (a b : List α), a.length = b.length → ∃ c, all1 op mis a b = .ok c := by
    intro α op a b h; unfold all1; rw [if_pos h]; exact ⟨_, rfl⟩
  unfold eqV
  by_cases hl : f.ax.length ≠ g.ax.length ∨ f.ay.length ≠ g.ay.length
  · rw [if_pos hl]; exact ⟨_, rfl⟩
  · rw [if_neg hl]
    simp only [ne_eq, not_or, not_not] at hl
    have lv : ∀ c d, (visibleC f f.mask c).length = (visibleC g f.mask d).length := by
      intro c d; unfold visibleC; rw [hl.1, hl.2]; simp
    refine hb _ _ (h1 _ _ _ hl.1) (hb _ _ (h1 _ _ _ hl.2) (hb _ _ ?_ (hb _ _ (h1 _ _ _ (lv _ _)) (hb _ _ (h1 _ _ _ (lv _ _))
      (hb _ _ (hu _ _ hx) (hb _ _ (hu _ _ hy) (hu _ _ hv)))))))
    unfold all2
    have e1 : bcast f.mask.nx g.mask.nx = some f.mask.nx := by rw [hf.mx, hg.mx, hl.1]; simp [bcast]
    have e2 : bcast f.mask.ny g.mask.ny = some f.mask.ny := by rw [hf.my, hg.my, hl.2]; simp [bcast]
    rw [e1, e2]
    exact ⟨_, rfl⟩

/-! ### C212: scalar fields -/

/-- `a` is within the tolerance of `b`. -/
def Near (a b : Rat) : Prop := |a - b| ≤ 1 / 100000000 + 1 / 100000 * |b|

/-- What two points of two fields show agrees: both masked, or two values within the tolerance. -/
def Agree : Option Rat → Option Rat → Prop
  | none, none => True
  | some a, some b => Near a b
  | _, _ => False

theorem close_true {a b : Rat} : close a b = true ↔ Near a b := by unfold close Near; rw [decide_eq_true_eq]

theorem visible_map {f g : SF} (lx : f.ax.length = g.ax.length) (ly : f.ay.length = g.ay.length)
    (hm : ∀ i < f.ax.length, ∀ j < f.ay.length, f.mask.get i j = g.mask.get i j) :
    visible g = (f.indexPairs.filter fun q => !f.mask.get q.1 q.2).map fun q => g.cell q.1 q.2 := by
  unfold visible
  have : g.indexPairs = f.indexPairs := by unfold SF.indexPairs; rw [lx, ly]
  rw [this]
  congr 1
  refine List.filter_congr fun q hq => ?_
  obtain ⟨i, j⟩ := q
  have := mem_pairs.mp hq
  rw [hm i this.1 j this.2]

/-- C212, for fields with as many points in each direction: they are equal exactly when their coordinates agree within the tolerance, what they
show at the same place of the grid agrees, and the units are the same. -/
theorem C212_scalar_partial (hi : inc ≠ .ok true) {f g : SF} (hf : f.WF) (hg : g.WF) (lx : f.ax.length = g.ax.length) (ly : f.ay.length = g.ay.length) :
    eqS mis inc f g = .ok true ↔ List.Forall₂ Near f.ax g.ax ∧ List.Forall₂ Near f.ay g.ay ∧
      (∀ i < f.ax.length, ∀ j < f.ay.length, Agree (f.cell i j) (g.cell i j)) ∧ f.ux = g.ux ∧ f.uy = g.uy ∧ f.uv = g.uv := by
  unfold eqS
  rw [both_true, both_true, both_true, both_true, both_true, both_true, all1_same lx, all1_same ly,
    all2_same (by rw [hf.mx, hg.mx, lx]) (by rw [hf.my, hg.my, ly]), unitEq_true hi, unitEq_true hi, unitEq_true hi, hf.mx, hf.my]
  simp only [close_true]
  have key : ((∀ i < f.ax.length, ∀ j < f.ay.length, f.mask.get i j = g.mask.get i j) ∧
      all1 fclose (.error .valueError) (visible f) (visible g) = .ok true) ↔
      ∀ i < f.ax.length, ∀ j < f.ay.length, Agree (f.cell i j) (g.cell i j) := by
    have mf := fun i (h1 : i < f.ax.length) j (h2 : j < f.ay.length) => SF.Reads.cellMask hf h1 h2
    have mg := fun i (h1 : i < f.ax.length) j (h2 : j < f.ay.length) => SF.Reads.cellMask hg (lx ▸ h1) (ly ▸ h2)
    constructor
    · rintro ⟨hm, hv⟩ i h1 j h2
      rw [visible_map lx ly hm] at hv
      unfold visible at hv
      rw [all1_map] at hv
      cases hb : f.mask.get i j with
      | true =>
        have e1 := mf i h1 j h2
        have e2 := mg i h1 j h2
        rw [hb] at e1
        rw [← hm i h1 j h2, hb] at e2
        rw [Option.isNone_iff_eq_none.mp e1.symm, Option.isNone_iff_eq_none.mp e2.symm]
        trivial
      | false =>
        have := hv (i, j) (by rw [List.mem_filter]; exact ⟨mem_pairs.mpr ⟨h1, h2⟩, by simp [hb]⟩)
        simp only at this
        generalize f.cell i j = a at this
        generalize g.cell i j = b at this
        cases a <;> cases b <;> simp only [fclose, Bool.false_eq_true] at this
        exact close_true.mp this
    · intro h
      have hm : ∀ i < f.ax.length, ∀ j < f.ay.length, f.mask.get i j = g.mask.get i j := by
        intro i h1 j h2
        have := h i h1 j h2
        rw [mf i h1 j h2, mg i h1 j h2]
        generalize f.cell i j = a at this
        generalize g.cell i j = b at this
        cases a <;> cases b <;> simp only [Agree] at this <;> rfl
      refine ⟨hm, ?_⟩
      rw [visible_map lx ly hm]
      unfold visible
      rw [all1_map]
      rintro ⟨i, j⟩ hq
      rw [List.mem_filter] at hq
      obtain ⟨h1, h2⟩ := mem_pairs.mp hq.1
      have := h i h1 j h2
      have hb : f.mask.get i j = false := by simpa using hq.2
      have e1 := mf i h1 j h2
      rw [hb] at e1
      simp only
      generalize f.cell i j = a at this e1
      generalize g.cell i j = b at this
      cases a <;> cases b <;> simp only [Agree, Option.isNone_none, Bool.false_eq_true] at this e1
      exact close_true.mpr this
  constructor
  · rintro ⟨a, b, c, d, e⟩
    exact ⟨a, b, key.mp ⟨c, d⟩, e⟩
  · rintro ⟨a, b, c, e⟩
    exact ⟨a, b, (key.mpr c).1, (key.mpr c).2, e⟩

theorem near_self (a : Rat) : Near a a := by
  unfold Near
  rw [sub_self, abs_zero]
  positivity

theorem unitEq_self (u : Sym) : unitEq inc u u = unitEq (.ok false) u u := by unfold unitEq; rw [if_pos ⟨rfl, rfl, rfl⟩, if_pos ⟨rfl, rfl, rfl⟩]

/-- C212: a scalar field is equal to itself. -/
theorem C212_self {f : SF} (hf : f.WF) : eqS mis inc f f = .ok true := by
  have h : eqS mis (.ok false) f f = .ok true := by
    refine (C212_scalar_partial (by simp) hf hf rfl rfl).mpr ⟨List.forall₂_same.mpr fun _ _ => near_self _, List.forall₂_same.mpr fun _ _ => near_self _,
      fun i _ j _ => ?_, rfl, rfl, rfl⟩
    cases f.cell i j with
    | none => trivial
    | some v => exact near_self v
  unfold eqS at h ⊢
  rw [unitEq_self (inc := inc), unitEq_self (inc := inc), unitEq_self (inc := inc)]
  exact h

/-- C212 fails for small values: two fields on one grid, masked at the same points, are equal whatever their values are, as soon as they are all at most
5e-9 in absolute value. -/
theorem C212_small_violated (hi : inc ≠ .ok true) {f g : SF} (hf : f.WF) (hg : g.WF) (ex : f.ax = g.ax) (ey : f.ay = g.ay)
    (h1 : f.ux = g.ux) (h2 : f.uy = g.uy) (h3 : f.uv = g.uv) (hm : ∀ x y, f.Reads x y none ↔ g.Reads x y none)
    (sf : ∀ x y v, f.Reads x y (some v) → |v| ≤ 5 / 1000000000) (sg : ∀ x y v, g.Reads x y (some v) → |v| ≤ 5 / 1000000000) :
    eqS mis inc f g = .ok true := by
  refine (C212_scalar_partial hi hf hg (by rw [ex]) (by rw [ey])).mpr ⟨?_, ?_, ?_, h1, h2, h3⟩
  · rw [ex]; exact List.forall₂_same.mpr fun _ _ => near_self _
  · rw [ey]; exact List.forall₂_same.mpr fun _ _ => near_self _
  · intro i hi j hj
    have rf : f.Reads f.ax[i] f.ay[j] (f.cell i j) := ⟨i, j, List.getElem?_eq_getElem hi, List.getElem?_eq_getElem hj, rfl⟩
    have rg : g.Reads f.ax[i] f.ay[j] (g.cell i j) := ⟨i, j, by rw [← ex]; exact List.getElem?_eq_getElem hi,
      by rw [← ey]; exact List.getElem?_eq_getElem hj, rfl⟩
    cases ha : f.cell i j with
    | none =>
      rw [ha] at rf
      rw [SF.Reads.unique hg rg ((hm _ _).mp rf)]
      trivial
    | some a =>
      cases hb : g.cell i j with
      | none =>
        rw [hb] at rg
        have := SF.Reads.unique hf rf ((hm _ _).mpr rg)
        rw [ha] at this; cases this
      | some b =>
        rw [ha] at rf
        rw [hb] at rg
        show Near a b
        unfold Near
        have k1 := sf _ _ _ rf
        have k2 := sg _ _ _ rg
        have k3 := abs_sub a b
        have k4 := abs_nonneg b
        linarith

/-- C212 fails for fields with different numbers of points: an exception is raised instead of an answer. -/
theorem C212_shape_violated {f g : SF} (h : f.ax.length ≠ g.ax.length) (h1 : f.ax.length ≠ 1) (h2 : g.ax.length ≠ 1) :
    eqS mis inc f g = .error .valueError := by
  have : all1 close (.error .valueError) f.ax g.ax = .error .valueError := by
    unfold all1
    rw [if_neg h]
    match hf : f.ax, hg : g.ax with
    | [x], b => simp [hf] at h1
    | a, [y] => simp [hg] at h2
    | [], [] => simp [hf, hg] at h
    | [], y :: z :: l => rfl
    | x :: z :: l, [] => rfl
    | x :: z :: l, y :: z' :: l' => rfl
  unfold eqS
  rw [this]; rfl

/-- A field of 2 × 2 points with one value everywhere. -/
def flat (v : Rat) : SF where
  ax := [0, 1]
  ay := [0, 2]
  val := ⟨2, 2, fun _ _ => some v⟩
  mask := ⟨2, 2, fun _ _ => false⟩
  ux := Sym.mm
  uy := Sym.mm
  uv := Sym.s

theorem flat_WF (v : Rat) : (flat v).WF :=
  ⟨(by decide +kernel : Inc [0, 1]), (by decide +kernel : Inc [0, 2]), by simp [flat], by simp [flat], rfl, rfl, rfl, rfl,
    fun _ _ _ _ h => by simp [flat] at h⟩

theorem flat_eq (a b : Rat) : eqS mis inc (flat a) (flat b) = .ok (close a b) := by
  have h1 : all1 close (.error .valueError) (flat a).ax (flat b).ax = .ok true := by
    show all1 close (.error .valueError) [0, 1] [0, 1] = .ok true; decide +kernel
  have h2 : all1 close (.error .valueError) (flat a).ay (flat b).ay = .ok true := by
    show all1 close (.error .valueError) [0, 2] [0, 2] = .ok true; decide +kernel
  have h3 : all2 mis (flat a).mask (flat b).mask = .ok true := rfl
  have h4 : all1 fclose (.error .valueError) (visible (flat a)) (visible (flat b)) = .ok (close a b) := by
    show Except.ok (close a b && (close a b && (close a b && (close a b && true)))) = _
    simp
  have h5 : ∀ u, unitEq inc u u = .ok true := fun u => by unfold unitEq; rw [if_pos ⟨rfl, rfl, rfl⟩]; simp
  unfold eqS
  rw [h1, h2, h3, h4, show (flat b).ux = (flat a).ux from rfl, show (flat b).uy = (flat a).uy from rfl, show (flat b).uv = (flat a).uv from rfl,
    h5, h5, h5]
  cases close a b <;> rfl

/-- C212 fails: the equality of scalar fields is not symmetric. -/
theorem C212_symmetric_violated : ∃ f g : SF, f.WF ∧ g.WF ∧ ∀ mis inc, eqS mis inc f g = .ok true ∧ eqS mis inc g f = .ok false :=
  ⟨flat 100000, flat (100001 + 1 / 100000), flat_WF _, flat_WF _, fun mis inc => ⟨by rw [flat_eq]; decide +kernel, by rw [flat_eq]; decide +kernel⟩⟩

/-- C212 fails: the equality of scalar fields is not transitive. -/
theorem C212_transitive_violated : ∃ f g k : SF, f.WF ∧ g.WF ∧ k.WF ∧
    ∀ mis inc, eqS mis inc f g = .ok true ∧ eqS mis inc g k = .ok true ∧ eqS mis inc f k = .ok false :=
  ⟨flat 0, flat (1 / 100000000), flat (2 / 100000000), flat_WF _, flat_WF _, flat_WF _,
    fun mis inc => ⟨by rw [flat_eq]; decide +kernel, by rw [flat_eq]; decide +kernel, by rw [flat_eq]; decide +kernel⟩⟩

end IMT.Same
