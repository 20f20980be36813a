import Verif.Fill.TModel
import Verif.Fill.Vec
import Verif.Reshape.Augment

/-! C252 and C253: filling of records of fields. -/

namespace IMT.Fill

open Turb (TVF Record)
open Temporal (TF mapRes)
open Profile (lin line)
open Reshape (lin_split inc_split knot_between)

/-! ### specification -/

/-- The record shows the vector `w` at the point `(i, j)` at the time `x`. -/
def Seen (t : TVF) (i j : Nat) (x : Rat) (w : Rat × Rat) : Prop := ∃ (k : Nat) (f : VF), t.times[k]? = some x ∧ t.fields[k]? = some f ∧ f.cell i j = some w

/-- Number of fields masked at the point. -/
def hidden (t : TVF) (i j : Nat) : Nat := t.fields.countP fun f => (f.cell i j).isNone

/-- The point is masked in some fields, and visible in three at least. -/
def Fillable (t : TVF) (i j : Nat) : Prop := i < t.ax.length ∧ j < t.ay.length ∧ 0 < hidden t i j ∧ hidden t i j + 2 < t.fields.length

/-- Value at `x` of the line through `(a, u)` and `(b, v)`. -/
def along (a u b v x : Rat) : Rat := u + (v - u) / (b - a) * (x - a)

/-- `w` is the interpolation, at the time `x`, between the last vector seen before and the first one seen after. -/
def InTime (t : TVF) (i j : Nat) (x : Rat) (w : Rat × Rat) : Prop :=
  ∃ a b u v, a < x ∧ x < b ∧ Seen t i j a u ∧ Seen t i j b v ∧ (∀ c z, Seen t i j c z → c ≤ a ∨ b ≤ c) ∧
    w = (along a u.1 b v.1 x, along a u.2 b v.2 x)

/-! ### lemmas -/

variable {t : TVF}

theorem vmask_of_cell {f : VF} (hf : f.WF) {i j : Nat} (hi : i < f.ax.length) (hj : j < f.ay.length) : f.mask.get i j = (f.cell i j).isNone := by
  unfold VF.cell
  cases hm : f.mask.get i j with
  | true => simp
  | false =>
    cases hx : f.cx.get i j with
    | none => rw [hf.nanx i j hi hj hx] at hm; cases hm
    | some u => cases hy : f.cy.get i j with
      | none => rw [hf.nany i j hi hj hy] at hm; cases hm
      | some v => simp

theorem hiddenM_eq {u : Sym} (hr : Record t u) {i j : Nat} (hi : i < t.ax.length) (hj : j < t.ay.length) : hiddenM t i j = hidden t i j := by
  unfold hiddenM hidden
  apply List.countP_congr
  intro f hf
  rw [vmask_of_cell (hr.wf f hf) (by rw [hr.ax f hf]; exact hi) (by rw [hr.ay f hf]; exact hj)]

theorem super_iff {u : Sym} (hr : Record t u) {i j : Nat} (hi : i < t.ax.length) (hj : j < t.ay.length) : super t i j = true ↔ Fillable t i j := by
  unfold super Fillable
  rw [hiddenM_eq hr hi hj, Bool.and_eq_true, decide_eq_true_eq, decide_eq_true_eq]
  exact ⟨fun h => ⟨hi, hj, h⟩, fun h => h.2.2⟩

theorem anySuper_iff {u : Sym} (hr : Record t u) : anySuper t = true ↔ ∃ i j, Fillable t i j := by
  unfold anySuper
  simp only [List.any_eq_true, List.mem_range]
  constructor
  · rintro ⟨i, hi, j, hj, h⟩
    exact ⟨i, j, (super_iff hr hi hj).1 h⟩
  · rintro ⟨i, j, h⟩
    exact ⟨i, h.1, j, h.2.1, (super_iff hr h.1 h.2.1).2 h⟩

theorem mem_knots {i j : Nat} {x : Rat} {w : Rat × Rat} : (x, w) ∈ knots t i j ↔ Seen t i j x w := by
  unfold knots Seen
  rw [List.mem_filterMap]
  constructor
  · rintro ⟨⟨x', f⟩, hp, he⟩
    obtain ⟨k, hk, hg⟩ := List.getElem_of_mem hp
    have h1 : (t.times.zip t.fields)[k]? = some (x', f) := by rw [List.getElem?_eq_getElem hk, hg]
    rw [List.getElem?_zip_eq_some] at h1
    simp only at he
    cases e : f.cell i j with
    | none => rw [e] at he; cases he
    | some w' =>
      rw [e] at he
      simp only [Option.map_some, Option.some.injEq, Prod.mk.injEq] at he
      obtain ⟨rfl, rfl⟩ := he
      exact ⟨k, f, h1.1, h1.2, e⟩
  · rintro ⟨k, f, h1, h2, h3⟩
    refine ⟨(x, f), ?_, by simp [h3]⟩
    exact List.mem_of_getElem? (i := k) (by rw [List.getElem?_zip_eq_some]; exact ⟨h1, h2⟩)

theorem knots_inc {u : Sym} (hr : Record t u) (i j : Nat) : Inc ((knots t i j).map Prod.fst) := by
  have h1 : ((knots t i j).map Prod.fst).Sublist ((t.times.zip t.fields).map Prod.fst) := by
    unfold knots
    induction t.times.zip t.fields with
    | nil => simp
    | cons p l ih =>
      cases e : (p.2.cell i j) with
      | none => rw [List.filterMap_cons_none (by simp [e])]; exact ih.trans (by simp)
      | some w => rw [List.filterMap_cons_some (b := (p.1, w)) (by simp [e])]; simpa using ih
  rw [List.map_fst_zip (by rw [hr.paired])] at h1
  exact hr.inc.sublist h1

theorem knots_length {u : Sym} (hr : Record t u) {i j : Nat} : (knots t i j).length + hidden t i j = t.fields.length := by
  have h : t.fields = (t.times.zip t.fields).map Prod.snd := by rw [List.map_snd_zip (by rw [hr.paired])]
  unfold knots hidden
  conv_lhs => rhs; rw [h]
  conv_rhs => rw [h]
  induction t.times.zip t.fields with
  | nil => simp
  | cons p l ih =>
    cases e : (p.2.cell i j) with
    | none =>
      rw [List.filterMap_cons_none (by simp [e]), List.map_cons, List.countP_cons_of_pos (by simp [e]), List.length_cons]
      omega
    | some w =>
      rw [List.filterMap_cons_some (b := (p.1, w)) (by simp [e]), List.map_cons, List.countP_cons_of_neg (by simp [e]), List.length_cons, List.length_cons]
      omega

theorem lin_left : ∀ (l : List (Rat × Rat)) (x : Rat), (∀ p ∈ l, x < p.1) → lin l x = none
  | [], _, _ => rfl
  | [_], _, _ => rfl
  | a :: b :: l, x, h => by rw [lin, if_pos (h a (by simp))]

theorem lin_right : ∀ (l : List (Rat × Rat)) (x : Rat), (∀ p ∈ l, p.1 < x) → lin l x = none
  | [], _, _ => rfl
  | [_], _, _ => rfl
  | a :: b :: l, x, h => by
    have h1 := h a (by simp)
    have h2 := h b (by simp)
    rw [lin, if_neg (by linarith), if_neg (by linarith)]
    exact lin_right (b :: l) x fun p hp => h p (List.mem_cons_of_mem _ hp)

/-- The interpolation in time of a point masked at that time. -/
theorem lin_time {u : Sym} (hr : Record t u) {i j : Nat} (hf : Fillable t i j) {x : Rat} (hx : ∀ w, ¬ Seen t i j x w) :
    (∃ w, InTime t i j x w ∧ interpX .linear t i j x = some w.1 ∧ interpY .linear t i j x = some w.2) ∨
      (((∀ c z, Seen t i j c z → x < c) ∨ ∀ c z, Seen t i j c z → c < x) ∧ interpX .linear t i j x = none ∧ interpY .linear t i j x = none) := by
  by_cases h1 : ∃ c z, Seen t i j c z ∧ c < x
  · by_cases h2 : ∃ c z, Seen t i j c z ∧ x < c
    · left
      obtain ⟨c, z, hc, hcx⟩ := h1
      obtain ⟨d, y, hd, hdx⟩ := h2
      have hl : 2 ≤ (knots t i j).length := by
        have := knots_length hr (i := i) (j := j)
        have := hf.2.2.2
        omega
      obtain ⟨A, a, b, B, e, l1, l2, l3⟩ := lin_split (knots t i j) x (knots_inc hr i j) hl ⟨(c, z), mem_knots.2 hc, le_of_lt hcx⟩ ⟨(d, y), mem_knots.2 hd, le_of_lt hdx⟩
      have hI := knots_inc hr i j
      have sa : Seen t i j a.1 a.2 := mem_knots.1 (by rw [e]; simp)
      have sb : Seen t i j b.1 b.2 := mem_knots.1 (by rw [e]; simp)
      have na : a.1 ≠ x := fun h => hx a.2 (h ▸ sa)
      have nb : b.1 ≠ x := fun h => hx b.2 (h ▸ sb)
      refine ⟨(along a.1 a.2.1 b.1 b.2.1 x, along a.1 a.2.2 b.1 b.2.2 x), ⟨a.1, b.1, a.2, b.2, lt_of_le_of_ne l1 na, lt_of_le_of_ne l2 (Ne.symm nb), sa, sb, ?_, rfl⟩,
        l3 fun k => k.2.1, l3 fun k => k.2.2⟩
      intro c z hcz
      have hm := mem_knots.2 hcz
      by_contra hn
      rw [not_or, not_le, not_le] at hn
      rw [e] at hm hI
      rcases knot_between hI hm (le_of_lt hn.1) (le_of_lt hn.2) with h | h
      · rw [← h] at hn; exact lt_irrefl _ hn.1
      · rw [← h] at hn; exact lt_irrefl _ hn.2
    · right
      have : ∀ c z, Seen t i j c z → c < x := by
        intro c z hc
        rcases lt_trichotomy c x with h | h | h
        · exact h
        · subst h; exact absurd hc (hx z)
        · exact absurd ⟨c, z, hc, h⟩ h2
      refine ⟨.inr this, lin_right _ _ ?_, lin_right _ _ ?_⟩ <;>
      · intro p hp
        obtain ⟨q, hq, rfl⟩ := List.mem_map.1 hp
        exact this q.1 q.2 (mem_knots.1 hq)
  · right
    have : ∀ c z, Seen t i j c z → x < c := by
      intro c z hc
      rcases lt_trichotomy c x with h | h | h
      · exact absurd ⟨c, z, hc, h⟩ h1
      · subst h; exact absurd hc (hx z)
      · exact h
    refine ⟨.inl this, lin_left _ _ ?_, lin_left _ _ ?_⟩ <;>
    · intro p hp
      obtain ⟨q, hq, rfl⟩ := List.mem_map.1 hp
      exact this q.1 q.2 (mem_knots.1 hq)

/-- The fields of the result. -/
theorem tfilled_cell {k : TKind} {f : VF} {i j : Nat} {x : Rat} :
    (super t i j = false ∨ f.mask.get i j = false → (tfilled k t x f).cell i j = f.cell i j) ∧
    (super t i j = true → f.mask.get i j = true → ∀ u v, interpX k t i j x = some u → interpY k t i j x = some v → (tfilled k t x f).cell i j = some (u, v)) ∧
    (super t i j = true → interpX k t i j x = none → interpY k t i j x = none → (tfilled k t x f).cell i j = f.cell i j) := by
  refine ⟨?_, ?_, ?_⟩
  · rintro (h | h) <;> simp [tfilled, VF.cell, h]
  · intro h1 h2 u v h3 h4
    simp [tfilled, VF.cell, h1, h2, h3, h4]
  · intro h1 h3 h4
    simp [tfilled, VF.cell, h1, h3, h4]

theorem tfilled_wf {k : TKind} {f : VF} {x : Rat} (hf : f.WF)
    (hk : ∀ i j, i < f.ax.length → j < f.ay.length → super t i j = true → f.mask.get i j = true → (interpX k t i j x).isSome = (interpY k t i j x).isSome) :
    (tfilled k t x f).WF := by
  refine ⟨hf.incx, hf.incy, hf.nex, hf.ney, hf.xx, hf.xy, hf.yx, hf.yy, hf.mx, hf.my, ?_, ?_⟩
  · intro i j hi hj h
    have h0 := hf.nanx i j hi hj
    have h1 := hk i j hi hj
    simp only [tfilled] at h ⊢
    cases hs : super t i j <;> cases hm : f.mask.get i j <;> cases hx : interpX k t i j x <;> cases hy : interpY k t i j x <;> simp_all
  · intro i j hi hj h
    have h0 := hf.nany i j hi hj
    have h1 := hk i j hi hj
    simp only [tfilled] at h ⊢
    cases hs : super t i j <;> cases hm : f.mask.get i j <;> cases hx : interpX k t i j x <;> cases hy : interpY k t i j x <;> simp_all

/-- In a record each time has one field. -/
theorem seen_at {u : Sym} (hr : Record t u) {k : Nat} {x : Rat} {f : VF} (hx : t.times[k]? = some x) (hf : t.fields[k]? = some f) {i j : Nat} {w : Rat × Rat} :
    Seen t i j x w ↔ f.cell i j = some w := by
  constructor
  · rintro ⟨k', f', h1, h2, h3⟩
    have := hr.inc.idx_inj h1 hx
    subst this
    rw [h2] at hf; cases hf
    exact h3
  · intro h
    exact ⟨k, f, hx, hf, h⟩

/-! ### C252 -/

/-- **C252** `fill(tof='temporal', kind='linear')` of a record of vector fields, at a time `x` with the field `f`: what is visible stays; a masked point
gets the interpolation between the last vector seen before and the first one seen after, and stays masked if there is none before or none after.  Missing:
points visible at one or two times only stay as they are, even between these times; and some point must be masked in some fields and visible in three or
more, otherwise there is an error (`C252_nothing_violated`). -/
theorem C252_temporal_partial {u : Sym} (hr : Record t u) (hp : ∃ i j, Fillable t i j) :
    ∃ r, tfill .linear t = .ok (r, r) ∧ Record r u ∧ r.times = t.times ∧ r.ut = t.ut ∧ r.ax = t.ax ∧ r.ay = t.ay ∧ r.ux = t.ux ∧ r.uy = t.uy ∧
      ∀ (k : Nat) x f, t.times[k]? = some x → t.fields[k]? = some f → ∃ g, r.fields[k]? = some g ∧ ∀ i j, i < t.ax.length → j < t.ay.length →
        (∀ w, f.cell i j = some w → g.cell i j = some w) ∧
        (f.cell i j = none → Fillable t i j → (∃ a v b w, Seen t i j a v ∧ Seen t i j b w ∧ a < x ∧ x < b) → ∃ w, InTime t i j x w ∧ g.cell i j = some w) ∧
        (f.cell i j = none → ((∀ c z, Seen t i j c z → x < c) ∨ (∀ c z, Seen t i j c z → c < x) ∨ t.fields.length ≤ hidden t i j + 2) → g.cell i j = none) := by
  obtain ⟨i0, j0, hp0⟩ := hp
  have hany := (anySuper_iff hr).2 ⟨i0, j0, hp0⟩
  have hlen : ¬ t.fields.length < 3 := by have := hp0.2.2; omega
  have hget : ∀ (k : Nat) x f, t.times[k]? = some x → t.fields[k]? = some f → (List.zipWith (tfilled .linear t) t.times t.fields)[k]? = some (tfilled .linear t x f) := by
    intro k x f h1 h2
    rw [List.getElem?_zipWith, h1, h2]
  have hwf : ∀ (k : Nat) x f, t.times[k]? = some x → t.fields[k]? = some f → (tfilled .linear t x f).WF := by
    intro k x f hx hf
    have hm := List.mem_of_getElem? hf
    refine tfilled_wf (hr.wf f hm) ?_
    intro i j hi hj hs hmk
    rw [vmask_of_cell (hr.wf f hm) hi hj] at hmk
    rw [hr.ax f hm] at hi; rw [hr.ay f hm] at hj
    rcases lin_time hr ((super_iff hr hi hj).1 hs) (x := x) (fun w h => by rw [seen_at hr hx hf] at h; rw [h] at hmk; cases hmk) with ⟨w, -, h1, h2⟩ | ⟨-, h1, h2⟩
    · rw [h1, h2]; rfl
    · rw [h1, h2]
  have hmem : ∀ g ∈ List.zipWith (tfilled .linear t) t.times t.fields, ∃ (k : Nat) (x : Rat) (f : VF), t.times[k]? = some x ∧ t.fields[k]? = some f ∧ g = tfilled .linear t x f := by
    intro g hg
    obtain ⟨k, hk, e⟩ := List.getElem_of_mem hg
    have h1 : k < t.times.length := by rw [List.length_zipWith] at hk; omega
    have h2 : k < t.fields.length := by rw [List.length_zipWith] at hk; omega
    refine ⟨k, _, _, List.getElem?_eq_getElem h1, List.getElem?_eq_getElem h2, ?_⟩
    rw [← e, List.getElem_zipWith]
  refine ⟨{ t with fields := List.zipWith (tfilled .linear t) t.times t.fields }, ?_, ?_, rfl, rfl, rfl, rfl, rfl, rfl, ?_⟩
  · unfold tfill
    rw [if_neg hlen, if_neg (by simp [hany])]
  · refine ⟨?_, hr.inc, ?_, ?_, ?_, ?_, ?_, ?_, ?_, hr.size, hr.tsize, hr.lx, hr.ly⟩
    · simp [hr.paired]
    · intro h
      have h := congrArg List.length h
      rw [List.length_zipWith, hr.paired] at h
      simp at h
      exact hr.ne h
    all_goals
      intro g hg
      obtain ⟨k, x, f, h1, h2, rfl⟩ := hmem g hg
    · exact hwf k x f h1 h2
    · exact hr.ax f (List.mem_of_getElem? h2)
    · exact hr.ay f (List.mem_of_getElem? h2)
    · exact hr.ux f (List.mem_of_getElem? h2)
    · exact hr.uy f (List.mem_of_getElem? h2)
    · exact hr.uv f (List.mem_of_getElem? h2)
  · intro k x f hx hf
    refine ⟨_, hget k x f hx hf, ?_⟩
    intro i j hi hj
    have hm := List.mem_of_getElem? hf
    have hmask := vmask_of_cell (hr.wf f hm) (i := i) (j := j) (by rw [hr.ax f hm]; exact hi) (by rw [hr.ay f hm]; exact hj)
    have hc := tfilled_cell (t := t) (k := .linear) (f := f) (i := i) (j := j) (x := x)
    refine ⟨?_, ?_, ?_⟩
    · intro w hw
      rw [hc.1 (.inr (by rw [hmask, hw]; rfl)), hw]
    · rintro hn hfi ⟨a, v, b, w, sa, sb, hax, hxb⟩
      rcases lin_time hr hfi (x := x) (fun w h => by rw [seen_at hr hx hf, hn] at h; cases h) with ⟨w, h0, h1, h2⟩ | ⟨h0 | h0, -, -⟩
      · exact ⟨w, h0, hc.2.1 ((super_iff hr hi hj).2 hfi) (by rw [hmask, hn]; rfl) _ _ h1 h2⟩
      · exact absurd (h0 a v sa) (by linarith)
      · exact absurd (h0 b w sb) (by linarith)
    · intro hn ho
      by_cases hs : super t i j = true
      · have hfi := (super_iff hr hi hj).1 hs
        rcases lin_time hr hfi (x := x) (fun w h => by rw [seen_at hr hx hf, hn] at h; cases h) with ⟨w, ⟨a, b, u', v', l1, l2, sa, sb, -, -⟩, -, -⟩ | ⟨-, h1, h2⟩
        · rcases ho with ho | ho | ho
          · exact absurd (ho a u' sa) (by linarith)
          · exact absurd (ho b v' sb) (by linarith)
          · have := hfi.2.2.2; omega
        · rw [hc.2.2 hs h1 h2, hn]
      · rw [hc.1 (.inl (by simpa using hs)), hn]

/-- **C252** Kind 'value': the given vector at the masked points of these places, at all times. -/
theorem C252_value_partial {u : Sym} (hr : Record t u) (a b : Rat) (hp : ∃ i j, Fillable t i j) :
    ∃ r, tfill (.value a b) t = .ok (r, r) ∧ r.times = t.times ∧
      ∀ (k : Nat) x f, t.times[k]? = some x → t.fields[k]? = some f → ∃ g, r.fields[k]? = some g ∧ g.WF ∧ ∀ i j, i < t.ax.length → j < t.ay.length →
        (∀ w, f.cell i j = some w → g.cell i j = some w) ∧ (f.cell i j = none → Fillable t i j → g.cell i j = some (a, b)) ∧
        (f.cell i j = none → ¬ Fillable t i j → g.cell i j = none) := by
  obtain ⟨i0, j0, hp0⟩ := hp
  have hany := (anySuper_iff hr).2 ⟨i0, j0, hp0⟩
  have hlen : ¬ t.fields.length < 3 := by have := hp0.2.2; omega
  refine ⟨{ t with fields := List.zipWith (tfilled (.value a b) t) t.times t.fields }, ?_, rfl, ?_⟩
  · unfold tfill
    rw [if_neg hlen, if_neg (by simp [hany])]
  · intro k x f hx hf
    have hm := List.mem_of_getElem? hf
    refine ⟨tfilled (.value a b) t x f, ?_, tfilled_wf (hr.wf f hm) fun _ _ _ _ _ _ => rfl, ?_⟩
    · show (List.zipWith _ _ _)[k]? = _
      rw [List.getElem?_zipWith, hx, hf]
    intro i j hi hj
    have hmask := vmask_of_cell (hr.wf f hm) (i := i) (j := j) (by rw [hr.ax f hm]; exact hi) (by rw [hr.ay f hm]; exact hj)
    have hc := tfilled_cell (t := t) (k := .value a b) (f := f) (i := i) (j := j) (x := x)
    refine ⟨?_, ?_, ?_⟩
    · intro w hw
      rw [hc.1 (.inr (by rw [hmask, hw]; rfl)), hw]
    · intro hn hfi
      exact hc.2.1 ((super_iff hr hi hj).2 hfi) (by rw [hmask, hn]; rfl) a b rfl rfl
    · intro hn hfi
      rw [hc.1 (.inl (by rw [← Bool.not_eq_true, super_iff hr hi hj]; exact hfi)), hn]

/-- **C252** `inplace=False` changes the record itself: a masked point seen before and after is visible in the record after the call. -/
theorem C252_source_violated {u : Sym} (hr : Record t u) {i j k : Nat} {x : Rat} {f : VF} (hp : Fillable t i j) (hx : t.times[k]? = some x) (hf : t.fields[k]? = some f)
    (hn : f.cell i j = none) (hb : ∃ a v b w, Seen t i j a v ∧ Seen t i j b w ∧ a < x ∧ x < b) :
    ∃ src r, tfill .linear t = .ok (src, r) ∧ ∃ w, Seen src i j x w := by
  obtain ⟨r, e, -, et, -, -, -, -, -, h⟩ := C252_temporal_partial hr ⟨i, j, hp⟩
  obtain ⟨g, hg, hc⟩ := h k x f hx hf
  obtain ⟨w, -, hw⟩ := (hc i j hp.1 hp.2.1).2.1 hn hp hb
  exact ⟨r, r, e, w, k, g, by rw [et]; exact hx, hg, hw⟩

/-- **C252** When nothing can be filled the result is an error: without masked points, with three fields, and with every point masked in none or in all
fields but two at most. -/
theorem C252_nothing_violated {u : Sym} (hr : Record t u) (k : TKind) (h3 : 3 ≤ t.fields.length) :
    ((∀ i j, ¬ Fillable t i j) → tfill k t = .error .nameError) ∧
    ((∀ i j, i < t.ax.length → j < t.ay.length → ∀ f ∈ t.fields, f.cell i j ≠ none) → tfill k t = .error .nameError) ∧
    (t.fields.length = 3 → tfill k t = .error .nameError) := by
  have main : (∀ i j, ¬ Fillable t i j) → tfill k t = .error .nameError := by
    intro h
    unfold tfill
    rw [if_neg (by omega), if_pos]
    rw [← Bool.not_eq_true, anySuper_iff hr]
    rintro ⟨i, j, hh⟩
    exact h i j hh
  refine ⟨main, fun h => main ?_, fun h => main ?_⟩
  · rintro i j ⟨hi, hj, h1, -⟩
    unfold hidden at h1
    obtain ⟨f, hf, hc⟩ := List.countP_pos_iff.1 h1
    exact h i j hi hj f hf (by simpa using hc)
  · rintro i j ⟨hi, hj, h1, h2⟩
    omega

/-- **C252** The temporal filling of a record of scalar fields never succeeds. -/
theorem C252_scalar_violated (t : TF) : ∃ e, tfillS t = .error e := by
  unfold tfillS
  split
  · exact ⟨_, rfl⟩
  · split <;> exact ⟨_, rfl⟩

/-! ### C253 -/

/-- **C253** The spatial filling fills each scalar field on its own, and keeps the times. -/
theorem C253_scalar {s : Scipy} {k : Kind} {t r : TF} (h : sfillS s k t = .ok r) :
    r.times = t.times ∧ r.fields.length = t.fields.length ∧
      ∀ (n : Nat) f, t.fields[n]? = some f → ∃ g, r.fields[n]? = some g ∧ fill s k true f = .ok g := by
  unfold sfillS at h
  cases e : mapRes (fill s k true) t.fields with
  | error e' => rw [e] at h; cases h
  | ok l =>
    rw [e] at h; cases h
    obtain ⟨h1, h2⟩ := Temporal.mapRes_get e
    refine ⟨rfl, h1, fun n f hf => ?_⟩
    have hn : n < l.length := by rw [h1]; exact getElem?_some_lt hf
    exact ⟨l[n], List.getElem?_eq_getElem hn, h2 n f _ hf (List.getElem?_eq_getElem hn)⟩

/-- **C253** The spatial filling fills each vector field on its own, and keeps the times. -/
theorem C253_vector {s : Scipy} {kx ky : Kind} {t r : TVF} (h : sfillV s kx ky t = .ok r) :
    r.times = t.times ∧ r.fields.length = t.fields.length ∧
      ∀ (n : Nat) f, t.fields[n]? = some f → ∃ g, r.fields[n]? = some g ∧ vfill s kx ky true f = .ok g := by
  unfold sfillV at h
  cases e : mapRes (vfill s kx ky true) t.fields with
  | error e' => rw [e] at h; cases h
  | ok l =>
    rw [e] at h; cases h
    obtain ⟨h1, h2⟩ := Temporal.mapRes_get e
    refine ⟨rfl, h1, fun n f hf => ?_⟩
    have hn : n < l.length := by rw [h1]; exact getElem?_some_lt hf
    exact ⟨l[n], List.getElem?_eq_getElem hn, h2 n f _ hf (List.getElem?_eq_getElem hn)⟩

/-- **C253** With a value, or with the nearest point if every field has a visible point, every record can be filled and nothing stays masked. -/
theorem C253_filled {s : Scipy} (hs : s.Ok) {u : Sym} {t : TVF} (hr : Record t u) {kx ky : Kind}
    (hk : (∃ a b, kx = .value a ∧ ky = .value b) ∨ kx = .nearest ∧ ky = .nearest ∧ ∀ f ∈ t.fields, ∃ x y w, f.Reads x y (some w)) :
    ∃ r, sfillV s kx ky t = .ok r ∧ ∀ (n : Nat) f g, t.fields[n]? = some f → r.fields[n]? = some g → VFills f g := by
  have hv : ∀ f ∈ t.fields, ∃ g, vfill s kx ky true f = .ok g ∧ VFills f g := by
    intro f hf
    have h1 : 2 ≤ f.ax.length := by rw [hr.ax f hf]; exact hr.lx
    have h2 : 2 ≤ f.ay.length := by rw [hr.ay f hf]; exact hr.ly
    rcases hk with ⟨a, b, rfl, rfl⟩ | ⟨rfl, rfl, h⟩
    · obtain ⟨g, e, h, -⟩ := C250_value s true (hr.wf f hf) h1 h2 a b
      exact ⟨g, e, h⟩
    · obtain ⟨x, y, w, hw⟩ := h f hf
      obtain ⟨g, e, h, -⟩ := C250_nearest hs true (hr.wf f hf) h1 h2 hw
      exact ⟨g, e, h⟩
  obtain ⟨l, hl⟩ := Temporal.mapRes_exists (g := vfill s kx ky true) (l := t.fields) fun f hf => (hv f hf).imp fun g h => h.1
  have e : sfillV s kx ky t = .ok { t with fields := l } := by unfold sfillV; rw [hl]
  refine ⟨_, e, fun n f g hf hg => ?_⟩
  obtain ⟨g', hg', e'⟩ := (C253_vector e).2.2 n f hf
  obtain ⟨g'', e'', h⟩ := hv f (List.mem_of_getElem? hf)
  rw [hg'] at hg; cases hg
  rw [e'] at e''; cases e''
  exact h

end IMT.Fill
