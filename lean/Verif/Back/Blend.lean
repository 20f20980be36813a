import Verif.Back.Clear
import Mathlib.Algebra.BigOperators.Field

/-! C237: the blending of the foreground. -/

namespace IMT.Back

open Temporal (TF)
open Turb (SRecord)
open Reshape (allSome_some allSome_none)
open Finset

/-- `gauss` is a linear filter: each value becomes the sum of the values times the weights `K`. -/
def IsFilter (gauss : Grid (Option Rat) → Grid (Option Rat)) (K : Nat → Nat → Nat → Nat → Rat) : Prop :=
  ∀ (G : Grid (Option Rat)) (v : Nat → Nat → Rat), (∀ i j, i < G.nx → j < G.ny → G.get i j = some (v i j)) →
    ∀ i j, i < G.nx → j < G.ny → (gauss G).get i j = some (∑ a ∈ range G.nx, ∑ b ∈ range G.ny, K i j a b * v a b)

/-- The field shows the value `v i j` at each point. -/
def Shows (f : SF) (v : Nat → Nat → Rat) : Prop := ∀ i j, i < f.ax.length → j < f.ay.length → f.cell i j = some (v i j)

open Classical in
/-- The points of the foreground. -/
noncomputable def fore (f bg : SF) (noise : Rat) : Finset (Nat × Nat) :=
  (range f.ax.length ×ˢ range f.ay.length).filter fun q => ¬ Near noise (f.cell q.1 q.2) (bg.cell q.1 q.2)

theorem mem_fore {f bg : SF} {noise : Rat} {i j : Nat} :
    (i, j) ∈ fore f bg noise ↔ (i < f.ax.length ∧ j < f.ay.length) ∧ ¬ Near noise (f.cell i j) (bg.cell i j) := by
  classical
  unfold fore
  rw [mem_filter, mem_product, mem_range, mem_range]

theorem foreMean_eq {f bg : SF} (hf : f.WF) {noise : Rat} {v : Nat → Nat → Rat} (hv : Shows f v) (hne : (fore f bg noise).Nonempty) :
    foreMean noise f.values bg.values = some ((∑ q ∈ fore f bg noise, v q.1 q.2) / (fore f bg noise).card) := by
  classical
  set L := (((List.range f.ax.length).flatMap fun i => (List.range f.ay.length).map fun j => (i, j)).filter
      fun q => !isBack noise (f.cell q.1 q.2) (bg.cell q.1 q.2)) with hL
  have hmem : ∀ q, q ∈ L ↔ q ∈ fore f bg noise := by
    intro q
    unfold fore
    rw [hL, List.mem_filter, List.mem_flatMap, mem_filter, mem_product, mem_range, mem_range, Bool.not_eq_true', ← Bool.not_eq_true, isBack_iff]
    constructor
    · rintro ⟨⟨i, hi, hj⟩, h⟩
      obtain ⟨j, hj', rfl⟩ := List.mem_map.1 hj
      exact ⟨⟨List.mem_range.1 hi, List.mem_range.1 hj'⟩, h⟩
    · rintro ⟨⟨h1, h2⟩, h⟩
      exact ⟨⟨q.1, List.mem_range.2 h1, List.mem_map.2 ⟨q.2, List.mem_range.2 h2, rfl⟩⟩, h⟩
  have hnd : L.Nodup := by
    refine List.Nodup.filter _ ?_
    rw [List.nodup_flatMap]
    refine ⟨fun i _ => List.Nodup.map (fun a b h => (Prod.mk.inj h).2) List.nodup_range, ?_⟩
    refine List.Pairwise.imp ?_ List.nodup_range
    intro a b hab c hc hc'
    obtain ⟨_, _, rfl⟩ := List.mem_map.1 hc
    obtain ⟨_, _, e⟩ := List.mem_map.1 hc'
    exact hab (Prod.mk.inj e).1.symm
  have hset : L.toFinset = fore f bg noise := by
    ext q
    rw [List.mem_toFinset, hmem]
  have hval : L.map (fun q => f.cell q.1 q.2) = (L.map fun q => v q.1 q.2).map some := by
    rw [List.map_map]
    refine List.map_congr_left fun q hq => ?_
    have := (hmem q).1 hq
    unfold fore at this
    rw [mem_filter, mem_product, mem_range, mem_range] at this
    exact hv _ _ this.1.1 this.1.2
  have hL0 : L ≠ [] := by
    obtain ⟨q, hq⟩ := hne
    have := (hmem q).2 hq
    intro h0
    rw [h0] at this
    simp at this
  unfold foreMean
  show (match Reshape.allSome (List.map (fun q => f.cell q.1 q.2) (List.filter _ ((List.range f.val.nx).flatMap fun i => (List.range f.val.ny).map fun j => (i, j)))) with
    | none => none
    | some [] => none
    | some l => some (mean l)) = _
  rw [hf.vx, hf.vy]
  show (match Reshape.allSome (L.map fun q => f.cell q.1 q.2) with
    | none => none
    | some [] => none
    | some l => some (mean l)) = _
  rw [hval, allSome_some.2 rfl]
  have hsum : mean (L.map fun q => v q.1 q.2) = (∑ q ∈ fore f bg noise, v q.1 q.2) / (fore f bg noise).card := by
    unfold mean
    rw [← hset, List.sum_toFinset _ hnd, List.toFinset_card_of_nodup hnd, List.length_map]
  rw [← hsum]
  obtain ⟨a, l, e⟩ := List.exists_cons_of_ne_nil hL0
  rw [e]
  rfl

variable {t : TF} {u : Sym} {bg : SF}

/-- **C237** With blending, in a field without masked points, each point of the foreground becomes a mixture of its value and of the filling value: the
weight of its value is the filtered value of `(v - B) / (M - B)`, `B` and `M` being the means of the background and of the foreground.  Missing: fields
with masked points (see `C237_blend_violated`), and fields where the two means are equal. -/
theorem C237_blend_partial (h : SRecord t u) (hb : bg.WF) (hax : bg.ax = t.ax) (hay : bg.ay = t.ay) {gauss : Grid (Option Rat) → Grid (Option Rat)}
    {K : Nat → Nat → Nat → Nat → Rat} (hK : IsFilter gauss K) {noise : Rat} {fill : Option Rat} {c B M : Rat} (hc : Filling bg fill c) (hB : MeanOf bg B)
    {T : TF} (hT : substract gauss t bg noise true fill = .ok T) {k : Nat} {f g : SF} (hf : t.fields[k]? = some f) (hg : T.fields[k]? = some g)
    {v : Nat → Nat → Rat} (hv : Shows f v) (hne : (fore f bg noise).Nonempty)
    (hM : M = (∑ q ∈ fore f bg noise, v q.1 q.2) / (fore f bg noise).card) (hMB : M ≠ B) {i j : Nat} (hij : (i, j) ∈ fore f bg noise) :
    g.cell i j = some (let w := ∑ a ∈ range f.ax.length, ∑ b ∈ range f.ay.length, K i j a b * ((v a b - B) / (M - B))
      v i j * w + c * (1 - w)) := by
  rw [substract_ok h hb hax hay] at hT
  cases hT
  rw [filling hb hc] at hg
  simp only [List.getElem?_map, hf, Option.map_some, Option.some.injEq] at hg
  subst hg
  have hm := List.mem_of_getElem? hf
  have hw := h.ok.wf f hm
  have hin := mem_fore.1 hij
  rw [clear_cell, if_neg (by rw [isBack_iff]; exact hin.2), if_pos rfl]
  unfold blended
  rw [foreMean_eq hw hv hne, ← hM, (mean_of hb B).2 hB]
  simp only
  rw [hK ⟨f.values.nx, f.values.ny, fun i j => divF (subF (f.values.get i j) (some B)) (subF (some M) (some B))⟩ (fun a b => (v a b - B) / (M - B)) ?_ i j
    (by show i < f.val.nx; rw [hw.vx]; exact hin.1.1) (by show j < f.val.ny; rw [hw.vy]; exact hin.1.2)]
  · show mix (f.cell i j) (some (∑ a ∈ range f.val.nx, ∑ b ∈ range f.val.ny, _)) _ = _
    rw [hv i j hin.1.1 hin.1.2, hw.vx, hw.vy]
    simp only [mix, Option.some.injEq]
    ring
  · intro a b ha hb'
    have ha : a < f.val.nx := ha
    have hb' : b < f.val.ny := hb'
    rw [hw.vx] at ha
    rw [hw.vy] at hb'
    show divF (subF (f.cell a b) (some B)) (subF (some M) (some B)) = _
    rw [hv a b ha hb']
    simp only [subF, divF, if_neg (sub_ne_zero.2 hMB)]

/-- **C237** So that a field that is uniform, and not near the background, keeps its value whatever the filling value is, for a filter whose weights sum
up to one. -/
theorem C237_uniform (h : SRecord t u) (hb : bg.WF) (hax : bg.ax = t.ax) (hay : bg.ay = t.ay) {gauss : Grid (Option Rat) → Grid (Option Rat)}
    {K : Nat → Nat → Nat → Nat → Rat} (hK : IsFilter gauss K) {noise : Rat} {fill : Option Rat} {c B : Rat} (hc : Filling bg fill c) (hB : MeanOf bg B)
    {T : TF} (hT : substract gauss t bg noise true fill = .ok T) {k : Nat} {f g : SF} (hf : t.fields[k]? = some f) (hg : T.fields[k]? = some g)
    {q : Rat} (hv : Shows f fun _ _ => q) (hqB : q ≠ B) {i j : Nat} (hij : (i, j) ∈ fore f bg noise)
    (hs : ∑ a ∈ range f.ax.length, ∑ b ∈ range f.ay.length, K i j a b = 1) : g.cell i j = some q := by
  have hcard : ((fore f bg noise).card : Rat) ≠ 0 := by
    exact_mod_cast (card_pos.2 ⟨_, hij⟩).ne'
  have hM : q = (∑ _p ∈ fore f bg noise, q) / (fore f bg noise).card := by
    rw [sum_const, nsmul_eq_mul, mul_div_cancel_left₀ _ hcard]
  rw [C237_blend_partial h hb hax hay hK hc hB hT hf hg hv ⟨_, hij⟩ hM hqB hij]
  simp only
  rw [div_self (sub_ne_zero.2 hqB)]
  simp only [mul_one]
  rw [hs]
  simp

/-- The identity is a filter, with weights that sum up to one. -/
theorem id_filter : IsFilter id fun i j a b => if a = i ∧ b = j then 1 else 0 := by
  intro G v hv i j hi hj
  rw [id, hv i j hi hj]
  congr 1
  rw [sum_eq_single_of_mem i (mem_range.2 hi), sum_eq_single_of_mem j (mem_range.2 hj)]
  · simp
  · intro b _ hb
    simp [hb]
  · intro a _ ha
    simp [ha]

/-- In the record of `demo`, the second field has a foreground, and is blended. -/
example : ∃ T g, substract id demo demoBg 10 true (some 3) = .ok T ∧ T.fields[1]? = some g ∧ demoF 50 ∈ demo.fields ∧ g.cell 0 0 = some 50 := by
  rw [show substract id demo demoBg 10 true (some 3) = .ok _ from if_pos (by decide +kernel)]
  exact ⟨_, _, rfl, rfl, by simp [demo], by decide +kernel⟩

/-- The hypotheses of `C237_blend_partial` hold for it. -/
example : (0, 0) ∈ fore (demoF 50) demoBg 10 ∧ (1, 0) ∉ fore (demoF 50) demoBg 10 ∧ MeanOf demoBg 1 := by
  refine ⟨?_, ?_, ?_⟩
  · rw [mem_fore]
    refine ⟨by decide, ?_⟩
    rw [← isBack_iff]
    decide +kernel
  · rw [mem_fore, not_and, not_not]
    intro _
    rw [← isBack_iff]
    decide +kernel
  · rw [← mean_of ⟨by decide +kernel, by decide +kernel, by simp [demoBg], by simp [demoBg], rfl, rfl, rfl, rfl, fun i j _ _ h => by cases h⟩]
    decide +kernel

end IMT.Back
