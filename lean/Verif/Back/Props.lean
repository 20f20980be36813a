import Verif.Back.Model
import Verif.Reshape.Doublons
import Verif.Turb.Scal
import Verif.Scalar.ImportLemmas
import Mathlib.Data.Real.Sqrt

/-! C236: the background of a record of pictures. -/

namespace IMT.Back

open Temporal (TF)
open Turb (SRecord)
open Reshape (allSome_some allSome_none)

/-! ### specification -/

/-- The values that the successive fields show at a point. -/
def Shown (t : TF) (x y : Rat) (L : List Rat) : Prop := List.Forall₂ (fun (f : SF) v => f.Reads x y (some v)) t.fields L

/-- The standard deviation of numbers. -/
noncomputable def deviation (l : List Rat) : ℝ := Real.sqrt (((l.map fun v => (v - l.sum / l.length) ^ 2).sum / l.length : Rat) : ℝ)

open Classical in
/-- The values closer to their mean than one standard deviation. -/
noncomputable def central (l : List Rat) : List Rat := l.filter fun v => decide (|(v : ℝ) - ((l.sum / l.length : Rat) : ℝ)| < deviation l)

/-- The rounds may stop after `old` has been reduced to `new`: the deviation is below the noise, a tenth of the `n` values is left, or the
deviation has not changed. -/
def Done (noise : Rat) (n : Nat) (old new : List Rat) : Prop := deviation new < noise ∨ 10 * new.length ≤ n ∨ deviation old = deviation new

/-- The mean of numbers, NaN without any. -/
def mean? (l : List Rat) : Option Rat := if l = [] then none else some (l.sum / l.length)

/-! ### lemmas -/

theorem variance_nonneg (l : List Rat) : 0 ≤ variance l :=
  div_nonneg (List.sum_nonneg fun a ha => by obtain ⟨v, -, rfl⟩ := List.mem_map.1 ha; positivity) (by positivity)

theorem deviation_eq (l : List Rat) : deviation l = Real.sqrt (variance l : ℝ) := rfl

theorem central_eq (l : List Rat) : central l = clip l := by
  unfold central clip
  apply List.filter_congr
  intro v _
  rw [decide_eq_decide, deviation_eq, Real.lt_sqrt (abs_nonneg _), sq_abs]
  show ((v : ℝ) - ((mean l : Rat) : ℝ)) ^ 2 < _ ↔ _
  constructor <;> intro h
  · exact_mod_cast h
  · exact_mod_cast h

theorem stop_iff (noise : Rat) (n : Nat) (old new : List Rat) :
    stop noise n old new = true ↔ Done noise n old new := by
  have h1 : (0 < noise ∧ variance new < noise ^ 2) ↔ deviation new < (noise : ℝ) := by
    rw [deviation_eq]
    constructor
    · rintro ⟨a, b⟩
      rw [Real.sqrt_lt' (by exact_mod_cast a)]
      exact_mod_cast b
    · intro h
      have h0 : (0 : ℝ) < noise := lt_of_le_of_lt (Real.sqrt_nonneg _) h
      rw [Real.sqrt_lt' h0] at h
      exact ⟨by exact_mod_cast h0, by exact_mod_cast h⟩
  have h2 : ((new.length : Nat) : Rat) ≤ (n : Rat) / 10 ↔ 10 * new.length ≤ n := by
    rw [le_div_iff₀ (by norm_num)]
    constructor
    · intro h
      have : ((new.length * 10 : Nat) : Rat) ≤ (n : Nat) := by push_cast; exact h
      have := Nat.cast_le.1 this
      omega
    · intro h
      have : ((10 * new.length : Nat) : Rat) ≤ (n : Nat) := Nat.cast_le.2 h
      push_cast at this
      linarith
  have h3 : variance old = variance new ↔ deviation old = deviation new := by
    rw [deviation_eq, deviation_eq, Real.sqrt_inj (by exact_mod_cast variance_nonneg _) (by exact_mod_cast variance_nonneg _)]
    exact Rat.cast_inj.symm
  simp only [stop, Bool.or_eq_true, decide_eq_true_eq, h1, h2, h3, or_assoc, Done]

theorem mean?_ne {l : List Rat} (h : l ≠ []) : mean? l = some (mean l) := by rw [mean?, if_neg h]; rfl

theorem clip_nil : clip [] = [] := rfl

theorem loop_spec (noise : Rat) (n : Nat) : ∀ (m : Nat) (l : List Rat), l.length = m → ∃ k : Nat,
    (∀ j < k, ¬ Done noise n (central^[j] l) (central^[j + 1] l)) ∧ Done noise n (central^[k] l) (central^[k + 1] l) ∧
      loop noise n l = mean? (central^[k + 1] l) := by
  intro m
  induction m using Nat.strong_induction_on with
  | _ m ih =>
    intro l hl
    rw [loop]
    by_cases h : clip l = []
    · refine ⟨0, fun j hj => absurd hj (by omega), Or.inr (Or.inl ?_), ?_⟩
      · show 10 * (central l).length ≤ n
        rw [central_eq, h]; simp
      · show _ = mean? (central l)
        rw [dif_pos h, central_eq, h]; rfl
    · rw [dif_neg h]
      have hne : l ≠ [] := fun e => h (by rw [e]; rfl)
      by_cases hs : stop noise n l (clip l) = true
      · refine ⟨0, fun j hj => absurd hj (by omega), ?_, ?_⟩
        · show Done noise n l (central l)
          rw [central_eq]; exact (stop_iff noise n l _).1 hs
        · show _ = mean? (central l)
          rw [if_pos hs, central_eq, mean?_ne h]
      · rw [if_neg hs]
        obtain ⟨k, h1, h2, h3⟩ := ih (clip l).length (hl ▸ clip_lt l hne) (clip l) rfl
        have hit : ∀ j, central^[j + 1] l = central^[j] (clip l) := fun j => by rw [Function.iterate_succ_apply, central_eq]
        refine ⟨k + 1, fun j hj => ?_, ?_, ?_⟩
        · cases j with
          | zero =>
            show ¬ Done noise n l (central l)
            rw [central_eq, ← stop_iff]; exact hs
          | succ j => rw [hit, hit]; exact h1 j (by omega)
        · rw [hit, hit]; exact h2
        · rw [hit]; exact h3

theorem done_unique {noise : Rat} {n : Nat} {l : List Rat} {k k' : Nat}
    (h1 : ∀ j < k, ¬ Done noise n (central^[j] l) (central^[j + 1] l)) (h2 : Done noise n (central^[k] l) (central^[k + 1] l))
    (h1' : ∀ j < k', ¬ Done noise n (central^[j] l) (central^[j + 1] l)) (h2' : Done noise n (central^[k'] l) (central^[k' + 1] l)) : k = k' := by
  rcases lt_trichotomy k k' with h | h | h
  · exact absurd h2 (h1' k h)
  · exact h
  · exact absurd h2' (h1 k' h)

theorem reads_cell {f : SF} {i j : Nat} {x y : Rat} {v : Option Rat} (hf : f.WF) (hi : f.ax[i]? = some x) (hj : f.ay[j]? = some y) :
    f.Reads x y v ↔ f.cell i j = v := by
  constructor
  · rintro ⟨i', j', e1, e2, e3⟩
    rw [hf.incx.idx_inj' hi e1, hf.incy.idx_inj' hj e2]; exact e3
  · intro h; exact ⟨i, j, hi, hj, h⟩

theorem cell_val {f : SF} {i j : Nat} {v : Rat} (h : f.cell i j = some v) : f.val.get i j = some v := by
  unfold SF.cell at h
  split_ifs at h
  exact h

variable {t : TF} {u : Sym}

theorem shown_vals (h : SRecord t u) {i j : Nat} {x y : Rat} (hi : t.ax[i]? = some x) (hj : t.ay[j]? = some y) {L : List Rat}
    (hL : Shown t x y L) : t.fields.map (fun f => f.val.get i j) = L.map some := by
  have key : ∀ (fs : List SF) (L : List Rat), (∀ f ∈ fs, f ∈ t.fields) → List.Forall₂ (fun (f : SF) v => f.Reads x y (some v)) fs L →
      fs.map (fun f => f.val.get i j) = L.map some := by
    intro fs L hfs hL
    induction hL with
    | nil => rfl
    | @cons f v fs L hv _ ih =>
      have hf := hfs f (by simp)
      rw [List.map_cons, List.map_cons, ih fun g hg => hfs g (by simp [hg])]
      rw [cell_val ((reads_cell (h.ok.wf f hf) (by rw [h.ok.ax f hf]; exact hi) (by rw [h.ok.ay f hf]; exact hj)).1 hv)]
  exact key t.fields L (fun _ => id) hL

theorem axes_inc (h : SRecord t u) : Inc t.ax ∧ Inc t.ay := by
  obtain ⟨f, hf⟩ := List.exists_mem_of_ne_nil _ h.ne
  rw [← h.ok.ax f hf, ← h.ok.ay f hf]
  exact ⟨(h.ok.wf f hf).incx, (h.ok.wf f hf).incy⟩

/-- The background exists, on the grid of the record, and shows the value of each pixel. -/
theorem background_cells (h : SRecord t u) (h2x : 2 ≤ t.ax.length) (h2y : 2 ≤ t.ay.length) (noise : Rat) :
    ∃ g, background t noise = .ok g ∧ g.ax = t.ax ∧ g.ay = t.ay ∧ g.ux = t.ux ∧ g.uy = t.uy ∧ g.uv = Sym.one ∧ g.WF ∧
      ∀ i j, g.cell i j = pixel noise t.times.length (t.fields.map fun f => f.val.get i j) := by
  obtain ⟨hx, hy⟩ := axes_inc h
  obtain ⟨g, e, a1, a2, a3, a4, a5, a6, a7, a8, a9, a10, a11⟩ := SF.import_direct (ax := t.ax) (ay := t.ay)
    (v := ⟨t.ax.length, t.ay.length, fun i j => pixel noise t.times.length (t.fields.map fun f => f.val.get i j)⟩) (m := .none)
    (ux := t.ux) (uy := t.uy) (uv := Sym.one) rfl rfl h2x h2y trivial
  rw [SF.rev_false hx] at a1 a7
  rw [SF.rev_false hy] at a2 a7
  simp only [Bool.false_eq_true, if_false] at a1 a2 a7
  refine ⟨g, e, a1, a2, a9, a10, a11, ⟨a1 ▸ hx, a2 ▸ hy, ?_, ?_, by rw [a3, a1], by rw [a4, a2], by rw [a5, a1], by rw [a6, a2], ?_⟩, ?_⟩
  · rw [a1]; intro e; rw [e] at h2x; simp at h2x
  · rw [a2]; intro e; rw [e] at h2y; simp at h2y
  · intro i j _ _ hn
    rw [a7] at hn
    have hn : pixel noise t.times.length (t.fields.map fun f => f.val.get i j) = none := hn
    rw [a8]
    show (_ || (pixel noise t.times.length (t.fields.map fun f => f.val.get i j)).isNone) = true
    rw [hn]; simp
  · intro i j
    unfold SF.cell
    rw [a8, a7]
    show (if (false || (pixel noise t.times.length (t.fields.map fun f => f.val.get i j)).isNone) = true then none else
      pixel noise t.times.length (t.fields.map fun f => f.val.get i j)) = _
    cases pixel noise t.times.length (t.fields.map fun f => f.val.get i j) <;> simp

/-! ### C236 -/

/-- **C236** At a point that every field shows, the background is found by rounds that keep the values closer to their mean than one standard
deviation, until the deviation is below the noise, a tenth of the values is left or the deviation does not change; the rounds come to an end,
and the background is the mean of the values left, on the grid of the record. -/
theorem C236_rounds (h : SRecord t u) (h2x : 2 ≤ t.ax.length) (h2y : 2 ≤ t.ay.length) (noise : Rat) :
    ∃ g, background t noise = .ok g ∧ g.ax = t.ax ∧ g.ay = t.ay ∧ g.ux = t.ux ∧ g.uy = t.uy ∧
      ∀ x y L, x ∈ t.ax → y ∈ t.ay → Shown t x y L → ∃ k : Nat,
        (∀ j < k, ¬ Done noise t.fields.length (central^[j] L) (central^[j + 1] L)) ∧
        Done noise t.fields.length (central^[k] L) (central^[k + 1] L) ∧
        ∀ v, g.Reads x y v ↔ v = mean? (central^[k + 1] L) := by
  obtain ⟨g, e, a1, a2, a3, a4, -, hw, hc⟩ := background_cells h h2x h2y noise
  refine ⟨g, e, a1, a2, a3, a4, fun x y L hx hy hL => ?_⟩
  obtain ⟨i, hi⟩ := List.mem_iff_getElem?.1 hx
  obtain ⟨j, hj⟩ := List.mem_iff_getElem?.1 hy
  have hlen : t.times.length = t.fields.length := h.ok.paired
  obtain ⟨k, b1, b2, b3⟩ := loop_spec noise t.fields.length _ L rfl
  refine ⟨k, b1, b2, fun v => ?_⟩
  rw [reads_cell hw (by rw [a1]; exact hi) (by rw [a2]; exact hj), hc, shown_vals h hi hj hL, hlen]
  unfold pixel
  rw [allSome_some.2 rfl]
  show loop noise t.fields.length L = v ↔ _
  rw [b3]
  exact eq_comm

theorem central_sublist (l : List Rat) : (central l).Sublist l := by rw [central_eq]; exact List.filter_sublist

theorem iterate_sublist (l : List Rat) (k : Nat) : (central^[k] l).Sublist l := by
  induction k with
  | zero => exact List.Sublist.refl _
  | succ k ih => rw [Function.iterate_succ_apply']; exact (central_sublist _).trans ih

theorem mean_bounds {l : List Rat} {lo hi : Rat} (hne : l ≠ []) (h : ∀ v ∈ l, lo ≤ v ∧ v ≤ hi) : lo ≤ l.sum / l.length ∧ l.sum / l.length ≤ hi := by
  have h0 : (0 : Rat) < l.length := by exact_mod_cast List.length_pos_of_ne_nil hne
  have key : (l.length : Rat) * lo ≤ l.sum ∧ l.sum ≤ l.length * hi := by
    clear hne h0
    induction l with
    | nil => simp
    | cons a l ih =>
      have h1 := h a (by simp)
      have h2 := ih fun v hv => h v (by simp [hv])
      simp only [List.sum_cons, List.length_cons]
      push_cast
      constructor <;> linarith [h1.1, h1.2, h2.1, h2.2]
  rw [le_div_iff₀ h0, div_le_iff₀ h0]
  exact ⟨by linarith [key.1], by linarith [key.2]⟩

/-- **C236** The background lies between the values shown at the point: it is the mean of some of them. -/
theorem C236_between (h : SRecord t u) (h2x : 2 ≤ t.ax.length) (h2y : 2 ≤ t.ay.length) (noise : Rat) {g : SF} (hg : background t noise = .ok g)
    {x y : Rat} {L : List Rat} (hx : x ∈ t.ax) (hy : y ∈ t.ay) (hL : Shown t x y L) {b : Rat} (hb : g.Reads x y (some b)) :
    (∃ K : List Rat, K.Sublist L ∧ K ≠ [] ∧ b = K.sum / K.length) ∧ ∀ lo hi, (∀ v ∈ L, lo ≤ v ∧ v ≤ hi) → lo ≤ b ∧ b ≤ hi := by
  obtain ⟨g', e, -, -, -, -, hr⟩ := C236_rounds h h2x h2y noise
  rw [hg] at e
  cases e
  obtain ⟨k, -, -, hk⟩ := hr x y L hx hy hL
  have hk := (hk _).1 hb
  unfold mean? at hk
  split_ifs at hk with hne
  have hk : b = _ := Option.some.inj hk
  refine ⟨⟨_, iterate_sublist L (k + 1), hne, hk⟩, fun lo hi hv => ?_⟩
  rw [hk]
  exact mean_bounds hne fun v hv' => hv v ((iterate_sublist L (k + 1)).subset hv')

/-! The majority. -/

theorem sum_two {a b : Rat} (φ : Rat → Rat) : ∀ L : List Rat, (∀ v ∈ L, v = a ∨ v = b) → a ≠ b →
    (L.map φ).sum = L.count a * φ a + L.count b * φ b ∧ L.length = L.count a + L.count b := by
  intro L
  induction L with
  | nil => simp
  | cons v L ih =>
    intro h hab
    obtain ⟨h1, h2⟩ := ih (fun w hw => h w (by simp [hw])) hab
    rw [List.map_cons, List.sum_cons, h1, List.length_cons, h2]
    rcases h v (by simp) with rfl | rfl
    · rw [List.count_cons_self, List.count_cons_of_ne hab]
      push_cast
      exact ⟨by ring, by ring⟩
    · rw [List.count_cons_self, List.count_cons_of_ne (Ne.symm hab)]
      push_cast
      exact ⟨by ring, by ring⟩

theorem mean_const {l : List Rat} {a : Rat} (hne : l ≠ []) (h : ∀ v ∈ l, v = a) : mean l = a := by
  have := mean_bounds hne (lo := a) (hi := a) fun v hv => by rw [h v hv]; exact ⟨le_refl _, le_refl _⟩
  exact le_antisymm this.2 this.1

theorem variance_const {l : List Rat} {a : Rat} (h : ∀ v ∈ l, v = a) : variance l = 0 := by
  by_cases hne : l = []
  · subst hne; simp [variance]
  · unfold variance
    rw [show (l.map fun v => (v - mean l) ^ 2) = l.map fun _ => 0 from List.map_congr_left fun v hv => by
      rw [h v hv, mean_const hne h]; ring]
    simp

/-- The outcome of one pixel with two values. -/
theorem clip_two {a b : Rat} {L : List Rat} (h : ∀ v ∈ L, v = a ∨ v = b) (hab : a ≠ b) (hc : L.count b < L.count a) (hb : 0 < L.count b) :
    ∀ v, v ∈ clip L ↔ v ∈ L ∧ v = a := by
  obtain ⟨h1, h2⟩ := sum_two id L h hab
  obtain ⟨h3, -⟩ := sum_two (fun v => (v - mean L) ^ 2) L h hab
  simp only [List.map_id, id] at h1
  set m : Rat := ((L.count a : Nat) : Rat) with hm
  set k : Rat := ((L.count b : Nat) : Rat) with hk
  have hkm : k < m := Nat.cast_lt.2 hc
  have hk0 : 0 < k := Nat.cast_pos.2 hb
  have hn : ((L.length : Nat) : Rat) = m + k := by rw [h2]; push_cast; rfl
  have hmean : mean L = (m * a + k * b) / (m + k) := by unfold mean; rw [h1, hn]
  have hs : (0 : Rat) < m + k := by linarith
  have e1 : a - mean L = k * (a - b) / (m + k) := by rw [hmean]; field_simp; ring
  have e2 : b - mean L = m * (b - a) / (m + k) := by rw [hmean]; field_simp; ring
  have hvar : variance L = m * k * (a - b) ^ 2 / (m + k) ^ 2 := by
    unfold variance; rw [h3, hn, e1, e2]; field_simp; ring
  have hd : 0 < (a - b) ^ 2 := by have := sub_ne_zero.2 hab; positivity
  have g1 : (a - mean L) ^ 2 < variance L := by
    rw [e1, hvar, div_pow, div_lt_div_iff_of_pos_right (by positivity), mul_pow, show m * k * (a - b) ^ 2 = (m * k) * (a - b) ^ 2 by ring]
    exact mul_lt_mul_of_pos_right (by nlinarith) hd
  have g2 : ¬ (b - mean L) ^ 2 < variance L := by
    rw [e2, hvar, div_pow, div_lt_div_iff_of_pos_right (by positivity), mul_pow, show (b - a) ^ 2 = (a - b) ^ 2 by ring, not_lt]
    exact mul_le_mul_of_nonneg_right (by nlinarith) hd.le
  intro v
  unfold clip
  rw [List.mem_filter, decide_eq_true_eq]
  constructor
  · rintro ⟨hv, hlt⟩
    refine ⟨hv, (h v hv).resolve_right fun e => ?_⟩
    rw [e] at hlt
    exact g2 hlt
  · rintro ⟨hv, rfl⟩
    exact ⟨hv, g1⟩

theorem loop_majority {a b noise : Rat} {n : Nat} {L : List Rat} (h : ∀ v ∈ L, v = a ∨ v = b) (hab : a ≠ b) (hc : L.count b < L.count a)
    (hb : 0 < L.count b) (hn : 0 < noise) : loop noise n L = some a := by
  have hm := clip_two h hab hc hb
  have hne : clip L ≠ [] := by
    have : a ∈ clip L := (hm a).2 ⟨List.count_pos_iff.1 (by omega), rfl⟩
    exact List.ne_nil_of_mem this
  rw [loop, dif_neg hne, if_pos, mean_const hne fun v hv => ((hm v).1 hv).2]
  unfold stop
  rw [variance_const fun v hv => ((hm v).1 hv).2]
  simp [hn, pow_pos hn 2]

theorem loop_const {a noise : Rat} {n : Nat} {L : List Rat} (h : ∀ v ∈ L, v = a) : loop noise n L = none := by
  have : clip L = [] := by
    unfold clip
    rw [variance_const h, List.filter_eq_nil_iff]
    intro v _
    simp only [decide_eq_true_eq, not_lt]
    positivity
  rw [loop, dif_pos this]

theorem background_at (h : SRecord t u) (h2x : 2 ≤ t.ax.length) (h2y : 2 ≤ t.ay.length) (noise : Rat) {g : SF} (hg : background t noise = .ok g)
    {x y : Rat} {L : List Rat} (hx : x ∈ t.ax) (hy : y ∈ t.ay) (hL : Shown t x y L) : g.Reads x y (loop noise t.fields.length L) := by
  obtain ⟨g', e, a1, a2, -, -, -, hw, hc⟩ := background_cells h h2x h2y noise
  rw [hg] at e
  cases e
  obtain ⟨i, hi⟩ := List.mem_iff_getElem?.1 hx
  obtain ⟨j, hj⟩ := List.mem_iff_getElem?.1 hy
  rw [reads_cell hw (by rw [a1]; exact hi) (by rw [a2]; exact hj), hc, shown_vals h hi hj hL,
    show t.times.length = t.fields.length from h.ok.paired]
  unfold pixel
  rw [allSome_some.2 rfl]

/-- **C236** Where the fields show one of two values, the background is the most frequent one. -/
theorem C236_majority (h : SRecord t u) (h2x : 2 ≤ t.ax.length) (h2y : 2 ≤ t.ay.length) {noise : Rat} (hn : 0 < noise) {g : SF}
    (hg : background t noise = .ok g) {x y : Rat} {L : List Rat} (hx : x ∈ t.ax) (hy : y ∈ t.ay) (hL : Shown t x y L) {a b : Rat}
    (hab : ∀ v ∈ L, v = a ∨ v = b) (hne : a ≠ b) (hc : L.count b < L.count a) (hb : 0 < L.count b) : g.Reads x y (some a) := by
  rw [← loop_majority (n := t.fields.length) hab hne hc hb hn]
  exact background_at h h2x h2y noise hg hx hy hL

/-- **C236** A pixel that never changes has no background: it is masked, whatever the level of noise. -/
theorem C236_constant_violated (h : SRecord t u) (h2x : 2 ≤ t.ax.length) (h2y : 2 ≤ t.ay.length) (noise : Rat) {g : SF}
    (hg : background t noise = .ok g) {x y : Rat} {L : List Rat} (hx : x ∈ t.ax) (hy : y ∈ t.ay) (hL : Shown t x y L) {a : Rat}
    (ha : ∀ v ∈ L, v = a) : g.Reads x y none := by
  rw [← loop_const (noise := noise) (n := t.fields.length) ha]
  exact background_at h h2x h2y noise hg hx hy hL

/-- **C236** Nor has a pixel that shows two values equally often. -/
theorem C236_tie_violated (h : SRecord t u) (h2x : 2 ≤ t.ax.length) (h2y : 2 ≤ t.ay.length) (noise : Rat) {g : SF}
    (hg : background t noise = .ok g) {x y : Rat} {L : List Rat} (hx : x ∈ t.ax) (hy : y ∈ t.ay) (hL : Shown t x y L) {a b : Rat}
    (hab : ∀ v ∈ L, v = a ∨ v = b) (hne : a ≠ b) (hc : L.count b = L.count a) : g.Reads x y none := by
  have hcl : clip L = [] := by
    by_cases h0 : L.count a = 0
    · have : L = [] := List.length_eq_zero_iff.1 (by rw [(sum_two id L hab hne).2]; omega)
      subst this; rfl
    obtain ⟨h1, h2⟩ := sum_two id L hab hne
    obtain ⟨h3, -⟩ := sum_two (fun v => (v - mean L) ^ 2) L hab hne
    simp only [List.map_id, id] at h1
    rw [hc] at h1 h2 h3
    have hm : (0 : Rat) < L.count a := by exact_mod_cast Nat.pos_of_ne_zero h0
    have hn : ((L.length : Nat) : Rat) = L.count a + L.count a := by rw [h2]; push_cast; rfl
    have hmean : mean L = (a + b) / 2 := by unfold mean; rw [h1, hn]; field_simp; ring
    have hvar : variance L = ((a - b) / 2) ^ 2 := by unfold variance; rw [h3, hn, hmean]; field_simp; ring
    unfold clip
    rw [List.filter_eq_nil_iff]
    intro v hv
    rw [decide_eq_true_eq, not_lt, hvar, hmean]
    rcases hab v hv with rfl | rfl <;> · apply le_of_eq; ring
  have : loop noise t.fields.length L = none := by rw [loop, dif_pos hcl]
  rw [← this]
  exact background_at h h2x h2y noise hg hx hy hL

/-! Shifted values. -/

theorem mean_shift {l : List Rat} (c : Rat) (hne : l ≠ []) : mean (l.map (· + c)) = mean l + c := by
  have h0 : (l.length : Rat) ≠ 0 := by exact_mod_cast (List.length_pos_of_ne_nil hne).ne'
  have : (l.map (· + c)).sum = l.sum + l.length * c := by
    clear hne h0
    induction l with
    | nil => simp
    | cons a l ih => simp only [List.map_cons, List.sum_cons, ih, List.length_cons]; push_cast; ring
  unfold mean
  rw [this, List.length_map]
  field_simp

theorem variance_shift (l : List Rat) (c : Rat) : variance (l.map (· + c)) = variance l := by
  by_cases hne : l = []
  · subst hne; rfl
  · unfold variance
    rw [List.map_map, mean_shift c hne, List.length_map]
    congr 3
    funext v
    simp only [Function.comp]
    ring

theorem clip_shift (l : List Rat) (c : Rat) : clip (l.map (· + c)) = (clip l).map (· + c) := by
  by_cases hne : l = []
  · subst hne; rfl
  · unfold clip
    rw [List.filter_map, mean_shift c hne, variance_shift]
    congr 1
    apply List.filter_congr
    intro v _
    simp only [Function.comp]
    rw [show v + c - (mean l + c) = v - mean l by ring]

theorem loop_shift (noise : Rat) (n : Nat) (c : Rat) : ∀ (m : Nat) (l : List Rat), l.length = m →
    loop noise n (l.map (· + c)) = (loop noise n l).map (· + c) := by
  intro m
  induction m using Nat.strong_induction_on with
  | _ m ih =>
    intro l hl
    rw [loop, loop.eq_1 noise n l]
    by_cases h : clip l = []
    · rw [dif_pos h, dif_pos (by rw [clip_shift, h]; rfl)]; rfl
    · rw [dif_neg h, dif_neg (by rw [clip_shift]; simpa using h), clip_shift]
      have hs : stop noise n (l.map (· + c)) ((clip l).map (· + c)) = stop noise n l (clip l) := by
        unfold stop
        rw [variance_shift, variance_shift, List.length_map]
      rw [hs, mean_shift c h]
      split_ifs
      · rfl
      · exact ih _ (hl ▸ clip_lt l fun e => h (by rw [e]; rfl)) _ rfl

/-- **C236** The background follows the brightness: adding a number to every picture adds it to the background. -/
theorem C236_shift {t' : TF} {u' : Sym} (h : SRecord t u) (h' : SRecord t' u') (h2x : 2 ≤ t.ax.length) (h2y : 2 ≤ t.ay.length)
    (h2x' : 2 ≤ t'.ax.length) (h2y' : 2 ≤ t'.ay.length) (noise c : Rat) {g g' : SF} (hg : background t noise = .ok g)
    (hg' : background t' noise = .ok g') {x y : Rat} {L : List Rat} (hx : x ∈ t.ax) (hy : y ∈ t.ay) (hx' : x ∈ t'.ax) (hy' : y ∈ t'.ay)
    (hL : Shown t x y L) (hL' : Shown t' x y (L.map (· + c))) (v : Option Rat) (hv : g.Reads x y v) : g'.Reads x y (v.map (· + c)) := by
  have h1 := background_at h h2x h2y noise hg hx hy hL
  have h2 := background_at h' h2x' h2y' noise hg' hx' hy' hL'
  obtain ⟨g0, e, a1, a2, -, -, -, hw, -⟩ := background_cells h h2x h2y noise
  rw [hg] at e
  cases e
  have : v = loop noise t.fields.length L := by
    obtain ⟨i, j, e1, e2, e3⟩ := h1
    rw [← e3]
    exact ((reads_cell hw e1 e2).1 hv).symm
  rw [this]
  have hl : t'.fields.length = t.fields.length := by rw [hL'.length_eq, hL.length_eq, List.length_map]
  rw [hl, loop_shift noise t.fields.length c _ L rfl] at h2
  exact h2

/-- **C236** The background of values with a unit is given without unit. -/
theorem C236_unit_violated (h : SRecord t u) (h2x : 2 ≤ t.ax.length) (h2y : 2 ≤ t.ay.length) (noise : Rat) {g : SF}
    (hg : background t noise = .ok g) : g.uv = Sym.one := by
  obtain ⟨g', e, -, -, -, -, hu, -⟩ := background_cells h h2x h2y noise
  rw [hg] at e
  cases e
  exact hu

theorem looked_cell (f : SF) (i j : Nat) : (looked f).cell i j = f.cell i j ∧ (looked f).val.get i j = f.cell i j := by
  refine ⟨?_, rfl⟩
  show (if f.mask.get i j then none else f.cell i j) = _
  unfold SF.cell
  split_ifs <;> rfl

theorem background_cells' {t : TF} (hx : Inc t.ax) (hy : Inc t.ay) (h2x : 2 ≤ t.ax.length) (h2y : 2 ≤ t.ay.length) (noise : Rat) :
    ∃ g, background t noise = .ok g ∧ g.ax = t.ax ∧ g.ay = t.ay ∧
      ∀ i j, g.cell i j = pixel noise t.times.length (t.fields.map fun f => f.val.get i j) := by
  obtain ⟨g, e, a1, a2, a3, a4, a5, a6, a7, a8, a9, a10, a11⟩ := SF.import_direct (ax := t.ax) (ay := t.ay)
    (v := ⟨t.ax.length, t.ay.length, fun i j => pixel noise t.times.length (t.fields.map fun f => f.val.get i j)⟩) (m := .none)
    (ux := t.ux) (uy := t.uy) (uv := Sym.one) rfl rfl h2x h2y trivial
  rw [SF.rev_false hx] at a1 a7
  rw [SF.rev_false hy] at a2 a7
  simp only [Bool.false_eq_true, if_false] at a1 a2 a7
  refine ⟨g, e, a1, a2, fun i j => ?_⟩
  unfold SF.cell
  rw [a8, a7]
  show (if (false || (pixel noise t.times.length (t.fields.map fun f => f.val.get i j)).isNone) = true then none else
    pixel noise t.times.length (t.fields.map fun f => f.val.get i j)) = _
  cases pixel noise t.times.length (t.fields.map fun f => f.val.get i j) <;> simp

/-- **C236** A point masked in one field has no background once the values of the fields have been looked at; before, the value hidden under
the mask counts as any other, and the point may have one: looking at the fields changes the background. -/
theorem C236_masked_violated (h : SRecord t u) (h2x : 2 ≤ t.ax.length) (h2y : 2 ≤ t.ay.length) (noise : Rat) {f : SF} (hf : f ∈ t.fields)
    {i j : Nat} {x y : Rat} (hi : t.ax[i]? = some x) (hj : t.ay[j]? = some y) (hm : f.mask.get i j = true) {L : List Rat}
    (hL : t.fields.map (fun f => f.val.get i j) = L.map some) :
    ∃ g g', background t noise = .ok g ∧ background { t with fields := t.fields.map looked } noise = .ok g' ∧
      g.Reads x y (loop noise t.times.length L) ∧ g'.Reads x y none ∧
      ∀ q ∈ t.fields.zip (t.fields.map looked), ∀ x y v, q.1.Reads x y v ↔ q.2.Reads x y v := by
  obtain ⟨hx, hy⟩ := axes_inc h
  obtain ⟨g, e, a1, a2, hc⟩ := background_cells' hx hy h2x h2y noise
  obtain ⟨g', e', b1, b2, hc'⟩ := background_cells' (t := { t with fields := t.fields.map looked }) hx hy h2x h2y noise
  refine ⟨g, g', e, e', ⟨i, j, by rw [a1]; exact hi, by rw [a2]; exact hj, ?_⟩, ⟨i, j, by rw [b1]; exact hi, by rw [b2]; exact hj, ?_⟩, ?_⟩
  · rw [hc, hL]
    unfold pixel
    rw [allSome_some.2 rfl]
  · rw [hc']
    unfold pixel
    rw [allSome_none.2]
    show none ∈ (t.fields.map looked).map _
    rw [List.map_map, List.mem_map]
    refine ⟨f, hf, ?_⟩
    show f.cell i j = none
    unfold SF.cell
    rw [if_pos hm]
  · intro q hq x y v
    rw [List.zip_map_right, List.mem_map] at hq
    obtain ⟨⟨a, b⟩, hab, rfl⟩ := hq
    have : a = b := by
      obtain ⟨k, hk⟩ := List.mem_iff_getElem?.1 hab
      rw [List.getElem?_zip_eq_some] at hk
      exact Option.some.inj (hk.1.symm.trans hk.2)
    subst this
    constructor
    · rintro ⟨i, j, e1, e2, e3⟩; exact ⟨i, j, e1, e2, by rw [← e3]; exact (looked_cell a i j).1⟩
    · rintro ⟨i, j, e1, e2, e3⟩; exact ⟨i, j, e1, e2, by rw [← e3]; exact (looked_cell a i j).1.symm⟩

end IMT.Back
