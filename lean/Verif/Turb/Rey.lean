import Verif.Turb.Fluct

/-! Helper lemmas: mean energies, Reynolds stresses, algebra of means. -/

namespace IMT.Turb

open Temporal (TF mapRes)
open Mirror (compX compY IsComp)

variable {t : TVF} {u : Sym} {srt : List Rat → List Nat}

/-! ### means of lists -/

theorem sum_add (g h : Rat × Rat → Rat) (w : List (Rat × Rat)) : (w.map fun a => g a + h a).sum = (w.map g).sum + (w.map h).sum := by
  induction w with
  | nil => simp
  | cons a w ih => simp only [List.map_cons, List.sum_cons, ih]; ring

theorem sum_scale (g : Rat × Rat → Rat) (c : Rat) (w : List (Rat × Rat)) : (w.map fun a => c * g a).sum = c * (w.map g).sum := by
  induction w with
  | nil => simp
  | cons a w ih => simp only [List.map_cons, List.sum_cons, ih]; ring

theorem sum_const (c : Rat) (w : List (Rat × Rat)) : (w.map fun _ => c).sum = c * w.length := by
  induction w with
  | nil => simp
  | cons a w ih => simp only [List.map_cons, List.sum_cons, ih, List.length_cons, Nat.cast_add, Nat.cast_one]; ring

theorem sum_nonneg {g : Rat × Rat → Rat} (hg : ∀ a, 0 ≤ g a) (w : List (Rat × Rat)) : 0 ≤ (w.map g).sum := by
  induction w with
  | nil => simp
  | cons a w ih => simp only [List.map_cons, List.sum_cons]; exact add_nonneg (hg a) ih

theorem len_ne {w : List (Rat × Rat)} (h : 0 < w.length) : (w.length : Rat) ≠ 0 := by exact_mod_cast h.ne'

theorem minus_sum {w : List (Rat × Rat)} (h : 0 < w.length) :
    (w.map fun a => (minus a (bar w)).1).sum = 0 ∧ (w.map fun a => (minus a (bar w)).2).sum = 0 := by
  have hz := len_ne h
  constructor
  · have : (w.map fun a => (minus a (bar w)).1).sum = (w.map Prod.fst).sum + -(bar w).1 * w.length := by
      rw [← sum_const, ← sum_add]; congr 1; refine List.map_congr_left fun a _ => ?_; simp only [minus]; ring
    rw [this]; simp only [bar, avg]; field_simp; ring
  · have : (w.map fun a => (minus a (bar w)).2).sum = (w.map Prod.snd).sum + -(bar w).2 * w.length := by
      rw [← sum_const, ← sum_add]; congr 1; refine List.map_congr_left fun a _ => ?_; simp only [minus]; ring
    rw [this]; simp only [bar, avg]; field_simp; ring

theorem energy_split {w : List (Rat × Rat)} (h : 0 < w.length) :
    avg energy w = energy (bar w) + avg (fun a => energy (minus a (bar w))) w := by
  have hz := len_ne h
  obtain ⟨m1, m2⟩ := minus_sum h
  have e : (w.map energy).sum = energy (bar w) * w.length + ((bar w).1 * (w.map fun a => (minus a (bar w)).1).sum +
      (bar w).2 * (w.map fun a => (minus a (bar w)).2).sum + (w.map fun a => energy (minus a (bar w))).sum) := by
    rw [← sum_const, ← sum_scale, ← sum_scale, ← sum_add, ← sum_add, ← sum_add]
    congr 1
    refine List.map_congr_left fun a _ => ?_
    simp only [energy, minus]; ring
  rw [m1, m2] at e
  unfold avg
  rw [e]
  field_simp
  ring

theorem quad {A B C : Rat} (key : ∀ p q : Rat, 0 ≤ p ^ 2 * A + q ^ 2 * B + 2 * p * q * C) : C ^ 2 ≤ A * B := by
  have nA : 0 ≤ A := by have := key 1 0; linarith
  by_cases h0 : A = 0
  · by_cases hC0 : C = 0
    · rw [h0, hC0]; simp
    · exfalso
      have h1 := key (-(B + 1) / (2 * C)) 1
      rw [h0] at h1
      have h2 : 2 * (-(B + 1) / (2 * C)) * 1 * C = -(B + 1) := by field_simp
      rw [h2] at h1
      linarith
  · have hp : 0 < A := lt_of_le_of_ne nA (Ne.symm h0)
    have := key (-C) A
    have : 0 ≤ A * (A * B - C ^ 2) := by nlinarith
    have := nonneg_of_mul_nonneg_right this hp
    linarith

theorem cauchy (w : List (Rat × Rat)) :
    (w.map fun a => a.1 * a.2).sum ^ 2 ≤ (w.map fun a => a.1 ^ 2).sum * (w.map fun a => a.2 ^ 2).sum := by
  refine quad fun p q => ?_
  have : p ^ 2 * (w.map fun a => a.1 ^ 2).sum + q ^ 2 * (w.map fun a => a.2 ^ 2).sum + 2 * p * q * (w.map fun a => a.1 * a.2).sum =
      (w.map fun a => (p * a.1 + q * a.2) ^ 2).sum := by
    rw [← sum_scale, ← sum_scale, ← sum_scale, ← sum_add, ← sum_add]
    congr 1
    refine List.map_congr_left fun a _ => ?_
    ring
  rw [this]
  exact sum_nonneg (fun a => sq_nonneg _) w

/-! ### the mean energy -/

theorem Forall₂_mem {α β : Type} {P : α → β → Prop} {l : List α} {k : List β} (h : List.Forall₂ P l k) {b : β} (hb : b ∈ k) :
    ∃ a ∈ l, P a b := by
  induction h with
  | nil => cases hb
  | cons p _ ih =>
    rcases List.mem_cons.mp hb with rfl | hb
    · exact ⟨_, by simp, p⟩
    · obtain ⟨a, ha, q⟩ := ih hb
      exact ⟨a, by simp [ha], q⟩

theorem shown_energy {i j : Nat} {c : Rat} {nmin : Nat} {w : List (Rat × Rat)} {fs : List VF} {gs : List SF} (h : List.Forall₂ (fun (f : VF) (g : SF) =>
    g.uv.size = c ∧ g.cell i j = (off nmin w (f.cell i j)).map energy) fs gs) :
    Temporal.shown gs i j = if nmin < w.length then (vis fs i j).map fun a => energy (minus a (bar w)) * c else [] := by
  induction h with
  | nil => simp [Temporal.shown, vis]
  | @cons f g fs gs p _ ih =>
    obtain ⟨p1, p2⟩ := p
    unfold Temporal.shown vis at ih ⊢
    rw [List.filterMap_cons, p2, p1]
    unfold off
    by_cases hn : nmin < w.length
    · simp only [if_pos hn] at ih ⊢
      cases hc : f.cell i j <;> simp [ih, hc]
    · simp only [if_neg hn] at ih ⊢
      simp [ih]

theorem meanTke_spec (hs : Profile.IsArgsort srt) (h : Record t u) :
    ∃ k, meanTke srt t = .ok k ∧ OnS t (u.mul u) k ∧ ∀ i j, i < t.ax.length → j < t.ay.length →
      k.cell i j = if 1 < (vis t.fields i j).length then
        some (avg (fun a => energy (minus a (bar (vis t.fields i j)))) (vis t.fields i j)) else none := by
  obtain ⟨fs, e, p⟩ := tke_spec hs h
  have hon : ∀ g ∈ fs, OnS t (u.mul u) g := fun g hg => by
    obtain ⟨f, _, q⟩ := Forall₂_mem p hg
    exact q.1
  have hc : Temporal.Consistent ⟨t.ax, t.ay, t.ux, t.uy, t.times, t.ut, fs, true⟩ :=
    ⟨h.paired.trans p.length_eq, fun g hg => (hon g hg).wf, fun g hg => (hon g hg).ax, fun g hg => (hon g hg).ay,
      fun g hg => (hon g hg).ux, fun g hg => (hon g hg).uy⟩
  have hne : fs ≠ [] := by
    intro c
    have := p.length_eq
    rw [c] at this
    exact h.ne (List.length_eq_zero_iff.mp this)
  obtain ⟨g0, gs, hg⟩ := List.exists_cons_of_ne_nil hne
  have h0 := hon g0 (by rw [hg]; simp)
  have hsz : (u.mul u).size ≠ 0 := mul_size h.size
  obtain ⟨k, ek, a1, a2, a3, a4, a5, hk⟩ := Temporal.C41_mean_partial hc (f0 := g0) (fs := gs) hg
    (fun g hg => by rw [h0.uv, (hon g hg).uv]; exact compat_self _) (by rw [h0.uv]; exact hsz) 1
  have hsh : ∀ i j, i < t.ax.length → j < t.ay.length → Temporal.shown fs i j = if 1 < (vis t.fields i j).length then
      (vis t.fields i j).map fun a => energy (minus a (bar (vis t.fields i j))) * (u.mul u).size else [] := by
    intro i j hi hj
    refine shown_energy (List.Forall₂.imp (fun f g q => ?_) p)
    exact ⟨congrArg Sym.size q.1.uv, q.2 i j hi hj⟩
  have hcell : ∀ i j, i < t.ax.length → j < t.ay.length →
      (k.mask.get i j = true ∧ ¬ 1 < (vis t.fields i j).length) ∨ (k.mask.get i j = false ∧ 1 < (vis t.fields i j).length ∧
        k.cell i j = some (avg (fun a => energy (minus a (bar (vis t.fields i j)))) (vis t.fields i j))) := by
    intro i j hi hj
    obtain ⟨q1, q2⟩ := hk i j hi hj
    simp only at q1 q2
    rw [hsh i j hi hj] at q1 q2
    by_cases hn : 1 < (vis t.fields i j).length
    · right
      rw [if_pos hn] at q1
      simp only [List.length_map] at q1
      obtain ⟨r1, v, r2, r3⟩ := q1 hn
      refine ⟨r1, hn, ?_⟩
      rw [r2]
      rw [a5, h0.uv] at r3
      have : ((vis t.fields i j).map fun a => energy (minus a (bar (vis t.fields i j))) * (u.mul u).size).sum =
          (u.mul u).size * ((vis t.fields i j).map fun a => energy (minus a (bar (vis t.fields i j)))).sum := by
        rw [← sum_scale]; congr 1; refine List.map_congr_left fun a _ => ?_; ring
      rw [this] at r3
      congr 1
      unfold avg
      refine mul_right_cancel₀ hsz ?_
      rw [r3]; ring
    · left
      rw [if_neg hn] at q2
      exact ⟨q2 (by simp), hn⟩
  have hw : k.val.nx = t.ax.length ∧ k.val.ny = t.ay.length ∧ k.mask.nx = t.ax.length ∧ k.mask.ny = t.ay.length := by
    have : ∀ {T : TF} {k : SF} {n : Nat}, Temporal.Consistent T → Temporal.meanField T n = .ok k → T.fields ≠ [] →
        (∀ f ∈ T.fields, f.uv = u.mul u) →
        k.val.nx = T.ax.length ∧ k.val.ny = T.ay.length ∧ k.mask.nx = T.ax.length ∧ k.mask.ny = T.ay.length := by
      intro T k n hT hm hT0 hTu
      obtain ⟨f0, fr, hfr⟩ := List.exists_cons_of_ne_nil hT0
      unfold Temporal.meanField at hm
      rw [hfr] at hm
      simp only at hm
      split at hm
      · cases hm
      · unfold Temporal.meanEnd at hm
        split at hm
        · cases hm
        · unfold SF.divArr at hm
          split at hm
          · rename_i hq
            cases hm
            exact ⟨hq.1.symm, hq.2.symm, rfl, rfl⟩
          · cases hm
    exact this hc ek hne (fun f hf => (hon f hf).uv)
  refine ⟨k, by simp only [meanTke, e, ek], ⟨⟨?_, ?_, ?_, ?_, ?_, ?_, ?_, ?_, ?_⟩, a1, a2, a3, a4, a5.trans h0.uv⟩, ?_⟩
  · rw [a1]; show Inc t.ax; rw [← h0.ax]; exact h0.wf.incx
  · rw [a2]; show Inc t.ay; rw [← h0.ay]; exact h0.wf.incy
  · rw [a1]; show t.ax ≠ []; rw [← h0.ax]; exact h0.wf.nex
  · rw [a2]; show t.ay ≠ []; rw [← h0.ay]; exact h0.wf.ney
  · rw [a1]; exact hw.1
  · rw [a2]; exact hw.2.1
  · rw [a1]; exact hw.2.2.1
  · rw [a2]; exact hw.2.2.2
  · intro i j hi hj hv
    rw [a1] at hi
    rw [a2] at hj
    rcases hcell i j hi hj with ⟨q, _⟩ | ⟨q, _, r⟩
    · exact q
    · unfold SF.cell at r
      rw [q, hv] at r
      cases r
  · intro i j hi hj
    rcases hcell i j hi hj with ⟨q, hn⟩ | ⟨q, hn, r⟩
    · rw [if_neg hn]
      unfold SF.cell
      rw [if_pos q]
    · rw [if_pos hn, r]

/-! ### Reynolds stresses -/

theorem vis_fluct {i j nmin : Nat} {w : List (Rat × Rat)} {fs gs : List VF}
    (h : List.Forall₂ (fun (f g : VF) => g.cell i j = off nmin w (f.cell i j)) fs gs) :
    vis gs i j = if nmin < w.length then (vis fs i j).map fun a => minus a (bar w) else [] := by
  induction h with
  | nil => simp [vis]
  | @cons f g fs gs p _ ih =>
    unfold vis at ih ⊢
    rw [List.filterMap_cons, p]
    unfold off
    by_cases hn : nmin < w.length
    · simp only [if_pos hn] at ih ⊢
      cases hc : f.cell i j <;> simp [ih, hc]
    · simp only [if_neg hn] at ih ⊢
      simp [ih]

theorem rsAt_spec {fs : List VF} (h : ∀ f ∈ fs, OnV t u f) {i j : Nat} (hi : i < t.ax.length) (hj : j < t.ay.length) :
    rsAt fs i j = ((some ((vis fs i j).map fun a => a.1 ^ 2).sum, some ((vis fs i j).map fun a => a.2 ^ 2).sum,
      some ((vis fs i j).map fun a => a.1 * a.2).sum), (vis fs i j).length) := by
  have key : ∀ (a b c : Rat) (n : Nat), fs.foldl (rsStep i j) ((some a, some b, some c), n) =
      ((some (a + ((vis fs i j).map fun a => a.1 ^ 2).sum), some (b + ((vis fs i j).map fun a => a.2 ^ 2).sum),
        some (c + ((vis fs i j).map fun a => a.1 * a.2).sum)), n + (vis fs i j).length) := by
    induction fs with
    | nil => intro a b c n; simp [vis]
    | cons f fs ih =>
      intro a b c n
      have o := h f (by simp)
      have ih := ih fun g hg => h g (by simp [hg])
      rw [List.foldl_cons]
      rcases o.wf.cell_cases (o.ax ▸ hi) (o.ay ▸ hj) with ⟨h1, h2⟩ | ⟨h1, p, q, h3, h4, h5⟩
      · unfold rsStep
        rw [if_pos h1]
        have : vis (f :: fs) i j = vis fs i j := by unfold vis; rw [List.filterMap_cons, h2]
        rw [this]
        exact ih a b c n
      · have e : rsStep i j ((some a, some b, some c), n) f = ((some (a + p ^ 2), some (b + q ^ 2), some (c + p * q)), n + 1) := by
          unfold rsStep
          rw [if_neg (by rw [h1]; simp), h3, h4]
          rfl
        have : vis (f :: fs) i j = (p, q) :: vis fs i j := by unfold vis; rw [List.filterMap_cons, h5]
        rw [e, ih, this]
        simp only [List.map_cons, List.sum_cons, List.length_cons, ← add_assoc]
        rw [Nat.add_right_comm]
  have := key 0 0 0 0
  simp only [zero_add] at this
  exact this

theorem rsField_spec (hx : 2 ≤ t.ax.length) (hy : 2 ≤ t.ay.length) (ix : Inc t.ax) (iy : Inc t.ay) {turb : TVF} (nmin : Nat)
    (sel : Option Rat × Option Rat × Option Rat → Option Rat) {S : Nat → Nat → Rat} {N : Nat → Nat → Nat}
    (h : ∀ i j, i < t.ax.length → j < t.ay.length → sel (rsAt turb.fields i j).1 = some (S i j) ∧ (rsAt turb.fields i j).2 = N i j) :
    ∃ s, rsField t turb u nmin sel = .ok s ∧ OnS t (u.mul u) s ∧ ∀ i j, i < t.ax.length → j < t.ay.length →
      s.cell i j = if nmin < N i j then some (S i j / N i j) else none := by
  obtain ⟨s, e, w, hr, u1, u2, u3⟩ := SF.C15_import_reads_partial (ax := t.ax) (ay := t.ay) (ux := t.ux) (uy := t.uy) (uv := u.mul u)
    (v := ⟨t.ax.length, t.ay.length, fun i j => rsVal nmin (rsAt turb.fields i j).2 (sel (rsAt turb.fields i j).1)⟩)
    (m := .array ⟨t.ax.length, t.ay.length, fun i j => decide ¬ (rsAt turb.fields i j).2 > nmin⟩) rfl rfl hx hy ⟨rfl, rfl⟩
    (.inl ix) (.inl iy) (.inl ⟨ix, iy⟩)
  obtain ⟨_, _, e1, e2⟩ := Mirror.import_axes ix iy e
  have o : OnS t (u.mul u) s := ⟨w, e1, e2, u1, u2, u3⟩
  refine ⟨s, e, o, fun i j hi hj => ?_⟩
  obtain ⟨x, hx'⟩ := idx hi
  obtain ⟨y, hy'⟩ := idx hj
  rw [← o.reads hx' hy', hr]
  refine ⟨i, j, hx', hy', ?_⟩
  obtain ⟨h1, h2⟩ := h i j hi hj
  show _ = (if decide ¬ (rsAt turb.fields i j).2 > nmin then none else rsVal nmin (rsAt turb.fields i j).2 (sel (rsAt turb.fields i j).1))
  rw [h1, h2]
  unfold rsVal
  by_cases hn : nmin < N i j
  · rw [if_pos hn, if_neg (by simpa using hn), if_pos hn]; rfl
  · rw [if_neg hn, if_pos (by simpa using hn)]

end IMT.Turb
