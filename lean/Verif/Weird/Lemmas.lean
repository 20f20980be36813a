import Verif.Weird.Model
import Verif.Weird.Spec
import Verif.Turb.Lemmas
import Verif.Vector.Arith
import Verif.Temporal.History
import Verif.Stat.Norm

/-! Lemmas for C239. -/

namespace IMT.Weird

open Temporal (TF pyIdx deleteAll)
open Turb (TVF Record)

/-! ### lemmas: totals -/

theorem sum_filter {α : Type} (p : α → Bool) (g : α → ℝ) (l : List α) : ((l.filter p).map g).sum = (l.map fun a => if p a then g a else 0).sum := by
  induction l with
  | nil => rfl
  | cons a l ih =>
    rw [List.filter_cons]
    split_ifs with h <;> simp [h, ih]

theorem sum_flat {α β : Type} (g : α → List β) (w : β → ℝ) (l : List α) : ((l.flatMap g).map w).sum = (l.map fun a => ((g a).map w).sum).sum := by
  induction l with
  | nil => rfl
  | cons a l ih => simp [List.flatMap_cons, ih]

theorem total_eq {f : VF} (hf : f.WF) {s : ℝ} (h : Total f s) : total f = s := by
  obtain ⟨a, ha, rfl⟩ := h
  unfold total
  rw [sum_filter, sum_flat, Finset.sum_product]
  apply Stat.sum_positions' _ hf.incx _ (fun x => ∑ y ∈ f.ay.toFinset, Real.sqrt ((((a (x, y)).1) ^ 2 + ((a (x, y)).2) ^ 2 : Rat) : ℝ))
  intro i hi
  rw [List.map_map]
  apply Stat.sum_positions' _ hf.incy _ (fun y => Real.sqrt ((((a (f.ax[i], y)).1) ^ 2 + ((a (f.ax[i], y)).2) ^ 2 : Rat) : ℝ))
  intro j hj
  have hr := ha f.ax[i] f.ay[j] (f.cell i j) ⟨i, j, List.getElem?_eq_getElem hi, List.getElem?_eq_getElem hj, rfl⟩
  simp only [Function.comp]
  rw [hr]
  rcases hf.cell_cases hi hj with ⟨h1, h2⟩ | ⟨h1, u, v, h3, h4, h5⟩
  · rw [h2]; simp [h1]
  · rw [h5, h1, h3, h4]; rfl

open Classical in
theorem total_exists {f : VF} (hf : f.WF) : ∃ s, Total f s := by
  refine ⟨_, fun q => if h : ∃ v, f.Reads q.1 q.2 (some v) then h.choose else (0, 0), ?_, rfl⟩
  intro x y v hv
  have uniq : ∀ u, f.Reads x y u → u = v := by
    rintro u ⟨i, j, e1, e2, e3⟩
    obtain ⟨i', j', e1', e2', e3'⟩ := hv
    rw [← e3, ← e3', hf.incx.idx_inj' e1 e1', hf.incy.idx_inj' e2 e2']
  by_cases h : ∃ u, f.Reads x y (some u)
  · show (if h : ∃ v, f.Reads x y (some v) then h.choose else (0, 0)) = _
    rw [dif_pos h, ← uniq _ h.choose_spec]; rfl
  · show (if h : ∃ v, f.Reads x y (some v) then h.choose else (0, 0)) = _
    rw [dif_neg h]
    cases v with
    | none => rfl
    | some v => exact absurd ⟨v, hv⟩ h

theorem list_sum (l : List ℝ) : l.sum = ∑ k ∈ Finset.range l.length, l.getD k 0 := by
  rw [Finset.sum_range]
  rw [← Fin.sum_univ_getElem]
  apply Finset.sum_congr rfl
  intro k _
  simp

variable {t : TVF} {u : Sym} {c : ℝ}

theorem mem_raw (t : TVF) (k : Nat) : k ∈ weird c t.fields ↔ k < t.fields.length ∧
    |(t.fields.map total).getD k 0 - avg t.fields.length (fun k => (t.fields.map total).getD k 0)| >
      c * dev t.fields.length fun k => (t.fields.map total).getD k 0 := by
  have hlen : (t.fields.map total).length = t.fields.length := by simp
  have hm : mean (t.fields.map total) = avg t.fields.length fun k => (t.fields.map total).getD k 0 := by
    unfold mean avg
    rw [list_sum, hlen]
  have hs : std (t.fields.map total) = dev t.fields.length fun k => (t.fields.map total).getD k 0 := by
    unfold std dev
    rw [list_sum, List.length_map, hlen, ← hm]
    congr 2
    apply Finset.sum_congr rfl
    intro k hk
    rw [Finset.mem_range] at hk
    simp [List.getElem?_eq_getElem hk]
  unfold weird
  rw [List.mem_filter, List.mem_range, decide_eq_true_eq, hm, hs]
  apply and_congr_right
  intro _
  rw [gt_iff_lt, gt_iff_lt, lt_abs]
  constructor
  · rintro (h2 | h2)
    · right; linarith
    · left; linarith
  · rintro (h2 | h2)
    · right; linarith
    · left; linarith

theorem mem_weird (h : Record t u) (k : Nat) : k ∈ weird c t.fields ↔ Strange t c k := by
  rw [mem_raw]
  constructor
  · rintro ⟨h1, h2⟩
    refine ⟨h1, fun k => (t.fields.map total).getD k 0, ?_, ?_⟩
    · intro i f hf
      obtain ⟨s, hs⟩ := total_exists (h.wf f (List.mem_of_getElem? hf))
      show Total f ((t.fields.map total).getD i 0)
      have : (t.fields.map total).getD i 0 = total f := by simp [List.getD, hf]
      rw [this, total_eq (h.wf f (List.mem_of_getElem? hf)) hs]
      exact hs
    · exact h2
  · rintro ⟨h1, s, hs, h2⟩
    refine ⟨h1, ?_⟩
    have e : ∀ k < t.fields.length, (t.fields.map total).getD k 0 = s k := by
      intro k hk
      have hf : t.fields[k]? = some t.fields[k] := List.getElem?_eq_getElem hk
      have := total_eq (h.wf _ (List.getElem_mem hk)) (hs k _ hf)
      simp [hk, this]
    have ea : avg t.fields.length (fun k => (t.fields.map total).getD k 0) = avg t.fields.length s := by
      unfold avg
      rw [Finset.sum_congr rfl fun k hk => e k (Finset.mem_range.1 hk)]
    have ed : dev t.fields.length (fun k => (t.fields.map total).getD k 0) = dev t.fields.length s := by
      unfold dev
      rw [ea]
      congr 2
      apply Finset.sum_congr rfl
      intro k hk
      show ((t.fields.map total).getD k 0 - _) ^ 2 = _
      rw [e k (Finset.mem_range.1 hk)]
    rw [ea, ed, e k h1]
    exact h2

theorem weird_sorted (c : ℝ) (fs : List VF) : (weird c fs).Pairwise (· < ·) := by
  unfold weird
  exact List.Pairwise.filter _ List.pairwise_lt_range

theorem weird_lt {k : Nat} {fs : List VF} (h : k ∈ weird c fs) : k < fs.length := by
  unfold weird at h
  exact List.mem_range.1 (List.mem_filter.1 h).1

/-! ### lemmas: the distance -/

theorem reach_spec {n : Nat} {inds : List Nat} (hlt : ∀ k ∈ inds, k < n) {w : Nat} (hw : w < n) :
    1 ≤ reach n inds w ∧ busy inds w (reach n inds w) = false ∧ ∀ d, 1 ≤ d → d < reach n inds w → busy inds w d = true := by
  have hex : (((List.range (n + 1)).map (· + 1)).find? fun eps => !busy inds w eps).isSome := by
    rw [List.find?_isSome]
    refine ⟨n + 1, by simp, ?_⟩
    unfold busy
    have h1 : ¬ w + (n + 1) ∈ inds := fun h => by have := hlt _ h; omega
    have h2 : ¬ n + 1 ≤ w := by omega
    simp [h1, h2]
  obtain ⟨e, he⟩ := Option.isSome_iff_exists.1 hex
  have hr : reach n inds w = e := by unfold reach; rw [he]; rfl
  rw [hr]
  obtain ⟨h1, as, bs, h2, h3⟩ := List.find?_eq_some_iff_append.1 he
  have hidx : as.length < n + 1 := by
    have := congrArg List.length h2
    simp at this; omega
  have hval : e = as.length + 1 := by
    have := congrArg (fun l => l[as.length]?) h2
    simp [hidx] at this
    omega
  refine ⟨by omega, by simpa using h1, fun d hd1 hd2 => ?_⟩
  have hd : d ∈ as := by
    have := congrArg (fun l => l[d - 1]?) h2
    have h4 : d - 1 < as.length := by omega
    rw [show (as ++ e :: bs)[d - 1]? = as[d - 1]? from List.getElem?_append_left h4] at this
    have h5 : ((List.range (n + 1)).map (· + 1))[d - 1]? = some d := by
      simp [show d - 1 < n + 1 by omega]; omega
    exact List.mem_of_getElem? (this.symm.trans h5)
  simpa using h3 d hd

theorem reach_iff (h : Record t u) {k : Nat} (hk : k < t.fields.length) (e : Nat) :
    reach t.fields.length (weird c t.fields) k = e ↔ Reach t c k e := by
  have hb : ∀ d, busy (weird c t.fields) k d = true ↔ Strange t c (k + d) ∨ d ≤ k ∧ Strange t c (k - d) := by
    intro d
    unfold busy
    rw [Bool.or_eq_true, Bool.and_eq_true, decide_eq_true_eq, decide_eq_true_eq, decide_eq_true_eq, mem_weird h, mem_weird h]
  obtain ⟨h1, h2, h3⟩ := reach_spec (inds := weird c t.fields) (fun k hk => weird_lt hk) hk
  have hR : Reach t c k (reach t.fields.length (weird c t.fields) k) := by
    refine ⟨h1, ?_, fun d hd1 hd2 => (hb d).1 (h3 d hd1 hd2)⟩
    have := mt (hb _).2 (by rw [h2]; simp)
    exact not_or.1 this
  constructor
  · rintro rfl; exact hR
  · intro hE
    rcases lt_trichotomy (reach t.fields.length (weird c t.fields) k) e with hlt | heq | hgt
    · exact absurd (hE.2.2 _ h1 hlt) (by rw [not_or]; exact hR.2.1)
    · exact heq
    · exact absurd (hR.2.2 _ hE.1 hgt) (by rw [not_or]; exact hE.2.1)

/-! ### lemmas: the replacement -/

theorem replace_length {fs fs' : List VF} {w e : Nat} (h : replace fs w e = .ok fs') : fs'.length = fs.length ∧ ∀ i, i ≠ w → fs'[i]? = fs[i]? := by
  unfold replace at h
  split at h
  · split at h
    · cases h
    · cases h
      exact ⟨by simp, fun i hi => by rw [List.getElem?_set_ne (Ne.symm hi)]⟩
  · cases h

theorem replaceAll_keep (inds : List Nat) : ∀ (ws : List Nat) (fs fs' : List VF), replaceAll inds fs ws = .ok fs' →
    fs'.length = fs.length ∧ ∀ i, i ∉ ws → fs'[i]? = fs[i]? := by
  intro ws
  induction ws with
  | nil => intro fs fs' h; cases h; exact ⟨rfl, fun _ _ => rfl⟩
  | cons w ws ih =>
    intro fs fs' h
    unfold replaceAll at h
    split at h
    · cases h
    · rename_i fs1 h1
      obtain ⟨a1, a2⟩ := replace_length h1
      obtain ⟨b1, b2⟩ := ih fs1 fs' h
      refine ⟨b1.trans a1, fun i hi => ?_⟩
      rw [List.mem_cons, not_or] at hi
      rw [b2 i hi.2, a2 i hi.1]

/-- The field put in place of a weird one: the two fields it is made of are not written. -/
theorem replaceAll_at (inds : List Nat) : ∀ (ws : List Nat) (fs fs' : List VF), replaceAll inds fs ws = .ok fs' → ws.Nodup →
    (∀ w ∈ ws, w ∈ inds) → ∀ w ∈ ws, reach fs.length inds w ≤ w → w + reach fs.length inds w ∉ inds → w - reach fs.length inds w ∉ inds →
      ∃ a b h, fs[w + reach fs.length inds w]? = some a ∧ fs[w - reach fs.length inds w]? = some b ∧ a.add b = .ok h ∧
        fs'[w]? = some (h.mulNum (1 / 2)) := by
  intro ws
  induction ws with
  | nil => intro fs fs' _ _ _ w hw; cases hw
  | cons v ws ih =>
    intro fs fs' h hnd hin w hw hle n1 n2
    unfold replaceAll at h
    split at h
    · cases h
    · rename_i fs1 h1
      obtain ⟨a1, a2⟩ := replace_length h1
      rw [List.nodup_cons] at hnd
      by_cases hwv : w = v
      · subst hwv
        have hk := (replaceAll_keep inds ws fs1 fs' h).2 w hnd.1
        unfold replace at h1
        have hp : pyIdx fs.length ((w : Int) - reach fs.length inds w) = if w - reach fs.length inds w < fs.length then
            some (w - reach fs.length inds w) else none := by
          unfold pyIdx
          by_cases hb : w - reach fs.length inds w < fs.length
          · rw [if_pos (by omega), if_pos hb]; congr 1; omega
          · rw [if_neg (by omega), if_neg (by omega), if_neg hb]
        split at h1
        · rename_i a b ha hb
          split at h1
          · cases h1
          · rename_i hh hadd
            cases h1
            have hb' : fs[w - reach fs.length inds w]? = some b := by
              rw [hp] at hb
              by_cases hlt : w - reach fs.length inds w < fs.length
              · rw [if_pos hlt] at hb; exact hb
              · rw [if_neg hlt] at hb; cases hb
            have hwl : w < fs.length := by
              have := (List.getElem?_eq_some_iff.1 ha).1; omega
            refine ⟨a, b, hh, ha, hb', hadd, ?_⟩
            rw [hk, List.getElem?_set_self hwl]
        · cases h1
      · rcases List.mem_cons.1 hw with e | hw'
        · exact absurd e hwv
        · have hv : v ∈ inds := hin v (by simp)
          rw [← a1] at hle n1 n2 ⊢
          obtain ⟨a, b, hh, c1, c2, c3, c4⟩ := ih fs1 fs' h hnd.2 (fun x hx => hin x (by simp [hx])) w hw' hle n1 n2
          refine ⟨a, b, hh, ?_, ?_, c3, c4⟩
          · rw [← c1, a2 _ (fun e => n1 (by rw [e]; exact hv))]
          · rw [← c2, a2 _ (fun e => n2 (by rw [e]; exact hv))]

theorem replaceAll_ok {inds : List Nat} : ∀ (ws : List Nat) (fs : List VF),
    (∀ i f, i ∉ inds → fs[i]? = some f → Turb.OnV t u f) →
    (∀ w ∈ ws, w ∈ inds ∧ reach fs.length inds w ≤ w ∧ w + reach fs.length inds w < fs.length ∧ w + reach fs.length inds w ∉ inds ∧
      w - reach fs.length inds w ∉ inds) → ∃ fs', replaceAll inds fs ws = .ok fs' := by
  intro ws
  induction ws with
  | nil => intro fs _ _; exact ⟨fs, rfl⟩
  | cons w ws ih =>
    intro fs hP hw
    obtain ⟨w1, w2, w3, w4, w5⟩ := hw w (by simp)
    have hlt : w - reach fs.length inds w < fs.length := by omega
    have ea : fs[w + reach fs.length inds w]? = some fs[w + reach fs.length inds w] := List.getElem?_eq_getElem w3
    have eb : fs[w - reach fs.length inds w]? = some fs[w - reach fs.length inds w] := List.getElem?_eq_getElem hlt
    have oa := hP _ _ w4 ea
    have ob := hP _ _ w5 eb
    obtain ⟨h, hadd, -⟩ := VF.C112_add_pointwise oa.wf ob.wf (oa.ax.trans ob.ax.symm) (oa.ay.trans ob.ay.symm)
      (by rw [oa.uv, ob.uv]; exact ⟨rfl, rfl, rfl⟩) (oa.ux.trans ob.ux.symm) (oa.uy.trans ob.uy.symm)
    have hp : pyIdx fs.length ((w : Int) - reach fs.length inds w) = some (w - reach fs.length inds w) := by
      unfold pyIdx
      rw [if_pos (by omega)]; congr 1; omega
    have h1 : replace fs w (reach fs.length inds w) = .ok (fs.set w (h.mulNum (1 / 2))) := by
      unfold replace
      rw [hp, ea]
      simp only [Option.bind_some]
      rw [eb]
      simp only
      rw [hadd]
    have hl : (fs.set w (h.mulNum (1 / 2))).length = fs.length := by simp
    obtain ⟨fs', h2⟩ := ih (fs.set w (h.mulNum (1 / 2)))
      (fun i f hi hf => hP i f hi (by rwa [List.getElem?_set_ne (show w ≠ i from fun e => hi (e ▸ w1))] at hf))
      (fun v hv => by rw [hl]; exact hw v (by simp [hv]))
    exact ⟨fs', by unfold replaceAll; rw [h1]; exact h2⟩

end IMT.Weird
