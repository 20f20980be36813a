import Verif.Turb.Lemmas

/-! Helper lemmas: filling containers, fluctuations, energies. -/

namespace IMT.Turb

open Temporal (TF mapRes)
open Mirror (compX compY IsComp)

variable {t : TVF} {u : Sym} {srt : List Rat → List Nat}

theorem inc_left {a b : List Rat} (h : Inc (a ++ b)) : Inc a := (List.pairwise_append.mp h).1

theorem sortV_inc (hs : Profile.IsArgsort srt) {t : TVF} (hp : t.times.length = t.fields.length) (hi : Inc t.times) : sortV srt t = .ok t := by
  unfold sortV
  by_cases h1 : t.fields.length ≤ 1
  · rw [if_pos h1]
  · rw [if_neg h1, Profile.order_inc hs hi, Profile.take_range, if_neg (by rw [hp]; simp)]
    have : Profile.take t.fields (List.range t.times.length) = t.fields := by
      rw [hp, Profile.take_range]
    rw [this]

theorem addVs_spec (hs : Profile.IsArgsort srt) (l : List (Rat × VF)) {T : TVF} (hne : T.fields ≠ []) (hp : T.times.length = T.fields.length)
    (hi : Inc (T.times ++ l.map Prod.fst)) (ha : ∀ p ∈ l, p.2.ax = T.ax) (hu : T.ut.size ≠ 0) :
    addVs srt T l T.ut = .ok { T with times := T.times ++ l.map Prod.fst, fields := T.fields ++ l.map Prod.snd } := by
  induction l generalizing T with
  | nil => simp [addVs]
  | cons p l ih =>
    obtain ⟨x, f⟩ := p
    have h0 : ¬ T.fields.length = 0 := fun e => hne (List.length_eq_zero_iff.mp e)
    have e : addV srt T f x T.ut = .ok { T with times := T.times ++ [x], fields := T.fields ++ [f] } := by
      unfold addV
      rw [if_neg h0, if_neg (fun c => c.1 (ha (x, f) (by simp)).symm), Temporal.unitNum_self hu, mul_one]
      refine sortV_inc hs ?_ ?_
      · simp [hp]
      · refine inc_left (b := l.map Prod.fst) ?_
        simpa using hi
    unfold addVs
    rw [e]
    simp only
    rw [ih (T := { T with times := T.times ++ [x], fields := T.fields ++ [f] }) (by simp) (by simp [hp]) (by simpa using hi)
      (fun p hp => ha p (by simp [hp])) hu]
    simp

theorem addVs_empty (hs : Profile.IsArgsort srt) {ax ay : List Rat} {ux uy ut : Sym} (ts : List Rat) (fs : List VF) (hne : fs ≠ [])
    (hp : ts.length = fs.length) (hi : Inc ts) (h : ∀ f ∈ fs, f.ax = ax ∧ f.ay = ay ∧ f.ux = ux ∧ f.uy = uy) (hu : ut.size ≠ 0) :
    addVs srt .empty (ts.zip fs) ut = .ok ⟨ax, ay, ux, uy, ts, ut, fs⟩ := by
  obtain ⟨f, fs, rfl⟩ := List.exists_cons_of_ne_nil hne
  cases ts with
  | nil => simp at hp
  | cons x ts =>
    obtain ⟨h1, h2, h3, h4⟩ := h f (by simp)
    have hp' : ts.length = fs.length := by simpa using hp
    rw [List.zip_cons_cons]
    unfold addVs
    have e : addV srt .empty f x ut = .ok ⟨ax, ay, ux, uy, [x], ut, [f]⟩ := by
      unfold addV
      rw [if_pos (show TVF.empty.fields.length = 0 from rfl), h1, h2, h3, h4]
    rw [e]
    simp only
    rw [show ut = (⟨ax, ay, ux, uy, [x], ut, [f]⟩ : TVF).ut from rfl, addVs_spec hs]
    · simp [List.map_fst_zip (l₁ := ts) (l₂ := fs) (by omega), List.map_snd_zip (l₁ := ts) (l₂ := fs) (by omega)]
    · simp
    · rfl
    · simpa [List.map_fst_zip (l₁ := ts) (l₂ := fs) (by omega)] using hi
    · intro p hp
      exact (h p.2 (by simp [(List.of_mem_zip hp).2])).1
    · exact hu

theorem addSs_spec (hs : Profile.IsArgsort srt) (l : List (Rat × SF)) {T : TF} (hne : T.fields ≠ []) (hp : Temporal.Paired T)
    (hi : Inc (T.times ++ l.map Prod.fst)) (ha : ∀ p ∈ l, p.2.ax = T.ax) (hu : T.ut.size ≠ 0) (hn : T.nd = true) :
    addSs srt T l T.ut = .ok { T with times := T.times ++ l.map Prod.fst, fields := T.fields ++ l.map Prod.snd } := by
  induction l generalizing T with
  | nil => simp [addSs]
  | cons p l ih =>
    obtain ⟨x, f⟩ := p
    have h0 : ¬ T.fields.length = 0 := fun e => hne (List.length_eq_zero_iff.mp e)
    have hp' : Temporal.Paired { T with times := T.times ++ [x], fields := T.fields ++ [f] } := by
      unfold Temporal.Paired at hp ⊢; simp [hp]
    have e : Temporal.addField srt T f x T.ut = ({ T with times := T.times ++ [x], fields := T.fields ++ [f] }, .ok ⟨⟩) := by
      unfold Temporal.addField
      rw [if_neg h0, if_neg (fun c => c.1 (ha (x, f) (by simp)).symm), Temporal.storedTime_self hu]
      rw [← hn]
      refine Temporal.sort_inc hs hp' ?_
      refine inc_left (b := l.map Prod.fst) ?_
      simpa using hi
    unfold addSs
    rw [e]
    simp only
    rw [ih (T := { T with times := T.times ++ [x], fields := T.fields ++ [f] }) (by simp) hp' (by simpa using hi)
      (fun p hp => ha p (by simp [hp])) hu hn]
    simp

theorem addSs_empty (hs : Profile.IsArgsort srt) {ax ay : List Rat} {ux uy ut : Sym} (ts : List Rat) (fs : List SF) (hne : fs ≠ [])
    (hp : ts.length = fs.length) (hi : Inc ts) (h : ∀ f ∈ fs, f.ax = ax ∧ f.ay = ay ∧ f.ux = ux ∧ f.uy = uy) (hu : ut.size ≠ 0) :
    addSs srt .empty (ts.zip fs) ut = .ok ⟨ax, ay, ux, uy, ts, ut, fs, true⟩ := by
  obtain ⟨f, fs, rfl⟩ := List.exists_cons_of_ne_nil hne
  cases ts with
  | nil => simp at hp
  | cons x ts =>
    obtain ⟨h1, h2, h3, h4⟩ := h f (by simp)
    have hp' : ts.length = fs.length := by simpa using hp
    rw [List.zip_cons_cons]
    unfold addSs
    have e : Temporal.addField srt .empty f x ut = (⟨ax, ay, ux, uy, [x], ut, [f], true⟩, .ok ⟨⟩) := by
      unfold Temporal.addField
      rw [if_pos (show TF.empty.fields.length = 0 from rfl), h1, h2, h3, h4]
    rw [e]
    simp only
    rw [show ut = (⟨ax, ay, ux, uy, [x], ut, [f], true⟩ : TF).ut from rfl, addSs_spec hs]
    · simp [List.map_fst_zip (l₁ := ts) (l₂ := fs) (by omega), List.map_snd_zip (l₁ := ts) (l₂ := fs) (by omega)]
    · simp
    · rfl
    · simpa [List.map_fst_zip (l₁ := ts) (l₂ := fs) (by omega)] using hi
    · intro p hp
      exact (h p.2 (by simp [(List.of_mem_zip hp).2])).1
    · exact hu
    · rfl

/-! ### fluctuations -/

theorem sumVec_minus (a b : Rat × Rat) : VF.sumVec (-1) (some a) (some b) = some (minus a b) := by
  simp only [VF.sumVec, minus, Option.some.injEq, Prod.mk.injEq]
  constructor <;> ring

/-- What a field minus the mean shows at a cell. -/
def off (nmin : Nat) (w : List (Rat × Rat)) (r : Option (Rat × Rat)) : Option (Rat × Rat) :=
  if nmin < w.length then r.map (minus · (bar w)) else none

theorem off_eq (nmin : Nat) (w : List (Rat × Rat)) (r : Option (Rat × Rat)) :
    VF.sumVec (-1) r (if nmin < w.length then some (bar w) else none) = off nmin w r := by
  unfold off
  by_cases h : nmin < w.length
  · rw [if_pos h, if_pos h]
    cases r with
    | none => rfl
    | some a => exact sumVec_minus a _
  · rw [if_neg h, if_neg h]
    cases r <;> rfl

theorem map_choice {α β : Type} {g : α → Res β} {l : List α} {P : α → β → Prop} (h : ∀ a ∈ l, ∃ b, g a = .ok b ∧ P a b) :
    ∃ k, mapRes g l = .ok k ∧ List.Forall₂ P l k := by
  induction l with
  | nil => exact ⟨[], rfl, .nil⟩
  | cons a l ih =>
    obtain ⟨b, e, p⟩ := h a (by simp)
    obtain ⟨k, ek, pk⟩ := ih fun a ha => h a (by simp [ha])
    exact ⟨b :: k, by simp only [mapRes, e, ek], .cons p pk⟩

theorem vfluct_spec (hs : Profile.IsArgsort srt) (h : Record t u) (nmin : Nat) :
    ∃ fs, vfluct srt t nmin = .ok { t with fields := fs } ∧
      List.Forall₂ (fun f g => OnV t u g ∧ ∀ i j, i < t.ax.length → j < t.ay.length →
        g.cell i j = off nmin (vis t.fields i j) (f.cell i j)) t.fields fs := by
  obtain ⟨m, em, om, cm⟩ := vmean_spec h nmin
  obtain ⟨fs, e, p⟩ := map_choice (g := fun f : VF => f.sub m) (l := t.fields)
    (P := fun f g => OnV t u g ∧ ∀ i j, i < t.ax.length → j < t.ay.length → g.cell i j = off nmin (vis t.fields i j) (f.cell i j)) (by
    intro f hf
    obtain ⟨g, eg, og, cg⟩ := vsub_spec h.size (h.on hf) om
    exact ⟨g, eg, og, fun i j hi hj => by rw [cg i j hi hj, cm i j hi hj, off_eq]⟩)
  refine ⟨fs, ?_, p⟩
  unfold vfluct
  simp only [em, e]
  have hl := p.length_eq
  refine addVs_empty hs t.times fs ?_ (by rw [h.paired, hl]) h.inc ?_ h.tsize
  · intro c
    rw [c] at hl
    exact h.ne (List.length_eq_zero_iff.mp hl)
  · intro g hg
    obtain ⟨k, hk, e⟩ := List.mem_iff_getElem.mp hg
    have := p.get (i := k) (by rw [hl]; exact hk) hk
    simp only [List.get_eq_getElem, e] at this
    exact ⟨this.1.ax, this.1.ay, this.1.ux, this.1.uy⟩

/-! ### energies -/

theorem sadd_spec {v : Sym} (hv : v.size ≠ 0) {f g : SF} (hf : OnS t v f) (hg : OnS t v g) :
    ∃ h, f.add g = .ok h ∧ OnS t v h ∧ ∀ i j, i < t.ax.length → j < t.ay.length →
      h.cell i j = nanOp (· + ·) (f.cell i j) (g.cell i j) := by
  obtain ⟨e, w⟩ := Temporal.add_same_ok hf.wf hg.wf (hf.ax.trans hg.ax.symm) (hf.ay.trans hg.ay.symm)
    (by rw [hf.uv, hg.uv]; exact compat_self v) (hf.ux.trans hg.ux.symm) (hf.uy.trans hg.uy.symm)
  refine ⟨_, e, ⟨w, hf.ax, hf.ay, hf.ux, hf.uy, hf.uv⟩, fun i j hi hj => ?_⟩
  rw [Temporal.addSame_cell hf.wf hg.wf (hf.ax.trans hg.ax.symm) (hf.ay.trans hg.ay.symm) (hf.ax ▸ hi) (hf.ay ▸ hj), hf.uv, hg.uv, div_self hv]
  cases g.cell i j <;> simp

theorem sneg_spec {v : Sym} {g : SF} (hg : OnS t v g) :
    OnS t v g.neg ∧ ∀ i j, i < t.ax.length → j < t.ay.length → g.neg.cell i j = (g.cell i j).map (-·) := by
  have wn : g.neg.WF := SF.setValues_WF hg.wf (by simp [Grid.map, SF.values, hg.wf.vx]) (by simp [Grid.map, SF.values, hg.wf.vy])
  refine ⟨⟨wn, hg.ax, hg.ay, hg.ux, hg.uy, hg.uv⟩, fun i j hi hj => ?_⟩
  show (if ((g.cell i j).map (fun v => -v)).isNone = true then none else (g.cell i j).map (fun v => -v)) = _
  cases g.cell i j <;> rfl

theorem ssub_spec {v : Sym} (hv : v.size ≠ 0) {f g : SF} (hf : OnS t v f) (hg : OnS t v g) :
    ∃ h, f.sub g = .ok h ∧ OnS t v h ∧ ∀ i j, i < t.ax.length → j < t.ay.length →
      h.cell i j = nanOp (· - ·) (f.cell i j) (g.cell i j) := by
  obtain ⟨on, cn⟩ := sneg_spec hg
  obtain ⟨h, e, o, c⟩ := sadd_spec hv hf on
  refine ⟨h, e, o, fun i j hi hj => ?_⟩
  rw [c i j hi hj, cn i j hi hj]
  cases f.cell i j <;> cases g.cell i j <;> simp [nanOp, sub_eq_add_neg]

theorem sq_spec {v : Sym} {f : SF} (hf : OnS t v f) :
    OnS t (v.mul v) (sq f) ∧ ∀ i j, i < t.ax.length → j < t.ay.length → (sq f).cell i j = (f.cell i j).map (· ^ 2) := by
  have hc : ∀ i j, i < t.ax.length → j < t.ay.length → (sq f).cell i j = (f.cell i j).map (· ^ 2) := by
    intro i j hi hj
    have hm := SF.Reads.cellMask hf.wf (hf.ax ▸ hi) (hf.ay ▸ hj)
    show (if f.mask.get i j then none else if f.mask.get i j then none else (f.cell i j).map (· ^ 2)) = _
    rw [hm]
    cases f.cell i j <;> rfl
  refine ⟨⟨⟨hf.wf.incx, hf.wf.incy, hf.wf.nex, hf.wf.ney, hf.wf.vx, hf.wf.vy, hf.wf.mx, hf.wf.my, ?_⟩, hf.ax, hf.ay, hf.ux, hf.uy, ?_⟩, hc⟩
  · intro i j hi hj h
    have hm := SF.Reads.cellMask hf.wf hi hj
    show f.mask.get i j = true
    have h : (if f.mask.get i j then none else (f.cell i j).map (· ^ 2)) = none := h
    rw [hm] at h ⊢
    cases hf' : f.cell i j with
    | none => rfl
    | some a => rw [hf'] at h; simp at h
  · show f.uv.mul f.uv = _; rw [hf.uv]

theorem mulNum_spec {v : Sym} {f : SF} (hf : OnS t v f) (q : Rat) :
    OnS t v (f.mulNum q) ∧ ∀ i j, i < t.ax.length → j < t.ay.length → (f.mulNum q).cell i j = (f.cell i j).map (· * q) := by
  have hc : ∀ i j, i < t.ax.length → j < t.ay.length → (f.mulNum q).cell i j = (f.cell i j).map (· * q) := by
    intro i j hi hj
    have hm := SF.Reads.cellMask hf.wf (hf.ax ▸ hi) (hf.ay ▸ hj)
    show (if f.mask.get i j then none else (f.cell i j).map (· * q)) = _
    rw [hm]
    cases f.cell i j <;> rfl
  refine ⟨⟨⟨hf.wf.incx, hf.wf.incy, hf.wf.nex, hf.wf.ney, hf.wf.vx, hf.wf.vy, hf.wf.mx, hf.wf.my, ?_⟩, hf.ax, hf.ay, hf.ux, hf.uy, hf.uv⟩, hc⟩
  intro i j hi hj h
  have hm := SF.Reads.cellMask hf.wf hi hj
  show f.mask.get i j = true
  have h : (f.cell i j).map (· * q) = none := h
  rw [hm]
  cases hf' : f.cell i j with
  | none => rfl
  | some a => rw [hf'] at h; simp at h

theorem mul_size {v : Sym} (hv : v.size ≠ 0) : (v.mul v).size ≠ 0 := mul_ne_zero hv hv

theorem half_spec {v : Sym} (hv : v.size ≠ 0) {a b : SF} (ha : OnS t v a) (hb : OnS t v b) :
    ∃ h, half a b = .ok h ∧ OnS t (v.mul v) h ∧ ∀ i j, i < t.ax.length → j < t.ay.length →
      h.cell i j = nanOp (fun p q => (p ^ 2 + q ^ 2) / 2) (a.cell i j) (b.cell i j) := by
  obtain ⟨oa, ca⟩ := sq_spec ha
  obtain ⟨ob, cb⟩ := sq_spec hb
  obtain ⟨s, es, os, cs⟩ := sadd_spec (mul_size hv) oa ob
  obtain ⟨om, cm⟩ := mulNum_spec os (1 / 2)
  refine ⟨_, by simp only [half, es], om, fun i j hi hj => ?_⟩
  rw [cm i j hi hj, cs i j hi hj, ca i j hi hj, cb i j hi hj]
  cases a.cell i j with
  | none => rfl
  | some p => cases b.cell i j with
    | none => rfl
    | some q => simp only [nanOp, Option.map_some, Option.some.injEq]; ring

theorem kinetic_spec (h : Record t u) :
    ∃ k, meanKinetic t = .ok k ∧ OnS t (u.mul u) k ∧ ∀ i j, i < t.ax.length → j < t.ay.length →
      k.cell i j = if 1 < (vis t.fields i j).length then some (energy (bar (vis t.fields i j))) else none := by
  obtain ⟨m, em, om, cm⟩ := vmean_spec h 1
  obtain ⟨a, ea, oa, ca⟩ := compX_spec h.lx h.ly om
  obtain ⟨b, eb, ob, cb⟩ := compY_spec h.lx h.ly om
  obtain ⟨k, ek, ok, ck⟩ := half_spec h.size oa ob
  refine ⟨k, by simp only [meanKinetic, em, ea, eb, ek], ok, fun i j hi hj => ?_⟩
  rw [ck i j hi hj, ca i j hi hj, cb i j hi hj, cm i j hi hj]
  by_cases hn : 1 < (vis t.fields i j).length
  · rw [if_pos hn, if_pos hn]; rfl
  · rw [if_neg hn, if_neg hn]; rfl

theorem tke_spec (hs : Profile.IsArgsort srt) (h : Record t u) :
    ∃ fs, tke srt t = .ok ⟨t.ax, t.ay, t.ux, t.uy, t.times, t.ut, fs, true⟩ ∧
      List.Forall₂ (fun f g => OnS t (u.mul u) g ∧ ∀ i j, i < t.ax.length → j < t.ay.length →
        g.cell i j = (off 1 (vis t.fields i j) (f.cell i j)).map energy) t.fields fs := by
  obtain ⟨m, em, om, cm⟩ := vmean_spec h 1
  obtain ⟨mx, ex, ox, cx⟩ := compX_spec h.lx h.ly om
  obtain ⟨my, ey, oy, cy⟩ := compY_spec h.lx h.ly om
  obtain ⟨fs, e, p⟩ := map_choice (g := tkeOf mx my) (l := t.fields)
    (P := fun f g => OnS t (u.mul u) g ∧ ∀ i j, i < t.ax.length → j < t.ay.length →
        g.cell i j = (off 1 (vis t.fields i j) (f.cell i j)).map energy) (by
    intro f hf
    obtain ⟨a, ea, oa, ca⟩ := compX_spec h.lx h.ly (h.on hf)
    obtain ⟨b, eb, ob, cb⟩ := compY_spec h.lx h.ly (h.on hf)
    obtain ⟨da, eda, oda, cda⟩ := ssub_spec h.size oa ox
    obtain ⟨db, edb, odb, cdb⟩ := ssub_spec h.size ob oy
    obtain ⟨k, ek, ok, ck⟩ := half_spec h.size oda odb
    refine ⟨k, by simp only [tkeOf, ea, eb, eda, edb, ek], ok, fun i j hi hj => ?_⟩
    rw [ck i j hi hj, cda i j hi hj, cdb i j hi hj, ca i j hi hj, cb i j hi hj, cx i j hi hj, cy i j hi hj, cm i j hi hj]
    unfold off
    by_cases hn : 1 < (vis t.fields i j).length
    · rw [if_pos hn, if_pos hn]
      cases f.cell i j <;> rfl
    · rw [if_neg hn, if_neg hn]
      cases f.cell i j <;> rfl)
  refine ⟨fs, ?_, p⟩
  unfold tke
  simp only [em, ex, ey, e]
  have hl := p.length_eq
  refine addSs_empty hs t.times fs ?_ (by rw [h.paired, hl]) h.inc ?_ h.tsize
  · intro c
    rw [c] at hl
    exact h.ne (List.length_eq_zero_iff.mp hl)
  · intro g hg
    obtain ⟨k, hk, e⟩ := List.mem_iff_getElem.mp hg
    have := p.get (i := k) (by rw [hl]; exact hk) hk
    simp only [List.get_eq_getElem, e] at this
    exact ⟨this.1.ax, this.1.ay, this.1.ux, this.1.uy⟩

end IMT.Turb
