import Verif.Turb.Props

/-!
Properties C201 and C202: fluctuant scalar fields; turbulent intensity.
-/

namespace IMT.Turb

open Temporal (TF mapRes numbers)

variable {srt : List Rat → List Nat}

/-! ### specification -/

/-- Scalar fields on one grid and in one unit `u`, at increasing times. -/
structure SRecord (t : TF) (u : Sym) : Prop where
  ok : Temporal.Consistent t
  inc : Inc t.times
  ne : t.fields ≠ []
  uv : ∀ f ∈ t.fields, f.uv = u
  size : u.size ≠ 0
  tsize : t.ut.size ≠ 0

/-- The mean of a list of numbers. -/
def mean (w : List Rat) : Rat := w.sum / w.length

/-! ### helper lemmas -/

/-- The grid of a scalar container. -/
def frameOf (t : TF) : TVF := ⟨t.ax, t.ay, t.ux, t.uy, [], Sym.one, []⟩

theorem SRecord.on {t : TF} {u : Sym} (h : SRecord t u) {f : SF} (hf : f ∈ t.fields) : OnS (frameOf t) u f :=
  ⟨h.ok.wf f hf, h.ok.ax f hf, h.ok.ay f hf, h.ok.ux f hf, h.ok.uy f hf, h.uv f hf⟩

theorem shown_numbers {u : Sym} {fs : List SF} (h : ∀ f ∈ fs, f.uv = u) (i j : Nat) :
    Temporal.shown fs i j = (numbers fs i j).map (· * u.size) := by
  unfold Temporal.shown numbers
  induction fs with
  | nil => rfl
  | cons f fs ih =>
    have ih := ih fun g hg => h g (by simp [hg])
    rw [List.filterMap_cons, List.filterMap_cons, h f (by simp)]
    cases f.cell i j <;> simp [ih]

theorem sum_mul (c : Rat) (w : List Rat) : (w.map (· * c)).sum = w.sum * c := by
  induction w with
  | nil => simp
  | cons a w ih => simp only [List.map_cons, List.sum_cons, ih]; ring

theorem meanS_spec {t : TF} {u : Sym} (h : SRecord t u) (nmin : Nat) :
    ∃ k, Temporal.meanField t nmin = .ok k ∧ OnS (frameOf t) u k ∧ ∀ i j, i < t.ax.length → j < t.ay.length →
      k.cell i j = if nmin < (numbers t.fields i j).length then some (mean (numbers t.fields i j)) else none := by
  obtain ⟨g0, gs, hg⟩ := List.exists_cons_of_ne_nil h.ne
  have h0 := h.on (f := g0) (by rw [hg]; simp)
  obtain ⟨k, ek, a1, a2, a3, a4, a5, hk⟩ := Temporal.C41_mean_partial h.ok (f0 := g0) (fs := gs) hg
    (fun g hg => by rw [h0.uv, (h.on hg).uv]; exact compat_self _) (by rw [h0.uv]; exact h.size) nmin
  have hcell : ∀ i j, i < t.ax.length → j < t.ay.length →
      (k.mask.get i j = true ∧ ¬ nmin < (numbers t.fields i j).length) ∨ (k.mask.get i j = false ∧ nmin < (numbers t.fields i j).length ∧
        k.cell i j = some (mean (numbers t.fields i j))) := by
    intro i j hi hj
    obtain ⟨q1, q2⟩ := hk i j hi hj
    rw [shown_numbers h.uv, List.length_map] at q1 q2
    by_cases hn : nmin < (numbers t.fields i j).length
    · right
      obtain ⟨r1, v, r2, r3⟩ := q1 hn
      refine ⟨r1, hn, ?_⟩
      rw [r2]
      rw [a5, h0.uv, sum_mul] at r3
      congr 1
      refine mul_right_cancel₀ h.size ?_
      rw [r3]; unfold mean; ring
    · exact .inl ⟨q2 (by omega), hn⟩
  have hw : k.val.nx = t.ax.length ∧ k.val.ny = t.ay.length ∧ k.mask.nx = t.ax.length ∧ k.mask.ny = t.ay.length := by
    have hm := ek
    unfold Temporal.meanField at hm
    rw [hg] at hm
    simp only at hm
    split at hm
    · cases hm
    · unfold Temporal.meanEnd at hm
      split at hm
      · cases hm
      · unfold SF.divArr at hm
        split at hm
        · rename_i hq
          cases hm
          exact ⟨hq.1.symm, hq.2.symm, rfl, rfl⟩
        · cases hm
  have hax : g0.ax = t.ax := h0.ax
  have hay : g0.ay = t.ay := h0.ay
  refine ⟨k, ek, ⟨⟨?_, ?_, ?_, ?_, ?_, ?_, ?_, ?_, ?_⟩, a1, a2, a3, a4, a5.trans h0.uv⟩, ?_⟩
  · rw [a1, ← hax]; exact h0.wf.incx
  · rw [a2, ← hay]; exact h0.wf.incy
  · rw [a1, ← hax]; exact h0.wf.nex
  · rw [a2, ← hay]; exact h0.wf.ney
  · rw [a1]; exact hw.1
  · rw [a2]; exact hw.2.1
  · rw [a1]; exact hw.2.2.1
  · rw [a2]; exact hw.2.2.2
  · intro i j hi hj hv
    rw [a1] at hi
    rw [a2] at hj
    rcases hcell i j hi hj with ⟨q, _⟩ | ⟨q, _, r⟩
    · exact q
    · unfold SF.cell at r
      rw [q, hv] at r
      cases r
  · intro i j hi hj
    rcases hcell i j hi hj with ⟨q, hn⟩ | ⟨q, hn, r⟩
    · rw [if_neg hn]
      unfold SF.cell
      rw [if_pos q]
    · rw [if_pos hn, r]

/-- What a scalar field minus the mean shows at a cell. -/
def soff (nmin : Nat) (w : List Rat) (r : Option Rat) : Option Rat := if nmin < w.length then r.map (· - mean w) else none

theorem sfluct_cells (hs : Profile.IsArgsort srt) {t : TF} {u : Sym} (h : SRecord t u) (nmin : Nat) :
    ∃ T, sfluct srt t nmin = .ok T ∧ SRecord T u ∧ T.times = t.times ∧ T.ut = t.ut ∧ T.ax = t.ax ∧ T.ay = t.ay ∧ T.ux = t.ux ∧ T.uy = t.uy ∧
      ∀ i j, i < t.ax.length → j < t.ay.length →
        (T.fields.map fun f => f.cell i j) = t.fields.map fun f => soff nmin (numbers t.fields i j) (f.cell i j) := by
  obtain ⟨m, em, om, cm⟩ := meanS_spec h nmin
  obtain ⟨fs, e, p⟩ := map_choice (g := fun f : SF => f.sub m) (l := t.fields)
    (P := fun f g => OnS (frameOf t) u g ∧ ∀ i j, i < t.ax.length → j < t.ay.length → g.cell i j = soff nmin (numbers t.fields i j) (f.cell i j)) (by
    intro f hf
    obtain ⟨g, eg, og, cg⟩ := ssub_spec h.size (h.on hf) om
    refine ⟨g, eg, og, fun i j hi hj => ?_⟩
    rw [cg i j hi hj, cm i j hi hj]
    unfold soff
    by_cases hn : nmin < (numbers t.fields i j).length
    · rw [if_pos hn, if_pos hn]; cases f.cell i j <;> rfl
    · rw [if_neg hn, if_neg hn]; cases f.cell i j <;> rfl)
  have hon : ∀ g ∈ fs, OnS (frameOf t) u g := fun g hg => by
    obtain ⟨f, _, q⟩ := Forall₂_mem p hg
    exact q.1
  have hne : fs ≠ [] := by
    intro c
    have := p.length_eq
    rw [c] at this
    exact h.ne (List.length_eq_zero_iff.mp this)
  have hp : t.times.length = fs.length := Eq.trans h.ok.paired p.length_eq
  have es : sfluct srt t nmin = .ok ⟨t.ax, t.ay, t.ux, t.uy, t.times, t.ut, fs, true⟩ := by
    unfold sfluct
    simp only [em, e]
    exact addSs_empty hs t.times fs hne hp h.inc (fun g hg => ⟨(hon g hg).ax, (hon g hg).ay, (hon g hg).ux, (hon g hg).uy⟩) h.tsize
  refine ⟨_, es, ⟨⟨hp, fun g hg => (hon g hg).wf, fun g hg => (hon g hg).ax, fun g hg => (hon g hg).ay,
    fun g hg => (hon g hg).ux, fun g hg => (hon g hg).uy⟩, h.inc, hne, fun g hg => (hon g hg).uv, h.size, h.tsize⟩, rfl, rfl, rfl, rfl, rfl, rfl, ?_⟩
  intro i j hi hj
  show fs.map (fun f => f.cell i j) = _
  have : ∀ (as bs : List SF), List.Forall₂ (fun f g => OnS (frameOf t) u g ∧ ∀ i j, i < t.ax.length → j < t.ay.length →
      g.cell i j = soff nmin (numbers t.fields i j) (f.cell i j)) as bs →
      bs.map (fun f => f.cell i j) = as.map fun f => soff nmin (numbers t.fields i j) (f.cell i j) := by
    intro as bs q
    induction q with
    | nil => rfl
    | cons a _ ih => rw [List.map_cons, List.map_cons, a.2 i j hi hj, ih]
  exact this _ _ p

theorem sshows_cells {t : TF} {u : Sym} (h : SRecord t u) {i j : Nat} {x y : Rat} (hi : t.ax[i]? = some x) (hj : t.ay[j]? = some y)
    (l : List (Option Rat)) : ShowsS t x y l ↔ l = t.fields.map fun f => f.cell i j := by
  unfold ShowsS
  have : ∀ fs : List SF, (∀ f ∈ fs, OnS (frameOf t) u f) → ∀ l : List (Option Rat),
      List.Forall₂ (fun (f : SF) r => f.Reads x y r) fs l ↔ l = fs.map fun f => f.cell i j := by
    intro fs hfs
    induction fs with
    | nil => intro l; simp
    | cons f fs ih =>
      intro l
      rw [List.forall₂_cons_left_iff]
      constructor
      · rintro ⟨r, l', h1, h2, rfl⟩
        rw [(ih (fun g hg => hfs g (by simp [hg])) l').mp h2, ← ((hfs f (by simp)).reads hi hj r).mp h1]
        rfl
      · rintro rfl
        exact ⟨_, _, ((hfs f (by simp)).reads hi hj _).mpr rfl, (ih (fun g hg => hfs g (by simp [hg])) _).mpr rfl, rfl⟩
  exact this t.fields (fun f hf => h.on hf) l

theorem sshows_point {t : TF} {u : Sym} (h : SRecord t u) {x y : Rat} {l : List (Option Rat)} (hl : ShowsS t x y l) :
    ∃ i j : Nat, t.ax[i]? = some x ∧ t.ay[j]? = some y ∧ l = t.fields.map fun f => f.cell i j := by
  obtain ⟨f0, fs, hfs⟩ := List.exists_cons_of_ne_nil h.ne
  have hl' := hl
  unfold ShowsS at hl'
  rw [hfs, List.forall₂_cons_left_iff] at hl'
  obtain ⟨r, l', ⟨i, j, hi, hj, _⟩, _⟩ := hl'
  have hm : f0 ∈ t.fields := by rw [hfs]; simp
  rw [h.ok.ax f0 hm] at hi
  rw [h.ok.ay f0 hm] at hj
  exact ⟨i, j, hi, hj, (sshows_cells h hi hj l).mp hl⟩

theorem snumbers_cells (fs : List SF) (i j : Nat) : (fs.map fun f => f.cell i j).filterMap id = numbers fs i j := by
  unfold numbers
  rw [List.filterMap_map]
  rfl

/-! ### C201 -/

/-- C201: the fluctuant scalar fields keep the times, the grid and the units; where more than `nmb_min_mean` fields are valid each of
them is its value minus the mean of the valid values (masked where the field is), elsewhere all are masked. -/
theorem C201_fluctuations (hs : Profile.IsArgsort srt) {t : TF} {u : Sym} (h : SRecord t u) (nmin : Nat) :
    ∃ T, sfluct srt t nmin = .ok T ∧ SRecord T u ∧ T.times = t.times ∧ T.ut = t.ut ∧ T.ax = t.ax ∧ T.ay = t.ay ∧ T.ux = t.ux ∧ T.uy = t.uy ∧
      ∀ x y l, ShowsS t x y l →
        (nmin < (l.filterMap id).length → ShowsS T x y (l.map fun r => r.map fun a => a - mean (l.filterMap id))) ∧
        ((l.filterMap id).length ≤ nmin → ShowsS T x y (l.map fun _ => none)) := by
  obtain ⟨T, e, r, h1, h2, h3, h4, h5, h6, hc⟩ := sfluct_cells hs h nmin
  refine ⟨T, e, r, h1, h2, h3, h4, h5, h6, fun x y l hl => ?_⟩
  obtain ⟨i, j, hi, hj, rfl⟩ := sshows_point h hl
  rw [snumbers_cells, sshows_cells r (h3 ▸ hi) (h4 ▸ hj), sshows_cells r (h3 ▸ hi) (h4 ▸ hj), hc i j (getElem?_some_lt hi) (getElem?_some_lt hj)]
  constructor
  · intro hn
    rw [List.map_map]
    refine List.map_congr_left fun f _ => ?_
    simp only [Function.comp, soff, if_pos hn]
  · intro hn
    rw [List.map_map]
    refine List.map_congr_left fun f _ => ?_
    simp only [Function.comp, soff, if_neg (show ¬ nmin < (numbers t.fields i j).length by omega)]

theorem mean_off {w : List Rat} (h : 0 < w.length) : (w.map (· - mean w)).sum = 0 := by
  have hz : (w.length : Rat) ≠ 0 := by exact_mod_cast h.ne'
  have : ∀ (c : Rat) (w : List Rat), (w.map (· - c)).sum = w.sum - c * w.length := by
    intro c w
    induction w with
    | nil => simp
    | cons a w ih => simp only [List.map_cons, List.sum_cons, ih, List.length_cons, Nat.cast_add, Nat.cast_one]; ring
  rw [this]; unfold mean; field_simp; ring

/-- C201: at every point the fluctuations that are not masked sum to zero. -/
theorem C201_zero_sum (hs : Profile.IsArgsort srt) {t T : TF} {u : Sym} (h : SRecord t u) {nmin : Nat} (e : sfluct srt t nmin = .ok T)
    {x y : Rat} {l : List (Option Rat)} (hl : ShowsS T x y l) : (l.filterMap id).sum = 0 := by
  obtain ⟨T', e', r, h1, h2, h3, h4, h5, h6, hc⟩ := sfluct_cells hs h nmin
  rw [e] at e'
  cases e'
  obtain ⟨i, j, hi, hj, rfl⟩ := sshows_point r hl
  rw [h3] at hi
  rw [h4] at hj
  rw [hc i j (getElem?_some_lt hi) (getElem?_some_lt hj)]
  have this : ∀ (w : List Rat) (fs : List SF), (fs.map fun f => soff nmin w (f.cell i j)).filterMap id =
      if nmin < w.length then (numbers fs i j).map (· - mean w) else [] := by
    intro w fs
    unfold numbers soff
    induction fs with
    | nil => simp
    | cons f fs ih =>
      by_cases hn : nmin < w.length
      · simp only [if_pos hn] at ih ⊢
        rw [List.map_cons, List.filterMap_cons, List.filterMap_cons]
        cases f.cell i j with
        | none => simpa using ih
        | some a => simpa using ih
      · simp only [if_neg hn] at ih ⊢
        simp [ih]
  rw [this]
  by_cases hn : nmin < (numbers t.fields i j).length
  · rw [if_pos hn]
    exact mean_off (by omega)
  · rw [if_neg hn]; simp

/-! ### C202 -/

/-- C202 fails for every record of at least two fields: whatever the square root and the magnitude compute, the turbulent intensity is
never obtained.  The energies lose their times when they are multiplied, the magnitudes keep theirs, and the quotient refuses containers
with different times. -/
theorem C202_raises_violated (hs : Profile.IsArgsort srt) {t : TVF} {u : Sym} (h : Record t u) (h2 : 2 ≤ t.fields.length) {root : SF → SF}
    {mag : VF → Res SF} (hroot : ∀ f, (root f).ax = f.ax) (hmag : ∀ f ∈ t.fields, ∃ s, mag f = .ok s ∧ OnS t u s) :
    intensity srt root mag t = .error .exception := by
  obtain ⟨fs, e, p⟩ := tke_spec hs h
  have hon : ∀ g ∈ fs, OnS t (u.mul u) g := fun g hg => by
    obtain ⟨f, _, q⟩ := Forall₂_mem p hg
    exact q.1
  have hc : Temporal.Consistent ⟨t.ax, t.ay, t.ux, t.uy, t.times, t.ut, fs, true⟩ :=
    ⟨h.paired.trans p.length_eq, fun g hg => (hon g hg).wf, fun g hg => (hon g hg).ax, fun g hg => (hon g hg).ay,
      fun g hg => (hon g hg).ux, fun g hg => (hon g hg).uy⟩
  obtain ⟨a, ea, _, perm, _⟩ := Temporal.C47_mul_number_violated hs hc (2 / 3)
  have hal : ∀ f ∈ a.fields, f.ax = t.ax := by
    intro f hf
    obtain ⟨g, hg, rfl⟩ := List.mem_map.mp (perm.mem_iff.mp hf)
    exact (hon g hg).ax
  obtain ⟨b, eb, pb, permb⟩ := Temporal.addAll_spec hs t.ax (a.fields.map root) (t := TF.empty) rfl (fun c => absurd rfl c) (by
    intro f hf
    obtain ⟨g, hg, rfl⟩ := List.mem_map.mp hf
    rw [hroot]; exact hal g hg)
  rw [show Temporal.entries TF.empty = [] from rfl, List.append_nil] at permb
  have hb := Temporal.times_zero pb permb
  obtain ⟨ms, em, pm⟩ := map_choice (g := mag) (l := t.fields) (P := fun _ s => OnS t u s) hmag
  have hml : t.times.length = ms.length := h.paired.trans pm.length_eq
  have hmne : ms ≠ [] := by
    intro c
    rw [c, h.paired] at hml
    exact h.ne (List.length_eq_zero_iff.mp hml)
  have eo := addSs_empty hs (ut := t.ut) t.times ms hmne hml h.inc (fun g hg => by
    obtain ⟨f, _, q⟩ := Forall₂_mem pm hg
    exact ⟨q.ax, q.ay, q.ux, q.uy⟩) h.tsize
  unfold intensity
  simp only [e, ea, eb, em, eo]
  unfold Temporal.opTF
  rw [if_pos]
  unfold Temporal.compatible
  have : ¬ b.times = t.times := by
    intro c
    rw [hb] at c
    have hi := h.inc
    have hp := h.paired
    rw [← c] at hi hp
    rw [List.length_replicate] at hp
    rw [hp] at hi
    obtain ⟨n, hn⟩ : ∃ n, t.fields.length = n + 2 := ⟨t.fields.length - 2, by omega⟩
    rw [hn, List.replicate_succ, List.replicate_succ] at hi
    have := (List.pairwise_cons.mp hi).1 0 (by simp)
    exact absurd this (lt_irrefl _)
  simp only [decide_eq_false this, Bool.and_false]

end IMT.Turb
