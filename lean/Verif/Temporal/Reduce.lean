import Verif.Temporal.Interp

/-! Property C44: coarser resolution in time. -/

namespace IMT.Temporal
variable {srt : List Rat → List Nat}

/-- A field on the grid and in the length units of the container. -/
structure On (t : TF) (f : SF) : Prop where
  wf : f.WF
  ax : f.ax = t.ax
  ay : f.ay = t.ay
  ux : f.ux = t.ux
  uy : f.uy = t.uy

theorem Consistent.on {t : TF} (h : Consistent t) {f : SF} (hf : f ∈ t.fields) : On t f :=
  ⟨h.wf f hf, h.ax f hf, h.ay f hf, h.ux f hf, h.uy f hf⟩

/-- `m` is the mean of the fields `fs`: at each cell it shows the mean of the physical values of these fields, and it is masked
as soon as one of them is. -/
def MeanOf (t : TF) (fs : List SF) (m : SF) : Prop :=
  ∀ i j, i < t.ax.length → j < t.ay.length →
    (∀ vs : List Rat, fs.map (fun f => phys f i j) = vs.map some → phys m i j = some (vs.sum / fs.length)) ∧
    (∀ f ∈ fs, f.mask.get i j = true → m.mask.get i j = true)

theorem phys_none {f : SF} {i j : Nat} : phys f i j = none ↔ f.cell i j = none := by
  unfold phys; simp

theorem sumFields_spec {t : TF} (fs : List SF) {acc : SF} (ha : On t acc) (hpos : acc.uv.size ≠ 0)
    (h : ∀ f ∈ fs, On t f ∧ acc.uv.Compat f.uv) :
    ∃ m, sumFields acc fs = .ok m ∧ On t m ∧ m.uv = acc.uv ∧ ∀ i j, i < t.ax.length → j < t.ay.length →
      (∀ (v : Rat) (vs : List Rat), phys acc i j = some v → fs.map (fun f => phys f i j) = vs.map some →
        phys m i j = some (v + vs.sum)) ∧
      ((acc.cell i j = none ∨ ∃ f ∈ fs, f.cell i j = none) → m.cell i j = none) := by
  induction fs generalizing acc with
  | nil =>
    refine ⟨acc, rfl, ha, rfl, fun i j _ _ => ⟨?_, ?_⟩⟩
    · intro v vs hv hvs
      cases vs with
      | nil => simpa using hv
      | cons _ _ => cases hvs
    · rintro (h | ⟨f, hf, _⟩)
      · exact h
      · cases hf
  | cons f fs ih =>
    obtain ⟨on, c⟩ := h f (by simp)
    have hx : acc.ax = f.ax := ha.ax.trans on.ax.symm
    have hy : acc.ay = f.ay := ha.ay.trans on.ay.symm
    obtain ⟨e, w⟩ := add_same_ok ha.wf on.wf hx hy c (ha.ux.trans on.ux.symm) (ha.uy.trans on.uy.symm)
    obtain ⟨m, em, onm, uvm, hm⟩ := ih (acc := acc.addSame f) ⟨w, ha.ax, ha.ay, ha.ux, ha.uy⟩ hpos
      (fun g hg => ⟨(h g (by simp [hg])).1, (h g (by simp [hg])).2⟩)
    refine ⟨m, by unfold sumFields; rw [e]; exact em, onm, uvm, ?_⟩
    intro i j hi hj
    have hcell := addSame_cell ha.wf on.wf hx hy (i := i) (j := j) (by rw [ha.ax]; exact hi) (by rw [ha.ay]; exact hj)
    constructor
    · intro v vs hv hvs
      cases vs with
      | nil => cases hvs
      | cons x vs =>
        rw [List.map_cons, List.map_cons, List.cons.injEq] at hvs
        have : phys (acc.addSame f) i j = some (v + x) := by
          unfold phys at hv ⊢
          have hx := hvs.1
          unfold phys at hx
          rw [hcell]
          show Option.map (· * acc.uv.size) _ = _
          cases ha' : acc.cell i j with
          | none => rw [ha'] at hv; cases hv
          | some a =>
            cases hf' : f.cell i j with
            | none => rw [hf'] at hx; cases hx
            | some b =>
              rw [ha'] at hv; rw [hf'] at hx
              simp only [Option.map_some, Option.some.injEq] at hv hx
              simp only [Option.map_some, nanOp, Option.some.injEq]
              rw [← hv, ← hx]
              field_simp
        have := (hm i j hi hj).1 _ vs this hvs.2
        rw [this, List.sum_cons, add_assoc]
    · intro hn
      apply (hm i j hi hj).2
      rcases hn with hn | ⟨g, hg, hgn⟩
      · left; rw [hcell, hn]; rfl
      · rcases List.mem_cons.mp hg with rfl | hg
        · left; rw [hcell, hgn]; cases acc.cell i j <;> rfl
        · right; exact ⟨g, hg, hgn⟩

theorem divNum_cell (f : SF) (q : Rat) (i j : Nat) : (divNum f q).cell i j = (f.cell i j).map (· / q) := by
  unfold divNum; rw [SF.setValues_cell]; rfl

theorem divNum_On {t : TF} {f : SF} (h : On t f) (q : Rat) : On t (divNum f q) :=
  ⟨SF.setValues_WF h.wf h.wf.vx h.wf.vy, h.ax, h.ay, h.ux, h.uy⟩

/-- The `k`-th run of `n` consecutive elements. -/
def runOf {α : Type} (l : List α) (n k : Nat) : List α := slice l (k * n) ((k + 1) * n)

theorem runOf_length {α : Type} {l : List α} {n k : Nat} (h : (k + 1) * n ≤ l.length) : (runOf l n k).length = n := by
  unfold runOf
  rw [slice_length, min_eq_left h, Nat.succ_mul]
  omega

theorem runOf_mem {α : Type} {l : List α} {n k : Nat} {a : α} (h : a ∈ runOf l n k) : a ∈ l := by
  unfold runOf slice at h
  exact List.mem_of_mem_take (List.mem_of_mem_drop h)

theorem cons_of_pos {α : Type} {l : List α} (h : 0 < l.length) : ∃ a m, l = a :: m := by
  cases l with
  | nil => simp at h
  | cons a m => exact ⟨a, m, rfl⟩

/-- The mean of one complete run. -/
theorem interval_mean {t : TF} (ht : Consistent t) (hu : ∀ f ∈ t.fields, ∀ g ∈ t.fields, f.uv.Compat g.uv)
    (hpos : ∀ f ∈ t.fields, f.uv.size ≠ 0) {n k : Nat} (hn : 0 < n) (hk : (k + 1) * n ≤ t.fields.length) :
    ∃ m, interval t n true (k * n) = .ok (m, (runOf t.times n k).sum / n) ∧ On t m ∧ MeanOf t (runOf t.fields n k) m := by
  have lf := runOf_length hk
  have lt := runOf_length (l := t.times) (n := n) (k := k) (by rw [ht.paired]; exact hk)
  obtain ⟨f, fs, ef⟩ := cons_of_pos (l := runOf t.fields n k) (by omega)
  obtain ⟨x, xs, ex⟩ := cons_of_pos (l := runOf t.times n k) (by omega)
  have hmem : ∀ g ∈ f :: fs, g ∈ t.fields := fun g hg => runOf_mem (n := n) (k := k) (by rw [ef]; exact hg)
  have onf := ht.on (hmem f (by simp))
  obtain ⟨m, em, onm, uvm, hm⟩ := sumFields_spec fs onf (hpos f (hmem f (by simp)))
    (fun g hg => ⟨ht.on (hmem g (by simp [hg])), hu f (hmem f (by simp)) g (hmem g (by simp [hg]))⟩)
  refine ⟨divNum m n, ?_, divNum_On onm n, ?_⟩
  · unfold interval
    have e1 : slice t.fields (k * n) (k * n + n) = f :: fs := by rw [← ef]; unfold runOf; rw [Nat.succ_mul]
    have e2 : slice t.times (k * n) (k * n + n) = x :: xs := by rw [← ex]; unfold runOf; rw [Nat.succ_mul]
    rw [e1, e2]
    simp only [if_true]
    rw [em, ex]
  · intro i j hi hj
    rw [ef]
    obtain ⟨h1, h2⟩ := hm i j hi hj
    have hlen : (f :: fs).length = n := by rw [← ef]; exact lf
    constructor
    · intro vs hvs
      cases vs with
      | nil => cases hvs
      | cons v vs =>
        rw [List.map_cons, List.map_cons, List.cons.injEq] at hvs
        have := h1 v vs hvs.1 hvs.2
        unfold phys at this ⊢
        rw [divNum_cell, hlen]
        show Option.map (· * m.uv.size) _ = _
        cases hc : m.cell i j with
        | none => rw [hc] at this; cases this
        | some a =>
          rw [hc] at this
          simp only [Option.map_some, Option.some.injEq] at this ⊢
          rw [List.sum_cons, ← this]
          ring
    · intro g hg hmask
      have hgc : g.cell i j = none := by unfold SF.cell; rw [if_pos hmask]
      have : m.cell i j = none := by
        apply h2
        rcases List.mem_cons.mp hg with rfl | hg
        · exact Or.inl hgc
        · exact Or.inr ⟨g, hg, hgc⟩
      have on := divNum_On onm (n : Rat)
      rw [SF.Reads.cellMask on.wf (by rw [on.ax]; exact hi) (by rw [on.ay]; exact hj), divNum_cell, this]
      rfl

/-- One run with `mean=False`: its first field and time. -/
theorem interval_first {t : TF} (ht : Consistent t) {n k : Nat} (hn : 0 < n) (hk : (k + 1) * n ≤ t.fields.length) :
    ∃ f x, interval t n false (k * n) = .ok (f, x) ∧ t.fields[k * n]? = some f ∧ t.times[k * n]? = some x := by
  have hk' : k * n < t.fields.length := by rw [Nat.succ_mul] at hk; omega
  have hkt : k * n < t.times.length := by rw [ht.paired]; exact hk'
  have e1 : (slice t.fields (k * n) (k * n + n))[0]? = some t.fields[k * n] := by
    rw [slice_getElem?, if_pos (by omega), Nat.add_zero, List.getElem?_eq_getElem hk']
  have e2 : (slice t.times (k * n) (k * n + n))[0]? = some t.times[k * n] := by
    rw [slice_getElem?, if_pos (by omega), Nat.add_zero, List.getElem?_eq_getElem hkt]
  refine ⟨t.fields[k * n], t.times[k * n], ?_, List.getElem?_eq_getElem hk', List.getElem?_eq_getElem hkt⟩
  unfold interval
  cases h1 : slice t.fields (k * n) (k * n + n) with
  | nil => rw [h1] at e1; simp at e1
  | cons f fs =>
    cases h2 : slice t.times (k * n) (k * n + n) with
    | nil => rw [h2] at e2; simp at e2
    | cons x xs =>
      rw [h1] at e1; rw [h2] at e2
      simp only [List.getElem?_cons_zero, Option.some.injEq] at e1 e2
      rw [e1, e2]
      rfl

/-- Adding a field after the last one appends it. -/
theorem add_last (hs : Profile.IsArgsort srt) {t : TF} (hp : Paired t) {f : SF} {x : Rat} {u : Sym} (hu : u.size ≠ 0)
    (hne : t.fields ≠ []) (hut : t.ut = u) (hax : t.ax = f.ax) (hi : Inc (t.times ++ [x])) :
    addField srt t f x u = ({ t with times := t.times ++ [x], fields := t.fields ++ [f], nd := true }, .ok ⟨⟩) := by
  unfold addField
  have hst : storedTime t x u = x := by subst hut; exact storedTime_self hu x
  rw [if_neg (fun e => hne (List.length_eq_zero_iff.mp e)), if_neg (fun h => h.1 hax), hst]
  apply sort_inc hs
  · unfold Paired; simp only [List.length_append, List.length_singleton]; exact congrArg (· + 1) hp
  · exact hi

/-- The loop, when every run gives a field on the grid of the container and the times of the runs increase. -/
theorem loop_spec (hs : Profile.IsArgsort srt) {t : TF} {n : Nat} {mean : Bool} (hu : t.ut.size ≠ 0) {K : Nat}
    (hK : ∀ k, k < K ↔ (k + 1) * n < t.fields.length) (F : Nat → SF) (X : Nat → Rat)
    (hF : ∀ k, k < K → interval t n mean (k * n) = .ok (F k, X k)) (hax : ∀ k, k < K → (F k).ax = t.ax ∧ (F k).ay = t.ay)
    (hX : ∀ i j, i < j → j < K → X i < X j) (fuel k : Nat) (hk : k < K) (hfuel : K ≤ fuel + k) {acc : TF}
    (h1 : acc.times = (List.range k).map X) (h2 : acc.fields = (List.range k).map F)
    (h3 : 0 < k → acc.ax = t.ax ∧ acc.ay = t.ay ∧ acc.ut = t.ut) :
    ∃ t', reduceLoop srt t n mean fuel (k * n) acc = some (.ok t') ∧ t'.times = (List.range K).map X ∧
      t'.fields = (List.range K).map F ∧ t'.ax = t.ax ∧ t'.ay = t.ay ∧ t'.ut = t.ut := by
  induction fuel generalizing k acc with
  | zero => omega
  | succ fuel ih =>
    have hadd : ∃ acc', addField srt acc (F k) (X k) t.ut = (acc', .ok ⟨⟩) ∧ acc'.times = (List.range (k + 1)).map X ∧
        acc'.fields = (List.range (k + 1)).map F ∧ acc'.ax = t.ax ∧ acc'.ay = t.ay ∧ acc'.ut = t.ut := by
      by_cases h0 : k = 0
      · subst h0
        refine ⟨⟨(F 0).ax, (F 0).ay, (F 0).ux, (F 0).uy, [X 0], t.ut, [F 0], true⟩, ?_, rfl, rfl, (hax 0 hk).1, (hax 0 hk).2, rfl⟩
        unfold addField
        rw [if_pos (by rw [h2]; rfl)]
      · obtain ⟨a, b, c⟩ := h3 (by omega)
        refine ⟨_, add_last hs ?_ hu ?_ c (a.trans (hax k hk).1.symm) ?_, ?_, ?_, a, b, c⟩
        · unfold Paired; rw [h1, h2]; simp
        · rw [h2]; intro e; have := congrArg List.length e; simp at this; omega
        · rw [h1]
          unfold Inc
          rw [List.pairwise_append]
          refine ⟨?_, by simp, ?_⟩
          · rw [List.pairwise_map]
            refine (List.pairwise_lt_range (n := k)).imp_of_mem ?_
            intro i j _ hj hij
            exact hX i j hij (lt_trans (List.mem_range.mp hj) hk)
          · intro x hx y hy
            obtain ⟨i, hi, rfl⟩ := List.mem_map.mp hx
            rw [List.mem_singleton.mp hy]
            exact hX i k (List.mem_range.mp hi) hk
        · simp only; rw [h1, List.range_succ, List.map_append]; rfl
        · simp only; rw [h2, List.range_succ, List.map_append]; rfl
    obtain ⟨acc', e, a1, a2, a3, a4, a5⟩ := hadd
    unfold reduceLoop
    rw [hF k hk]
    simp only
    rw [e]
    simp only
    have hkn : k * n + n = (k + 1) * n := by rw [Nat.succ_mul]
    by_cases hend : t.fields.length ≤ k * n + n + n
    · rw [if_pos hend]
      have hKk : K = k + 1 := by
        have : ¬ k + 1 < K := by
          rw [hK, Nat.succ_mul, ← hkn]
          omega
        omega
      refine ⟨acc', rfl, ?_, ?_, a3, a4, a5⟩
      · rw [a1, hKk]
      · rw [a2, hKk]
    · rw [if_neg hend]
      have hk1 : k + 1 < K := by
        rw [hK, Nat.succ_mul, ← hkn]
        omega
      rw [hkn]
      exact ih (k + 1) hk1 (by omega) a1 a2 (fun _ => ⟨a3, a4, a5⟩)

theorem runs_iff {L n : Nat} (hn : 0 < n) (k : Nat) : k < (L - 1) / n ↔ (k + 1) * n < L := by
  rw [← Nat.succ_le_iff, Nat.le_div_iff_mul_le hn]
  have : 0 < (k + 1) * n := Nat.mul_pos (Nat.succ_pos k) hn
  show (k + 1) * n ≤ L - 1 ↔ _
  omega

theorem sum_lt_sum {l m : List Rat} (hlen : l.length = m.length) (hpos : 0 < l.length) (h : ∀ x ∈ l, ∀ y ∈ m, x < y) :
    l.sum < m.sum := by
  induction l generalizing m with
  | nil => simp at hpos
  | cons a l ih =>
    cases m with
    | nil => simp at hlen
    | cons b m =>
      have hab := h a (by simp) b (by simp)
      rw [List.sum_cons, List.sum_cons]
      cases l with
      | nil =>
        cases m with
        | nil => simpa using hab
        | cons _ _ => simp at hlen
      | cons c l =>
        have := ih (m := m) (by simpa using hlen) (by simp) (fun x hx y hy => h x (by simp only [List.mem_cons] at hx ⊢; tauto) y (by simp [hy]))
        linarith

theorem runs_apart {l : List Rat} (hl : Inc l) {n i j : Nat} (hij : i < j) {x y : Rat} (hx : x ∈ runOf l n i) (hy : y ∈ runOf l n j) :
    x < y := by
  obtain ⟨a, ha⟩ := List.getElem?_of_mem hx
  obtain ⟨b, hb⟩ := List.getElem?_of_mem hy
  unfold runOf at ha hb
  rw [slice_getElem?] at ha hb
  split at ha
  · rename_i h1
    split at hb
    · rename_i h2
      have la := getElem?_some_lt ha
      have lb := getElem?_some_lt hb
      have ea : l[i * n + a] = x := by rw [List.getElem?_eq_getElem la] at ha; exact Option.some.inj ha
      have eb : l[j * n + b] = y := by rw [List.getElem?_eq_getElem lb] at hb; exact Option.some.inj hb
      have : (i + 1) * n ≤ j * n := Nat.mul_le_mul_right n hij
      rw [← ea, ← eb]
      exact List.pairwise_iff_getElem.mp hl _ _ la lb (by omega)
    · cases hb
  · cases ha

/-- C44 with the runs actually used (those followed by at least one more field): the result holds, in order, the mean field of
each run at the mean time of the run.  The loop ends: `(L - 1) / n` turns suffice. -/
theorem C44_mean_partial (hs : Profile.IsArgsort srt) {t : TF} (ht : Consistent t) (hi : Inc t.times)
    (hu : ∀ f ∈ t.fields, ∀ g ∈ t.fields, f.uv.Compat g.uv) (hpos : ∀ f ∈ t.fields, f.uv.size ≠ 0) (hut : t.ut.size ≠ 0)
    {n : Nat} (hn : 2 ≤ n) (hlt : n < t.fields.length) {fuel : Nat} (hfuel : (t.fields.length - 1) / n ≤ fuel) :
    ∃ t', reduceTemporal srt t n true fuel = some (.ok t') ∧ Paired t' ∧ t'.fields.length = (t.fields.length - 1) / n ∧
      t'.ax = t.ax ∧ t'.ay = t.ay ∧ t'.ut = t.ut ∧
      ∀ k, k < (t.fields.length - 1) / n → ∃ m, At t' ((runOf t.times n k).sum / n) m ∧ t'.fields[k]? = some m ∧ On t m ∧
        MeanOf t (runOf t.fields n k) m := by
  have hn0 : 0 < n := by omega
  have hK := runs_iff (L := t.fields.length) hn0
  have hrun : ∀ k, ∃ m, k < (t.fields.length - 1) / n →
      interval t n true (k * n) = .ok (m, (runOf t.times n k).sum / n) ∧ On t m ∧ MeanOf t (runOf t.fields n k) m := by
    intro k
    by_cases hk : k < (t.fields.length - 1) / n
    · obtain ⟨m, h⟩ := interval_mean ht hu hpos hn0 (le_of_lt ((hK k).mp hk))
      exact ⟨m, fun _ => h⟩
    · exact ⟨SF.sample, fun h => absurd h hk⟩
  choose F hF using hrun
  have hnq : (0 : Rat) < n := by exact_mod_cast hn0
  have hK0 : 0 < (t.fields.length - 1) / n := by
    rw [hK]; omega
  obtain ⟨t', e, e1, e2, e3, e4, e5⟩ := loop_spec hs (t := t) (n := n) (mean := true) hut hK F
    (fun k => (runOf t.times n k).sum / n) (fun k hk => (hF k hk).1) (fun k hk => ⟨(hF k hk).2.1.ax, (hF k hk).2.1.ay⟩)
    (by
      intro i j hij hj
      apply div_lt_div_of_pos_right _ hnq
      have li := runOf_length (l := t.times) (n := n) (k := i) (by rw [ht.paired]; exact le_of_lt ((hK i).mp (lt_trans hij hj)))
      have lj := runOf_length (l := t.times) (n := n) (k := j) (by rw [ht.paired]; exact le_of_lt ((hK j).mp hj))
      exact sum_lt_sum (li.trans lj.symm) (by omega) (fun x hx y hy => runs_apart hi hij hx hy))
    fuel 0 hK0 (by omega) (acc := TF.empty) rfl rfl (fun h => absurd h (lt_irrefl 0))
  rw [Nat.zero_mul] at e
  refine ⟨t', ?_, ?_, ?_, e3, e4, e5, ?_⟩
  · unfold reduceTemporal
    rw [if_neg (by omega), if_neg (by omega), if_neg (by rw [Int.toNat_natCast]; omega), Int.toNat_natCast]
    exact e
  · unfold Paired; rw [e1, e2]; simp
  · rw [e2]; simp
  · intro k hk
    have hfk : t'.fields[k]? = some (F k) := by
      rw [e2, List.getElem?_map, List.getElem?_range hk]; rfl
    refine ⟨F k, ⟨k, ?_, hfk⟩, hfk, (hF k hk).2⟩
    rw [e1, List.getElem?_map, List.getElem?_range hk]; rfl

/-- C44 with `mean=False`: the first field of each run used, at its own time. -/
theorem C44_first_partial (hs : Profile.IsArgsort srt) {t : TF} (ht : Consistent t) (hi : Inc t.times) (hut : t.ut.size ≠ 0)
    {n : Nat} (hn : 2 ≤ n) (hlt : n < t.fields.length) {fuel : Nat} (hfuel : (t.fields.length - 1) / n ≤ fuel) :
    ∃ t', reduceTemporal srt t n false fuel = some (.ok t') ∧ Paired t' ∧ t'.fields.length = (t.fields.length - 1) / n ∧
      t'.ax = t.ax ∧ t'.ay = t.ay ∧ t'.ut = t.ut ∧
      ∀ k, k < (t.fields.length - 1) / n → t'.fields[k]? = t.fields[k * n]? ∧ t'.times[k]? = t.times[k * n]? := by
  have hn0 : 0 < n := by omega
  have hK := runs_iff (L := t.fields.length) hn0
  have hrun : ∀ k, ∃ p : SF × Rat, k < (t.fields.length - 1) / n →
      interval t n false (k * n) = .ok p ∧ t.fields[k * n]? = some p.1 ∧ t.times[k * n]? = some p.2 := by
    intro k
    by_cases hk : k < (t.fields.length - 1) / n
    · obtain ⟨f, x, h⟩ := interval_first ht hn0 (le_of_lt ((hK k).mp hk))
      exact ⟨(f, x), fun _ => h⟩
    · exact ⟨(SF.sample, 0), fun h => absurd h hk⟩
  choose F hF using hrun
  have hK0 : 0 < (t.fields.length - 1) / n := by rw [hK]; omega
  obtain ⟨t', e, e1, e2, e3, e4, e5⟩ := loop_spec hs (t := t) (n := n) (mean := false) hut hK (fun k => (F k).1)
    (fun k => (F k).2) (fun k hk => (hF k hk).1) (fun k hk => ⟨ht.ax _ (List.mem_of_getElem? (hF k hk).2.1), ht.ay _ (List.mem_of_getElem? (hF k hk).2.1)⟩)
    (by
      intro i j hij hj
      have h1 := (hF i (lt_trans hij hj)).2.2
      have h2 := (hF j hj).2.2
      have l1 := getElem?_some_lt h1
      have l2 := getElem?_some_lt h2
      rw [List.getElem?_eq_getElem l1] at h1
      rw [List.getElem?_eq_getElem l2] at h2
      rw [← Option.some.inj h1, ← Option.some.inj h2]
      exact List.pairwise_iff_getElem.mp hi _ _ l1 l2 (Nat.mul_lt_mul_of_pos_right hij hn0))
    fuel 0 hK0 (by omega) (acc := TF.empty) rfl rfl (fun h => absurd h (lt_irrefl 0))
  rw [Nat.zero_mul] at e
  refine ⟨t', ?_, ?_, ?_, e3, e4, e5, ?_⟩
  · unfold reduceTemporal
    rw [if_neg (by omega), if_neg (by omega), if_neg (by rw [Int.toNat_natCast]; omega), Int.toNat_natCast]
    exact e
  · unfold Paired; rw [e1, e2]; simp
  · rw [e2]; simp
  · intro k hk
    rw [e1, e2, List.getElem?_map, List.getElem?_map, List.getElem?_range hk, (hF k hk).2.1, (hF k hk).2.2]
    exact ⟨rfl, rfl⟩

/-- C44: when the number of fields is not a multiple of `n`, the runs used are all the complete runs. -/
theorem C44_all_runs {L n : Nat} (hn : 0 < n) (h : ¬ n ∣ L) : (L - 1) / n = L / n := by
  have hL : 0 < L := by
    rcases Nat.eq_zero_or_pos L with e | e
    · subst e; exact absurd (dvd_zero n) h
    · exact e
  apply le_antisymm (Nat.div_le_div_right (Nat.sub_le L 1))
  rw [Nat.le_div_iff_mul_le hn]
  have h1 := Nat.div_mul_le_self L n
  have : L / n * n ≠ L := fun e => h (Dvd.intro_left _ e)
  omega

/-- C44 fails whenever the number of fields is a multiple of `n`: the last complete run is lost; when there is a single
complete run the call is refused. -/
theorem C44_last_run_violated (hs : Profile.IsArgsort srt) {t : TF} (ht : Consistent t) (hi : Inc t.times)
    (hu : ∀ f ∈ t.fields, ∀ g ∈ t.fields, f.uv.Compat g.uv) (hpos : ∀ f ∈ t.fields, f.uv.size ≠ 0) (hut : t.ut.size ≠ 0)
    {n : Nat} (hn : 2 ≤ n) (hd : n ∣ t.fields.length) (hL : 0 < t.fields.length) {fuel : Nat} (hfuel : t.fields.length ≤ fuel) :
    (t.fields.length = n → reduceTemporal srt t n true fuel = some (.error .valueError)) ∧
    (n < t.fields.length → ∃ t', reduceTemporal srt t n true fuel = some (.ok t') ∧ t'.fields.length + 1 = t.fields.length / n) := by
  constructor
  · intro e
    unfold reduceTemporal
    rw [if_neg (by omega), if_neg (by omega), if_pos (by rw [Int.toNat_natCast]; omega)]
  · intro hlt
    obtain ⟨t', e, _, hl, _⟩ := C44_mean_partial hs ht hi hu hpos hut hn hlt (fuel := fuel)
      (le_trans (Nat.div_le_self _ _) (by omega))
    refine ⟨t', e, ?_⟩
    rw [hl]
    obtain ⟨q, hq⟩ := hd
    rw [hq, Nat.mul_div_cancel_left _ (by omega)]
    have hq0 : 0 < q := by
      rcases Nat.eq_zero_or_pos q with e | e
      · subst e; omega
      · exact e
    have : (n * q - 1) / n = q - 1 := by
      rw [Nat.div_eq_iff (by omega)]
      obtain ⟨p, rfl⟩ : ∃ p, q = p + 1 := ⟨q - 1, by omega⟩
      have : n * (p + 1) = p * n + n := by ring
      constructor
      · rw [Nat.add_sub_cancel]; omega
      · rw [Nat.add_sub_cancel]; omega
    omega

/-- Five fields. -/
def rec5 : TF :=
  ⟨SF.sample.ax, SF.sample.ay, SF.sample.ux, SF.sample.uy, [1, 2, 4, 5, 7], .s,
    [SF.sample, SF.sample.neg, SF.sample, SF.sample, SF.sample], true⟩

example : (((reduceTemporal Profile.argsort rec5 2 true 9).bind Except.toOption).map
    fun t => (t.times, t.fields.map fun f => [f.cell 1 0, f.cell 1 1])) = some ([3 / 2, 9 / 2], [[some 0, none], [some 10, none]]) := by
  decide +kernel

example : (((reduceTemporal Profile.argsort { rec5 with times := [1, 2, 4, 5], fields := rec5.fields.take 4 } 2 true 9).bind
    Except.toOption).map fun t => t.times) = some [3 / 2] := by decide +kernel

end IMT.Temporal
