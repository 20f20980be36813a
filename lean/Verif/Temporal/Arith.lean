import Verif.Temporal.Reduce

/-! Property C47: arithmetic on containers. -/

namespace IMT.Temporal
variable {srt : List Rat → List Nat}

theorem zipRes_get {op : SF → SF → Res SF} {l m k : List SF} (h : zipRes op l m = .ok k) :
    k.length = min l.length m.length ∧
      ∀ (i : Nat) (a b c : SF), l[i]? = some a → m[i]? = some b → k[i]? = some c → op a b = .ok c := by
  induction l generalizing m k with
  | nil =>
    cases h
    exact ⟨by simp, fun i a b c ha => by simp at ha⟩
  | cons x l ih =>
    cases m with
    | nil =>
      cases h
      exact ⟨by simp, fun i a b c _ hb => by simp at hb⟩
    | cons y m =>
      unfold zipRes at h
      cases hxy : op x y with
      | error e => rw [hxy] at h; cases h
      | ok z =>
        rw [hxy] at h
        simp only at h
        cases hr : zipRes op l m with
        | error e => rw [hr] at h; cases h
        | ok k' =>
          rw [hr] at h
          cases h
          obtain ⟨h1, h2⟩ := ih hr
          refine ⟨by simp [h1], ?_⟩
          intro i a b c ha hb hc
          cases i with
          | zero =>
            simp only [List.getElem?_cons_zero, Option.some.injEq] at ha hb hc
            subst ha; subst hb; subst hc; exact hxy
          | succ i => exact h2 i a b c (by simpa using ha) (by simpa using hb) (by simpa using hc)

theorem zipRes_ok {op : SF → SF → Res SF} {l m : List SF}
    (h : ∀ (i : Nat) (a b : SF), l[i]? = some a → m[i]? = some b → ∃ c, op a b = .ok c) : ∃ k, zipRes op l m = .ok k := by
  induction l generalizing m with
  | nil => exact ⟨[], rfl⟩
  | cons x l ih =>
    cases m with
    | nil => exact ⟨[], rfl⟩
    | cons y m =>
      obtain ⟨z, hz⟩ := h 0 x y rfl rfl
      obtain ⟨k, hk⟩ := ih (m := m) fun i a b ha hb => h (i + 1) a b (by simpa using ha) (by simpa using hb)
      exact ⟨z :: k, by unfold zipRes; rw [hz]; simp only; rw [hk]⟩

/-! ### operations that keep the times -/

/-- C47 for the sum of two containers with the same times: the times are kept and each field is the sum of the two fields of
the same time (what the sum of two fields is, is C16). -/
theorem C47_add_partial {t o : TF} (ht : Consistent t) (ho : Consistent o) (hx : o.ax = t.ax) (hy : o.ay = t.ay) (hux : o.ux = t.ux)
    (huy : o.uy = t.uy) (htimes : t.times = o.times) (hu : ∀ f ∈ t.fields, ∀ g ∈ o.fields, f.uv.Compat g.uv) :
    ∃ r, addTF srt t o = .ok r ∧ r.times = t.times ∧ r.ut = t.ut ∧ Consistent r ∧
      ∀ (i : Nat) (f g : SF), t.fields[i]? = some f → o.fields[i]? = some g → ∃ h, r.fields[i]? = some h ∧ f.add g = .ok h := by
  have hadd : ∀ f ∈ t.fields, ∀ g ∈ o.fields, f.add g = .ok (f.addSame g) ∧ (f.addSame g).WF := by
    intro f hf g hg
    exact add_same_ok (ht.wf f hf) (ho.wf g hg) (by rw [ht.ax f hf, ho.ax g hg, hx]) (by rw [ht.ay f hf, ho.ay g hg, hy])
      (hu f hf g hg) (by rw [ht.ux f hf, ho.ux g hg, hux]) (by rw [ht.uy f hf, ho.uy g hg, huy])
  obtain ⟨k, hk⟩ := zipRes_ok (op := SF.add) (l := t.fields) (m := o.fields) fun i a b ha hb =>
    ⟨_, (hadd a (List.mem_of_getElem? ha) b (List.mem_of_getElem? hb)).1⟩
  obtain ⟨h1, h2⟩ := zipRes_get hk
  have hlen : t.fields.length = o.fields.length := by rw [← ht.paired, ← ho.paired, htimes]
  have hkl : k.length = t.fields.length := by rw [h1, ← hlen, min_self]
  have hin : ∀ h ∈ k, ∃ f ∈ t.fields, ∃ g ∈ o.fields, h = f.addSame g := by
    intro h hh
    obtain ⟨i, hi⟩ := List.getElem?_of_mem hh
    have hik := getElem?_some_lt hi
    have hit : i < t.fields.length := by rw [← hkl]; exact hik
    have hio : i < o.fields.length := by rw [← hlen]; exact hit
    have e := h2 i _ _ _ (List.getElem?_eq_getElem hit) (List.getElem?_eq_getElem hio) hi
    rw [(hadd _ (List.getElem_mem hit) _ (List.getElem_mem hio)).1] at e
    exact ⟨_, List.getElem_mem hit, _, List.getElem_mem hio, (Except.ok.inj e).symm⟩
  refine ⟨{ t with fields := k }, ?_, rfl, rfl, ?_, ?_⟩
  · unfold addTF; rw [if_pos htimes, hk]
  · refine ⟨by unfold Paired; exact ht.paired.trans hkl.symm, ?_, ?_, ?_, ?_, ?_⟩ <;> intro h hh <;>
      obtain ⟨f, hf, g, hg, rfl⟩ := hin h hh
    exacts [(hadd f hf g hg).2, ht.ax f hf, ht.ay f hf, ht.ux f hf, ht.uy f hf]
  · intro i f g hf hg
    have hi : i < k.length := by rw [hkl]; exact getElem?_some_lt hf
    exact ⟨k[i], List.getElem?_eq_getElem hi, h2 i f g _ hf hg (List.getElem?_eq_getElem hi)⟩

/-- C47 for the sum with one field: added to each field, times kept. -/
theorem C47_add_field {t : TF} {g : SF} (ht : Consistent t) (hne : t.fields ≠ []) (hg : On t g)
    (hu : ∀ f ∈ t.fields, f.uv.Compat g.uv) :
    ∃ r, addSF t g = .ok r ∧ r.times = t.times ∧ r.ut = t.ut ∧ r.fields.length = t.fields.length ∧
      ∀ (i : Nat) (f : SF), t.fields[i]? = some f → ∃ h, r.fields[i]? = some h ∧ f.add g = .ok h := by
  obtain ⟨k, hk⟩ := mapRes_exists (g := fun f : SF => f.add g) (l := t.fields) fun f hf =>
    ⟨_, (add_same_ok (ht.wf f hf) hg.wf ((ht.ax f hf).trans hg.ax.symm) ((ht.ay f hf).trans hg.ay.symm) (hu f hf)
      ((ht.ux f hf).trans hg.ux.symm) ((ht.uy f hf).trans hg.uy.symm)).1⟩
  obtain ⟨h1, h2⟩ := mapRes_get hk
  refine ⟨{ t with fields := k }, ?_, rfl, rfl, h1, ?_⟩
  · unfold addSF; rw [if_neg (fun e => hne (List.length_eq_zero_iff.mp e)), hk]
  · intro i f hf
    have hi : i < k.length := by rw [h1]; exact getElem?_some_lt hf
    exact ⟨k[i], List.getElem?_eq_getElem hi, h2 i f _ hf (List.getElem?_eq_getElem hi)⟩

/-- C47 for the sum with a number: added to every value that is not masked, times kept. -/
theorem C47_add_number {t : TF} (q : Rat) (hne : t.fields ≠ []) :
    ∃ r, addNum t q = .ok r ∧ r.times = t.times ∧ r.ut = t.ut ∧ r.fields.length = t.fields.length ∧
      ∀ (i : Nat) (f : SF), t.fields[i]? = some f → ∃ h, r.fields[i]? = some h ∧ h.ax = f.ax ∧ h.ay = f.ay ∧ h.uv = f.uv ∧
        ∀ a b, h.cell a b = (f.cell a b).map (· + q) := by
  refine ⟨{ t with fields := t.fields.map fun f => f.addNum q }, ?_, rfl, rfl, by simp, ?_⟩
  · unfold addNum; rw [if_neg (fun e => hne (List.length_eq_zero_iff.mp e))]
  · intro i f hf
    refine ⟨f.addNum q, by simp [hf], rfl, rfl, rfl, ?_⟩
    intro a b
    unfold SF.addNum
    rw [SF.setValues_cell]
    rfl

/-- C47 for the opposite. -/
theorem C47_neg (t : TF) :
    (neg t).times = t.times ∧ (neg t).ut = t.ut ∧ (neg t).fields.length = t.fields.length ∧
      ∀ (i : Nat) (f : SF), t.fields[i]? = some f → ∃ h, (neg t).fields[i]? = some h ∧ h.ax = f.ax ∧ h.ay = f.ay ∧ h.uv = f.uv ∧
        ∀ a b, h.cell a b = (f.cell a b).map (fun v => -v) := by
  refine ⟨rfl, rfl, by simp [neg], ?_⟩
  intro i f hf
  refine ⟨f.neg, by simp [neg, hf], rfl, rfl, rfl, ?_⟩
  intro a b
  unfold SF.neg
  rw [SF.setValues_cell]
  rfl

example : Consistent rec3 ∧ (∀ f ∈ rec3.fields, ∀ g ∈ rec3.fields, f.uv.Compat g.uv) ∧
    (((addTF Profile.argsort rec3 rec3).toOption.map fun r => (r.times, r.fields.map fun f => f.cell 1 0)) =
      some ([1, 2, 4], [some 20, some (-20), some 20])) := by
  refine ⟨rec3_consistent, ?_, by decide +kernel⟩
  intro f hf g hg
  have : ∀ f ∈ [SF.sample, SF.sample.neg, SF.sample], f.uv = .s := by
    intro f hf
    simp only [List.mem_cons, List.not_mem_nil, or_false] at hf
    rcases hf with rfl | rfl | rfl <;> rfl
  rw [this f hf, this g hg]
  decide

/-! ### operations that lose them -/

theorem add_ax (hs : Profile.IsArgsort srt) {t t' : TF} {f : SF} {x : Rat} {u : Sym} (hp : Paired t)
    (h : addField srt t f x u = (t', .ok ⟨⟩)) : t'.ax = (if t.fields.length = 0 then f.ax else t.ax) := by
  unfold addField at h
  by_cases h0 : t.fields.length = 0
  · rw [if_pos h0] at h ⊢; cases h; rfl
  · rw [if_neg h0] at h ⊢
    split at h
    · cases h
    · have hp' : Paired { t with times := t.times ++ [storedTime t x u], fields := t.fields ++ [f], nd := true } := by
        unfold Paired; simp only [List.length_append, List.length_singleton]; exact congrArg (· + 1) hp
      obtain ⟨t2, e2, _, _, _, eax, _⟩ := sort_spec hs hp'
      rw [e2] at h
      cases h
      exact eax

/-- Fields added without a time are stored at time 0. -/
theorem addAll_spec (hs : Profile.IsArgsort srt) (A : List Rat) (fs : List SF) {t : TF} (hp : Paired t)
    (hA : t.fields ≠ [] → t.ax = A) (hf : ∀ f ∈ fs, f.ax = A) :
    ∃ r, addAll srt t fs = .ok r ∧ Paired r ∧ (entries r).Perm (fs.map (fun f => ((0 : Rat), f)) ++ entries t) := by
  induction fs generalizing t with
  | nil => exact ⟨t, rfl, hp, List.Perm.refl _⟩
  | cons f fs ih =>
    cases h : addField srt t f 0 Sym.one with
    | mk t' res =>
      cases res with
      | error e =>
        obtain ⟨_, _, h0, hne, _⟩ := add_error hs hp h
        exact absurd ((hA fun e => h0 (by rw [e]; rfl)).trans (hf f (by simp)).symm) hne
      | ok _ =>
        obtain ⟨p, _, perm, _⟩ := add_spec hs hp h
        have hst : (if t.fields.length = 0 then (0 : Rat) else storedTime t 0 Sym.one) = 0 := by
          unfold storedTime; split <;> simp
        rw [hst] at perm
        have hax : t'.ax = A := by
          rw [add_ax hs hp h]
          split
          · exact hf f (by simp)
          · rename_i h0; exact hA fun e => h0 (by rw [e]; rfl)
        obtain ⟨r, er, pr, permr⟩ := ih p (fun _ => hax) (fun g hg => hf g (by simp [hg]))
        refine ⟨r, by unfold addAll; rw [h]; exact er, pr, ?_⟩
        refine permr.trans ?_
        rw [List.map_cons, List.cons_append]
        exact ((List.Perm.append_left _ perm).trans List.perm_middle)

/-- All the times of a container filled this way are 0. -/
theorem times_zero {r : TF} (hp : Paired r) {fs : List SF} (h : (entries r).Perm (fs.map fun f => ((0 : Rat), f))) :
    r.times = List.replicate fs.length 0 := by
  have : r.times.Perm ((fs.map fun f => ((0 : Rat), f)).map Prod.fst) := by
    rw [← entries_fst hp]; exact h.map _
  rw [List.map_map] at this
  have e : (fs.map (Prod.fst ∘ fun f => ((0 : Rat), f))) = List.replicate fs.length 0 := by
    rw [List.eq_replicate_iff]
    refine ⟨by simp, ?_⟩
    intro b hb
    obtain ⟨f, _, rfl⟩ := List.mem_map.mp hb
    rfl
  rw [e] at this
  exact List.perm_replicate.mp this

/-- C47 fails for the product by a number: every field of the result is at time 0, whatever the times were. -/
theorem C47_mul_number_violated (hs : Profile.IsArgsort srt) {t : TF} (ht : Consistent t) (q : Rat) :
    ∃ r, mulNum srt t q = .ok r ∧ r.times = List.replicate t.fields.length 0 ∧
      (r.fields).Perm (t.fields.map fun f => f.mulNum q) ∧ ((∃ x ∈ t.times, x ≠ 0) → r.times ≠ t.times) := by
  obtain ⟨r, e, p, perm⟩ := addAll_spec hs t.ax (t.fields.map fun f => f.mulNum q) (t := TF.empty) rfl (fun h => absurd rfl h)
    (by
      intro f hf
      obtain ⟨g, hg, rfl⟩ := List.mem_map.mp hf
      exact ht.ax g hg)
  have e0 : entries TF.empty = [] := rfl
  rw [e0, List.append_nil] at perm
  have hz := times_zero p perm
  rw [List.length_map] at hz
  refine ⟨r, e, hz, ?_, ?_⟩
  · have := perm.map Prod.snd
    rw [entries_snd p, List.map_map] at this
    have h2 : List.map (Prod.snd ∘ fun f : SF => ((0 : Rat), f)) (List.map (fun f => f.mulNum q) t.fields) =
        List.map (fun f => f.mulNum q) t.fields := by
      rw [List.map_map]; rfl
    rwa [h2] at this
  · rintro ⟨x, hx, hne⟩ heq
    rw [← heq, hz] at hx
    exact hne (List.eq_of_mem_replicate hx)

example : ((mulNum Profile.argsort rec3 2).toOption.map fun r => r.times) = some [0, 0, 0] := by decide +kernel

/-- C47 fails for the product and the quotient of two containers: every field of an accepted result is at time 0. -/
theorem C47_product_violated (hs : Profile.IsArgsort srt) {op : SF → SF → Res SF} (hop : op = SF.mul ∨ op = SF.div) {t o r : TF}
    (ht : Consistent t) (h : opTF srt op t o = .ok r) : r.times = List.replicate t.fields.length 0 := by
  have hopax : ∀ f g h, op f g = .ok h → h.ax = f.ax := by
    intro f g h e
    rcases hop with rfl | rfl
    · unfold SF.mul at e
      split at e
      · cases e
      · cases e; rfl
    · unfold SF.div at e
      split at e
      · cases e
      · cases e; rfl
  unfold opTF at h
  split at h
  · cases h
  · rename_i hc
    have hlen : t.fields.length = o.fields.length := by
      unfold compatible at hc
      simp only [Bool.and_eq_false_iff, not_or] at hc
      simpa using hc.1.1
    cases hz : zipRes op t.fields o.fields with
    | error e => rw [hz] at h; cases h
    | ok k =>
      rw [hz] at h
      simp only at h
      obtain ⟨h1, h2⟩ := zipRes_get hz
      obtain ⟨r', e, p, perm⟩ := addAll_spec hs t.ax k (t := TF.empty) rfl (fun h => absurd rfl h)
        (by
          intro f hf
          obtain ⟨i, hi⟩ := List.getElem?_of_mem hf
          have hik := getElem?_some_lt hi
          rw [h1] at hik
          have hit : i < t.fields.length := by omega
          have hio : i < o.fields.length := by omega
          have := h2 i _ _ _ (List.getElem?_eq_getElem hit) (List.getElem?_eq_getElem hio) hi
          rw [hopax _ _ _ this]
          exact ht.ax _ (List.getElem_mem hit))
      have e0 : entries TF.empty = [] := rfl
      rw [e0, List.append_nil] at perm
      rw [e] at h
      cases h
      rw [times_zero p perm, h1, ← hlen, min_self]

example : ((opTF Profile.argsort SF.mul rec3 rec3).toOption.map fun r => r.times) = some [0, 0, 0] := by decide +kernel

/-- C47 fails for the quotient by a number: TypeError for every container that is not empty. -/
theorem C47_div_number_violated {t : TF} (q : Rat) (h : t.fields ≠ []) : divNumTF t q = .error .typeError := by
  unfold divNumTF
  rw [if_neg fun e => h (List.length_eq_zero_iff.mp e)]

/-- C47 fails for the sum of containers with different times: no field is added to another; the fields of the second one are
put in the first, all of them at time 0. -/
theorem C47_add_times_violated (hs : Profile.IsArgsort srt) {t o : TF} (ht : Consistent t) (ho : Consistent o) (hx : o.ax = t.ax)
    (hne : t.times ≠ o.times) :
    ∃ r, addTF srt t o = .ok r ∧ (entries r).Perm (o.fields.map (fun f => ((0 : Rat), f)) ++ entries t) := by
  obtain ⟨r, e, _, perm⟩ := addAll_spec hs t.ax o.fields ht.paired (fun _ => rfl) (fun f hf => (ho.ax f hf).trans hx)
  exact ⟨r, by unfold addTF; rw [if_neg hne]; exact e, perm⟩

example : ((addTF Profile.argsort rec3 { rec3 with times := [1, 2, 5] }).toOption.map fun r => r.times) = some [0, 0, 0, 1, 2, 4] := by
  decide +kernel

/-- C47 fails when the units of time differ: the times are compared as bare numbers, so that fields of different instants are
added together. -/
theorem C47_add_units_violated {t o : TF} (ht : Consistent t) (ho : Consistent o) (hx : o.ax = t.ax) (hy : o.ay = t.ay)
    (hux : o.ux = t.ux) (huy : o.uy = t.uy) (htimes : t.times = o.times) (hu : ∀ f ∈ t.fields, ∀ g ∈ o.fields, f.uv.Compat g.uv)
    (hut : t.ut.size ≠ o.ut.size) {i : Nat} {x : Rat} (hi : t.times[i]? = some x) (h0 : x ≠ 0) :
    ∃ r f g h, addTF srt t o = .ok r ∧ At t x f ∧ At o x g ∧ At r x h ∧ f.add g = .ok h ∧ x * t.ut.size ≠ x * o.ut.size := by
  obtain ⟨r, e, et, _, _, hr⟩ := C47_add_partial (srt := srt) ht ho hx hy hux huy htimes hu
  have hlt := getElem?_some_lt hi
  have hf : i < t.fields.length := by rw [← ht.paired]; exact hlt
  have hg : i < o.fields.length := by rw [← ho.paired, ← htimes]; exact hlt
  obtain ⟨h, h1, h2⟩ := hr i _ _ (List.getElem?_eq_getElem hf) (List.getElem?_eq_getElem hg)
  refine ⟨r, _, _, h, e, ⟨i, hi, List.getElem?_eq_getElem hf⟩, ⟨i, by rw [← htimes]; exact hi, List.getElem?_eq_getElem hg⟩,
    ⟨i, by rw [et]; exact hi, h1⟩, h2, ?_⟩
  intro c
  exact hut (mul_left_cancel₀ h0 c)

example : ((addTF Profile.argsort rec3 { rec3 with ut := .ms }).toOption.map fun r => (r.times, r.fields.map fun f => f.cell 1 0)) =
    some ([1, 2, 4], [some 20, some (-20), some 20]) ∧ rec3.ut.size ≠ Sym.ms.size := by decide +kernel

end IMT.Temporal
