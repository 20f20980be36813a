import Verif.Traj.Model
import Mathlib.Data.List.Nodup
import Mathlib.Data.List.Perm.Subperm
import Mathlib.Data.List.Induction

/-! Helper lemmas for the trajectory model. -/

namespace IMT.Traj

theorem mem_cells {np nl : Nat} {p : Nat × Nat} : p ∈ cells np nl ↔ p.1 < np ∧ p.2 < nl := by
  obtain ⟨i, j⟩ := p
  simp [cells]

/-- Order with infinity. -/
def LeInf (a b : Option Rat) : Prop := ltInf b a = false

theorem LeInf.refl (a : Option Rat) : LeInf a a := by
  cases a <;> simp [LeInf, ltInf]

theorem LeInf.trans {a b c : Option Rat} (h1 : LeInf a b) (h2 : LeInf b c) : LeInf a c := by
  cases a <;> cases b <;> cases c <;> simp_all [LeInf, ltInf]
  exact le_trans h1 h2

theorem LeInf.of_lt {a b : Option Rat} (h : ltInf a b = true) : LeInf a b := by
  cases a <;> cases b <;> simp_all [LeInf, ltInf]
  exact le_of_lt h

theorem foldl_argmin (d : Mat) (l : List (Nat × Nat)) : ∀ b : Nat × Nat,
    let r := l.foldl (fun b p => if ltInf (d p.1 p.2) (d b.1 b.2) then p else b) b
    (r = b ∨ r ∈ l) ∧ LeInf (d r.1 r.2) (d b.1 b.2) ∧ ∀ p ∈ l, LeInf (d r.1 r.2) (d p.1 p.2) := by
  induction l with
  | nil => intro b; simp [LeInf.refl]
  | cons a l ih =>
    intro b
    simp only [List.foldl_cons]
    by_cases h : ltInf (d a.1 a.2) (d b.1 b.2) = true
    · rw [if_pos h]
      obtain ⟨h1, h2, h3⟩ := ih a
      refine ⟨?_, h2.trans (LeInf.of_lt h), ?_⟩
      · rcases h1 with h1 | h1
        · right; rw [h1]; simp
        · right; exact List.mem_cons_of_mem _ h1
      · intro p hp
        rcases List.mem_cons.mp hp with rfl | hp
        · exact h2
        · exact h3 p hp
    · rw [if_neg h]
      obtain ⟨h1, h2, h3⟩ := ih b
      refine ⟨?_, h2, ?_⟩
      · rcases h1 with h1 | h1
        · left; exact h1
        · right; exact List.mem_cons_of_mem _ h1
      · intro p hp
        rcases List.mem_cons.mp hp with rfl | hp
        · exact h2.trans (by simpa [LeInf] using h)
        · exact h3 p hp

theorem argmin_spec (d : Mat) {np nl : Nat} (hp : 0 < np) (hl : 0 < nl) :
    (argmin d np nl).1 < np ∧ (argmin d np nl).2 < nl ∧
    ∀ i j, i < np → j < nl → LeInf (d (argmin d np nl).1 (argmin d np nl).2) (d i j) := by
  obtain ⟨h1, -, h3⟩ := foldl_argmin d (cells np nl) (0, 0)
  have hm : argmin d np nl ∈ cells np nl := by
    rcases h1 with h1 | h1
    · unfold argmin; rw [h1]; exact mem_cells.mpr ⟨hp, hl⟩
    · exact h1
  obtain ⟨ha, hb⟩ := mem_cells.mp hm
  exact ⟨ha, hb, fun i j hi hj => h3 (i, j) (mem_cells.mpr ⟨hi, hj⟩)⟩

theorem pick_append {α : Type} (l : List α) (I J : List Nat) : pick l (I ++ J) = pick l I ++ pick l J := by
  simp [pick]

theorem flatten_modify {α : Type} (x : List α) : ∀ (l : List (List α)) (j : Nat), j < l.length →
    (l.modify j fun a => a ++ x).flatten.Perm (l.flatten ++ x) := by
  intro l
  induction l with
  | nil => intro j h; simp at h
  | cons a l ih =>
    intro j h
    cases j with
    | zero =>
      simp only [List.modify_zero_cons, List.flatten_cons, List.append_assoc]
      exact List.perm_append_comm.append_left a
    | succ j =>
      simp only [List.modify_succ_cons, List.flatten_cons, List.append_assoc]
      exact (ih j (by simpa using h)).append_left a

/-- The invariant of the linking loop, with the links made so far as a ghost variable. -/
structure Inv (eps : Option Rat) (new : List Pt) (old : List Line) (s : LinkSt) (M : List (Nat × Nat)) : Prop where
  range : ∀ p ∈ M, p.1 < new.length ∧ p.2 < old.length
  pts : (M.map Prod.fst).Nodup
  lns : (M.map Prod.snd).Nodup
  close : ∀ p ∈ M, ∃ v, distMat new old p.1 p.2 = some v ∧ tooFar eps v = false
  d : ∀ a b, s.d a b = if a ∈ M.map Prod.fst ∨ b ∈ M.map Prod.snd then none else distMat new old a b
  len : s.lines.length = old.length
  lines : ∀ j : Nat, s.lines[j]? = (old[j]?).map fun l => l ++ pick new ((M.filter fun p => p.2 = j).map Prod.fst)
  flat : s.lines.flatten.Perm (old.flatten ++ pick new (M.map Prod.fst))
  usedL : ∀ j, s.usedL j = true ↔ j ∈ M.map Prod.snd
  usedP : ∀ i, s.usedP i = true ↔ i ∈ M.map Prod.fst
  stable : ∀ a b, a < new.length → b < old.length → (a ∈ M.map Prod.fst ∨ b ∈ M.map Prod.snd) →
    ∃ p ∈ M, (p.1 = a ∨ p.2 = b) ∧ LeInf (distMat new old p.1 p.2) (distMat new old a b)

theorem inv_init (eps : Option Rat) (new : List Pt) (old : List Line) :
    Inv eps new old ⟨distMat new old, old, fun _ => false, fun _ => false⟩ [] := by
  refine ⟨by simp, by simp, by simp, by simp, by simp, rfl, ?_, by simp [pick], by simp, by simp, by simp⟩
  intro j
  simp [pick]

theorem inv_step {eps : Option Rat} {new : List Pt} {old : List Line} {s s' : LinkSt} {M : List (Nat × Nat)}
    (hp : 0 < new.length) (hl : 0 < old.length) (h : Inv eps new old s M)
    (hs : linkStep eps new old.length s = some s') :
    ∃ p, p ∉ M ∧ Inv eps new old s' (M ++ [p]) := by
  obtain ⟨hi, hj, hmin⟩ := argmin_spec s.d hp hl
  unfold linkStep at hs
  generalize argmin s.d new.length old.length = ij at hs hi hj hmin
  obtain ⟨i, j⟩ := ij
  simp only at hs hi hj hmin
  cases hv : s.d i j with
  | none => rw [hv] at hs; simp at hs
  | some v =>
    rw [hv] at hs
    simp only at hs
    by_cases hf : tooFar eps v = true
    · rw [if_pos hf] at hs; simp at hs
    rw [if_neg hf] at hs
    have hs' : link new s i j = s' := by simpa using hs
    subst hs'
    have hd := h.d i j
    rw [hv] at hd
    have hnot : ¬ (i ∈ M.map Prod.fst ∨ j ∈ M.map Prod.snd) := by
      intro hc; rw [if_pos hc] at hd; simp at hd
    rw [if_neg hnot] at hd
    rw [not_or] at hnot
    obtain ⟨hni, hnj⟩ := hnot
    refine ⟨(i, j), fun hm => hni (List.mem_map_of_mem hm), ?_⟩
    refine ⟨?_, ?_, ?_, ?_, ?_, ?_, ?_, ?_, ?_, ?_, ?_⟩
    · intro p hpm
      rcases List.mem_append.mp hpm with hpm | hpm
      · exact h.range p hpm
      · rw [List.mem_singleton] at hpm; subst hpm; exact ⟨hi, hj⟩
    · rw [List.map_append]
      exact List.nodup_append.mpr ⟨h.pts, by simp, by
        intro a ha b hb; simp at hb; subst hb; intro hc; exact hni (hc ▸ ha)⟩
    · rw [List.map_append]
      exact List.nodup_append.mpr ⟨h.lns, by simp, by
        intro a ha b hb; simp at hb; subst hb; intro hc; exact hnj (hc ▸ ha)⟩
    · intro p hpm
      rcases List.mem_append.mp hpm with hpm | hpm
      · exact h.close p hpm
      · rw [List.mem_singleton] at hpm; subst hpm
        exact ⟨v, hd.symm, by simpa using hf⟩
    · intro a b
      show (if a = i ∨ b = j then none else s.d a b) = _
      by_cases hab : a = i ∨ b = j
      · rw [if_pos hab, if_pos]
        rcases hab with rfl | rfl <;> simp
      · rw [if_neg hab, h.d a b]
        rw [not_or] at hab
        have : (a ∈ (M ++ [(i, j)]).map Prod.fst ∨ b ∈ (M ++ [(i, j)]).map Prod.snd) ↔
            (a ∈ M.map Prod.fst ∨ b ∈ M.map Prod.snd) := by
          simp [hab.1, hab.2]
        simp only [this]
    · simp [link, h.len]
    · intro b
      simp only [link, List.getElem?_modify]
      rw [h.lines b, List.filter_append, List.map_append]
      by_cases hb : j = b
      · subst hb
        have hem : M.filter (fun p => p.2 = j) = [] := by
          rw [List.filter_eq_nil_iff]
          intro p hpm hc
          have : p.2 = j := by simpa using hc
          exact hnj (this ▸ List.mem_map_of_mem hpm)
        rw [hem]
        cases ho : old[j]? with
        | none => simp
        | some l =>
          cases hn : new[i]? <;> simp [pick, hn]
      · cases ho : old[b]? with
        | none => simp
        | some l => simp [hb]
    · simp only [link]
      refine (flatten_modify _ _ _ (by rw [h.len]; exact hj)).trans ?_
      rw [List.map_append, pick_append, ← List.append_assoc]
      refine (h.flat.append_right _).trans (List.Perm.of_eq ?_)
      congr 1
    · intro b
      simp only [link]
      by_cases hb : b = j
      · simp [hb]
      · simp [hb]; simpa using h.usedL b
    · intro a
      simp only [link]
      by_cases ha : a = i
      · simp [ha]
      · simp [ha]; simpa using h.usedP a
    · intro a b ha hb hab
      by_cases hold : a ∈ M.map Prod.fst ∨ b ∈ M.map Prod.snd
      · obtain ⟨p, hpm, h1, h2⟩ := h.stable a b ha hb hold
        exact ⟨p, List.mem_append_left _ hpm, h1, h2⟩
      · refine ⟨(i, j), by simp, ?_, ?_⟩
        · rw [not_or] at hold
          rcases hab with hab | hab
          · left
            rw [List.map_append, List.mem_append] at hab
            rcases hab with hab | hab
            · exact absurd hab hold.1
            · simpa using (by simpa using hab : a = i).symm
          · right
            rw [List.map_append, List.mem_append] at hab
            rcases hab with hab | hab
            · exact absurd hab hold.2
            · simpa using (by simpa using hab : b = j).symm
        · have := hmin a b ha hb
          rw [h.d a b, if_neg hold, hv, hd] at this
          exact this

theorem nodup_length_le {n : Nat} {l : List Nat} (hn : l.Nodup) (h : ∀ a ∈ l, a < n) : l.length ≤ n := by
  have : l ⊆ List.range n := fun a ha => List.mem_range.mpr (h a ha)
  have := List.subperm_of_subset hn this
  simpa using this.length_le

/-- The loop terminates: each turn makes a link. -/
theorem linkLoop_terminates {eps : Option Rat} {new : List Pt} {old : List Line} (hp : 0 < new.length)
    (hl : 0 < old.length) : ∀ (fuel : Nat) (s : LinkSt) (M : List (Nat × Nat)), Inv eps new old s M →
    new.length < fuel + M.length → linkLoop eps new old.length fuel s ≠ none := by
  intro fuel
  induction fuel with
  | zero =>
    intro s M h hf
    exfalso
    have := nodup_length_le h.pts (n := new.length) (by
      intro a ha
      obtain ⟨p, hpm, rfl⟩ := List.mem_map.mp ha
      exact (h.range p hpm).1)
    simp at this; omega
  | succ n ih =>
    intro s M h hf
    unfold linkLoop
    cases hs : linkStep eps new old.length s with
    | none => simp
    | some s' =>
      obtain ⟨p, -, h'⟩ := inv_step hp hl h hs
      exact ih s' _ h' (by simp; omega)

theorem linkLoop_inv {eps : Option Rat} {new : List Pt} {old : List Line} (hp : 0 < new.length)
    (hl : 0 < old.length) : ∀ (fuel : Nat) (s r : LinkSt) (M : List (Nat × Nat)), Inv eps new old s M →
    linkLoop eps new old.length fuel s = some r →
    ∃ M', Inv eps new old r M' ∧ linkStep eps new old.length r = none := by
  intro fuel
  induction fuel with
  | zero => intro s r M _ h; simp [linkLoop] at h
  | succ n ih =>
    intro s r M h hr
    unfold linkLoop at hr
    cases hs : linkStep eps new old.length s with
    | none => rw [hs] at hr; simp at hr; subst hr; exact ⟨M, h, hs⟩
    | some s' =>
      rw [hs] at hr
      obtain ⟨p, -, h'⟩ := inv_step hp hl h hs
      exact ih s' r _ h' hr

/-- When the loop stops, no free pair is within reach. -/
theorem stop_far {eps : Option Rat} {new : List Pt} {old : List Line} {s : LinkSt} {M : List (Nat × Nat)}
    (hp : 0 < new.length) (hl : 0 < old.length) (h : Inv eps new old s M)
    (hs : linkStep eps new old.length s = none) :
    ∀ a b v, a < new.length → b < old.length → a ∉ M.map Prod.fst → b ∉ M.map Prod.snd →
      distMat new old a b = some v → tooFar eps v = true := by
  intro a b v ha hb hna hnb hv
  obtain ⟨hi, hj, hmin⟩ := argmin_spec s.d hp hl
  have hle := hmin a b ha hb
  rw [h.d a b, if_neg (by simp only [not_or]; exact ⟨hna, hnb⟩), hv] at hle
  unfold linkStep at hs
  cases hm : s.d (argmin s.d new.length old.length).1 (argmin s.d new.length old.length).2 with
  | none => rw [hm] at hle; simp [LeInf, ltInf] at hle
  | some w =>
    rw [hm] at hle hs
    simp only at hs
    by_cases hf : tooFar eps w = true
    · unfold tooFar at hf ⊢
      cases eps with
      | none => simp at hf
      | some e =>
        simp only [decide_eq_true_eq] at hf ⊢
        have : w ≤ v := by simpa [LeInf, ltInf] using hle
        linarith
    · rw [if_neg hf] at hs; simp at hs

/-! ### picking by indices -/

theorem pick_range {α : Type} (l : List α) : pick l (List.range l.length) = l := by
  unfold pick
  induction l using List.reverseRecOn with
  | nil => rfl
  | append_singleton l a ih =>
    rw [List.length_append, List.length_singleton, List.range_succ, List.filterMap_append]
    have : (List.range l.length).filterMap (fun i : Nat => (l ++ [a])[i]?) =
        (List.range l.length).filterMap (fun i : Nat => l[i]?) := by
      apply List.filterMap_congr
      intro i hi
      rw [List.getElem?_append_left (by simpa using hi)]
    rw [this, ih]
    simp

theorem pick_perm {α : Type} (l : List α) {I J : List Nat} (h : I.Perm J) : (pick l I).Perm (pick l J) :=
  h.filterMap _

theorem closeLoop_spec (used : Nat → Bool) (l : List Line) : ∀ (k : Nat) (closed rest : List Line), k ≤ l.length →
    closeLoop used (List.range k).reverse (closed, l.take k ++ rest) =
      (closed ++ pick l ((List.range k).reverse.filter fun i => !used i),
       pick l ((List.range k).filter used) ++ rest) := by
  intro k
  induction k with
  | zero => intro closed rest _; simp [closeLoop, pick]
  | succ k ih =>
    intro closed rest hk
    have hlt : k < l.length := by omega
    rw [List.range_succ, List.reverse_append, List.reverse_singleton, List.singleton_append]
    have hget : (l.take (k + 1) ++ rest)[k]? = some l[k] := by
      rw [List.getElem?_append_left (by simp; omega)]
      simp [hlt]
    have htake : l.take (k + 1) = l.take k ++ [l[k]] := by
      rw [List.take_add_one]; simp [hlt]
    unfold closeLoop
    by_cases hu : used k = true
    · rw [if_pos hu, htake, List.append_assoc, ih _ _ (by omega)]
      rw [List.filter_cons, if_neg (by simp [hu]), List.filter_append, pick_append]
      congr 1
      rw [List.append_assoc]
      congr 1
      simp [hu, pick, hlt]
    · rw [if_neg hu, hget]
      have her : (l.take (k + 1) ++ rest).eraseIdx k = l.take k ++ rest := by
        rw [List.eraseIdx_append_of_lt_length (by simp; omega), htake,
          List.eraseIdx_append_of_length_le (by simp)]
        simp [Nat.min_eq_left (Nat.le_of_lt hlt)]
      rw [her, ih _ _ (by omega), List.filter_cons, if_pos (by simp [hu]), List.filter_append, pick_append]
      congr 1
      · simp [pick, hlt]
      · simp [hu, pick]

end IMT.Traj
