import Verif.Topo.Model
import Verif.Traj.Lemmas

/-! Helper lemmas for the topological simplification. -/

namespace IMT.Topo

open IMT.Traj (Mat argmin LeInf ltInf argmin_spec cells mem_cells)

/-- Sum of a quantity over a list of indices. -/
def total {α : Type} [Add α] [Zero α] (f : Nat → α) (c : List Nat) : α := (c.map f).sum

/-- The indices still present. -/
def alive (n : Nat) (s : SS) : List Nat := (List.range n).filter s.filt

theorem mem_alive {n : Nat} {s : SS} {a : Nat} : a ∈ alive n s ↔ a < n ∧ s.filt a = true := by
  simp [alive]

theorem nodup_alive (n : Nat) (s : SS) : (alive n s).Nodup := List.nodup_range.filter _

/-- Squared distance between two entries of the state. -/
def sd (s : SS) (a b : Nat) : Rat := (s.xs a - s.xs b) ^ 2 + (s.ys a - s.ys b) ^ 2

theorem sd_comm (s : SS) (a b : Nat) : sd s a b = sd s b a := by unfold sd; ring

/-- What the matrix of the 'replacement' algorithm holds. -/
structure DInv (n : Nat) (s : SS) : Prop where
  fin : ∀ a b v, s.d a b = some v → a ≠ b ∧ a ∈ alive n s ∧ b ∈ alive n s ∧ v = sd s a b
  full : ∀ a b, a < b → a ∈ alive n s → b ∈ alive n s → s.d a b = some (sd s a b)

/-- What the other arrays of the 'replacement' algorithm hold, with the original points each entry stands for as a
ghost variable. -/
structure CInv (pts : List TPt) (s : SS) (mem : Nat → List Nat) : Prop where
  part : ((alive pts.length s).flatMap mem).Perm (List.range pts.length)
  ne : ∀ a ∈ alive pts.length s, mem a ≠ []
  w : ∀ a ∈ alive pts.length s, s.w a = (mem a).length
  x : ∀ a ∈ alive pts.length s, s.xs a * (mem a).length = total (px pts) (mem a)
  y : ∀ a ∈ alive pts.length s, s.ys a * (mem a).length = total (py pts) (mem a)
  types : ∀ a ∈ alive pts.length s, s.types a = (mem a).map (pt pts)
  pbis : ∀ a ∈ alive pts.length s, s.pbis a = total (fun k => pbiOf (pt pts k)) (mem a)

theorem dinv_init (pts : List TPt) : DInv pts.length (init pts) := by
  constructor
  · intro a b v h
    change dist2 pts a b = some v at h
    unfold dist2 at h
    by_cases hc : a < b ∧ b < pts.length
    · rw [if_pos hc] at h
      refine ⟨by omega, mem_alive.mpr ⟨by omega, rfl⟩, mem_alive.mpr ⟨hc.2, rfl⟩, ?_⟩
      simpa [sd, init] using h.symm
    · rw [if_neg hc] at h; simp at h
  · intro a b hab _ hb
    change dist2 pts a b = _
    unfold dist2
    rw [if_pos ⟨hab, (mem_alive.mp hb).1⟩]; rfl

theorem cinv_init (pts : List TPt) : CInv pts (init pts) fun a => [a] := by
  refine ⟨?_, by simp, by simp [init], ?_, ?_, by simp [init], by simp [init, total]⟩
  · have : alive pts.length (init pts) = List.range pts.length := by
      simp [alive, init]
    rw [this]; simp
  · intro a _; simp [total, init]
  · intro a _; simp [total, init]

theorem merge_alive {n : Nat} {s : SS} {i j : Nat} (hij : i ≠ j) (hi : i ∈ alive n s) (hj : j ∈ alive n s) :
    (alive n s).Perm (i :: j :: ((alive n s).filter fun a => decide (a ≠ i ∧ a ≠ j))) ∧
    (alive n (mergeStep n s i j)).Perm (i :: ((alive n s).filter fun a => decide (a ≠ i ∧ a ≠ j))) := by
  constructor
  · rw [List.perm_ext_iff_of_nodup (nodup_alive n s)]
    · intro a
      simp only [List.mem_cons, List.mem_filter, decide_eq_true_eq]
      constructor
      · intro ha
        by_cases h1 : a = i
        · exact Or.inl h1
        · by_cases h2 : a = j
          · exact Or.inr (Or.inl h2)
          · exact Or.inr (Or.inr ⟨ha, h1, h2⟩)
      · rintro (rfl | rfl | h)
        · exact hi
        · exact hj
        · exact h.1
    · rw [List.nodup_cons, List.nodup_cons]
      refine ⟨by simp [hij], by simp, (nodup_alive n s).filter _⟩
  · rw [List.perm_ext_iff_of_nodup (nodup_alive n _)]
    · intro a
      simp only [List.mem_cons, List.mem_filter, decide_eq_true_eq, mem_alive, mergeStep]
      by_cases h1 : a = i
      · simp [h1, (mem_alive.mp hi).1]
      · by_cases h2 : a = j
        · simp [h2, Ne.symm hij]
        · simp [h1, h2]
    · rw [List.nodup_cons]
      exact ⟨by simp, (nodup_alive n s).filter _⟩

theorem mem_alive_merge {n : Nat} {s : SS} {i j : Nat} (hi : i ∈ alive n s) (a : Nat) :
    a ∈ alive n (mergeStep n s i j) ↔ a = i ∨ (a ∈ alive n s ∧ a ≠ i ∧ a ≠ j) := by
  simp only [mem_alive, mergeStep]
  by_cases h1 : a = i
  · simp [h1, (mem_alive.mp hi).1]
  · by_cases h2 : a = j
    · subst h2; simp [h1]
    · simp [h1, h2]

theorem dinv_merge {n : Nat} {s : SS} {i j : Nat} (h : DInv n s) (hij : i ≠ j) (hi : i ∈ alive n s) :
    DInv n (mergeStep n s i j) := by
  have hnew : ∀ a v, newDist n s i j a = some v →
      a ∈ alive n s ∧ a ≠ i ∧ a ≠ j ∧ v = sd (mergeStep n s i j) a i := by
    intro a v hv
    unfold newDist at hv
    by_cases hc : a < n ∧ a ≠ i ∧ a ≠ j ∧ s.filt a = true
    · rw [if_pos hc] at hv
      refine ⟨mem_alive.mpr ⟨hc.1, hc.2.2.2⟩, hc.2.1, hc.2.2.1, ?_⟩
      simp only [Option.some.injEq] at hv
      rw [← hv]
      simp [sd, mergeStep, hc.2.1]
    · rw [if_neg hc] at hv; simp at hv
  have hnew' : ∀ a, a ∈ alive n s → a ≠ i → a ≠ j →
      newDist n s i j a = some (sd (mergeStep n s i j) a i) := by
    intro a ha h1 h2
    obtain ⟨h3, h4⟩ := mem_alive.mp ha
    unfold newDist
    rw [if_pos ⟨h3, h1, h2, h4⟩]
    simp [sd, mergeStep, h1]
  have hother : ∀ a b, a ≠ i → b ≠ i → sd (mergeStep n s i j) a b = sd s a b := by
    intro a b ha hb; simp [sd, mergeStep, ha, hb]
  constructor
  · intro a b v hv
    change (if b = i then newDist n s i j a else if a = i then newDist n s i j b else wipe s.d i j a b) = some v at hv
    by_cases hb : b = i
    · rw [if_pos hb] at hv
      obtain ⟨h1, h2, h3, h4⟩ := hnew a v hv
      subst hb
      exact ⟨h2, (mem_alive_merge hi a).mpr (Or.inr ⟨h1, h2, h3⟩), (mem_alive_merge hi b).mpr (Or.inl rfl), h4⟩
    · rw [if_neg hb] at hv
      by_cases ha : a = i
      · rw [if_pos ha] at hv
        obtain ⟨h1, h2, h3, h4⟩ := hnew b v hv
        subst ha
        exact ⟨Ne.symm h2, (mem_alive_merge hi a).mpr (Or.inl rfl), (mem_alive_merge hi b).mpr (Or.inr ⟨h1, h2, h3⟩),
          by rw [h4, sd_comm]⟩
      · rw [if_neg ha] at hv
        unfold wipe at hv
        by_cases hc : a = i ∨ b = i ∨ a = j ∨ b = j
        · rw [if_pos hc] at hv; simp at hv
        · rw [if_neg hc] at hv
          simp only [not_or] at hc
          obtain ⟨h1, h2, h3, h4⟩ := h.fin a b v hv
          exact ⟨h1, (mem_alive_merge hi a).mpr (Or.inr ⟨h2, hc.1, hc.2.2.1⟩),
            (mem_alive_merge hi b).mpr (Or.inr ⟨h3, hc.2.1, hc.2.2.2⟩), by rw [h4, hother a b ha hb]⟩
  · intro a b hab ha hb
    change (if b = i then newDist n s i j a else if a = i then newDist n s i j b else wipe s.d i j a b) = _
    rcases (mem_alive_merge hi a).mp ha with rfl | ⟨ha1, ha2, ha3⟩
    · rcases (mem_alive_merge hi b).mp hb with rfl | ⟨hb1, hb2, hb3⟩
      · omega
      · rw [if_neg hb2, if_pos rfl, hnew' b hb1 hb2 hb3, sd_comm]
    · rcases (mem_alive_merge hi b).mp hb with rfl | ⟨hb1, hb2, hb3⟩
      · rw [if_pos rfl, hnew' a ha1 ha2 ha3]
      · rw [if_neg hb2, if_neg ha2]
        unfold wipe
        rw [if_neg (by simp [ha2, ha3, hb2, hb3]), h.full a b hab ha1 hb1, hother a b ha2 hb2]

theorem flatMap_congr_mem {l : List Nat} {f g : Nat → List Nat} (h : ∀ a ∈ l, f a = g a) :
    l.flatMap f = l.flatMap g := by
  induction l with
  | nil => rfl
  | cons a l ih =>
    rw [List.flatMap_cons, List.flatMap_cons, h a (by simp), ih fun b hb => h b (by simp [hb])]

theorem total_append {α : Type} [AddCommMonoid α] (f : Nat → α) (a b : List Nat) :
    total f (a ++ b) = total f a + total f b := by simp [total]

theorem bary_mul {s : SS} {c : Nat → Rat} {i j : Nat} {A B : Rat} (hi : 0 < s.w i) (ha : c i * s.w i = A)
    (hb : c j * s.w j = B) : bary s c i j * ((s.w i : Rat) + s.w j) = A + B := by
  unfold bary
  have : (0 : Rat) < s.w i := by exact_mod_cast hi
  have h2 : (0 : Rat) ≤ s.w j := by exact_mod_cast Nat.zero_le _
  rw [div_mul_cancel₀ _ (by linarith), ha, hb]

theorem cinv_merge {pts : List TPt} {s : SS} {mem : Nat → List Nat} {i j : Nat} (h : CInv pts s mem) (hij : i ≠ j)
    (hi : i ∈ alive pts.length s) (hj : j ∈ alive pts.length s) :
    CInv pts (mergeStep pts.length s i j) fun a => if a = i then mem i ++ mem j else mem a := by
  have hwi : 0 < s.w i := by
    rw [h.w i hi]; exact List.length_pos_iff.mpr (h.ne i hi)
  obtain ⟨hp1, hp2⟩ := merge_alive hij hi hj
  constructor
  · refine (hp2.flatMap_right _).trans ?_
    rw [List.flatMap_cons, if_pos rfl]
    refine List.Perm.trans ?_ ((hp1.flatMap_right mem).symm.trans h.part)
    rw [List.flatMap_cons, List.flatMap_cons, List.append_assoc]
    refine List.Perm.of_eq ?_
    congr 2
    apply flatMap_congr_mem
    intro a ha
    have := (List.mem_filter.mp ha).2
    simp only [decide_eq_true_eq] at this
    rw [if_neg this.1]
  all_goals
    intro a ha
    rcases (mem_alive_merge hi a).mp ha with rfl | ⟨h1, h2, h3⟩
    all_goals try simp only [mergeStep]
  · simp [h.ne a hi]
  · rw [if_neg h2]; exact h.ne a h1
  · simp [h.w a hi, h.w j hj]
  · rw [if_neg h2, if_neg h2]; exact h.w a h1
  · simp only [if_true, List.length_append, Nat.cast_add, total_append]
    rw [← h.w a hi, ← h.w j hj]
    exact bary_mul hwi (by rw [h.w a hi]; exact h.x a hi) (by rw [h.w j hj]; exact h.x j hj)
  · rw [if_neg h2, if_neg h2]; exact h.x a h1
  · simp only [if_true, List.length_append, Nat.cast_add, total_append]
    rw [← h.w a hi, ← h.w j hj]
    exact bary_mul hwi (by rw [h.w a hi]; exact h.y a hi) (by rw [h.w j hj]; exact h.y j hj)
  · rw [if_neg h2, if_neg h2]; exact h.y a h1
  · simp [h.types a hi, h.types j hj]
  · rw [if_neg h2, if_neg h2]; exact h.types a h1
  · simp [total_append, h.pbis a hi, h.pbis j hj]
  · rw [if_neg h2, if_neg h2]; exact h.pbis a h1

/-- A turn of 'replacement' with a finite radius merges two distinct points that are present. -/
theorem step_replacement {n : Nat} {r2 : Rat} {s s' : SS} (h : DInv n s)
    (hs : step .replacement n (some r2) s = some s') :
    ∃ i j, i ≠ j ∧ i ∈ alive n s ∧ j ∈ alive n s ∧ sd s i j ≤ r2 ∧ s' = mergeStep n s i j := by
  unfold step at hs
  generalize argmin s.d n n = ij at hs
  obtain ⟨i, j⟩ := ij
  simp only at hs
  cases hv : s.d i j with
  | none => simp [hv, stops] at hs
  | some v =>
    rw [hv] at hs
    by_cases hst : stops (some r2) (some v) = true
    · rw [if_pos hst] at hs; simp at hs
    · rw [if_neg hst] at hs
      obtain ⟨h1, h2, h3, h4⟩ := h.fin i j v hv
      refine ⟨i, j, h1, h2, h3, ?_, by simpa using hs.symm⟩
      rw [← h4]
      simpa [stops] using hst

theorem alive_shrinks {n : Nat} {s : SS} {i j : Nat} (hij : i ≠ j) (hi : i ∈ alive n s) (hj : j ∈ alive n s) :
    (alive n (mergeStep n s i j)).length + 1 = (alive n s).length := by
  obtain ⟨hp1, hp2⟩ := merge_alive hij hi hj
  rw [hp1.length_eq, hp2.length_eq]; rfl

theorem loop_replacement_terminates {n : Nat} {r2 : Rat} : ∀ (fuel : Nat) (s : SS), DInv n s →
    (alive n s).length < fuel → ∃ r, loop .replacement n (some r2) fuel s = some r := by
  intro fuel
  induction fuel with
  | zero => intro s _ h; omega
  | succ m ih =>
    intro s hd hlt
    unfold loop
    cases hs : step .replacement n (some r2) s with
    | none => exact ⟨s, rfl⟩
    | some s' =>
      obtain ⟨i, j, h1, h2, h3, -, rfl⟩ := step_replacement hd hs
      have := alive_shrinks h1 h2 h3
      exact ih _ (dinv_merge hd h1 h2) (by omega)

theorem loop_replacement_inv {pts : List TPt} {r2 : Rat} : ∀ (fuel : Nat) (s r : SS) (mem : Nat → List Nat),
    DInv pts.length s → CInv pts s mem → loop .replacement pts.length (some r2) fuel s = some r →
    DInv pts.length r ∧ (∃ mem', CInv pts r mem') ∧ step .replacement pts.length (some r2) r = none := by
  intro fuel
  induction fuel with
  | zero => intro s r mem _ _ h; simp [loop] at h
  | succ m ih =>
    intro s r mem hd hc hr
    unfold loop at hr
    cases hs : step .replacement pts.length (some r2) s with
    | none => rw [hs] at hr; simp only [Option.some.injEq] at hr; subst hr; exact ⟨hd, ⟨mem, hc⟩, hs⟩
    | some s' =>
      rw [hs] at hr
      obtain ⟨i, j, h1, h2, h3, -, rfl⟩ := step_replacement hd hs
      exact ih _ r _ (dinv_merge hd h1 h2) (cinv_merge hc h1 h2 h3) hr

/-- When the loop stops the smallest distance exceeds the radius. -/
theorem stop_min {k : Kind} {n : Nat} {r2 : Rat} {s : SS} (hn : 0 < n) (hs : step k n (some r2) s = none) :
    ∀ a b v, a < n → b < n → s.d a b = some v → r2 < v := by
  intro a b v ha hb hv
  obtain ⟨-, -, hmin⟩ := argmin_spec s.d hn hn
  have hle := hmin a b ha hb
  unfold step at hs
  by_cases hst : stops (some r2) (s.d (argmin s.d n n).1 (argmin s.d n n).2) = true
  · cases hm : s.d (argmin s.d n n).1 (argmin s.d n n).2 with
    | none => rw [hm, hv] at hle; simp [LeInf, ltInf] at hle
    | some w =>
      rw [hm, hv] at hle
      rw [hm] at hst
      have h1 : r2 < w := by simpa [stops] using hst
      have h2 : w ≤ v := by simpa [LeInf, ltInf] using hle
      linarith
  · rw [if_neg hst] at hs
    cases k <;> simp at hs

/-! ### types -/

/-- The third entry, a zero, is never the first maximum. -/
theorem argmax_five (a b d e : Nat) :
    argmax [a, b, 0, d, e] = 0 ∨ argmax [a, b, 0, d, e] = 1 ∨ argmax [a, b, 0, d, e] = 3 ∨
      argmax [a, b, 0, d, e] = 4 := by
  unfold argmax
  simp only [List.length_cons, List.length_nil, Nat.zero_add, show List.range 5 = [0, 1, 2, 3, 4] by decide,
    List.foldl_cons, List.foldl_nil]
  by_cases h1 : a < b
  · by_cases h2 : b < d
    · by_cases h3 : d < e <;> simp [h1, h2, h3]
    · by_cases h3 : b < e <;> simp [h1, h2, h3]
  · by_cases h2 : a < d
    · by_cases h3 : d < e <;> simp [h1, h2, h3]
    · by_cases h3 : a < e <;> simp [h1, h2, h3]

/-- A point that is not of the unknown type carries the index of what it stands for. -/
theorem pbi_newType {typ : List Int} {p : Int} (hp : p = (typ.map pbiOf).sum) (h0 : newType typ p ≠ 0 ∨ p = 0 ∨ typ.length = 1)
    (hpz : p ≠ 0) : pbiOf (newType typ p) = p := by
  have single : ∀ t, typ = [t] → pbiOf (newType typ p) = p := by
    rintro t rfl
    simp only [List.map_cons, List.map_nil, List.sum_cons, List.sum_nil, add_zero] at hp
    simp [newType, hp]
  by_cases hs : ∃ t, typ = [t]
  · obtain ⟨t, ht⟩ := hs; exact single t ht
  · have hl : typ.length ≠ 1 := fun hc => hs (List.length_eq_one_iff.mp hc)
    have e : newType typ p = if p ≠ -1 ∧ p ≠ 1 then 0 else if p = -1 then 3
        else (argmax [countT typ 1, countT typ 2, 0, countT typ 4, countT typ 5] : Int) + 1 := by
      unfold newType
      split
      · rename_i t; exact absurd ⟨t, rfl⟩ hs
      · rfl
    by_cases h1 : p ≠ -1 ∧ p ≠ 1
    · rw [e, if_pos h1] at h0
      simp [hpz, hl] at h0
    · rw [e, if_neg h1]
      by_cases h2 : p = -1
      · rw [if_pos h2, h2]; decide
      · rw [if_neg h2]
        have h3 : p = 1 := by by_contra hc; exact h1 ⟨h2, hc⟩
        rcases argmax_five (countT typ 1) (countT typ 2) (countT typ 4) (countT typ 5) with h | h | h | h <;> rw [h, h3] <;> decide

/-! ### the 'only_delete' algorithm -/

/-- What 'only_delete' keeps true: the removed indices form pairs. -/
structure ODInv (pts : List TPt) (r2 : Rat) (s : SS) (pairs : List (Nat × Nat)) : Prop where
  xs : s.xs = px pts
  ys : s.ys = py pts
  types : s.types = fun i => [pt pts i]
  pbis : s.pbis = fun i => pbiOf (pt pts i)
  part : (alive pts.length s ++ pairs.flatMap fun p => [p.1, p.2]).Perm (List.range pts.length)
  opp : ∀ p ∈ pairs, pbiOf (pt pts p.1) + pbiOf (pt pts p.2) = 0 ∧
    (px pts p.1 - px pts p.2) ^ 2 + (py pts p.1 - py pts p.2) ^ 2 ≤ r2
  fin : ∀ a b v, s.d a b = some v → a < b ∧ a ∈ alive pts.length s ∧ b ∈ alive pts.length s ∧
    v = (px pts a - px pts b) ^ 2 + (py pts a - py pts b) ^ 2
  full : ∀ a b, a < b → a ∈ alive pts.length s → b ∈ alive pts.length s →
    pbiOf (pt pts a) + pbiOf (pt pts b) = 0 → (s.d a b).isSome

theorem odinv_init (pts : List TPt) (r2 : Rat) : ODInv pts r2 (init pts) [] := by
  have hd := dinv_init pts
  refine ⟨rfl, rfl, rfl, rfl, ?_, by simp, ?_, ?_⟩
  · simp [alive, init]
  · intro a b v h
    obtain ⟨-, h2, h3, h4⟩ := hd.fin a b v h
    refine ⟨?_, h2, h3, h4⟩
    by_contra hc
    change dist2 pts a b = some v at h
    simp [dist2, hc] at h
  · intro a b hab ha hb _
    rw [hd.full a b hab ha hb]; rfl

theorem step_onlyDelete {pts : List TPt} {r2 : Rat} {s s' : SS} {pairs : List (Nat × Nat)}
    (h : ODInv pts r2 s pairs) (hs : step .onlyDelete pts.length (some r2) s = some s') :
    (∃ pairs', ODInv pts r2 s' pairs') ∧
    ∃ i j, i < pts.length ∧ j < pts.length ∧ (s.d i j).isSome ∧ s'.d i j = none ∧
      ∀ a b, (s'.d a b).isSome → (s.d a b).isSome := by
  unfold step at hs
  generalize argmin s.d pts.length pts.length = ij at hs
  obtain ⟨i, j⟩ := ij
  simp only at hs
  cases hv : s.d i j with
  | none => simp [hv, stops] at hs
  | some v =>
    rw [hv] at hs
    by_cases hst : stops (some r2) (some v) = true
    · rw [if_pos hst] at hs; simp at hs
    rw [if_neg hst] at hs
    obtain rfl : deleteStep s i j = s' := by simpa using hs
    obtain ⟨h1, h2, h3, h4⟩ := h.fin i j v hv
    have hle : v ≤ r2 := by simpa [stops] using hst
    unfold deleteStep
    by_cases hp : s.pbis i + s.pbis j = 0
    · rw [if_pos hp]
      have hal : ∀ a, a ∈ alive pts.length
          { s with filt := fun a => if a = i ∨ a = j then false else s.filt a, d := wipe s.d i j } ↔
          a ∈ alive pts.length s ∧ a ≠ i ∧ a ≠ j := by
        intro a
        simp only [mem_alive]
        by_cases ha : a = i ∨ a = j
        · rcases ha with rfl | rfl <;> simp
        · simp only [not_or] at ha; simp [ha]
      constructor
      · refine ⟨pairs ++ [(i, j)], h.xs, h.ys, h.types, h.pbis, ?_, ?_, ?_, ?_⟩
        · refine List.Perm.trans ?_ h.part
          rw [List.flatMap_append, ← List.append_assoc]
          simp only [List.flatMap_cons, List.flatMap_nil, List.append_nil]
          have hperm : (alive pts.length s).Perm ([i, j] ++ alive pts.length
              { s with filt := fun a => if a = i ∨ a = j then false else s.filt a, d := wipe s.d i j }) := by
            rw [List.perm_ext_iff_of_nodup (nodup_alive _ _)]
            · intro a
              rw [List.mem_append, hal]
              constructor
              · intro ha
                by_cases hc : a = i ∨ a = j
                · left; simpa using hc
                · right; simp only [not_or] at hc; exact ⟨ha, hc⟩
              · rintro (ha | ha)
                · have : a = i ∨ a = j := by simpa using ha
                  rcases this with rfl | rfl
                  · exact h2
                  · exact h3
                · exact ha.1
            · rw [List.nodup_append]
              refine ⟨by simp; omega, nodup_alive _ _, ?_⟩
              intro a ha b hb hab
              subst hab
              have h5 := (hal a).mp hb
              have : a = i ∨ a = j := by simpa using ha
              rcases this with rfl | rfl
              · exact h5.2.1 rfl
              · exact h5.2.2 rfl
          refine List.Perm.trans ?_ ((hperm.trans List.perm_append_comm).append_right _).symm
          rw [List.append_assoc, List.append_assoc]
          exact List.perm_append_comm.append_left _
        · intro p hpm
          rcases List.mem_append.mp hpm with hpm | hpm
          · exact h.opp p hpm
          · rw [List.mem_singleton] at hpm; subst hpm
            rw [h.pbis] at hp
            exact ⟨hp, by rw [← h4]; exact hle⟩
        · intro a b w hw
          change wipe s.d i j a b = some w at hw
          unfold wipe at hw
          by_cases hc : a = i ∨ b = i ∨ a = j ∨ b = j
          · rw [if_pos hc] at hw; simp at hw
          · rw [if_neg hc] at hw
            simp only [not_or] at hc
            obtain ⟨g1, g2, g3, g4⟩ := h.fin a b w hw
            exact ⟨g1, (hal a).mpr ⟨g2, hc.1, hc.2.2.1⟩, (hal b).mpr ⟨g3, hc.2.1, hc.2.2.2⟩, g4⟩
        · intro a b hab ha hb hz
          obtain ⟨a1, a2, a3⟩ := (hal a).mp ha
          obtain ⟨b1, b2, b3⟩ := (hal b).mp hb
          change (wipe s.d i j a b).isSome
          unfold wipe
          rw [if_neg (by simp [a2, a3, b2, b3])]
          exact h.full a b hab a1 b1 hz
      · refine ⟨i, j, (mem_alive.mp h2).1, (mem_alive.mp h3).1, by rw [hv]; rfl, by simp [wipe], ?_⟩
        intro a b hab
        change (wipe s.d i j a b).isSome at hab
        unfold wipe at hab
        by_cases hc : a = i ∨ b = i ∨ a = j ∨ b = j
        · rw [if_pos hc] at hab; simp at hab
        · rw [if_neg hc] at hab; exact hab
    · rw [if_neg hp]
      constructor
      · refine ⟨pairs, h.xs, h.ys, h.types, h.pbis, h.part, h.opp, ?_, ?_⟩
        · intro a b w hw
          change (if (a = i ∧ b = j) ∨ (a = j ∧ b = i) then none else s.d a b) = some w at hw
          by_cases hc : (a = i ∧ b = j) ∨ (a = j ∧ b = i)
          · rw [if_pos hc] at hw; simp at hw
          · rw [if_neg hc] at hw; exact h.fin a b w hw
        · intro a b hab ha hb hz
          change (if (a = i ∧ b = j) ∨ (a = j ∧ b = i) then none else s.d a b).isSome
          rw [if_neg]
          · exact h.full a b hab ha hb hz
          · rw [h.pbis] at hp
            rintro (⟨rfl, rfl⟩ | ⟨rfl, rfl⟩)
            · exact hp hz
            · exact hp (by rw [add_comm]; exact hz)
      · refine ⟨i, j, (mem_alive.mp h2).1, (mem_alive.mp h3).1, by rw [hv]; rfl, by simp, ?_⟩
        intro a b hab
        change (if (a = i ∧ b = j) ∨ (a = j ∧ b = i) then none else s.d a b).isSome at hab
        by_cases hc : (a = i ∧ b = j) ∨ (a = j ∧ b = i)
        · rw [if_pos hc] at hab; simp at hab
        · rw [if_neg hc] at hab; exact hab

/-- Number of finite entries of the matrix. -/
def finiteCells (n : Nat) (s : SS) : Nat := ((cells n n).filter fun p => (s.d p.1 p.2).isSome).length

theorem filter_length_lt {α : Type} {l : List α} {p q : α → Bool} (hpq : ∀ a, p a = true → q a = true) {x : α}
    (hx : x ∈ l) (hp : p x = false) (hq : q x = true) : (l.filter p).length < (l.filter q).length := by
  induction l with
  | nil => simp at hx
  | cons a l ih =>
    have hmono : (l.filter p).length ≤ (l.filter q).length := by
      have : (l.filter p).Sublist (l.filter q) := by
        exact List.monotone_filter_right l (fun a ha => hpq a ha)
      exact this.length_le
    rcases List.mem_cons.mp hx with rfl | hx
    · rw [List.filter_cons, List.filter_cons, if_neg (by simp [hp]), if_pos hq]
      simp only [List.length_cons]; omega
    · have := ih hx
      by_cases ha : p a = true
      · rw [List.filter_cons, List.filter_cons, if_pos ha, if_pos (hpq a ha)]
        simp only [List.length_cons]; omega
      · rw [List.filter_cons, if_neg ha, List.filter_cons]
        split
        · simp only [List.length_cons]; omega
        · exact this

theorem loop_onlyDelete {pts : List TPt} {r2 : Rat} : ∀ (fuel : Nat) (s : SS) (pairs : List (Nat × Nat)),
    ODInv pts r2 s pairs → finiteCells pts.length s < fuel →
    ∃ r pairs', loop .onlyDelete pts.length (some r2) fuel s = some r ∧ ODInv pts r2 r pairs' ∧
      step .onlyDelete pts.length (some r2) r = none := by
  intro fuel
  induction fuel with
  | zero => intro s pairs _ h; omega
  | succ m ih =>
    intro s pairs h hlt
    unfold loop
    cases hs : step .onlyDelete pts.length (some r2) s with
    | none => exact ⟨s, pairs, rfl, h, hs⟩
    | some s' =>
      obtain ⟨⟨pairs', h'⟩, i, j, hi, hj, h1, h2, h3⟩ := step_onlyDelete h hs
      refine ih s' pairs' h' ?_
      have : finiteCells pts.length s' < finiteCells pts.length s :=
        filter_length_lt (x := (i, j)) (fun p hp => h3 p.1 p.2 hp) (mem_cells.mpr ⟨hi, hj⟩) (by simp [h2]) h1
      omega

theorem finiteCells_le (n : Nat) (s : SS) : finiteCells n s ≤ n * n := by
  refine le_trans (List.length_filter_le _ _) ?_
  simp [cells]

/-- Sum over the whole list of points. -/
theorem sum_range_pt (pts : List TPt) : total (fun k => pbiOf (pt pts k)) (List.range pts.length) =
    (pts.map fun p => pbiOf p.typ).sum := by
  unfold total
  congr 1
  apply List.ext_getElem?
  intro k
  by_cases hk : k < pts.length
  · simp [hk, pt]
  · simp only [not_lt] at hk
    rw [List.getElem?_eq_none (by simpa using hk), List.getElem?_eq_none (by simpa using hk)]

theorem total_flatMap (f : Nat → Int) (mem : Nat → List Nat) (l : List Nat) :
    total f (l.flatMap mem) = (l.map fun a => total f (mem a)).sum := by
  induction l with
  | nil => rfl
  | cons a l ih => rw [List.flatMap_cons, total_append, ih, List.map_cons, List.sum_cons]

theorem total_perm (f : Nat → Int) {a b : List Nat} (h : a.Perm b) : total f a = total f b :=
  (h.map f).sum_eq

theorem sum_filter_ne_zero (l : List Nat) (f : Nat → Int) :
    ((l.filter fun a => f a ≠ 0).map f).sum = (l.map f).sum := by
  induction l with
  | nil => rfl
  | cons a l ih =>
    rw [List.filter_cons, List.map_cons, List.sum_cons]
    by_cases h : f a ≠ 0
    · rw [if_pos (by simpa using h), List.map_cons, List.sum_cons, ih]
    · rw [if_neg (by simpa using h), ih]
      have : f a = 0 := by simpa using h
      rw [this, zero_add]

end IMT.Topo
