import Verif.Temporal.Model
import Verif.Profile.Lemmas
import Mathlib.Data.List.Perm.Subperm

/-! Lemmas on containers of fields: pairs of times and fields, sorting, deletion. -/

namespace IMT.Temporal

/-- The content of a container: its fields with their times, in order. -/
def entries (t : TF) : List (Rat × SF) := t.times.zip t.fields

/-- As many times as fields. -/
def Paired (t : TF) : Prop := t.times.length = t.fields.length

/-- Times in increasing order. -/
def Sorted (t : TF) : Prop := t.times.Pairwise (· ≤ ·)

/-- A container whose fields are well formed, all on the grid of the container and in its length units. -/
structure Consistent (t : TF) : Prop where
  paired : Paired t
  wf : ∀ f ∈ t.fields, f.WF
  ax : ∀ f ∈ t.fields, f.ax = t.ax
  ay : ∀ f ∈ t.fields, f.ay = t.ay
  ux : ∀ f ∈ t.fields, f.ux = t.ux
  uy : ∀ f ∈ t.fields, f.uy = t.uy

/-- The closed interval meant by an optional argument: no argument means no restriction. -/
def inside (i : Option (Rat × Rat)) (x : Rat) : Prop :=
  match i with
  | none => True
  | some (a, b) => a ≤ x ∧ x ≤ b

instance (i : Option (Rat × Rat)) (x : Rat) : Decidable (inside i x) := by
  unfold inside; split <;> infer_instance

theorem entries_length {t : TF} (h : Paired t) : (entries t).length = t.fields.length := by
  unfold entries; rw [List.length_zip, h, min_self]

theorem entries_fst {t : TF} (h : Paired t) : (entries t).map Prod.fst = t.times := by
  unfold entries; exact List.map_fst_zip (le_of_eq h)

theorem entries_snd {t : TF} (h : Paired t) : (entries t).map Prod.snd = t.fields := by
  unfold entries; exact List.map_snd_zip (le_of_eq h.symm)

theorem sort_spec {srt : List Rat → List Nat} (hs : Profile.IsArgsort srt) {t : TF} (hp : Paired t) :
    ∃ t', sortByTime srt t = (t', .ok ⟨⟩) ∧ Paired t' ∧ Sorted t' ∧ (entries t').Perm (entries t) ∧
      t'.ax = t.ax ∧ t'.ay = t.ay ∧ t'.ux = t.ux ∧ t'.uy = t.uy ∧ t'.ut = t.ut ∧ t'.nd = t.nd := by
  have ho : ∀ i ∈ srt t.times, i < t.times.length := fun i hi => Profile.mem_order hs hi
  have l1 : (Profile.take t.times (srt t.times)).length = t.times.length := by
    rw [Profile.take_length ho, (hs t.times).1.length_eq, List.length_range]
  have l2 : (Profile.take t.fields (srt t.times)).length = t.fields.length := by
    rw [Profile.take_length (fun i hi => hp ▸ ho i hi), (hs t.times).1.length_eq, List.length_range]; exact hp
  unfold sortByTime
  by_cases h1 : t.fields.length ≤ 1
  · rw [if_pos h1]
    refine ⟨t, rfl, hp, ?_, List.Perm.refl _, rfl, rfl, rfl, rfl, rfl, rfl⟩
    unfold Sorted
    have : t.times.length ≤ 1 := by rw [hp]; exact h1
    match hm : t.times, this with
    | [], _ => simp
    | [a], _ => simp
  · rw [if_neg h1, if_neg (by rw [l1, hp]; simp)]
    refine ⟨_, rfl, ?_, (hs t.times).2, ?_, rfl, rfl, rfl, rfl, rfl, rfl⟩
    · unfold Paired; rw [l1, l2]; exact hp
    · unfold entries
      rw [Profile.take_zip _ _ _ hp ho]
      refine Profile.take_perm ?_
      rw [List.length_zip, ← hp, min_self]
      exact (hs t.times).1

/-- On increasing times sorting changes nothing. -/
theorem sort_inc {srt : List Rat → List Nat} (hs : Profile.IsArgsort srt) {t : TF} (hp : Paired t) (hi : Inc t.times) :
    sortByTime srt t = (t, .ok ⟨⟩) := by
  unfold sortByTime
  by_cases h1 : t.fields.length ≤ 1
  · rw [if_pos h1]
  · rw [if_neg h1, Profile.order_inc hs hi, Profile.take_range, if_neg (by rw [hp]; simp)]
    have : Profile.take t.fields (List.range t.times.length) = t.fields := by
      rw [hp, Profile.take_range]
    rw [this]

theorem unitNum_self {u : Sym} (h : u.size ≠ 0) : SF.unitNum (u.div u) = 1 := by
  unfold SF.unitNum Sym.div
  rw [if_pos (by simp [Sym.Compat, Sym.one])]
  exact div_self h

theorem storedTime_self {t : TF} (h : t.ut.size ≠ 0) (x : Rat) : storedTime t x t.ut = x := by
  unfold storedTime; rw [unitNum_self h, mul_one]

/-- What `add_field` does to the pairs. -/
theorem add_spec {srt : List Rat → List Nat} (hs : Profile.IsArgsort srt) {t t' : TF} {f : SF} {x : Rat} {u : Sym}
    (hp : Paired t) (h : addField srt t f x u = (t', .ok ⟨⟩)) :
    Paired t' ∧ Sorted t' ∧
      (entries t').Perm ((if t.fields.length = 0 then x else storedTime t x u, f) :: entries t) ∧
      t'.ut = (if t.fields.length = 0 then u else t.ut) := by
  unfold addField at h
  by_cases h0 : t.fields.length = 0
  · rw [if_pos h0] at h
    rw [if_pos h0, if_pos h0]
    have e : entries t = [] := by
      rw [← List.length_eq_zero_iff, entries_length hp, h0]
    cases h
    refine ⟨rfl, ?_, ?_, rfl⟩
    · simp [Sorted]
    · rw [e]; exact List.Perm.refl _
  · rw [if_neg h0] at h
    rw [if_neg h0, if_neg h0]
    by_cases hc : t.ax ≠ f.ax ∧ t.ay = f.ay
    · rw [if_pos hc] at h
      exact absurd (congrArg Prod.snd h) (by simp)
    · rw [if_neg hc] at h
      have hp' : Paired { t with times := t.times ++ [storedTime t x u], fields := t.fields ++ [f], nd := true } := by
        unfold Paired; simp only [List.length_append, List.length_singleton]; exact congrArg (· + 1) hp
      obtain ⟨t2, e2, p2, s2, perm2, _, _, _, _, hut, _⟩ := sort_spec hs hp'
      rw [e2] at h
      cases h
      refine ⟨p2, s2, perm2.trans ?_, hut⟩
      unfold entries
      rw [List.zip_append hp]
      exact List.perm_append_singleton _ _

/-- `add_field` raises only for the test on the axes, and then changes nothing. -/
theorem add_error {srt : List Rat → List Nat} (hs : Profile.IsArgsort srt) {t t' : TF} {f : SF} {x : Rat} {u : Sym} {e : Err}
    (hp : Paired t) (h : addField srt t f x u = (t', .error e)) :
    t' = t ∧ e = .valueError ∧ t.fields.length ≠ 0 ∧ t.ax ≠ f.ax ∧ t.ay = f.ay := by
  unfold addField at h
  by_cases h0 : t.fields.length = 0
  · rw [if_pos h0] at h
    exact absurd (congrArg Prod.snd h) (by simp)
  · rw [if_neg h0] at h
    by_cases hc : t.ax ≠ f.ax ∧ t.ay = f.ay
    · rw [if_pos hc] at h
      cases h
      exact ⟨rfl, rfl, h0, hc.1, hc.2⟩
    · rw [if_neg hc] at h
      have hp' : Paired { t with times := t.times ++ [storedTime t x u], fields := t.fields ++ [f], nd := true } := by
        unfold Paired; simp only [List.length_append, List.length_singleton]; exact congrArg (· + 1) hp
      obtain ⟨t2, e2, _⟩ := sort_spec hs hp'
      rw [e2] at h
      exact absurd (congrArg Prod.snd h) (by simp)

/-! ### deletion -/

theorem pyIdx_lt {n : Nat} {i : Int} {k : Nat} (h : pyIdx n i = some k) : k < n := by
  unfold pyIdx at h
  split at h
  · rename_i c
    have := Option.some.inj h
    omega
  · split at h
    · rename_i c
      have := Option.some.inj h
      omega
    · exact absurd h (by simp)

theorem pyIdx_nat {n i : Nat} (h : i < n) : pyIdx n (i : Int) = some i := by
  unfold pyIdx
  rw [if_pos ⟨by omega, by omega⟩]; simp

theorem pyIdx_big {n i : Nat} (h : n ≤ i) : pyIdx n (i : Int) = none := by
  unfold pyIdx
  rw [if_neg (by omega), if_neg (by omega)]

/-- Deleting the same positions in two lists of the same length. -/
theorem deleteAll_zip {α β : Type} (l : List α) (k : List β) (h : l.length = k.length) (is : List Int) :
    (deleteAll l is).2 = (deleteAll k is).2 ∧ (deleteAll l is).1.length = (deleteAll k is).1.length ∧
      (deleteAll l is).1.zip (deleteAll k is).1 = (deleteAll (l.zip k) is).1 ∧
      (deleteAll (l.zip k) is).2 = (deleteAll k is).2 := by
  induction is generalizing l k with
  | nil => exact ⟨rfl, h, rfl, rfl⟩
  | cons i is ih =>
    have hz : (l.zip k).length = k.length := by rw [List.length_zip, h, min_self]
    unfold deleteAll
    rw [h, hz]
    cases hi : pyIdx k.length i with
    | none => exact ⟨rfl, h, rfl, rfl⟩
    | some j =>
      have hj := pyIdx_lt hi
      have he : (l.eraseIdx j).length = (k.eraseIdx j).length := by
        rw [List.length_eraseIdx, List.length_eraseIdx, h]
      have hze : (l.eraseIdx j).zip (k.eraseIdx j) = (l.zip k).eraseIdx j := by
        clear ih he hi hz
        induction l generalizing k j with
        | nil => simp
        | cons a l ih' =>
          cases k with
          | nil => simp at h
          | cons b k =>
            cases j with
            | zero => simp
            | succ j =>
              simp only [List.eraseIdx_cons_succ, List.zip_cons_cons]
              rw [ih' k (by simpa using h) j (by simpa using hj)]
      have := ih _ _ he
      rw [hze] at this
      exact this

theorem deleteAll_sublist {α : Type} (l : List α) (is : List Int) : (deleteAll l is).1.Sublist l := by
  induction is generalizing l with
  | nil => exact List.Sublist.refl _
  | cons i is ih =>
    unfold deleteAll
    cases pyIdx l.length i with
    | none => exact List.Sublist.refl _
    | some j => exact (ih _).trans (List.eraseIdx_sublist _ _)

/-- Removing fields, for a container that is paired: pairs are deleted together. -/
theorem remove_spec {t : TF} (hp : Paired t) (is : List Int) :
    ((removeFields t is).2 = .ok ⟨⟩ ↔ (deleteAll (entries t) is).2 = true) ∧
    ((removeFields t is).2 = .ok ⟨⟩ → Paired (removeFields t is).1 ∧
      entries (removeFields t is).1 = (deleteAll (entries t) is).1) ∧
    ((removeFields t is).2 ≠ .ok ⟨⟩ → (removeFields t is) =
      ({ t with times := (deleteAll t.times is).1 }, .error .indexError)) := by
  obtain ⟨h1, h2, h3, h4⟩ := deleteAll_zip t.times t.fields hp is
  unfold removeFields
  cases ht : deleteAll t.times is with
  | mk ts bt =>
    cases hf : deleteAll t.fields is with
    | mk fs bf =>
      rw [ht, hf] at h1 h2 h3
      rw [hf] at h4
      simp only at h1 h2 h3 h4
      unfold entries
      rw [h4]
      subst h1
      cases bt with
      | false => simp
      | true =>
        simp only [ne_eq, not_true_eq_false, false_imp_iff, and_true, true_imp_iff]
        exact ⟨by simp, h2, h3⟩

/-! ### functions that may raise, on lists -/

theorem mapRes_ok {α β : Type} {g : α → Res β} {l : List α} {k : List β} (h : mapRes g l = .ok k) :
    List.Forall₂ (fun a b => g a = .ok b) l k := by
  induction l generalizing k with
  | nil => cases h; exact List.Forall₂.nil
  | cons a l ih =>
    unfold mapRes at h
    cases ha : g a with
    | error e => rw [ha] at h; cases h
    | ok b =>
      rw [ha] at h
      cases hl : mapRes g l with
      | error e => rw [hl] at h; cases h
      | ok k' =>
        rw [hl] at h
        cases h
        exact List.Forall₂.cons ha (ih hl)

theorem mapRes_of_forall {α β : Type} {g : α → Res β} {l : List α} (r : α → β) (h : ∀ a ∈ l, g a = .ok (r a)) :
    mapRes g l = .ok (l.map r) := by
  induction l with
  | nil => rfl
  | cons a l ih =>
    unfold mapRes
    rw [h a (by simp), ih fun b hb => h b (by simp [hb])]
    rfl

theorem mapRes_exists {α β : Type} {g : α → Res β} {l : List α} (h : ∀ a ∈ l, ∃ b, g a = .ok b) : ∃ k, mapRes g l = .ok k := by
  induction l with
  | nil => exact ⟨[], rfl⟩
  | cons a l ih =>
    obtain ⟨b, hb⟩ := h a (by simp)
    obtain ⟨k, hk⟩ := ih fun c hc => h c (by simp [hc])
    exact ⟨b :: k, by unfold mapRes; rw [hb, hk]⟩

theorem mapRes_get {α β : Type} {g : α → Res β} {l : List α} {k : List β} (h : mapRes g l = .ok k) :
    k.length = l.length ∧ ∀ (i : Nat) (a : α) (b : β), l[i]? = some a → k[i]? = some b → g a = .ok b := by
  have hf := mapRes_ok h
  refine ⟨hf.length_eq.symm, ?_⟩
  intro i a b ha hb
  induction hf generalizing i with
  | nil => simp at ha
  | cons hab hrest ih =>
    cases i with
    | zero => simp at ha hb; subst ha; subst hb; exact hab
    | succ i =>
      rename_i l1 l2
      have hm : mapRes g l1 = .ok l2 := by
        unfold mapRes at h
        rw [hab] at h
        simp only at h
        split at h
        · cases h
        · rename_i k hk; cases h; exact hk
      exact ih hm i (by simpa using ha) (by simpa using hb)

end IMT.Temporal
