import Verif.Export.SeriesModel
import Verif.Temporal.Arith
import Mathlib.Data.List.Sort

/-!
Helper lemmas of the records made of several files.
-/

namespace IMT.Series

open Temporal (TF addField entries Paired Sorted)

variable {srt : List Rat → List Nat}

theorem inOrder_spec {N α : Type} [LinearOrder N] (l : List (N × α)) :
    ∃ k : List (N × α), k.Perm l ∧ k.Pairwise (fun a b => a.1 ≤ b.1) ∧ inOrder l = k.map Prod.snd := by
  haveI : Std.Total (fun a b : N × α => a.1 ≤ b.1) := ⟨fun a b => le_total _ _⟩
  haveI : IsTrans (N × α) (fun a b : N × α => a.1 ≤ b.1) := ⟨fun a b c h1 h2 => le_trans h1 h2⟩
  exact ⟨l.insertionSort fun a b => a.1 ≤ b.1, List.perm_insertionSort _ _, List.pairwise_insertionSort _ _, rfl⟩

theorem inOrder_length {N α : Type} [LinearOrder N] (l : List (N × α)) : (inOrder l).length = l.length := by
  obtain ⟨k, h, _, e⟩ := inOrder_spec l
  rw [e, List.length_map, h.length_eq]

theorem inOrder_mem {N α : Type} [LinearOrder N] {l : List (N × α)} {a : α} (h : a ∈ inOrder l) : ∃ n, (n, a) ∈ l := by
  obtain ⟨k, hk, _, e⟩ := inOrder_spec l
  rw [e] at h
  obtain ⟨⟨n, b⟩, hb, rfl⟩ := List.mem_map.mp h
  exact ⟨n, hk.mem_iff.mp hb⟩

theorem inOrder_perm {N α : Type} [LinearOrder N] {l m : List (N × α)} (h : l.Perm m) (hd : (l.map Prod.fst).Nodup) : inOrder l = inOrder m := by
  obtain ⟨k, hk, ok, ek⟩ := inOrder_spec l
  obtain ⟨j, hj, oj, ej⟩ := inOrder_spec m
  have hp : k.Perm j := hk.trans (h.trans hj.symm)
  have inj : ∀ a ∈ k, ∀ b ∈ k, a.1 = b.1 → a = b := by
    intro a ha b hb e
    exact List.inj_on_of_nodup_map hd (hk.mem_iff.mp ha) (hk.mem_iff.mp hb) e
  have : k = j := by
    refine List.Perm.eq_of_pairwise (le := fun a b => a.1 ≤ b.1) ?_ ok oj hp
    intro a b ha hb h1 h2
    exact inj a ha b (hp.mem_iff.mpr hb) (le_antisymm h1 h2)
  rw [ek, ej, this]

theorem mem_ranks {s e k : Nat} (hk : 0 < k) (i : Nat) : i ∈ ranks s e k ↔ s ≤ i ∧ i < e ∧ k ∣ i - s := by
  unfold ranks
  simp only [List.mem_map, List.mem_range]
  constructor
  · rintro ⟨j, hj, rfl⟩
    have h1 := (Nat.lt_div_iff_mul_lt hk).mp hj
    refine ⟨by omega, ?_, ⟨j, by rw [Nat.mul_comm]; omega⟩⟩
    omega
  · rintro ⟨h1, h2, ⟨j, hj⟩⟩
    refine ⟨j, (Nat.lt_div_iff_mul_lt hk).mpr ?_, by rw [Nat.mul_comm]; omega⟩
    rw [Nat.mul_comm]
    omega

theorem ranks_inc {s e k : Nat} (hk : 0 < k) : (ranks s e k).Pairwise (· < ·) := by
  unfold ranks
  rw [List.pairwise_map]
  refine List.pairwise_lt_range.imp ?_
  intro a b h
  have := Nat.mul_lt_mul_of_pos_right h hk
  omega

/-- The ranks as a part of the range. -/
theorem ranks_filter {s e k n : Nat} (hk : 0 < k) (he : e ≤ n) : ranks s e k = (List.range n).filter fun i => decide (s ≤ i ∧ i < e ∧ k ∣ i - s) := by
  refine List.Perm.eq_of_pairwise (le := (· < ·)) (fun a b _ _ h1 h2 => absurd h1 (by omega)) (ranks_inc hk) (List.pairwise_lt_range.filter _) ?_
  refine (List.perm_ext_iff_of_nodup ((ranks_inc hk).imp (fun h => Nat.ne_of_lt h)) (List.nodup_range.filter _)).mpr ?_
  intro i
  rw [mem_ranks hk, List.mem_filter, List.mem_range, decide_eq_true_eq]
  constructor
  · intro h; exact ⟨by omega, h⟩
  · exact fun h => h.2

theorem stored_same {t : TF} {u : Sym} (h : t.ut = u) (hu : u.size ≠ 0) (x : Rat) : Temporal.storedTime t x u = x := by
  unfold Temporal.storedTime
  rw [h]
  have : SF.unitNum (u.div u) = 1 := by
    unfold SF.unitNum Sym.div
    simp [hu]
  rw [this, mul_one]

/-- Fields on the same abscissae added at times in the same unit. -/
theorem addTimed_spec (hs : Profile.IsArgsort srt) (A : List Rat) {u : Sym} (hu : u.size ≠ 0) (l : List (SF × Rat × Sym)) {t : TF} (hp : Paired t)
    (ho : Sorted t) (hA : t.fields ≠ [] → t.ax = A ∧ t.ut = u) (hf : ∀ f ∈ l, f.1.ax = A ∧ f.2.2 = u) :
    ∃ r, addTimed srt t l = .ok r ∧ Paired r ∧ Sorted r ∧ (entries r).Perm (l.map (fun f => (f.2.1, f.1)) ++ entries t) ∧
      (r.fields ≠ [] → r.ut = u) := by
  induction l generalizing t with
  | nil => exact ⟨t, rfl, hp, ho, List.Perm.refl _, fun h => (hA h).2⟩
  | cons q l ih =>
    obtain ⟨f, x, v⟩ := q
    obtain ⟨h1, h2⟩ := hf (f, x, v) List.mem_cons_self
    simp only at h1 h2
    subst h2
    cases h : addField srt t f x v with
    | mk t' res =>
      cases res with
      | error e =>
        obtain ⟨_, _, h0, hne, _⟩ := Temporal.add_error hs hp h
        exact absurd ((hA fun e => h0 (by rw [e]; rfl)).1.trans h1.symm) hne
      | ok _ =>
        obtain ⟨p, so, perm, hut⟩ := Temporal.add_spec hs hp h
        have hst : (if t.fields.length = 0 then x else Temporal.storedTime t x v) = x := by
          split
          · rfl
          · rename_i h0; exact stored_same (hA fun e => h0 (by rw [e]; rfl)).2 hu x
        rw [hst] at perm
        have hax : t'.ax = A := by
          rw [Temporal.add_ax hs hp h]
          split
          · exact h1
          · rename_i h0; exact (hA fun e => h0 (by rw [e]; rfl)).1
        have hut' : t'.ut = v := by
          rw [hut]
          split
          · rfl
          · rename_i h0; exact (hA fun e => h0 (by rw [e]; rfl)).2
        obtain ⟨r, er, pr, sr, permr, ur⟩ := ih p so (fun _ => ⟨hax, hut'⟩) (fun g hg => hf g (List.mem_cons_of_mem _ hg))
        refine ⟨r, by unfold addTimed; rw [h]; exact er, pr, sr, ?_, ur⟩
        refine permr.trans ?_
        rw [List.map_cons, List.cons_append]
        exact ((List.Perm.append_left _ perm).trans List.perm_middle)

/-- Files loaded by rank are fields added at the times of these ranks. -/
theorem loadAt_eq {α : Type} {load : α → Res SF} {g : α → SF} {files : List α} (hl : ∀ a ∈ files, load a = .ok (g a)) {times : List Rat}
    (h : times.length = files.length) (u : Sym) (t : TF) (is : List Nat) (hi : ∀ i ∈ is, i < files.length) :
    loadAt srt load files times u t is = addTimed srt t ((pick (times.zip (files.map g)) is).map fun q => (q.2, q.1, u)) := by
  induction is generalizing t with
  | nil => rfl
  | cons i is ih =>
    have h1 := hi i List.mem_cons_self
    have e1 : files[i]? = some files[i] := List.getElem?_eq_getElem h1
    have e2 : times[i]? = some times[i] := List.getElem?_eq_getElem (by omega)
    have e3 : (times.zip (files.map g))[i]? = some (times[i], g files[i]) :=
      List.getElem?_zip_eq_some (z := (times[i], g files[i])) |>.mpr ⟨e2, by simp [e1]⟩
    unfold loadAt pick
    rw [e1, e2, List.filterMap_cons_some e3, List.map_cons]
    simp only
    rw [hl _ (List.getElem_mem h1)]
    simp only
    unfold addTimed
    cases addField srt t (g files[i]) times[i] u with
    | mk t' res => cases res with
      | error e => rfl
      | ok _ => exact ih t' fun j hj => hi j (List.mem_cons_of_mem _ hj)

/-- A record sorted by time, of which the times are distinct. -/
theorem entries_of_inc {r : TF} (hp : Paired r) (ho : Sorted r) {l : List (Rat × SF)} (h : (entries r).Perm l) (hl : (l.map Prod.fst).Pairwise (· < ·)) :
    entries r = l := by
  have h1 : (entries r).Pairwise (fun a b => a.1 ≤ b.1) := by
    have : ((entries r).map Prod.fst).Pairwise (· ≤ ·) := by rw [Temporal.entries_fst hp]; exact ho
    exact List.pairwise_map.mp this
  have h2 : l.Pairwise (fun a b => a.1 ≤ b.1) := (List.pairwise_map.mp hl).imp le_of_lt
  refine List.Perm.eq_of_pairwise (le := fun a b => a.1 ≤ b.1) ?_ h1 h2 h
  intro a b ha hb h3 h4
  have nd : (l.map Prod.fst).Nodup := hl.imp ne_of_lt
  exact List.inj_on_of_nodup_map nd (h.mem_iff.mp ha) hb (le_antisymm h3 h4)

end IMT.Series
