import Verif.Tidy.Model
import Mathlib.Data.List.Nodup
import Mathlib.Algebra.BigOperators.Group.Finset.Basic
import Mathlib.Data.List.Perm.Subperm

/-! C268: ordering points along a line. -/

namespace IMT.Tidy

/-! ### specification -/

/-- The graph of the neighbours is in one piece. -/
def OnePiece (n : Nat) (nb : Nat → List Nat) : Prop := ∀ i j, i < n → j < n → Relation.ReflTransGen (Edge n nb) i j

/-- The sum of the squared lengths of the steps of a path. -/
def Squares (l : List (Rat × Rat)) : Rat :=
  ∑ i ∈ Finset.range (l.length - 1), (((l.getD i 0).1 - (l.getD (i + 1) 0).1) ^ 2 + ((l.getD i 0).2 - (l.getD (i + 1) 0).2) ^ 2)

/-- The points, each with its value. -/
def Cloud.pairs (c : Cloud) : List ((Rat × Rat) × Rat) := c.xy.zip c.v

/-! ### lemmas -/

theorem cost_eq (l : List (Rat × Rat)) : cost l = Squares l := by
  induction l with
  | nil => rfl
  | cons a l ih =>
    cases l with
    | nil => rfl
    | cons b l =>
      show dist2 a b + cost (b :: l) = _
      rw [ih]
      unfold Squares
      simp only [List.length_cons, Nat.add_sub_cancel]
      rw [Finset.sum_range_succ', add_comm]
      rfl

theorem best_spec (xy : List (Rat × Rat)) (dfs : Nat → List Nat) (l : List Nat) (s : Option (Rat × Nat))
    (hs : ∀ r, s = some r → r.1 = cost (Points.take xy (dfs r.2))) (hne : l ≠ [] ∨ s ≠ none) :
    ∃ r, best xy dfs l s = some r ∧ r.1 = cost (Points.take xy (dfs r.2)) ∧ (r.2 ∈ l ∨ s = some r) ∧ (∀ i ∈ l, r.1 ≤ cost (Points.take xy (dfs i))) ∧
      ∀ t, s = some t → r.1 ≤ t.1 := by
  induction l generalizing s with
  | nil =>
    cases s with
    | none => simp at hne
    | some r => exact ⟨r, rfl, hs r rfl, .inr rfl, by simp, fun t h => by cases h; exact le_refl _⟩
  | cons i l ih =>
    cases s with
    | none =>
      obtain ⟨r, h1, h2, h3, h4, h5⟩ := ih (some (cost (Points.take xy (dfs i)), i)) (fun r h => by cases h; rfl) (.inr (by simp))
      refine ⟨r, h1, h2, ?_, ?_, by simp⟩
      · rcases h3 with h | h
        · exact .inl (List.mem_cons_of_mem _ h)
        · cases h; exact .inl List.mem_cons_self
      · intro j hj
        rcases List.mem_cons.1 hj with rfl | hj
        · exact h5 _ rfl
        · exact h4 j hj
    | some s =>
      unfold best
      split
      · rename_i hlt
        obtain ⟨r, h1, h2, h3, h4, h5⟩ := ih (some (cost (Points.take xy (dfs i)), i)) (fun r h => by cases h; rfl) (.inr (by simp))
        refine ⟨r, h1, h2, ?_, ?_, ?_⟩
        · rcases h3 with h | h
          · exact .inl (List.mem_cons_of_mem _ h)
          · cases h; exact .inl List.mem_cons_self
        · intro j hj
          rcases List.mem_cons.1 hj with rfl | hj
          · exact h5 _ rfl
          · exact h4 j hj
        · intro t ht
          cases ht
          exact le_trans (h5 _ rfl) hlt.le
      · rename_i hle
        obtain ⟨r, h1, h2, h3, h4, h5⟩ := ih (some s) hs (.inr (by simp))
        refine ⟨r, h1, h2, ?_, ?_, h5⟩
        · rcases h3 with h | h
          · exact .inl (List.mem_cons_of_mem _ h)
          · exact .inr h
        · intro j hj
          rcases List.mem_cons.1 hj with rfl | hj
          · exact le_trans (h5 _ rfl) (not_lt.1 hle)
          · exact h4 j hj

/-- The path taken. -/
theorem order_path {dfs : Nat → List Nat} {c : Cloud} (hn : 3 ≤ c.xy.length) :
    ∃ k, k < c.xy.length ∧ orderOnLine dfs c = .ok ⟨Points.take c.xy (dfs k), if (Points.take c.xy (dfs k)).length ≠ c.v.length then [] else c.v⟩ ∧
      ∀ i, i < c.xy.length → cost (Points.take c.xy (dfs k)) ≤ cost (Points.take c.xy (dfs i)) := by
  obtain ⟨r, h1, h2, h3, h4, -⟩ := best_spec c.xy dfs (List.range c.xy.length) none (by simp) (.inl (by rw [Ne, List.range_eq_nil]; omega))
  have h3 : r.2 < c.xy.length := by simpa using h3
  refine ⟨r.2, h3, ?_, ?_⟩
  · unfold orderOnLine
    rw [if_neg (by omega), h1]
    rfl
  · intro i hi
    rw [← h2]
    exact h4 i (List.mem_range.2 hi)

theorem take_eq_map {xy : List (Rat × Rat)} {o : List Nat} (h : ∀ j ∈ o, j < xy.length) : Points.take xy o = o.map fun j => xy.getD j 0 := by
  unfold Points.take
  induction o with
  | nil => rfl
  | cons a o ih =>
    rw [List.filterMap_cons, List.getElem?_eq_getElem (h a List.mem_cons_self)]
    simp only
    rw [ih fun j hj => h j (List.mem_cons_of_mem _ hj), List.map_cons, List.getD_eq_getElem?_getD, List.getElem?_eq_getElem (h a List.mem_cons_self)]
    rfl

theorem reach_lt {n : Nat} {nb : Nat → List Nat} {i j : Nat} (hi : i < n) (h : Relation.ReflTransGen (Edge n nb) i j) : j < n := by
  induction h with
  | refl => exact hi
  | tail _ e _ => exact e.2.1

theorem perm_of_onePiece {n : Nat} {nb dfs : Nat → List Nat} (hd : IsDfs n nb dfs) (hc : OnePiece n nb) {i : Nat} (hi : i < n) :
    (dfs i).Perm (List.range n) := by
  obtain ⟨-, h2, h3⟩ := hd i hi
  rw [List.perm_ext_iff_of_nodup h2 List.nodup_range]
  intro j
  rw [h3, List.mem_range]
  exact ⟨fun h => reach_lt hi h, fun h => hc i j hi h⟩

theorem range_map_getD (l : List (Rat × Rat)) : (List.range l.length).map (fun j => l.getD j 0) = l := by
  apply List.ext_getElem
  · simp
  · intro i h1 h2
    simp only [List.getElem_map, List.getElem_range]
    rw [List.getD_eq_getElem?_getD, List.getElem?_eq_getElem h2]
    rfl

theorem zip_inj {α β : Type} {a b : List α} {v : List β} (ha : a.length = v.length) (hb : b.length = v.length) (hv : v.Nodup)
    (h : (a.zip v).Perm (b.zip v)) : a = b := by
  apply List.ext_getElem (ha.trans hb.symm)
  intro i h1 h2
  have hi : i < v.length := ha ▸ h1
  have hz : i < (a.zip v).length := by simp [ha, hi]
  have hm : (a[i], v[i]) ∈ b.zip v := by
    rw [← h.mem_iff]
    have := List.getElem_mem hz
    rwa [List.getElem_zip] at this
  obtain ⟨j, hj, e⟩ := List.getElem_of_mem hm
  rw [List.getElem_zip] at e
  obtain ⟨e1, e2⟩ := Prod.mk.inj e
  have hij : j = i := (List.Nodup.getElem_inj_iff hv).1 e2
  subst hij
  exact e1.symm

/-! ### C268 -/

/-- **C268** If the graph of the nearest neighbours is in one piece, `order_on_line` gives the same positions in another order, and no path that was tried
is shorter (in squared lengths).  Missing: the values, and sets in several pieces. -/
theorem C268_order_partial {nb dfs : Nat → List Nat} {c : Cloud} (hn : 3 ≤ c.xy.length) (hd : IsDfs c.xy.length nb dfs) (hc : OnePiece c.xy.length nb) :
    ∃ r, orderOnLine dfs c = .ok r ∧ r.xy.Perm c.xy ∧ (∀ i, i < c.xy.length → Squares r.xy ≤ Squares ((dfs i).map fun j => c.xy.getD j 0)) ∧
      ∃ i, i < c.xy.length ∧ r.xy.head? = some (c.xy.getD i 0) := by
  obtain ⟨k, hk, h1, h2⟩ := order_path (dfs := dfs) hn
  refine ⟨_, h1, ?_, ?_, k, hk, ?_⟩
  · have hp := perm_of_onePiece hd hc hk
    show (Points.take c.xy (dfs k)).Perm c.xy
    rw [take_eq_map fun j hj => List.mem_range.1 (hp.mem_iff.1 hj)]
    have := hp.map fun j => c.xy.getD j 0
    rwa [range_map_getD] at this
  · intro i hi
    have := h2 i hi
    rw [cost_eq, cost_eq, take_eq_map (o := dfs i) fun j hj => reach_lt hi (((hd i hi).2.2 j).1 hj)] at this
    exact this
  · have hp := perm_of_onePiece hd hc hk
    show (Points.take c.xy (dfs k)).head? = _
    rw [take_eq_map fun j hj => List.mem_range.1 (hp.mem_iff.1 hj), List.head?_map, (hd k hk).1]
    rfl

/-- **C268** The values are not reordered: whenever the order changes and the values are distinct, some point has the value of another. -/
theorem C268_values_violated {nb dfs : Nat → List Nat} {c : Cloud} (hn : 3 ≤ c.xy.length) (hd : IsDfs c.xy.length nb dfs) (hc : OnePiece c.xy.length nb)
    (hl : c.v.length = c.xy.length) (hv : c.v.Nodup) :
    ∃ r, orderOnLine dfs c = .ok r ∧ r.v = c.v ∧ (r.xy ≠ c.xy → ¬ r.pairs.Perm c.pairs) := by
  obtain ⟨r, h1, h2, -⟩ := C268_order_partial hn hd hc
  have hrv : r.v = c.v := by
    obtain ⟨k, hk, e, -⟩ := order_path (dfs := dfs) hn
    rw [e] at h1
    cases h1
    simp only
    have : (Points.take c.xy (dfs k)).length = c.v.length := h2.length_eq.trans hl.symm
    rw [if_neg (by simpa using this)]
  refine ⟨r, h1, hrv, fun hne hp => hne ?_⟩
  unfold Cloud.pairs at hp
  rw [hrv] at hp
  exact zip_inj (h2.length_eq.trans hl.symm) hl.symm hv hp

/-- **C268** Points far from the others are lost: if the points are in two groups of at least three, such that each point is nearer to those of its group
than to those of the other, a whole group is missing from the result, and all the values are. -/
theorem C268_lost_violated {nb dfs : Nat → List Nat} {c : Cloud} (hd : IsDfs c.xy.length nb dfs) (hnb : IsNear c.xy nb) (hl : c.v.length = c.xy.length)
    (g : Nat → Bool) (hg : ∀ b, 3 ≤ ((List.range c.xy.length).filter fun i => g i == b).length)
    (hfar : ∀ i j k, i < c.xy.length → j < c.xy.length → k < c.xy.length → g j = g i → g k ≠ g i →
      dist2 (c.xy.getD i 0) (c.xy.getD j 0) < dist2 (c.xy.getD i 0) (c.xy.getD k 0)) :
    ∃ r, orderOnLine dfs c = .ok r ∧ r.xy.length + 3 ≤ c.xy.length ∧ r.v = [] := by
  have hn : 3 ≤ c.xy.length := by
    have := List.length_filter_le (fun i => g i == true) (List.range c.xy.length)
    rw [List.length_range] at this
    exact le_trans (hg true) this
  have hside : ∀ i, i < c.xy.length → ∀ j ∈ nb i, g j = g i := by
    intro i hi j hj
    by_contra hne
    obtain ⟨n1, n2, n3, n4, n5⟩ := hnb i hi
    have hk : ∃ k, k < c.xy.length ∧ k ≠ i ∧ k ∉ nb i ∧ g k = g i := by
      by_contra hno
      push Not at hno
      have hsub : ∀ k ∈ (List.range c.xy.length).filter (fun k => g k == g i), k ∈ i :: (nb i).erase j := by
        intro k hk
        obtain ⟨k1, k2⟩ := List.mem_filter.1 hk
        have k2 : g k = g i := by simpa using k2
        by_cases hki : k = i
        · rw [hki]; exact List.mem_cons_self
        · refine List.mem_cons_of_mem _ ((List.mem_erase_of_ne ?_).2 ?_)
          · rintro rfl; exact hne k2
          · by_contra hkn
            exact hno k (List.mem_range.1 k1) hki hkn k2
      have hlen := (List.subperm_of_subset (List.nodup_range.filter _) hsub).length_le
      have := hg (g i)
      rw [List.length_cons, List.length_erase_of_mem hj, n1] at hlen
      omega
    obtain ⟨k, k1, k2, k3, k4⟩ := hk
    exact absurd (n5 j hj k k1 k2 k3) (not_le.2 (hfar i k j hi k1 (n4 j hj) k4 hne))
  obtain ⟨k, hk, e, -⟩ := order_path (dfs := dfs) (c := c) hn
  have hreach : ∀ j, Relation.ReflTransGen (Edge c.xy.length nb) k j → g j = g k := by
    intro j h
    induction h with
    | refl => rfl
    | tail _ e ih =>
      obtain ⟨e1, e2, e3 | e3⟩ := e
      · rw [hside _ e1 _ e3, ih]
      · rw [← hside _ e2 _ e3, ih]
  obtain ⟨-, d2, d3⟩ := hd k hk
  have hlt : ∀ j ∈ dfs k, j < c.xy.length := fun j hj => reach_lt hk ((d3 j).1 hj)
  have hle : (dfs k).length ≤ ((List.range c.xy.length).filter fun i => g i == g k).length := by
    refine (List.subperm_of_subset d2 ?_).length_le
    intro j hj
    exact List.mem_filter.2 ⟨List.mem_range.2 (hlt j hj), by simpa using hreach j ((d3 j).1 hj)⟩
  have hsum : ((List.range c.xy.length).filter fun i => g i == g k).length + ((List.range c.xy.length).filter fun i => g i == !g k).length = c.xy.length := by
    have := List.length_eq_length_filter_add (l := List.range c.xy.length) (fun i => g i == g k)
    rw [List.length_range] at this
    have he : ((List.range c.xy.length).filter fun i => g i == !g k) = (List.range c.xy.length).filter fun i => !g i == g k := by
      apply List.filter_congr
      intro i _
      cases g i <;> cases g k <;> rfl
    rw [he]
    exact this.symm
  have ho := hg (!g k)
  have htl : (Points.take c.xy (dfs k)).length = (dfs k).length := by rw [take_eq_map hlt, List.length_map]
  refine ⟨_, e, ?_, ?_⟩
  · show (Points.take c.xy (dfs k)).length + 3 ≤ _
    omega
  · show (if _ then _ else _) = _
    rw [if_pos (by rw [htl, hl]; omega)]

/-- **C268** Sets of fewer than three points are refused. -/
theorem C268_small_refused (dfs : Nat → List Nat) {c : Cloud} (h : c.xy.length < 3) : orderOnLine dfs c = .error .valueError := if_pos h

/-! ### examples -/

/-- Three points, in the order left, right, middle. -/
def trio : Cloud := ⟨[(0, 0), (2, 0), (1, 0)], [10, 20, 30]⟩

def trioNb : Nat → List Nat
  | 0 => [2, 1]
  | 1 => [2, 0]
  | _ => [0, 1]

def trioDfs : Nat → List Nat
  | 0 => [0, 2, 1]
  | 1 => [1, 2, 0]
  | _ => [2, 0, 1]

example : orderOnLine trioDfs trio = .ok ⟨[(0, 0), (1, 0), (2, 0)], [10, 20, 30]⟩ := by decide +kernel

theorem trio_edge {i j : Nat} (hi : i < 3) (hj : j < 3) (h : i ≠ j) : Edge 3 trioNb i j := by
  refine ⟨hi, hj, .inl ?_⟩
  rcases i with _ | _ | _ | i <;> rcases j with _ | _ | _ | j <;> simp_all [trioNb]
  all_goals omega

theorem trio_one : OnePiece 3 trioNb := by
  intro i j hi hj
  by_cases h : i = j
  · subst h; exact .refl
  · exact .single (trio_edge hi hj h)

example : IsDfs trio.xy.length trioNb trioDfs ∧ OnePiece trio.xy.length trioNb ∧ trio.v.Nodup := by
  refine ⟨?_, trio_one, by decide +kernel⟩
  intro i hi
  have hi : i < 3 := hi
  have hm : ∀ j, j ∈ trioDfs i ↔ j < 3 := by
    intro j
    rcases i with _ | _ | _ | i
    · simp [trioDfs]; omega
    · simp [trioDfs]; omega
    · simp [trioDfs]; omega
    · omega
  refine ⟨?_, ?_, fun j => ⟨fun h => trio_one i j hi ((hm j).1 h), fun h => (hm j).2 (reach_lt hi h)⟩⟩
  · rcases i with _ | _ | _ | i <;> first | rfl | omega
  · rcases i with _ | _ | _ | i <;> first | decide | omega

/-- Two groups of three points far from each other. -/
def pair : Cloud := ⟨[(0, 0), (1, 0), (2, 0), (100, 0), (101, 0), (102, 0)], [1, 2, 3, 4, 5, 6]⟩

example : (∀ b, 3 ≤ ((List.range pair.xy.length).filter fun i => decide (i < 3) == b).length) ∧
    ∀ i < pair.xy.length, ∀ j < pair.xy.length, ∀ k < pair.xy.length, decide (j < 3) = decide (i < 3) → decide (k < 3) ≠ decide (i < 3) →
      dist2 (pair.xy.getD i 0) (pair.xy.getD j 0) < dist2 (pair.xy.getD i 0) (pair.xy.getD k 0) := by
  have h : ∀ i j k : Fin 6, decide (j.1 < 3) = decide (i.1 < 3) → decide (k.1 < 3) ≠ decide (i.1 < 3) →
      dist2 (pair.xy.getD i.1 0) (pair.xy.getD j.1 0) < dist2 (pair.xy.getD i.1 0) (pair.xy.getD k.1 0) := by decide +kernel
  exact ⟨by decide, fun i hi j hj k hk => h ⟨i, hi⟩ ⟨j, hj⟩ ⟨k, hk⟩⟩

end IMT.Tidy
