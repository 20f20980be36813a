import Verif.Spatial.GridModel
import Mathlib.Data.List.GetD

/-!
C328, C329: profiles and grids of values of a set of fields in space; C277 for the division.
-/

namespace IMT.Spatial

/-! ### C328: the profile of a set of fields -/

/-- The position is strictly within the extent of a field along the direction 1 (x) or 2 (y), for a number. -/
def Crosses (d : Int) (pos : Rat) (b : Box) : Prop := (d = 1 ∧ b.x0 < pos ∧ pos < b.x1) ∨ (d = 2 ∧ b.y0 < pos ∧ pos < b.y1)

theorem mem_interest (d : Int) (pos : Rat) (bs : List Box) (b : Box) :
    b ∈ ofInterest (.num d) [pos] bs ↔ b ∈ bs ∧ Crosses d pos b := by
  unfold ofInterest Crosses
  split
  · rename_i h; cases h; simp [and_comm, and_assoc]
  · rename_i h; cases h; simp [and_comm, and_assoc]
  · rename_i h1 h2
    have n1 : d ≠ 1 := by rintro rfl; exact h1 rfl
    have n2 : d ≠ 2 := by rintro rfl; exact h2 rfl
    simp [n1, n2]

/-- C328: at a position that no field of the set crosses, there is no profile: the answer is `None`. -/
theorem C328_nothing_partial {P : Type} (profile : String → Box → Res P) (k : Kind) (bs : List Box) (d : Int) (pos : Rat)
    (c : Option Bool) (hc : c ≠ some false) (h : ∀ b ∈ bs, ¬ Crosses d pos b) : profileOf profile k bs (.num d) [pos] c = .ok none := by
  have e : ofInterest (.num d) [pos] bs = [] := by
    refine List.eq_nil_iff_forall_not_mem.mpr fun b hb => ?_
    obtain ⟨h1, h2⟩ := (mem_interest d pos bs b).mp hb
    exact h b h1 h2
  unfold profileOf
  rw [e]
  cases k <;> cases c <;> first | rfl | (rename_i v; cases v <;> first | rfl | exact absurd rfl hc)

/-- C328 fails for every set of fields and every argument: no call ever gives a profile. -/
theorem C328_profile_violated {P : Type} (profile : String → Box → Res P) (k : Kind) (bs : List Box) (d : DirArg) (pos : List Rat)
    (c : Option Bool) : ¬ ∃ r, profileOf profile k bs d pos c = .ok (some r) := by
  rintro ⟨r, h⟩
  unfold profileOf at h
  split at h
  · cases h
  · split at h
    · cases h
    · rename_i hne
      split at h
      · cases d with
        | str s => exact hne rfl
        | num n =>
          generalize hl : ofInterest (.num n) pos bs = l at h hne
          cases l with
          | nil => exact hne rfl
          | cons b l => simp [allProfiles, fieldProfile] at h
      · cases h

/-- C328 fails as the documentation says to call it: with the direction 1 or 2 and a position that a field crosses, TypeError is
raised, or NameError for vector fields without a component. -/
theorem C328_crossed_violated {P : Type} (profile : String → Box → Res P) (k : Kind) (bs : List Box) (d : Int) (pos : Rat)
    (c : Option Bool) (hc : c ≠ some false) (b : Box) (hb : b ∈ bs) (h : Crosses d pos b) :
    profileOf profile k bs (.num d) [pos] c = .error (if k = .vector ∧ c = none then .nameError else .typeError) := by
  have m := (mem_interest d pos bs b).mpr ⟨hb, h⟩
  unfold profileOf
  cases hl : ofInterest (.num d) [pos] bs with
  | nil => rw [hl] at m; simp at m
  | cons a l =>
    cases k <;> cases c <;> first
      | (simp [chooseComp, allProfiles, fieldProfile]; done)
      | (rename_i v; cases v <;> first | exact absurd rfl hc | simp [chooseComp, allProfiles, fieldProfile])

example : Crosses 1 3 ⟨0, 10, 0, 5⟩ := Or.inl ⟨rfl, by decide +kernel, by decide +kernel⟩

/-! ### C329: the values of a set of fields on a grid -/

/-- What the arrays must show in a cell. -/
def Shows (s : Filled) (i j : Nat) : Option (Rat × Rat) → Prop
  | none => s.mask i j = true
  | some v => s.mask i j = false ∧ s.vx i j = v.1 ∧ s.vy i j = v.2

/-- Two states agree in a cell. -/
def SameCell (s t : Filled) (i j : Nat) : Prop := t.vx i j = s.vx i j ∧ t.vy i j = s.vy i j ∧ t.mask i j = s.mask i j

theorem fillCell_other (value : Rat → Rat → Option (Rat × Rat)) (s : Filled) (i : Nat) (x : Rat) (j : Nat) (y : Rat) (i' j' : Nat)
    (h : ¬ (i' = i ∧ j' = j)) : SameCell s (fillCell value s i x j y) i' j' := by
  unfold fillCell SameCell
  split <;> simp [write, h]

theorem fillRow_other (value : Rat → Rat → Option (Rat × Rat)) (i : Nat) (x : Rat) (l : List (Nat × Rat)) (s : Filled) (i' j' : Nat)
    (h : i' ≠ i ∨ j' ∉ l.map Prod.fst) : SameCell s (fillRow value i x s l) i' j' := by
  induction l generalizing s with
  | nil => exact ⟨rfl, rfl, rfl⟩
  | cons q l ih =>
    have a := fillCell_other value s i x q.1 q.2 i' j' (by
      rintro ⟨e1, e2⟩
      rcases h with h | h
      · exact h e1
      · exact h (by simp [e2]))
    have b := ih (fillCell value s i x q.1 q.2) (h.imp id fun h c => h (by simp at c ⊢; right; exact c))
    exact ⟨b.1.trans a.1, b.2.1.trans a.2.1, b.2.2.trans a.2.2⟩

theorem fillCell_self (value : Rat → Rat → Option (Rat × Rat)) (s : Filled) (i : Nat) (x : Rat) (j : Nat) (y : Rat)
    (h : s.mask i j = false) : Shows (fillCell value s i x j y) i j (value x y) := by
  unfold fillCell
  cases e : value x y with
  | none => simp [Shows, write]
  | some v => simp [Shows, write, h]

theorem Shows.same {s t : Filled} {i j : Nat} {o : Option (Rat × Rat)} (h : Shows s i j o) (e : SameCell s t i j) : Shows t i j o := by
  cases o with
  | none => simpa [Shows, e.2.2] using h
  | some v => simpa [Shows, e.1, e.2.1, e.2.2] using h

theorem fillRow_self (value : Rat → Rat → Option (Rat × Rat)) (i : Nat) (x : Rat) (l : List (Nat × Rat)) (s : Filled) (j : Nat) (y : Rat)
    (hn : (l.map Prod.fst).Nodup) (hm : (j, y) ∈ l) (h : s.mask i j = false) : Shows (fillRow value i x s l) i j (value x y) := by
  induction l generalizing s with
  | nil => simp at hm
  | cons q l ih =>
    obtain ⟨n1, n2⟩ := List.nodup_cons.mp hn
    rcases List.mem_cons.mp hm with e | m
    · subst e
      exact (fillCell_self value s i x j y h).same (fillRow_other value i x l _ i j (Or.inr n1))
    · refine ih _ n2 m ?_
      have : j ≠ q.1 := by
        rintro rfl
        exact n1 (List.mem_map.mpr ⟨_, m, rfl⟩)
      rw [(fillCell_other value s i x q.1 q.2 i j (fun c => this c.2)).2.2]
      exact h

theorem fillAll_other (value : Rat → Rat → Option (Rat × Rat)) (ys l : List (Nat × Rat)) (s : Filled) (i j : Nat)
    (h : i ∉ l.map Prod.fst) : SameCell s (fillAll value ys s l) i j := by
  induction l generalizing s with
  | nil => exact ⟨rfl, rfl, rfl⟩
  | cons q l ih =>
    have a := fillRow_other value q.1 q.2 ys s i j (Or.inl (by rintro rfl; exact h (by simp)))
    have b := ih (fillRow value q.1 q.2 s ys) (fun c => h (by simp at c ⊢; right; exact c))
    exact ⟨b.1.trans a.1, b.2.1.trans a.2.1, b.2.2.trans a.2.2⟩

theorem fillAll_self (value : Rat → Rat → Option (Rat × Rat)) (ys l : List (Nat × Rat)) (s : Filled) (i j : Nat) (x y : Rat)
    (hn : (l.map Prod.fst).Nodup) (hn' : (ys.map Prod.fst).Nodup) (hm : (i, x) ∈ l) (hm' : (j, y) ∈ ys) (h : s.mask i j = false) :
    Shows (fillAll value ys s l) i j (value x y) := by
  induction l generalizing s with
  | nil => simp at hm
  | cons q l ih =>
    obtain ⟨n1, n2⟩ := List.nodup_cons.mp hn
    rcases List.mem_cons.mp hm with e | m
    · subst e
      exact (fillRow_self value i x ys s j y hn' hm' h).same (fillAll_other value ys l _ i j n1)
    · refine ih _ n2 m ?_
      have : i ≠ q.1 := by
        rintro rfl
        exact n1 (List.mem_map.mpr ⟨_, m, rfl⟩)
      rw [(fillRow_other value q.1 q.2 ys s i j (Or.inl this)).2.2]
      exact h

theorem enum_nodup (l : List Rat) : ((enum l).map Prod.fst).Nodup := by
  unfold enum
  rw [List.map_fst_zip (by simp)]
  exact List.nodup_range

theorem enum_mem (l : List Rat) (i : Nat) (x : Rat) (h : l[i]? = some x) : (i, x) ∈ enum l := by
  refine List.mem_iff_getElem?.mpr ⟨i, ?_⟩
  unfold enum
  rw [List.getElem?_zip_eq_some]
  refine ⟨?_, h⟩
  rw [List.getElem?_range (List.getElem?_eq_some_iff.mp h).1]

/-- C329: for vector fields, every node of the grid shows the value of the set at its place, and is masked out of the fields. -/
theorem C329_grid_partial (value : Rat → Rat → Option (Rat × Rat)) (xs ys : List Rat) :
    ∃ s, onGrid .vector value xs ys = .ok s ∧
      ∀ (i j : Nat) (x y : Rat), xs[i]? = some x → ys[j]? = some y → Shows s i j (value x y) :=
  ⟨_, rfl, fun i j x y hx hy => fillAll_self value _ _ _ i j x y (enum_nodup xs) (enum_nodup ys) (enum_mem xs i x hx)
    (enum_mem ys j y hy) rfl⟩

/-- C329 fails for scalar fields: whatever they are, TypeError is raised. -/
theorem C329_scalar_violated (value : Rat → Rat → Option (Rat × Rat)) (xs ys : List Rat) :
    ¬ ∃ s, onGrid .scalar value xs ys = .ok s := by
  rintro ⟨s, h⟩
  cases h

example : ((onGrid .vector (fun x y => if x < 5 then some (x, y) else none) [1, 7] [2, 3]).toOption.map fun s =>
    (s.vx 0 1, s.vy 0 1, s.mask 0 1, s.mask 1 0)) = some (1, 3, false, true) := by decide +kernel

/-- C277 fails for the division: a set of fields is never divided by a number. -/
theorem C277_divide_violated (s : SP) (q : Rat) : ¬ ∃ t, divAll s q = .ok t := by
  rintro ⟨t, h⟩
  cases h

end IMT.Spatial
