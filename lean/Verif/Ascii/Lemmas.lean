import Verif.Ascii.Model
import Verif.Vector.Arith

/-! Helper lemmas for the text tables. -/

namespace IMT.Ascii

theorem mem_ins (x a : Rat) (l : List Rat) : a ∈ ins x l ↔ a = x ∨ a ∈ l := by
  induction l with
  | nil => simp [ins]
  | cons b l ih =>
    unfold ins
    split
    · simp
    · split
      · rename_i h; subst h; simp
      · simp only [List.mem_cons, ih]; tauto

theorem ins_inc {l : List Rat} (h : Inc l) (x : Rat) : Inc (ins x l) := by
  induction l with
  | nil => simp [ins, Inc]
  | cons b l ih =>
    unfold Inc at h ih ⊢
    rw [List.pairwise_cons] at h
    unfold ins
    split
    · rename_i hx
      rw [List.pairwise_cons, List.pairwise_cons]
      refine ⟨?_, h⟩
      intro c hc
      rcases List.mem_cons.mp hc with rfl | hc
      · exact hx
      · exact hx.trans (h.1 c hc)
    · split
      · rw [List.pairwise_cons]; exact h
      · rename_i h1 h2
        rw [List.pairwise_cons]
        refine ⟨?_, ih h.2⟩
        intro c hc
        rcases (mem_ins x c l).mp hc with rfl | hc
        · exact lt_of_le_of_ne (not_lt.mp h1) (Ne.symm h2)
        · exact h.1 c hc

theorem mem_uniq (a : Rat) (l : List Rat) : a ∈ uniq l ↔ a ∈ l := by
  induction l with
  | nil => simp [uniq]
  | cons b l ih =>
    have : uniq (b :: l) = ins b (uniq l) := rfl
    rw [this, mem_ins, ih]; simp

theorem uniq_inc (l : List Rat) : Inc (uniq l) := by
  induction l with
  | nil => simp [uniq, Inc]
  | cons b l ih => exact ins_inc ih b

theorem uniq_eq {l m : List Rat} (hm : Inc m) (h : ∀ x, x ∈ l ↔ x ∈ m) : uniq l = m :=
  SF.inc_ext (uniq_inc l) hm fun x => (mem_uniq x l).trans (h x)

theorem pos_get {l : List Rat} {x : Rat} (h : x ∈ l) : l[pos l x]? = some x := by
  unfold pos
  have hlt : l.findIdx (fun a => decide (a = x)) < l.length := by
    rw [List.findIdx_lt_length]; exact ⟨x, h, by simp⟩
  rw [List.getElem?_eq_getElem hlt]
  have := List.findIdx_getElem (w := hlt)
  simpa using this

theorem pos_lt {l : List Rat} {x : Rat} (h : x ∈ l) : pos l x < l.length := getElem?_some_lt (pos_get h)

theorem pos_eq {l : List Rat} (hl : Inc l) {x : Rat} {i : Nat} (h : l[i]? = some x) : pos l x = i :=
  hl.idx_inj' (pos_get (List.mem_of_getElem? h)) h

theorem pos_inj {l : List Rat} {x y : Rat} (hx : x ∈ l) (hy : y ∈ l) (h : pos l x = pos l y) : x = y := by
  have h1 := pos_get hx
  rw [h, pos_get hy] at h1
  exact (Option.some.inj h1).symm

/-- Assignments that never reach a cell leave it alone. -/
theorem fold_put_out {ρ α : Type} (p q : ρ → Nat) (w : ρ → α) (i j : Nat) :
    ∀ (rows : List ρ) (a : Nat → Nat → α), (∀ r ∈ rows, ¬ (p r = i ∧ q r = j)) →
      (rows.foldl (fun a r => put a (p r) (q r) (w r)) a) i j = a i j := by
  intro rows
  induction rows with
  | nil => intro a _; rfl
  | cons r rows ih =>
    intro a h
    rw [List.foldl_cons, ih _ fun r' hr' => h r' (List.mem_cons_of_mem _ hr')]
    unfold put
    rw [if_neg]
    rintro ⟨rfl, rfl⟩
    exact h r List.mem_cons_self ⟨rfl, rfl⟩

/-- Each cell designated by exactly one assignment gets its value. -/
theorem fold_put_in {ρ α : Type} (p q : ρ → Nat) (w : ρ → α) :
    ∀ (rows : List ρ) (a : Nat → Nat → α), (rows.map fun r => (p r, q r)).Nodup → ∀ r ∈ rows,
      (rows.foldl (fun a r => put a (p r) (q r) (w r)) a) (p r) (q r) = w r := by
  intro rows
  induction rows with
  | nil => intro a _ r hr; simp at hr
  | cons s rows ih =>
    intro a hn r hr
    rw [List.map_cons, List.nodup_cons] at hn
    rw [List.foldl_cons]
    rcases List.mem_cons.mp hr with rfl | hr
    · rw [fold_put_out]
      · simp [put]
      · rintro r' hr' ⟨h1, h2⟩
        exact hn.1 (List.mem_map.mpr ⟨r', hr', by simp [h1, h2]⟩)
    · exact ih _ hn.2 r hr

/-- Positions designated by distinct pairs of coordinates are distinct. -/
theorem pos_nodup {ρ : Type} {xs ys : List Rat} (fx fy : ρ → Rat) (rows : List ρ) (hx : ∀ r ∈ rows, fx r ∈ xs)
    (hy : ∀ r ∈ rows, fy r ∈ ys) (hn : (rows.map fun r => (fx r, fy r)).Nodup) :
    (rows.map fun r => (pos xs (fx r), pos ys (fy r))).Nodup := by
  induction rows with
  | nil => simp
  | cons r rows ih =>
    rw [List.map_cons, List.nodup_cons] at hn ⊢
    refine ⟨?_, ih (fun r' h => hx r' (List.mem_cons_of_mem _ h)) (fun r' h => hy r' (List.mem_cons_of_mem _ h)) hn.2⟩
    intro hc
    obtain ⟨r', hr', he⟩ := List.mem_map.mp hc
    simp only [Prod.mk.injEq] at he
    apply hn.1
    refine List.mem_map.mpr ⟨r', hr', ?_⟩
    rw [pos_inj (hx r' (List.mem_cons_of_mem _ hr')) (hx r List.mem_cons_self) he.1,
      pos_inj (hy r' (List.mem_cons_of_mem _ hr')) (hy r List.mem_cons_self) he.2]

/-- Concatenation of lists of one length. -/
theorem flat_get {α β : Type} (F : α → List β) (m : Nat) : ∀ (l : List α), (∀ a ∈ l, (F a).length = m) → ∀ i j, j < m →
    (l.flatMap F)[i * m + j]? = l[i]?.bind fun a => (F a)[j]? := by
  intro l
  induction l with
  | nil => intro _ i j _; simp
  | cons a l ih =>
    intro h i j hj
    have ha := h a List.mem_cons_self
    rw [List.flatMap_cons]
    cases i with
    | zero =>
      rw [List.getElem?_append_left (by omega)]
      simp
    | succ i =>
      rw [List.getElem?_append_right (by rw [ha, Nat.succ_mul]; omega)]
      have : (i + 1) * m + j - (F a).length = i * m + j := by rw [ha, Nat.succ_mul]; omega
      rw [this, ih (fun b hb => h b (List.mem_cons_of_mem _ hb)) i j hj]
      simp

theorem flat_length {α β : Type} (F : α → List β) (m : Nat) : ∀ (l : List α), (∀ a ∈ l, (F a).length = m) →
    (l.flatMap F).length = l.length * m := by
  intro l
  induction l with
  | nil => simp
  | cons a l ih =>
    intro h
    rw [List.flatMap_cons, List.length_append, ih fun b hb => h b (List.mem_cons_of_mem _ hb), h a List.mem_cons_self,
      List.length_cons, Nat.succ_mul]
    omega

theorem allclose_refl (l : List Rat) : allclose l l = true := by
  unfold allclose
  rw [List.all_eq_true]
  rintro ⟨a, b⟩ h
  have : a = b := by
    rw [List.mem_iff_getElem?] at h
    obtain ⟨i, hi⟩ := h
    rw [List.getElem?_zip_eq_some] at hi
    have := hi.1.symm.trans hi.2
    exact Option.some.inj this
  subst this
  have : (0 : Rat) ≤ 1 / 100000000 + 1 / 100000 * |a| := by positivity
  simpa using this

theorem sum_const (n : Nat) (c : Rat) : ((List.range n).map fun _ => c).sum = n * c := by
  induction n with
  | zero => simp
  | succ n ih => rw [List.range_succ, List.map_append, List.sum_append, ih]; push_cast; simp; ring

end IMT.Ascii
