import Verif.Profile.Model

/-! Lemmas on aligned arrays, sorting and slices of profiles. -/

namespace IMT.Profile

/-! ### `take` -/

theorem take_cons {α : Type} (l : List α) (i : Nat) (o : List Nat) (h : i < l.length) :
    take l (i :: o) = l[i] :: take l o := by
  unfold take
  rw [List.filterMap_cons, List.getElem?_eq_getElem h]

theorem take_length {α : Type} {l : List α} {o : List Nat} (h : ∀ i ∈ o, i < l.length) : (take l o).length = o.length := by
  induction o with
  | nil => rfl
  | cons i o ih =>
    rw [take_cons l i o (h i (by simp)), List.length_cons, List.length_cons, ih fun j hj => h j (by simp [hj])]

theorem take_map {α β : Type} (f : α → β) (l : List α) (o : List Nat) : take (l.map f) o = (take l o).map f := by
  unfold take
  rw [List.map_filterMap]
  congr 1
  funext i
  simp

theorem take_range {α : Type} (l : List α) : take l (List.range l.length) = l := by
  apply List.ext_getElem?
  intro i
  unfold take
  have : ∀ n, n ≤ l.length → (List.range n).filterMap (fun i : Nat => l[i]?) = l.take n := by
    intro n hn
    induction n with
    | zero => simp
    | succ n ih =>
      rw [List.range_succ, List.filterMap_append, ih (by omega), List.filterMap_cons, List.getElem?_eq_getElem (by omega)]
      simp
  rw [this _ (le_refl _), List.take_length]

theorem take_perm {α : Type} {l : List α} {o : List Nat} (h : o.Perm (List.range l.length)) : (take l o).Perm l := by
  have : (take l o).Perm (take l (List.range l.length)) := h.filterMap _
  rwa [take_range] at this

theorem take_zipWith {α β γ : Type} (f : α → β → γ) (l : List α) (k : List β) (o : List Nat) (h : l.length = k.length)
    (ho : ∀ i ∈ o, i < l.length) : List.zipWith f (take l o) (take k o) = take (List.zipWith f l k) o := by
  induction o with
  | nil => simp [take]
  | cons i o ih =>
    have hi := ho i (by simp)
    rw [take_cons l i o hi, take_cons k i o (h ▸ hi), take_cons _ i o (by simp [← h, hi]), List.zipWith_cons_cons,
      ih fun j hj => ho j (by simp [hj])]
    simp

theorem take_zip {α β : Type} (l : List α) (k : List β) (o : List Nat) (h : l.length = k.length)
    (ho : ∀ i ∈ o, i < l.length) : (take l o).zip (take k o) = take (l.zip k) o := take_zipWith Prod.mk l k o h ho

theorem mem_order {srt : List Rat → List Nat} (hs : IsArgsort srt) {l : List Rat} {i : Nat} (h : i ∈ srt l) :
    i < l.length := List.mem_range.mp ((hs l).1.mem_iff.mp h)

/-- On strictly increasing abscissae every sort is the identity. -/
theorem order_inc {srt : List Rat → List Nat} (hs : IsArgsort srt) {l : List Rat} (hl : Inc l) :
    srt l = List.range l.length := by
  obtain ⟨hp, hw⟩ := hs l
  have hlt : ∀ i ∈ srt l, i < l.length := fun i hi => mem_order hs hi
  have hsorted : (srt l).Pairwise (· ≤ ·) := by
    have : ∀ o : List Nat, (∀ i ∈ o, i < l.length) → (take l o).Pairwise (· ≤ ·) → o.Pairwise (· ≤ ·) := by
      intro o
      induction o with
      | nil => intros; simp
      | cons i o ih =>
        intro ho hw
        have hi := ho i (by simp)
        rw [take_cons l i o hi, List.pairwise_cons] at hw
        rw [List.pairwise_cons]
        refine ⟨fun j hj => ?_, ih (fun k hk => ho k (by simp [hk])) hw.2⟩
        have hj' := ho j (by simp [hj])
        by_contra hc
        push Not at hc
        have h1 : l[j] < l[i] := List.pairwise_iff_getElem.mp hl j i hj' hi hc
        have h2 : l[i] ≤ l[j] := hw.1 _ (by
          unfold take
          rw [List.mem_filterMap]
          exact ⟨j, hj, by rw [List.getElem?_eq_getElem hj']⟩)
        linarith
    exact this _ hlt hw
  exact hp.eq_of_pairwise (fun a b _ _ h1 h2 => le_antisymm h1 h2) hsorted List.pairwise_le_range

theorem take_order_inc {α : Type} {srt : List Rat → List Nat} (hs : IsArgsort srt) {l : List Rat} (hl : Inc l)
    (k : List α) (h : k.length = l.length) : take k (srt l) = k := by
  rw [order_inc hs hl, ← h, take_range]

/-! ### masks -/

theorem blank_isNone (y : List F) : blank y (y.map Option.isNone) = y := by
  unfold blank
  induction y with
  | nil => rfl
  | cons v y ih => cases v <;> simpa using ih

theorem blank_length (y : List F) (m : List Bool) (h : y.length = m.length) : (blank y m).length = y.length := by
  unfold blank; simp [h]

theorem blank_false (y : List F) : blank y (List.replicate y.length false) = y := by
  unfold blank
  induction y with
  | nil => rfl
  | cons v y ih => simpa [List.replicate_succ] using ih

theorem getY_valid {p : Prof} (h : Valid p) : getY p = p.y := by
  unfold getY
  rw [h.2.1, blank_isNone]

theorem pts_valid {p : Prof} (h : Valid p) : pts p = p.x.zip p.y := by unfold pts; rw [getY_valid h]

theorem or_isNone (y : List F) (m : List Bool) (h : y.length = m.length) :
    List.zipWith (· || ·) m ((blank y m).map Option.isNone) = (blank y m).map Option.isNone := by
  unfold blank
  induction m generalizing y with
  | nil => simp
  | cons b m ih =>
    rcases y with _ | ⟨v, y⟩
    · simp at h
    · have := ih y (by simpa using h)
      simp only [List.zipWith_cons_cons, List.map_cons, this]
      cases b <;> simp

theorem build_eq {o : List Nat} {x : List Rat} {y : List F} {m : List Bool} (ux uy : Sym) (hy : y.length = x.length)
    (hm : x.length ≤ m.length) (ho : ∀ i ∈ o, i < x.length) :
    build o x y m ux uy = ⟨take x o, blank (take y o) (take m o), (blank (take y o) (take m o)).map Option.isNone, ux, uy⟩ := by
  have hl : (take y o).length = (take m o).length := by
    rw [take_length (fun i hi => hy ▸ ho i hi), take_length (fun i hi => lt_of_lt_of_le (ho i hi) hm)]
  unfold build
  rw [or_isNone _ _ hl, blank_isNone]

theorem take_mask {α : Type} {l : List α} {m : List Bool} {o : List Nat} (h : ∀ i ∈ o, i < l.length) :
    take m o = take (m.take l.length) o := by
  unfold take
  apply List.filterMap_congr
  intro i hi
  rw [List.getElem?_take_of_lt (h i hi)]

/-- The constructor: consistent, sorted, same points. -/
theorem build_spec {srt : List Rat → List Nat} (hs : IsArgsort srt) {x : List Rat} {y : List F} {m : List Bool}
    (ux uy : Sym) (hy : y.length = x.length) (hm : m.length = x.length) :
    Valid (build (srt x) x y m ux uy) ∧ pts (build (srt x) x y m ux uy) = take (x.zip (blank y m)) (srt x) := by
  have ho : ∀ i ∈ srt x, i < x.length := fun i hi => mem_order hs hi
  have hb : blank (take y (srt x)) (take m (srt x)) = take (blank y m) (srt x) := by
    unfold blank
    exact take_zipWith _ y m _ (by omega) (fun i hi => hy ▸ ho i hi)
  have hbl : (blank y m).length = x.length := by rw [blank_length y m (by omega), hy]
  rw [build_eq ux uy hy (le_of_eq hm.symm) ho, hb]
  have hv : Valid ⟨take x (srt x), take (blank y m) (srt x), (take (blank y m) (srt x)).map Option.isNone, ux, uy⟩ := by
    refine ⟨?_, rfl, (hs x).2⟩
    rw [take_length (fun i hi => hbl ▸ ho i hi), take_length ho]
  refine ⟨hv, ?_⟩
  rw [pts_valid hv]
  exact take_zip x (blank y m) (srt x) hbl.symm ho

theorem take_nodup {α : Type} {srt : List Rat → List Nat} (hs : IsArgsort srt) (x : List Rat) (l : List α)
    (h : l.length = x.length) : (take l (srt x)).Perm l := take_perm (by rw [h]; exact (hs x).1)

/-- The setter of `x` on aligned arrays. -/
theorem setX_spec {srt : List Rat → List Nat} (hs : IsArgsort srt) {p : Prof} {v : List Rat}
    (hl : v.length = p.y.length) (hm : p.m = p.y.map Option.isNone) :
    ∃ q, setX srt p v = (q, .ok ⟨⟩) ∧ Valid q ∧ (pts q).Perm (v.zip p.y) ∧ q.ux = p.ux ∧ q.uy = p.uy ∧
      (Inc v → q.x = v ∧ q.y = p.y) := by
  unfold setX
  rw [if_neg (by omega)]
  have ho : ∀ i ∈ srt v, i < v.length := fun i hi => mem_order hs hi
  by_cases h1 : v.length > 1
  · rw [if_pos h1]
    have hv : Valid { p with x := take v (srt v), y := take p.y (srt v), m := take p.m (srt v) } := by
      refine ⟨?_, ?_, (hs v).2⟩
      · show (take p.y (srt v)).length = (take v (srt v)).length
        rw [take_length (fun i hi => hl ▸ ho i hi), take_length ho]
      · show take p.m (srt v) = (take p.y (srt v)).map Option.isNone
        rw [hm, take_map]
    refine ⟨_, rfl, hv, ?_, rfl, rfl, ?_⟩
    · rw [pts_valid hv]
      show ((take v (srt v)).zip (take p.y (srt v))).Perm _
      rw [take_zip v p.y _ hl ho]
      exact take_nodup hs v _ (by simp [hl])
    · intro hi
      exact ⟨take_order_inc hs hi v rfl, take_order_inc hs hi p.y hl.symm⟩
  · rw [if_neg h1]
    have hv : Valid { p with x := v } := by
      refine ⟨hl.symm, hm, ?_⟩
      show v.Pairwise _
      rcases v with _ | ⟨a, _ | ⟨b, v⟩⟩
      · exact .nil
      · simp
      · simp at h1
    refine ⟨_, rfl, hv, ?_, rfl, rfl, fun _ => ⟨rfl, rfl⟩⟩
    rw [pts_valid hv]

theorem setXY_spec {srt : List Rat → List Nat} (hs : IsArgsort srt) (p : Prof) {v : List Rat} {w : List F}
    (hl : v.length = w.length) :
    ∃ q, setX srt (setY p w) v = (q, .ok ⟨⟩) ∧ Valid q ∧ (pts q).Perm (v.zip w) ∧ q.ux = p.ux ∧ q.uy = p.uy ∧
      (Inc v → q.x = v ∧ q.y = w) := setX_spec hs (p := setY p w) hl rfl

theorem new_arr {srt : List Rat → List Nat} {x : List Rat} {y : List F} {m : List Bool}
    (ux uy : Sym) (hy : y.length = x.length) (hm : m.length = x.length) :
    new srt x y (.arr m) ux uy = .ok (build (srt x) x y m ux uy) := by
  unfold new
  rw [if_neg (by omega), if_neg (by show ¬ m.length < x.length; omega)]
  rfl

theorem new_flag {srt : List Rat → List Nat} {x : List Rat} {y : List F} (b : Bool)
    (ux uy : Sym) (hy : y.length = x.length) :
    new srt x y (.flag b) ux uy = .ok (build (srt x) x y (List.replicate x.length false) ux uy) := by
  unfold new MaskArg.array
  rw [if_neg (by omega)]
  simp

/-- On strictly increasing abscissae the constructor keeps everything in place. -/
theorem build_inc {srt : List Rat → List Nat} (hs : IsArgsort srt) {x : List Rat} {y : List F} {m : List Bool}
    (ux uy : Sym) (hx : Inc x) (hy : y.length = x.length) (hm : m.length = x.length) :
    build (srt x) x y m ux uy = ⟨x, blank y m, (blank y m).map Option.isNone, ux, uy⟩ := by
  rw [build_eq ux uy hy (le_of_eq hm.symm) fun i hi => mem_order hs hi, take_order_inc hs hx x rfl,
    take_order_inc hs hx y hy, take_order_inc hs hx m hm]

theorem blank_tight {y : List F} : blank y (y.map Option.isNone) = y := blank_isNone y

/-! ### lists -/

theorem zip_insert {α β : Type} (l : List α) (k : List β) (n : Nat) (a : α) (b : β) (h : l.length = k.length) :
    ((l.take n ++ [a] ++ l.drop n).zip (k.take n ++ [b] ++ k.drop n)).Perm ((a, b) :: l.zip k) := by
  rw [List.zip_append (by simp [h]), List.zip_append (by simp [h])]
  have hz : (l.take n).zip (k.take n) ++ (l.drop n).zip (k.drop n) = l.zip k := by
    rw [← List.zip_append (by simp [h]), List.take_append_drop, List.take_append_drop]
  rw [← hz]
  simp only [List.zip_cons_cons, List.zip_nil_right, List.append_assoc, List.singleton_append]
  exact List.perm_middle

theorem remove_eq {α : Type} (l : List α) (n : Nat) : l.take n ++ l.drop (n + 1) = l.eraseIdx n := by
  rw [List.eraseIdx_eq_take_drop_succ]

theorem zip_eraseIdx {α β : Type} (l : List α) (k : List β) (n : Nat) (h : l.length = k.length) :
    (l.eraseIdx n).zip (k.eraseIdx n) = (l.zip k).eraseIdx n := by
  induction l generalizing k n with
  | nil => simp
  | cons a l ih =>
    rcases k with _ | ⟨b, k⟩
    · simp at h
    · rcases n with _ | n
      · simp
      · simp [ih k n (by simpa using h)]

theorem slice_length {α β : Type} {l : List α} {k : List β} (h : l.length = k.length) (i j : Nat) :
    (slice l i j).length = (slice k i j).length := by unfold slice; simp [h]

theorem slice_zip {α β : Type} (l : List α) (k : List β) (i j : Nat) :
    (slice l i j).zip (slice k i j) = slice (l.zip k) i j := by
  unfold slice
  unfold List.zip
  rw [← List.drop_zipWith, ← List.take_zipWith]

theorem slice_map {α β : Type} (f : α → β) (l : List α) (i j : Nat) : slice (l.map f) i j = (slice l i j).map f := by
  unfold slice; simp

theorem slice_sublist {α : Type} (l : List α) (i j : Nat) : (slice l i j).Sublist l :=
  (List.drop_sublist _ _).trans (List.take_sublist _ _)

theorem pySlice_length {α β : Type} {l : List α} {k : List β} (h : l.length = k.length) (s : Nat × Option Nat) :
    (pySlice l s).length = (pySlice k s).length := by unfold pySlice; rw [h]; exact slice_length h _ _

theorem sel_cons {α : Type} (a : α) (l : List α) (b : Bool) (m : List Bool) :
    sel (a :: l) (b :: m) = if b then a :: sel l m else sel l m := by
  unfold sel
  cases b <;> simp

theorem sel_map {α β : Type} (f : α → β) (l : List α) (m : List Bool) : (sel l m).map f = sel (l.map f) m := by
  induction m generalizing l with
  | nil => simp [sel]
  | cons b m ih =>
    rcases l with _ | ⟨a, l⟩
    · simp [sel]
    rw [sel_cons, List.map_cons, sel_cons, ← ih]
    cases b <;> simp

theorem sel_zip {α β : Type} (l : List α) (k : List β) (m : List Bool) (h : l.length = k.length) :
    (sel l m).zip (sel k m) = sel (l.zip k) m := by
  induction m generalizing l k with
  | nil => simp [sel]
  | cons b m ih =>
    rcases l with _ | ⟨a, l⟩
    · rcases k with _ | _
      · simp [sel]
      · simp at h
    rcases k with _ | ⟨c, k⟩
    · simp at h
    rw [sel_cons, sel_cons, List.zip_cons_cons, sel_cons]
    have := ih l k (by simpa using h)
    cases b
    · simpa using this
    · simp [this]

theorem sel_length {α β : Type} (l : List α) (k : List β) (m : List Bool) (h : l.length = k.length) :
    (sel l m).length = (sel k m).length := by
  induction m generalizing l k with
  | nil => simp [sel]
  | cons b m ih =>
    rcases l with _ | ⟨a, l⟩
    · rcases k with _ | _
      · simp [sel]
      · simp at h
    rcases k with _ | ⟨c, k⟩
    · simp at h
    rw [sel_cons, sel_cons]
    have := ih l k (by simpa using h)
    cases b <;> simp [this]

/-- A filter computed on the second column. -/
theorem sel_filter {α β : Type} (l : List α) (k : List β) (f : β → Bool) (h : l.length = k.length) :
    sel (l.zip k) (k.map f) = (l.zip k).filter fun r => f r.2 := by
  induction k generalizing l with
  | nil => simp [sel]
  | cons b k ih =>
    rcases l with _ | ⟨a, l⟩
    · simp at h
    rw [List.zip_cons_cons, List.map_cons, sel_cons, List.filter_cons, ih l (by simpa using h)]

/-- A contiguous slice is a filter. -/
theorem slice_filter {α : Type} (l : List α) (P : α → Bool) (lo hi : Nat)
    (h : ∀ i (hi' : i < l.length), P l[i] = true ↔ lo ≤ i ∧ i < hi) : slice l lo hi = l.filter P := by
  unfold slice
  induction l generalizing lo hi with
  | nil => simp
  | cons a l ih =>
    have h0 := h 0 (by simp)
    have hs : ∀ i (hi' : i < l.length), P l[i] = true ↔ lo ≤ i + 1 ∧ i + 1 < hi := by
      intro i hi'
      have := h (i + 1) (by simpa using hi')
      simpa using this
    rw [List.filter_cons]
    rcases hi with _ | hi
    · have hn : ¬ P a = true := by rw [show a = (a :: l)[0] from rfl, h0]; omega
      rw [if_neg hn]
      have := ih 0 0 (fun i hi' => by rw [hs i hi']; omega)
      simpa using this
    · rcases lo with _ | lo
      · have hn : P a = true := by rw [show a = (a :: l)[0] from rfl, h0]; omega
        rw [if_pos hn, List.take_succ_cons, List.drop_zero]
        have := ih 0 hi (fun i hi' => by rw [hs i hi']; omega)
        rw [List.drop_zero] at this
        rw [this]
      · have hn : ¬ P a = true := by rw [show a = (a :: l)[0] from rfl, h0]; omega
        rw [if_neg hn, List.take_succ_cons, List.drop_succ_cons]
        exact ih lo hi (fun i hi' => by rw [hs i hi']; omega)

end IMT.Profile
