import Verif.Points.Model

/-! Lemmas on masks, orders and alignment of point sets. -/

namespace IMT.Points

theorem sel_cons {α : Type} (a : α) (l : List α) (b : Bool) (m : List Bool) :
    sel (a :: l) (b :: m) = if b then sel l m else a :: sel l m := by
  unfold sel
  cases b <;> simp

theorem sel_map {α : Type} (l : List α) (f : α → Bool) : sel l (l.map f) = l.filter fun a => !f a := by
  induction l with
  | nil => rfl
  | cons a l ih =>
    rw [List.map_cons, sel_cons, ih, List.filter_cons]
    cases f a <;> simp

theorem sel_length {α β : Type} (l : List α) (k : List β) (m : List Bool) (h : l.length = m.length)
    (h' : k.length = m.length) : (sel l m).length = (sel k m).length := by
  induction m generalizing l k with
  | nil => simp [sel]
  | cons b m ih =>
    rcases l with _ | ⟨a, l⟩
    · simp at h
    rcases k with _ | ⟨c, k⟩
    · simp at h'
    rw [sel_cons, sel_cons]
    have := ih l k (by simpa using h) (by simpa using h')
    cases b <;> simp [this]

theorem sel_zipWith {α β γ : Type} (f : α → β → γ) (l : List α) (k : List β) (m : List Bool) (h : l.length = m.length)
    (h' : k.length = m.length) : List.zipWith f (sel l m) (sel k m) = sel (List.zipWith f l k) m := by
  induction m generalizing l k with
  | nil => simp [sel]
  | cons b m ih =>
    rcases l with _ | ⟨a, l⟩
    · simp at h
    rcases k with _ | ⟨c, k⟩
    · simp at h'
    rw [sel_cons, sel_cons, List.zipWith_cons_cons, sel_cons]
    have := ih l k (by simpa using h) (by simpa using h')
    cases b
    · simp [this]
    · simpa using this

theorem sel_zip {α β : Type} (l : List α) (k : List β) (m : List Bool) (h : l.length = m.length)
    (h' : k.length = m.length) : (sel l m).zip (sel k m) = sel (l.zip k) m := sel_zipWith Prod.mk l k m h h'

theorem map_sel {α β : Type} (f : α → β) (l : List α) (m : List Bool) : (sel l m).map f = sel (l.map f) m := by
  induction m generalizing l with
  | nil => simp [sel]
  | cons b m ih =>
    rcases l with _ | ⟨a, l⟩
    · simp [sel]
    rw [sel_cons, List.map_cons, sel_cons, ← ih]
    cases b <;> simp

theorem rows_length {p : P} (h : Aligned p) : (rows p).length = p.xy.length := by
  unfold rows
  by_cases hv : p.v = []
  · rw [if_pos hv]; simp
  · rw [if_neg hv]
    rcases h with h | h
    · exact absurd h hv
    · simp [h]

theorem rows_xy {p : P} (h : Aligned p) : (rows p).map Prod.fst = p.xy := by
  unfold rows
  by_cases hv : p.v = []
  · rw [if_pos hv]; simp [Function.comp_def]
  · rw [if_neg hv]
    rcases h with h | h
    · exact absurd h hv
    · apply List.ext_getElem
      · simp [h]
      · intro i h1 h2; simp

theorem setXY_aligned (p : P) (l : List (F × F)) : Aligned (setXY p l) := by
  unfold Aligned setXY
  by_cases h : l.length = p.v.length
  · right; simp [h]
  · left; simp [h]

theorem setV_aligned {p q : P} {w : List F} (h : setV p w = .ok q) : Aligned q := by
  unfold setV at h
  split at h
  · rename_i hw
    cases h
    rcases hw with hw | hw
    · left; exact List.length_eq_zero_iff.mp hw
    · right; exact hw
  · cases h

theorem deleteAll_length {α β : Type} (l : List α) (k : List β) (inds : List Int) (h : l.length = k.length) :
    (deleteAll l inds).length = (deleteAll k inds).length := by
  unfold deleteAll
  rw [List.length_map, List.length_map, h, List.zipIdx_eq_zip_range', List.zipIdx_eq_zip_range', h]
  have : ∀ (f : Nat → Bool) (l : List α) (k : List β) (s : List Nat), l.length = k.length →
      ((l.zip s).filter fun q => f q.2).length = ((k.zip s).filter fun q => f q.2).length := by
    intro f l
    induction l with
    | nil => intro k s hk; rcases k with _ | _ <;> simp_all
    | cons a l ih =>
      intro k s hk
      rcases k with _ | ⟨c, k⟩
      · simp at hk
      rcases s with _ | ⟨x, s⟩
      · simp
      rw [List.zip_cons_cons, List.zip_cons_cons, List.filter_cons, List.filter_cons]
      have := ih k s (by simpa using hk)
      simp only
      split <;> simp [this]
  exact this (fun n => decide ((n : Int) ∉ inds ∧ (n : Int) - k.length ∉ inds)) l k _ h

/-- The kept elements are those whose index is not listed. -/
theorem deleteAll_zip {α β : Type} (l : List α) (k : List β) (inds : List Int) (h : l.length = k.length) :
    (deleteAll l inds).zip (deleteAll k inds) = deleteAll (l.zip k) inds := by
  have hz : (l.zip k).length = l.length := by simp [h]
  unfold deleteAll
  rw [hz, ← h, List.zipIdx_eq_zip_range', List.zipIdx_eq_zip_range', List.zipIdx_eq_zip_range', hz, ← h]
  have : ∀ (f : Nat → Bool) (l : List α) (k : List β) (s : List Nat), l.length = k.length →
      (((l.zip s).filter fun q => f q.2).map Prod.fst).zip (((k.zip s).filter fun q => f q.2).map Prod.fst) =
        (((l.zip k).zip s).filter fun q => f q.2).map Prod.fst := by
    intro f l
    induction l with
    | nil => intro k s hk; simp
    | cons a l ih =>
      intro k s hk
      rcases k with _ | ⟨c, k⟩
      · simp at hk
      rcases s with _ | ⟨x, s⟩
      · simp
      rw [List.zip_cons_cons, List.zip_cons_cons, List.zip_cons_cons, List.zip_cons_cons, List.filter_cons,
        List.filter_cons, List.filter_cons]
      have := ih k s (by simpa using hk)
      simp only
      split <;> simp [this]
  exact this (fun n => decide ((n : Int) ∉ inds ∧ (n : Int) - l.length ∉ inds)) l k _ h

theorem argsort_perm (l : List F) : (argsort l).Perm (List.range l.length) := List.perm_insertionSort _ _

theorem argsort_lt {l : List F} {i : Nat} (h : i ∈ argsort l) : i < l.length :=
  List.mem_range.mp ((argsort_perm l).mem_iff.mp h)

theorem take_length {α : Type} {l : List α} {o : List Nat} (h : ∀ i ∈ o, i < l.length) : (take l o).length = o.length := by
  unfold take
  induction o with
  | nil => rfl
  | cons i o ih =>
    rw [List.filterMap_cons, List.getElem?_eq_getElem (h i (by simp))]
    simp [ih fun j hj => h j (by simp [hj])]

theorem take_cons {α : Type} (l : List α) (i : Nat) (o : List Nat) : take l (i :: o) = l[i]?.toList ++ take l o := by
  unfold take
  rw [List.filterMap_cons]
  cases l[i]? <;> rfl

theorem take_zipWith {α β γ : Type} (f : α → β → γ) (l : List α) (k : List β) (o : List Nat)
    (h : ∀ i ∈ o, i < l.length) (h' : l.length = k.length) :
    List.zipWith f (take l o) (take k o) = take (List.zipWith f l k) o := by
  induction o with
  | nil => rfl
  | cons i o ih =>
    have hi := h i (by simp)
    rw [take_cons, take_cons, take_cons, List.getElem?_eq_getElem hi, List.getElem?_eq_getElem (h' ▸ hi),
      List.getElem?_eq_getElem (by simp; omega)]
    simp only [Option.toList_some, List.singleton_append, List.zipWith_cons_cons]
    rw [ih fun j hj => h j (by simp [hj])]
    simp

theorem take_map {α β : Type} (f : α → β) (l : List α) (o : List Nat) : (take l o).map f = take (l.map f) o := by
  unfold take
  rw [List.map_filterMap]
  congr 1
  funext i
  simp

theorem take_range {α : Type} (l : List α) : take l (List.range l.length) = l := by
  unfold take
  induction l with
  | nil => rfl
  | cons a l ih =>
    rw [List.length_cons, List.range_succ_eq_map, List.filterMap_cons]
    simp only [List.getElem?_cons_zero, List.filterMap_map]
    have : ((fun i : Nat => (a :: l)[i]?) ∘ Nat.succ) = fun i : Nat => l[i]? := by funext j; simp
    rw [this, ih]

theorem take_perm {α : Type} (l : List α) {o : List Nat} (h : o.Perm (List.range l.length)) : (take l o).Perm l := by
  have := h.filterMap (fun i : Nat => l[i]?)
  rw [show List.filterMap (fun i : Nat => l[i]?) (List.range l.length) = l from take_range l] at this
  exact this

theorem leF_total (a b : F) : leF a b = true ∨ leF b a = true := by
  rcases a with _ | a <;> rcases b with _ | b <;> simp [leF]
  exact le_total a b

theorem leF_trans {a b c : F} (h1 : leF a b = true) (h2 : leF b c = true) : leF a c = true := by
  rcases a with _ | a <;> rcases b with _ | b <;> rcases c with _ | c <;> simp_all [leF]
  exact le_trans h1 h2

theorem argsort_sorted (l : List F) : (take l (argsort l)).Pairwise fun a b => leF a b = true := by
  have hs : (argsort l).Pairwise fun i j => leF ((l[i]?).getD none) ((l[j]?).getD none) = true := by
    have t1 : Std.Total (fun i j : Nat => leF ((l[i]?).getD none) ((l[j]?).getD none) = true) :=
      ⟨fun i j => leF_total _ _⟩
    have t2 : IsTrans Nat (fun i j : Nat => leF ((l[i]?).getD none) ((l[j]?).getD none) = true) :=
      ⟨fun i j k h1 h2 => leF_trans h1 h2⟩
    exact List.pairwise_insertionSort _ _
  unfold take
  rw [List.pairwise_filterMap]
  exact hs.imp fun {i j} h a ha b hb => by rw [ha, hb] at h; exact h

end IMT.Points
