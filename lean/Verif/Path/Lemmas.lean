import Verif.Path.Model
import Verif.Profile.Props
import Verif.Profile.Arith
import Verif.Line.Section
import Mathlib.Tactic.Linarith
import Mathlib.Tactic.Ring
import Mathlib.Tactic.FieldSimp

/-! Lemmas on trajectories. -/

namespace IMT.Path

open IMT.Profile (Prof F take new IsArgsort pts Valid)

theorem filterMap_range {α : Type} (g : Nat → Option α) (m : Nat) (h : ∀ i, i < m → (g i).isSome) :
    ((List.range m).filterMap g).length = m ∧
      ∀ i, ((List.range m).filterMap g)[i]? = if i < m then g i else none := by
  induction m with
  | zero => simp
  | succ m ih =>
    obtain ⟨h1, h2⟩ := ih fun i hi => h i (by omega)
    obtain ⟨a, ha⟩ := Option.isSome_iff_exists.1 (h m (by omega))
    have he : (List.range (m + 1)).filterMap g = (List.range m).filterMap g ++ [a] := by
      rw [List.range_succ, List.filterMap_append]
      simp [ha]
    constructor
    · rw [he]; simp [h1]
    · intro i
      rw [he, List.getElem?_append, h1, h2]
      by_cases hi : i < m
      · rw [if_pos hi, if_pos hi, if_pos (by omega)]
      · rw [if_neg hi]
        by_cases hm : i = m
        · subst hm
          rw [if_pos (by omega), ha]
          simp
        · rw [if_neg (by omega)]
          apply List.getElem?_eq_none
          simp
          omega

/-- The `i`-th element of `l[::k]` is the `i*k`-th of `l`. -/
theorem every_get {α : Type} {k : Nat} (hk : k ≠ 0) (l : List α) (i : Nat) : (every k l)[i]? = l[i * k]? := by
  have hp : 0 < k := Nat.pos_of_ne_zero hk
  have hin : ∀ i, i < (l.length + k - 1) / k → i * k < l.length := by
    intro i hi
    have h1 : (i + 1) * k ≤ l.length + k - 1 := (Nat.le_div_iff_mul_le hp).1 hi
    rw [Nat.add_mul] at h1
    omega
  have hout : ∀ i, ¬ i < (l.length + k - 1) / k → l.length ≤ i * k := by
    intro i hi
    by_contra hc
    apply hi
    apply (Nat.le_div_iff_mul_le hp).2
    rw [Nat.succ_mul]
    omega
  unfold every
  rw [(filterMap_range (fun i => l[i * k]?) _ fun i hi => by simp [hin i hi]).2 i]
  by_cases hi : i < (l.length + k - 1) / k
  · rw [if_pos hi]
  · rw [if_neg hi, List.getElem?_eq_none (hout i hi)]

theorem thin_get {α : Type} {k : Nat} (hk : k ≠ 0) (l : List α) (i : Nat) : (thin k l)[i]? = l[i * k]? := by
  unfold thin
  by_cases h : k ≠ 1
  · rw [if_pos h, every_get hk]
  · rw [if_neg h]
    have : k = 1 := by omega
    subst this
    rw [Nat.mul_one]

theorem thin_map {α β : Type} (g : α → β) (k : Nat) (l : List α) : thin k (l.map g) = (thin k l).map g := by
  unfold thin every
  split
  · rw [List.map_filterMap, List.length_map]
    apply List.filterMap_congr
    intro i _
    rw [List.getElem?_map]
  · rfl

/-- `Inc` in terms of indices. -/
theorem inc_get {l : List Rat} : Inc l ↔ ∀ (i j : Nat) (a b : Rat), l[i]? = some a → l[j]? = some b → i < j → a < b := by
  unfold Inc
  rw [List.pairwise_iff_getElem]
  constructor
  · intro h i j a b ha hb hij
    obtain ⟨h1, rfl⟩ := List.getElem?_eq_some_iff.1 ha
    obtain ⟨h2, rfl⟩ := List.getElem?_eq_some_iff.1 hb
    exact h i j h1 h2 hij
  · intro h i j h1 h2 hij
    exact h i j _ _ (List.getElem?_eq_getElem h1) (List.getElem?_eq_getElem h2) hij

theorem thin_inc {k : Nat} (hk : k ≠ 0) {l : List Rat} (h : Inc l) : Inc (thin k l) := by
  rw [inc_get] at h ⊢
  intro i j a b ha hb hij
  rw [thin_get hk] at ha hb
  exact h _ _ a b ha hb (Nat.mul_lt_mul_of_pos_right hij (Nat.pos_of_ne_zero hk))

/-- Combination of two neighbours. -/
def pair {α β : Type} (g : α → α → β) : Option α → Option α → Option β
  | some a, some b => some (g a b)
  | _, _ => none

theorem pair_map {α β γ : Type} (g : β → β → γ) (h : α → β) (a b : Option α) :
    pair g (a.map h) (b.map h) = pair (fun a b => g (h a) (h b)) a b := by
  cases a <;> cases b <;> rfl

theorem diffs_get (l : List Rat) (i : Nat) : (diffs l)[i]? = pair (fun a b => b - a) l[i]? l[i + 1]? := by
  induction l generalizing i with
  | nil => simp [diffs, pair]
  | cons a l ih =>
    rcases l with _ | ⟨b, l⟩
    · cases i <;> simp [diffs, pair]
    · cases i with
      | zero => simp [diffs, pair]
      | succ i =>
        simp only [diffs, List.getElem?_cons_succ]
        exact ih i

theorem mids_get (l : List Rat) (i : Nat) : (mids l)[i]? = pair (fun a b => (a + b) / 2) l[i]? l[i + 1]? := by
  unfold mids
  rw [List.getElem?_zipWith, diffs_get]
  rcases l[i]? with _ | a
  · rfl
  · rcases l[i + 1]? with _ | b
    · rfl
    · simp only [pair]
      congr 1
      ring

theorem rates_get {α : Type} (l : List α) (g h : α → Rat) (i : Nat) :
    (rates (l.map g) (l.map h))[i]? = pair (fun a b => quot (g b - g a) (h b - h a)) l[i]? l[i + 1]? := by
  unfold rates
  rw [List.getElem?_zipWith, diffs_get, diffs_get]
  simp only [List.getElem?_map]
  rcases l[i]? with _ | a
  · rfl
  · rcases l[i + 1]? with _ | b
    · rfl
    · rfl

theorem diffs_length (l : List Rat) : (diffs l).length = l.length - 1 := by
  induction l with
  | nil => rfl
  | cons a l ih =>
    rcases l with _ | ⟨b, l⟩
    · rfl
    · simp only [diffs, List.length_cons] at ih ⊢
      omega

theorem mids_length (l : List Rat) : (mids l).length = l.length - 1 := by
  unfold mids
  rw [List.length_zipWith, diffs_length]
  omega

theorem rates_length {l ts : List Rat} (h : l.length = ts.length) : (rates l ts).length = ts.length - 1 := by
  unfold rates
  rw [List.length_zipWith, diffs_length, diffs_length, h]
  omega

theorem pair_some {α β : Type} {g : α → α → β} {a b : Option α} {c : β} (h : pair g a b = some c) :
    ∃ x y, a = some x ∧ b = some y ∧ g x y = c := by
  rcases a with _ | x
  · simp [pair] at h
  · rcases b with _ | y
    · simp [pair] at h
    · exact ⟨x, y, rfl, rfl, by simpa [pair] using h⟩

theorem mids_inc {l : List Rat} (h : Inc l) : Inc (mids l) := by
  rw [inc_get] at h ⊢
  intro i j a b ha hb hij
  rw [mids_get] at ha hb
  obtain ⟨a1, a2, e1, e2, rfl⟩ := pair_some ha
  obtain ⟨b1, b2, e3, e4, rfl⟩ := pair_some hb
  have h1 := h i j _ _ e1 e3 hij
  have h2 := h (i + 1) (j + 1) _ _ e2 e4 (by omega)
  linarith

/-- The rows in the order of the instants. -/
def sorted (srt : List Rat → List Nat) (t : T) : List (Rat × (Rat × Rat)) := take (rows t) (srt t.v)

variable {srt : List Rat → List Nat} {t : T}

theorem sorted_fst (ht : Timed t) : (sorted srt t).map Prod.fst = take t.v (srt t.v) := by
  unfold sorted rows
  rw [← Profile.take_map, List.map_fst_zip (by rw [ht.1])]

theorem sorted_snd (ht : Timed t) : (sorted srt t).map Prod.snd = take t.xy (srt t.v) := by
  unfold sorted rows
  rw [← Profile.take_map, List.map_snd_zip (by rw [ht.1])]

theorem sorted_perm (hs : IsArgsort srt) (ht : Timed t) : (sorted srt t).Perm (rows t) :=
  Profile.take_nodup hs t.v _ (by simp [rows, ht.1])

theorem sorted_inc (hs : IsArgsort srt) (ht : Timed t) : Inc ((sorted srt t).map Prod.fst) := by
  rw [sorted_fst ht]
  have hn : (take t.v (srt t.v)).Nodup := (Profile.take_nodup hs t.v t.v rfl).nodup_iff.2 ht.2.1
  exact ((hs t.v).2.and hn).imp fun h => lt_of_le_of_ne h.1 h.2

theorem zip_get {α β : Type} (l : List α) (k : List β) (i : Nat) :
    (l.zip k)[i]? = match l[i]?, k[i]? with
      | some a, some b => some (a, b)
      | _, _ => none := by
  rw [List.zip, List.getElem?_zipWith]
  rcases l[i]? <;> rcases k[i]? <;> rfl

/-- The profile built on abscissae that increase. -/
theorem new_inc (hs : IsArgsort srt) {x : List Rat} {y : List F} (ux uy : Sym) (hx : Inc x) (hy : y.length = x.length) :
    ∃ q, new srt x y (.flag false) ux uy = .ok q ∧ Valid q ∧ q.x = x ∧ pts q = x.zip y ∧ q.ux = ux ∧ q.uy = uy := by
  have hm : (List.replicate x.length false).length = x.length := by simp
  have hb : Profile.blank y (List.replicate x.length false) = y := by rw [← hy]; exact Profile.blank_false y
  refine ⟨_, Profile.new_flag false ux uy hy, (Profile.build_spec hs ux uy hy hm).1, ?_, ?_, rfl, rfl⟩
  · rw [Profile.build_inc hs ux uy hx hy hm]
  · rw [(Profile.build_spec hs ux uy hy hm).2, hb]
    exact Profile.take_order_inc hs hx _ (by simp [hy])

theorem quot_pos {a b : Rat} (h : 0 < b) : quot a b = some (a / b) := by
  unfold quot
  rw [if_neg (ne_of_gt h)]

end IMT.Path
