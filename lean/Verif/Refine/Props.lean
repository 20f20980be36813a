import Verif.Refine.Model
import Mathlib.Tactic.Ring
import Mathlib.Algebra.Field.Rat
import Mathlib.Algebra.BigOperators.Group.List.Basic
import Mathlib.Algebra.Order.Field.Rat

/-!
Properties of the classes of detected points, of the refinement of critical points and of the averaging of fields along a
trajectory.
-/

namespace IMT.Refine

/-! ### C323: the classes of the detected points -/

/-- The number of each class: an independent table. -/
def Cls.number : Cls → Nat
  | .sadd => 0
  | .focC => 1
  | .foc => 2
  | .nodeO => 3
  | .nodeI => 4

theorem clsOf_number (c : Cls) : clsOf c.number = .ok c := by cases c <;> rfl

theorem clsOf_eq {t : Nat} {c : Cls} (h : clsOf t = .ok c) : t = c.number := by
  unfold clsOf at h
  split_ifs at h <;> first | (cases h; done) | (cases h; simpa [Cls.number])

theorem clsOf_err {t : Nat} {e : Err} (h : clsOf t = .error e) : 4 < t ∧ e = .exception := by
  unfold clsOf at h
  split_ifs at h
  cases h
  exact ⟨by omega, rfl⟩

theorem get_add (s : Sets) (c d : Cls) (q : Pos × Rat) :
    (s.add c q).get d = s.get d ++ if c = d then [q] else [] := by
  cases c <;> cases d <;> simp [Sets.add, Sets.get]

theorem sortAll_get (time : Rat) (l : List (Pos × Nat)) (s r : Sets) (h : sortAll time s l = .ok r) (c : Cls) :
    r.get c = s.get c ++ ((l.filter fun q => decide (q.2 = c.number)).map fun q => (q.1, time)) := by
  induction l generalizing s with
  | nil => simp only [sortAll] at h; cases h; simp
  | cons q l ih =>
    unfold sortAll at h
    split at h
    · rename_i d hd
      have e := clsOf_eq hd
      rw [ih _ h, get_add, List.append_assoc]
      congr 1
      by_cases m : d = c
      · subst m; simp [e]
      · have : q.2 ≠ c.number := by
          rw [e]; intro k
          have := clsOf_number d
          rw [k, clsOf_number] at this
          exact m (by cases this; rfl)
        simp [m, this]
    · cases h

theorem sortAll_ok (time : Rat) (l : List (Pos × Nat)) (s : Sets) (h : ∀ q ∈ l, q.2 ≤ 4) : ∃ r, sortAll time s l = .ok r := by
  induction l generalizing s with
  | nil => exact ⟨s, rfl⟩
  | cons q l ih =>
    unfold sortAll
    split
    · exact ih _ fun q m => h q (by simp [m])
    · rename_i e he
      have := (clsOf_err he).1
      have := h q (by simp)
      omega

theorem sortAll_err (time : Rat) (l : List (Pos × Nat)) (s : Sets) (h : ∃ q ∈ l, 4 < q.2) :
    sortAll time s l = .error .exception := by
  induction l generalizing s with
  | nil => simp at h
  | cons q l ih =>
    unfold sortAll
    split
    · rename_i c hc
      refine ih _ ?_
      obtain ⟨p, hp, hq⟩ := h
      rcases List.mem_cons.mp hp with rfl | m
      · have := clsOf_eq hc
        cases c <;> simp [Cls.number] at this <;> omega
      · exact ⟨p, m, hq⟩
    · rename_i e he
      rw [(clsOf_err he).2]

/-- C323: the detected points of the numbers 0 to 4 are split between the five classes, each class holding exactly the points
of its number, in the order of the detection and at the instant of the field. -/
theorem C323_classes (time : Rat) (l : List (Pos × Nat)) (h : ∀ q ∈ l, q.2 ≤ 4) :
    ∃ r, classify time l = .ok r ∧
      ∀ c : Cls, r.get c = (l.filter fun q => decide (q.2 = c.number)).map fun q => (q.1, time) := by
  obtain ⟨r, hr⟩ := sortAll_ok time l ⟨[], [], [], [], []⟩ h
  refine ⟨r, hr, fun c => ?_⟩
  have := sortAll_get time l _ r hr c
  rw [this]
  cases c <;> rfl

/-- C323: no point is lost or counted twice. -/
theorem C323_count (time : Rat) (l : List (Pos × Nat)) (h : ∀ q ∈ l, q.2 ≤ 4) :
    ∃ r, classify time l = .ok r ∧
      r.sadd.length + r.focC.length + r.foc.length + r.nodeO.length + r.nodeI.length = l.length := by
  obtain ⟨r, hr, hc⟩ := C323_classes time l h
  refine ⟨r, hr, ?_⟩
  have a0 := hc .sadd
  have a1 := hc .focC
  have a2 := hc .foc
  have a3 := hc .nodeO
  have a4 := hc .nodeI
  simp only [Sets.get] at a0 a1 a2 a3 a4
  rw [a0, a1, a2, a3, a4]
  simp only [List.length_map]
  clear hr hc a0 a1 a2 a3 a4
  induction l with
  | nil => rfl
  | cons q l ih =>
    have i := ih fun q m => h q (by simp [m])
    have b := h q (by simp)
    simp only [List.filter_cons, Cls.number] at i ⊢
    have : q.2 = 0 ∨ q.2 = 1 ∨ q.2 = 2 ∨ q.2 = 3 ∨ q.2 = 4 := by omega
    rcases this with e | e | e | e | e <;> simp [e] <;> omega

/-- C323: any other number is refused. -/
theorem C323_other (time : Rat) (l : List (Pos × Nat)) (h : ∃ q ∈ l, 4 < q.2) : classify time l = .error .exception :=
  sortAll_err time l _ h

example : ((classify 2 [((0, 1), 0), ((5, 5), 4), ((1, 1), 2), ((3, 3), 0)]).toOption.map fun r => r.sadd)
    = some [((0, 1), 2), ((3, 3), 2)] := by decide +kernel

/-! ### C324: putting the critical points on the extrema of a field -/

/-- The frame of an instant after the refinement, for a user: each point goes to the end of its own path. -/
def moved (f : Fld) (p : Frame) : Frame := ⟨p.xy.map f.climb, p.v⟩

theorem nearest_inside (f : Fld) (l : List Pos) (h : ∀ q ∈ l, f.inside q = true) : nearestExtrema f l = l.map f.climb := by
  unfold nearestExtrema
  rw [List.filter_eq_self.mpr h]

theorem refineFrame_spec (fields : List (Rat × Fld)) (t : Rat) (p : Frame) (f : Fld) (hf : fieldAt fields t = some f)
    (hv : p.v.length = p.xy.length) (h : ∀ q ∈ p.xy, f.inside q = true) :
    refineFrame fields t p = .ok (moved f p) := by
  unfold refineFrame
  by_cases e : p.xy.length = 0
  · rw [if_pos e]
    have n := List.length_eq_zero_iff.mp e
    cases p
    simp only at n
    subst n
    rfl
  · rw [if_neg e, hf]
    simp only [setXY, moved, nearest_inside f _ h, List.length_map, hv, ne_eq, not_true_eq_false, if_false]

theorem refineAll_spec (fields : List (Rat × Fld)) (l : List (Rat × Frame))
    (h : ∀ q ∈ l, ∃ f, fieldAt fields q.1 = some f ∧ q.2.v.length = q.2.xy.length ∧ ∀ x ∈ q.2.xy, f.inside x = true) :
    ∃ r, refineAll fields l = .ok r ∧ r.length = l.length ∧
      ∀ (i : Nat) (q : Rat × Frame), l[i]? = some q → ∃ f, fieldAt fields q.1 = some f ∧ r[i]? = some (moved f q.2) := by
  induction l with
  | nil => exact ⟨[], rfl, rfl, by simp⟩
  | cons a l ih =>
    obtain ⟨r, hr, hl, hi⟩ := ih fun q m => h q (by simp [m])
    obtain ⟨f, hf, hv, hin⟩ := h a (by simp)
    refine ⟨moved f a.2 :: r, ?_, by simp [hl], ?_⟩
    · unfold refineAll
      rw [refineFrame_spec fields a.1 a.2 f hf hv hin, hr]
    · intro i q hq
      cases i with
      | zero => simp at hq; subst hq; exact ⟨f, hf, by simp⟩
      | succ i => simpa using hi i q (by simpa using hq)

theorem fieldAt_of_mem (fields : List (Rat × Fld)) (hn : (fields.map Prod.fst).Nodup) (q : Rat × Fld) (hq : q ∈ fields) :
    fieldAt fields q.1 = some q.2 := by
  induction fields with
  | nil => simp at hq
  | cons a l ih =>
    unfold fieldAt
    rcases List.mem_cons.mp hq with rfl | m
    · simp
    · have hne : a.1 ≠ q.1 := by
        intro e
        have := (List.nodup_cons.mp hn).1
        exact this (e ▸ List.mem_map_of_mem m)
      rw [List.find?_cons_of_neg (by simpa using hne)]
      exact ih (List.nodup_cons.mp hn).2 m

/-- C324: when every point of the chosen class is within the axes of the field of its instant, refining it moves each of these
points to the extremum its path leads to in the field of that instant, and keeps its value, the other classes and the instants;
the trajectories are forgotten.  With `inplace` the object changes; without it, it is left as it was. -/
theorem C324_refine_partial (c : Cp) (k : Cls) (fields : List (Rat × Fld)) (inplace : Bool)
    (ht : c.times = fields.map Prod.fst) (hn : c.times.Nodup) (hl : (c.get k).length = c.times.length)
    (hv : ∀ p ∈ c.get k, p.v.length = p.xy.length)
    (hi : ∀ (i : Nat) (p : Frame) (q : Rat × Fld), (c.get k)[i]? = some p → fields[i]? = some q → ∀ x ∈ p.xy, q.2.inside x = true) :
    ∃ new : Cp, refine c k fields inplace = .ok (if inplace then (new, none) else (c, some new)) ∧
      new.times = c.times ∧ new.traj = false ∧ (∀ k', k' ≠ k → new.get k' = c.get k') ∧
      (new.get k).length = (c.get k).length ∧
      ∀ (i : Nat) (p : Frame) (q : Rat × Fld), (c.get k)[i]? = some p → fields[i]? = some q →
        (new.get k)[i]? = some ⟨p.xy.map q.2.climb, p.v⟩ := by
  have at' : ∀ (i : Nat) (q : Rat × Fld), fields[i]? = some q → fieldAt fields q.1 = some q.2 := fun i q h =>
    fieldAt_of_mem fields (ht ▸ hn) q (List.mem_of_getElem? h)
  have lf : fields.length = c.times.length := by rw [ht]; simp
  have tm : ∀ (i : Nat) (t : Rat), c.times[i]? = some t → ∃ q, fields[i]? = some q ∧ q.1 = t := by
    intro i t h
    rw [ht, List.getElem?_map] at h
    cases e : fields[i]? with
    | none => rw [e] at h; cases h
    | some q => rw [e] at h; exact ⟨q, rfl, by simpa using h⟩
  have key := refineAll_spec fields (c.times.zip (c.get k)) (by
    intro q hq
    obtain ⟨i, hi'⟩ := List.mem_iff_getElem?.mp hq
    rw [List.getElem?_zip_eq_some] at hi'
    obtain ⟨g, hg, e⟩ := tm i _ hi'.1
    refine ⟨g.2, ?_, hv _ (List.mem_of_getElem? hi'.2), hi i _ g hi'.2 hg⟩
    rw [← e]
    exact at' i g hg)
  obtain ⟨r, hr, hlen, hsp⟩ := key
  refine ⟨store c k r, ?_, rfl, rfl, ?_, ?_, ?_⟩
  · unfold refine
    rw [if_neg (by simpa using ht), hr]
    cases inplace <;> rfl
  · intro k' h
    simp [store, h]
  · simp [store, hlen, hl]
  · intro i p q hp hq
    have hz : (c.times.zip (c.get k))[i]? = some (q.1, p) := by
      rw [List.getElem?_zip_eq_some]
      refine ⟨?_, hp⟩
      rw [ht, List.getElem?_map, hq]
      rfl
    obtain ⟨f, hf, he⟩ := hsp i _ hz
    have : f = q.2 := by
      have := at' i q hq
      simp only at hf
      rw [this] at hf
      exact (Option.some.inj hf).symm
    subst this
    simpa [store, moved] using he

/-- C324: fields of other instants are refused. -/
theorem C324_instants (c : Cp) (k : Cls) (fields : List (Rat × Fld)) (inplace : Bool) (h : c.times ≠ fields.map Prod.fst) :
    refine c k fields inplace = .error .valueError := by
  unfold refine
  rw [if_pos h]

/-- C324 fails as soon as a point is out of the axes of the field: the point is not left where it was but disappears, and the
instants of the other points of its set are lost with it. -/
theorem C324_outside_violated (fields : List (Rat × Fld)) (t : Rat) (p : Frame) (f : Fld) (hf : fieldAt fields t = some f)
    (hv : p.v.length = p.xy.length) (h : ∃ q ∈ p.xy, f.inside q = false) :
    ∃ r, refineFrame fields t p = .ok r ∧ r.xy.length < p.xy.length ∧ r.v = [] := by
  obtain ⟨q, hq, hin⟩ := h
  have lt : (p.xy.filter f.inside).length < p.xy.length :=
    List.length_filter_lt_length_iff_exists.mpr ⟨q, hq, by simp [hin]⟩
  have ne : p.xy.length ≠ 0 := by
    intro e
    rw [List.length_eq_zero_iff.mp e] at hq
    simp at hq
  unfold refineFrame
  rw [if_neg ne, hf]
  refine ⟨_, rfl, by simpa [setXY, nearestExtrema] using lt, ?_⟩
  simp only [setXY, nearestExtrema, List.length_map, hv]
  rw [if_pos (by omega)]

/-- A field on the square from 0 to 4, whose maximum is in the middle. -/
def dome : Fld := ⟨fun q => decide (0 ≤ q.1 ∧ q.1 ≤ 4 ∧ 0 ≤ q.2 ∧ q.2 ≤ 4), fun _ => (2, 2)⟩

example : ((refineFrame [(7, dome)] 7 ⟨[(1, 1), (3, 2)], [7, 7]⟩).toOption) = some ⟨[(2, 2), (2, 2)], [7, 7]⟩ := by decide +kernel
example : ((refineFrame [(7, dome)] 7 ⟨[(1, 1), (9, 2)], [7, 7]⟩).toOption) = some ⟨[(2, 2)], []⟩ := by decide +kernel

/-! ### C325: averaging fields along a mean trajectory -/

/-- The average of the fields at a point, for a user: the mean of the values when none of them is masked. -/
def meanAt (l : List Vals) (i j : Nat) : Option Rat :=
  if ∀ f ∈ l, f i j ≠ none then some ((l.map fun f => (f i j).getD 0).sum / l.length) else none

theorem addV_fold (l : List Vals) (a : Vals) (i j : Nat) :
    l.foldl addV a i j =
      if a i j ≠ none ∧ ∀ f ∈ l, f i j ≠ none then some ((a i j).getD 0 + (l.map fun f => (f i j).getD 0).sum) else none := by
  induction l generalizing a with
  | nil => cases h : a i j <;> simp [h]
  | cons f l ih =>
    simp only [List.foldl_cons]
    rw [ih]
    unfold addV
    cases ha : a i j with
    | none => simp
    | some x =>
      cases hf : f i j with
      | none => simp [hf]
      | some y =>
        by_cases hl : ∀ g ∈ l, g i j ≠ none
        · rw [if_pos ⟨by simp, hl⟩, if_pos ⟨by simp, by
            intro g hg
            rcases List.mem_cons.mp hg with rfl | m
            · rw [hf]; simp
            · exact hl g m⟩]
          simp only [Option.getD_some, List.map_cons, List.sum_cons, hf]
          congr 1
          ring
        · rw [if_neg (fun c => hl c.2), if_neg (fun c => hl fun g m => c.2 g (by simp [m]))]

theorem averageOf_spec (l : List Vals) (h : l ≠ []) : averageOf l = .ok (meanAt l) := by
  cases l with
  | nil => exact absurd rfl h
  | cons f l =>
    unfold averageOf
    simp only
    congr 1
    funext i j
    unfold divV meanAt
    rw [addV_fold]
    by_cases c : f i j ≠ none ∧ ∀ g ∈ l, g i j ≠ none
    · rw [if_pos c, if_pos (by
        intro g hg
        rcases List.mem_cons.mp hg with rfl | m
        · exact c.1
        · exact c.2 g m)]
      simp
    · rw [if_neg c, if_neg (fun d => c ⟨d f (by simp), fun g m => d g (by simp [m])⟩)]
      rfl

/-- The field of an instant in the record. -/
def Holds (rec : List (Rat × Vals)) (t : Rat) (f : Vals) : Prop := (t, f) ∈ rec

theorem pick_ok (rec : List (Rat × Vals)) (t : Rat) (h : t ∈ rec.map Prod.fst) : ∃ f, pick rec t = .ok f ∧ Holds rec t f := by
  obtain ⟨q, hq, e⟩ := List.mem_map.mp h
  unfold pick
  cases m : rec.find? fun q => decide (q.1 = t) with
  | none =>
    have := List.find?_eq_none.mp m q hq
    simp [e] at this
  | some p =>
    refine ⟨p.2, rfl, ?_⟩
    have a := List.find?_some m
    have b := List.mem_of_find?_eq_some m
    simp at a
    unfold Holds
    rw [← a]
    exact b

theorem pick_err (rec : List (Rat × Vals)) (t : Rat) (h : t ∉ rec.map Prod.fst) : pick rec t = .error .indexError := by
  unfold pick
  rw [List.find?_eq_none.mpr]
  intro q hq
  simp only [decide_eq_true_eq]
  intro e
  exact h (e ▸ List.mem_map_of_mem hq)

theorem pickAll_ok (rec : List (Rat × Vals)) (ts : List Rat) (h : ∀ t ∈ ts, t ∈ rec.map Prod.fst) :
    ∃ l, pickAll rec ts = .ok l ∧ List.Forall₂ (Holds rec) ts l := by
  induction ts with
  | nil => exact ⟨[], rfl, .nil⟩
  | cons t ts ih =>
    obtain ⟨l, hl, fl⟩ := ih fun t m => h t (by simp [m])
    obtain ⟨f, hf, gf⟩ := pick_ok rec t (h t (by simp))
    refine ⟨f :: l, ?_, .cons gf fl⟩
    unfold pickAll
    rw [hf, hl]

theorem pickAll_err (rec : List (Rat × Vals)) (ts : List Rat) (h : ∃ t ∈ ts, t ∉ rec.map Prod.fst) :
    pickAll rec ts = .error .indexError := by
  induction ts with
  | nil => simp at h
  | cons t ts ih =>
    unfold pickAll
    by_cases m : t ∈ rec.map Prod.fst
    · obtain ⟨f, hf, -⟩ := pick_ok rec t m
      rw [hf, ih]
      obtain ⟨s, hs, hn⟩ := h
      rcases List.mem_cons.mp hs with rfl | k
      · exact absurd m hn
      · exact ⟨s, k, hn⟩
    · rw [pick_err rec t m]

/-- What the average of one mean instant must be: the mean of the fields of its real instants. -/
def IsMean (rec : List (Rat × Vals)) (q : Rat × List Rat) (p : Rat × Vals) : Prop :=
  p.1 = q.1 ∧ ∃ l, List.Forall₂ (Holds rec) q.2 l ∧ p.2 = meanAt l

theorem turns_ok (rec : List (Rat × Vals)) (l : List (Rat × List Rat)) (hne : ∀ q ∈ l, q.2 ≠ [])
    (h : ∀ q ∈ l, ∀ t ∈ q.2, t ∈ rec.map Prod.fst) :
    ∃ r, turns rec l = .ok r ∧ List.Forall₂ (IsMean rec) l r := by
  induction l with
  | nil => exact ⟨[], rfl, .nil⟩
  | cons q l ih =>
    obtain ⟨r, hr, fr⟩ := ih (fun q m => hne q (by simp [m])) (fun q m => h q (by simp [m]))
    obtain ⟨g, hg, fg⟩ := pickAll_ok rec q.2 (h q (by simp))
    have gne : g ≠ [] := by
      intro e
      subst e
      exact hne q (by simp) (by cases hq : q.2 with | nil => rfl | cons _ _ => rw [hq] at fg; cases fg)
    refine ⟨(q.1, meanAt g) :: r, ?_, .cons ⟨rfl, g, fg, rfl⟩ fr⟩
    unfold turns turn
    simp only [hg, averageOf_spec g gne, hr]

/-- C325: when every mean instant has real instants and the record holds them, the fields built along the mean trajectory are,
in the order of the mean instants, the means of the fields at the real instants of each, masked where one of these is. -/
theorem C325_average (rec : List (Rat × Vals)) (l : List (Rat × List Rat)) (hne : ∀ q ∈ l, q.2 ≠ [])
    (h : ∀ q ∈ l, ∀ t ∈ q.2, t ∈ rec.map Prod.fst) :
    ∃ r s, reconstruct rec l = .ok s ∧ s.Perm r ∧ s.Pairwise (fun a b => a.1 ≤ b.1) ∧ List.Forall₂ (IsMean rec) l r := by
  obtain ⟨r, hr, fr⟩ := turns_ok rec l hne h
  refine ⟨r, r.insertionSort fun a b => a.1 ≤ b.1, ?_, List.perm_insertionSort _ _, ?_, fr⟩
  · unfold reconstruct
    rw [hr]
  · haveI : Std.Total (fun a b : Rat × Vals => a.1 ≤ b.1) := ⟨fun a b => le_total a.1 b.1⟩
    haveI : IsTrans (Rat × Vals) (fun a b => a.1 ≤ b.1) := ⟨fun a b c h k => le_trans h k⟩
    exact List.pairwise_insertionSort (fun a b : Rat × Vals => a.1 ≤ b.1) r

theorem turns_err (rec : List (Rat × Vals)) (l : List (Rat × List Rat))
    (h : ∃ q ∈ l, q.2 = [] ∨ ∃ t ∈ q.2, t ∉ rec.map Prod.fst) : turns rec l = .error .indexError := by
  have bad : ∀ q : Rat × List Rat, (q.2 = [] ∨ ∃ t ∈ q.2, t ∉ rec.map Prod.fst) → turn rec q = .error .indexError := by
    intro q hq
    unfold turn
    rcases hq with e | e
    · rw [e]; rfl
    · rw [pickAll_err rec q.2 e]
  induction l with
  | nil => simp at h
  | cons q l ih =>
    unfold turns
    by_cases m : q.2 = [] ∨ ∃ t ∈ q.2, t ∉ rec.map Prod.fst
    · rw [bad q m]
    · have hok : ∃ p, turn rec q = .ok p := by
        rw [not_or] at m
        obtain ⟨r, hr, -⟩ := turns_ok rec [q] (by simpa using m.1) (by
          intro q' hq' t ht
          simp at hq'; subst hq'
          by_contra c
          exact m.2 ⟨t, ht, c⟩)
        unfold turns at hr
        split at hr
        · exact ⟨_, by assumption⟩
        · cases hr
        · cases hr
      obtain ⟨p, hp⟩ := hok
      rw [hp, ih]
      obtain ⟨s, hs, hn⟩ := h
      rcases List.mem_cons.mp hs with rfl | k
      · exact absurd hn m
      · exact ⟨s, k, hn⟩

/-- C325: a mean instant without real instants, or with one the record does not hold, raises IndexError. -/
theorem C325_missing (rec : List (Rat × Vals)) (l : List (Rat × List Rat))
    (h : ∃ q ∈ l, q.2 = [] ∨ ∃ t ∈ q.2, t ∉ rec.map Prod.fst) : reconstruct rec l = .error .indexError := by
  unfold reconstruct
  rw [turns_err rec l h]

/-- Two fields: 1 and 3 everywhere, the second masked in a corner. -/
def two : List (Rat × Vals) :=
  [(0, fun _ _ => some 1), (1, fun i _ => if i = 0 then none else some 3)]

example : ((reconstruct two [(5, [0, 1]), (2, [1])]).toOption.map fun r => r.map fun q => (q.1, q.2 0 0, q.2 1 1))
    = some [(2, none, some 3), (5, none, some 2)] := by decide +kernel

end IMT.Refine
