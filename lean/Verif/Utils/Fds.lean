import Verif.Utils.Model

/-!
Property C77: the context silencing the output.
-/

namespace IMT.Utils

variable {F : Type}

/-! ### Specification -/

/-- Number of open descriptors. -/
def opened (t : Fds F) : Nat := t.countP (·.isSome)

/-- Number of times a program enters the context. -/
def Prog.quiets : Prog → Nat
  | .nop => 0
  | .print => 0
  | .seq p q => p.quiets + q.quiets
  | .quiet p => p.quiets + 1

/-- Where the prints of a program should go: to `out` outside the context, to `null` inside. -/
def Prog.goes (null : F) : Prog → F → List F
  | .nop, _ => []
  | .print, out => [out]
  | .seq p q, out => p.goes null out ++ q.goes null out
  | .quiet p, _ => p.goes null null

/-! ### Lemmas -/

theorem fileAt_lt {t : Fds F} {k : Nat} {f : F} (h : fileAt t k = some f) : k < t.length := by
  unfold fileAt at h
  by_contra hk
  rw [List.getElem?_eq_none (by omega)] at h
  cases h

theorem fileAt_set {t : Fds F} {k : Nat} (h : k < t.length) (v : Option F) (j : Nat) :
    fileAt (t.set k v) j = if j = k then v else fileAt t j := by
  unfold fileAt
  rw [List.getElem?_set]
  by_cases hj : j = k
  · subst hj; simp [h]
  · rw [if_neg (Ne.symm hj), if_neg hj]

theorem fileAt_lowest (t : Fds F) : fileAt t (lowest t) = none := by
  unfold fileAt lowest
  by_cases h : t.findIdx (·.isNone) < t.length
  · rw [List.getElem?_eq_getElem h]
    have := List.findIdx_getElem (w := h)
    simpa using this
  · rw [List.getElem?_eq_none (by omega)]
    rfl

theorem lowest_le (t : Fds F) : lowest t ≤ t.length := List.findIdx_le_length

theorem fileAt_alloc (t : Fds F) (v : Option F) (j : Nat) :
    fileAt (alloc t v) j = if j = lowest t then v else fileAt t j := by
  unfold alloc
  split
  · next h => exact fileAt_set h v j
  · next h =>
    have hl : lowest t = t.length := by have := lowest_le t; omega
    rw [hl]
    unfold fileAt
    rw [List.getElem?_append]
    split
    · next hj => rw [if_neg (by omega)]
    · next hj =>
      by_cases e : j = t.length
      · subst e; simp
      · rw [if_neg e, List.getElem?_eq_none (by simp; omega), List.getElem?_eq_none (by omega)]

theorem opened_set {t : Fds F} {k : Nat} (h : k < t.length) (v : Option F) :
    opened (t.set k v) + (if (fileAt t k).isSome then 1 else 0) = opened t + if v.isSome then 1 else 0 := by
  have e : fileAt t k = t[k] := by unfold fileAt; rw [List.getElem?_eq_getElem h]; rfl
  rw [e]
  unfold opened
  rw [List.countP_set h]
  have : (if t[k].isSome then 1 else 0) ≤ t.countP (·.isSome) := by
    split
    · next hs => exact List.countP_pos_iff.2 ⟨t[k], List.getElem_mem h, hs⟩
    · omega
  omega

theorem opened_alloc (t : Fds F) (f : F) : opened (alloc t (some f)) = opened t + 1 := by
  unfold alloc
  split
  · next h =>
    have := opened_set h (some f)
    rw [fileAt_lowest] at this
    simpa using this
  · unfold opened; simp

/-- What `__enter__` does. -/
theorem enter_spec (null : F) {t : Fds F} {a b : F} (h1 : fileAt t 1 = some a) (h2 : fileAt t 2 = some b) :
    ∃ (n0 n1 s0 s1 : Nat) (t6 : Fds F), enter null t = (t6, n0, n1, s0, s1) ∧
      (∀ k, fileAt t6 k = if k = 2 then some null else if k = 1 then some null else if k = s1 then some b else
        if k = s0 then some a else if k = n1 then some null else if k = n0 then some null else fileAt t k) ∧
      opened t6 = opened t + 4 ∧
      fileAt t n0 = none ∧ fileAt t n1 = none ∧ fileAt t s0 = none ∧ fileAt t s1 = none ∧
      n0 ≠ n1 ∧ n0 ≠ s0 ∧ n0 ≠ s1 ∧ n1 ≠ s0 ∧ n1 ≠ s1 ∧ s0 ≠ s1 := by
  have g0 := fileAt_lowest t
  have f1 := fileAt_alloc t (some null)
  have c1 := opened_alloc t null
  generalize hn0 : lowest t = n0 at g0 f1
  generalize ht1 : alloc t (some null) = t1 at f1 c1
  have g1 := fileAt_lowest t1
  have f2 := fileAt_alloc t1 (some null)
  have c2 := opened_alloc t1 null
  generalize hn1 : lowest t1 = n1 at g1 f2
  generalize ht2 : alloc t1 (some null) = t2 at f2 c2
  have d01 : n0 ≠ n1 := by
    rintro rfl
    rw [f1, if_pos rfl] at g1
    cases g1
  have e1 : fileAt t n1 = none := by rw [f1, if_neg d01.symm] at g1; exact g1
  have n01 : n0 ≠ 1 := by rintro rfl; rw [h1] at g0; cases g0
  have n02 : n0 ≠ 2 := by rintro rfl; rw [h2] at g0; cases g0
  have n11 : n1 ≠ 1 := by rintro rfl; rw [h1] at e1; cases e1
  have n12 : n1 ≠ 2 := by rintro rfl; rw [h2] at e1; cases e1
  have a2 : fileAt t2 1 = some a := by rw [f2, if_neg n11.symm, f1, if_neg n01.symm, h1]
  have g2 := fileAt_lowest t2
  have f3 := fileAt_alloc t2 (some a)
  have c3 := opened_alloc t2 a
  generalize hs0 : lowest t2 = s0 at g2 f3
  generalize ht3 : alloc t2 (some a) = t3 at f3 c3
  have d1s : n1 ≠ s0 := by
    rintro rfl
    rw [f2, if_pos rfl] at g2
    cases g2
  rw [f2, if_neg d1s.symm, f1] at g2
  have d0s : n0 ≠ s0 := by
    rintro rfl
    rw [if_pos rfl] at g2
    cases g2
  rw [if_neg d0s.symm] at g2
  have s01 : s0 ≠ 1 := by rintro rfl; rw [h1] at g2; cases g2
  have s02 : s0 ≠ 2 := by rintro rfl; rw [h2] at g2; cases g2
  have b3 : fileAt t3 2 = some b := by rw [f3, if_neg s02.symm, f2, if_neg n12.symm, f1, if_neg n02.symm, h2]
  have g3 := fileAt_lowest t3
  have f4 := fileAt_alloc t3 (some b)
  have c4 := opened_alloc t3 b
  generalize hs1 : lowest t3 = s1 at g3 f4
  generalize ht4 : alloc t3 (some b) = t4 at f4 c4
  rw [f3, f2, f1] at g3
  have dss : s0 ≠ s1 := by
    rintro rfl
    rw [if_pos rfl] at g3
    cases g3
  rw [if_neg dss.symm] at g3
  have d1t : n1 ≠ s1 := by
    rintro rfl
    rw [if_pos rfl] at g3
    cases g3
  rw [if_neg d1t.symm] at g3
  have d0t : n0 ≠ s1 := by
    rintro rfl
    rw [if_pos rfl] at g3
    cases g3
  rw [if_neg d0t.symm] at g3
  have s11 : s1 ≠ 1 := by rintro rfl; rw [h1] at g3; cases g3
  have s12 : s1 ≠ 2 := by rintro rfl; rw [h2] at g3; cases g3
  -- the two dup2
  have f4' : ∀ k, fileAt t4 k = if k = s1 then some b else if k = s0 then some a else if k = n1 then some null else
      if k = n0 then some null else fileAt t k := by
    intro k; rw [f4, f3, f2, f1]
  have o1 : fileAt t4 1 = some a := by
    rw [f4', if_neg s11.symm, if_neg s01.symm, if_neg n11.symm, if_neg n01.symm, h1]
  have o2 : fileAt t4 2 = some b := by
    rw [f4', if_neg s12.symm, if_neg s02.symm, if_neg n12.symm, if_neg n02.symm, h2]
  have on0 : fileAt t4 n0 = some null := by
    rw [f4', if_neg d0t, if_neg d0s, if_neg d01, if_pos rfl]
  have on1 : fileAt t4 n1 = some null := by
    rw [f4', if_neg d1t, if_neg d1s, if_pos rfl]
  have f5 : ∀ k, fileAt (dup2 t4 n0 1) k = if k = 1 then some null else fileAt t4 k := by
    intro k; unfold dup2; rw [fileAt_set (fileAt_lt o1), on0]
  have c5 : opened (dup2 t4 n0 1) = opened t4 := by
    have := opened_set (fileAt_lt o1) (some null)
    rw [o1] at this
    unfold dup2
    rw [on0]
    simpa using this
  have on1' : fileAt (dup2 t4 n0 1) n1 = some null := by rw [f5, if_neg n11, on1]
  have o2' : fileAt (dup2 t4 n0 1) 2 = some b := by rw [f5, if_neg (by omega), o2]
  have f6 : ∀ k, fileAt (dup2 (dup2 t4 n0 1) n1 2) k = if k = 2 then some null else fileAt (dup2 t4 n0 1) k := by
    intro k
    conv_lhs => unfold dup2
    rw [show t4.set 1 (fileAt t4 n0) = dup2 t4 n0 1 from rfl, fileAt_set (fileAt_lt o2'), on1']
  have c6 : opened (dup2 (dup2 t4 n0 1) n1 2) = opened (dup2 t4 n0 1) := by
    have := opened_set (fileAt_lt o2') (some null)
    rw [o2'] at this
    conv_lhs => unfold dup2
    rw [show t4.set 1 (fileAt t4 n0) = dup2 t4 n0 1 from rfl, on1']
    simpa using this
  refine ⟨n0, n1, s0, s1, dup2 (dup2 t4 n0 1) n1 2, ?_, ?_, ?_, g0, e1, g2, g3, d01, d0s, d0t, d1s, d1t, dss⟩
  · unfold enter
    rw [hn0, ht1, hn1, ht2, a2, hs0, ht3, b3, hs1, ht4]
  · intro k; rw [f6, f5, f4']
  · rw [c6, c5, c4, c3, c2, c1]

/-- What `__exit__` does. -/
theorem exit_spec {t : Fds F} {a b f g x y : F} {n0 n1 s0 s1 : Nat} (h1 : fileAt t 1 = some x) (h2 : fileAt t 2 = some y)
    (hs0 : fileAt t s0 = some a) (hs1 : fileAt t s1 = some b) (hn0 : fileAt t n0 = some f) (hn1 : fileAt t n1 = some g)
    (d : n0 ≠ n1) (n01 : n0 ≠ 1) (n02 : n0 ≠ 2) (n11 : n1 ≠ 1) (n12 : n1 ≠ 2) (s11 : s1 ≠ 1) :
    (∀ k, fileAt (exit t n0 n1 s0 s1) k = if k = n1 then none else if k = n0 then none else if k = 2 then some b else
      if k = 1 then some a else fileAt t k) ∧ opened (exit t n0 n1 s0 s1) + 2 = opened t := by
  have fa : ∀ k, fileAt (dup2 t s0 1) k = if k = 1 then some a else fileAt t k := by
    intro k; unfold dup2; rw [fileAt_set (fileAt_lt h1), hs0]
  have ca : opened (dup2 t s0 1) = opened t := by
    have := opened_set (fileAt_lt h1) (some a)
    rw [h1] at this
    unfold dup2
    rw [hs0]
    simpa using this
  generalize hta : dup2 t s0 1 = ta at fa ca
  have s1a : fileAt ta s1 = some b := by rw [fa, if_neg s11, hs1]
  have h2a : fileAt ta 2 = some y := by rw [fa, if_neg (by omega), h2]
  have fb : ∀ k, fileAt (dup2 ta s1 2) k = if k = 2 then some b else fileAt ta k := by
    intro k; unfold dup2; rw [fileAt_set (fileAt_lt h2a), s1a]
  have cb : opened (dup2 ta s1 2) = opened ta := by
    have := opened_set (fileAt_lt h2a) (some b)
    rw [h2a] at this
    unfold dup2
    rw [s1a]
    simpa using this
  generalize htb : dup2 ta s1 2 = tb at fb cb
  have n0b : fileAt tb n0 = some f := by rw [fb, if_neg n02, fa, if_neg n01, hn0]
  have fc : ∀ k, fileAt (close tb n0) k = if k = n0 then none else fileAt tb k := by
    intro k; unfold close; rw [fileAt_set (fileAt_lt n0b)]
  have cc : opened (close tb n0) + 1 = opened tb := by
    have := opened_set (fileAt_lt n0b) none
    rw [n0b] at this
    simpa [close] using this
  generalize htc : close tb n0 = tc at fc cc
  have n1c : fileAt tc n1 = some g := by rw [fc, if_neg d.symm, fb, if_neg n12, fa, if_neg n11, hn1]
  have fd : ∀ k, fileAt (close tc n1) k = if k = n1 then none else fileAt tc k := by
    intro k; unfold close; rw [fileAt_set (fileAt_lt n1c)]
  have cd : opened (close tc n1) + 1 = opened tc := by
    have := opened_set (fileAt_lt n1c) none
    rw [n1c] at this
    simpa [close] using this
  have e : exit t n0 n1 s0 s1 = close tc n1 := by unfold exit; rw [hta, htb, htc]
  rw [e]
  constructor
  · intro k; rw [fd, fc, fb, fa]
  · omega

theorem exec_spec (null : F) (p : Prog) (t : Fds F) {a b : F} (h1 : fileAt t 1 = some a) (h2 : fileAt t 2 = some b) :
    (∀ k f, fileAt t k = some f → fileAt (exec null p t).1 k = some f) ∧
    (exec null p t).2 = (p.goes null a).map some ∧
    opened (exec null p t).1 = opened t + 2 * p.quiets := by
  induction p generalizing t a b with
  | nop => exact ⟨fun _ _ h => h, rfl, rfl⟩
  | print => exact ⟨fun _ _ h => h, by simp [exec, Prog.goes, h1], rfl⟩
  | seq p q ihp ihq =>
    obtain ⟨p1, p2, p3⟩ := ihp t h1 h2
    obtain ⟨q1, q2, q3⟩ := ihq _ (p1 1 a h1) (p1 2 b h2)
    refine ⟨fun k f h => q1 k f (p1 k f h), ?_, ?_⟩
    · simp only [exec, Prog.goes, List.map_append, p2, q2]
    · simp only [exec, Prog.quiets]
      rw [q3, p3]
      omega
  | quiet p ih =>
    obtain ⟨n0, n1, s0, s1, t6, he, hf, hc, g0, g1, g2, g3, d01, d0s, d0t, d1s, d1t, dss⟩ := enter_spec null h1 h2
    have ne : ∀ {k j : Nat} {f : F}, fileAt t k = none → fileAt t j = some f → k ≠ j := by
      rintro k j f hk hj rfl; rw [hk] at hj; cases hj
    have o1 : fileAt t6 1 = some null := by rw [hf, if_neg (by omega), if_pos rfl]
    have o2 : fileAt t6 2 = some null := by rw [hf, if_pos rfl]
    obtain ⟨p1, p2, p3⟩ := ih t6 o1 o2
    have os1 : fileAt t6 s1 = some b := by
      rw [hf, if_neg (ne g3 h2), if_neg (ne g3 h1), if_pos rfl]
    have os0 : fileAt t6 s0 = some a := by
      rw [hf, if_neg (ne g2 h2), if_neg (ne g2 h1), if_neg dss, if_pos rfl]
    have on1 : fileAt t6 n1 = some null := by
      rw [hf, if_neg (ne g1 h2), if_neg (ne g1 h1), if_neg d1t, if_neg d1s, if_pos rfl]
    have on0 : fileAt t6 n0 = some null := by
      rw [hf, if_neg (ne g0 h2), if_neg (ne g0 h1), if_neg d0t, if_neg d0s, if_neg d01, if_pos rfl]
    obtain ⟨x1, x2⟩ := exit_spec (p1 _ _ o1) (p1 _ _ o2) (p1 _ _ os0) (p1 _ _ os1) (p1 _ _ on0) (p1 _ _ on1) d01
      (ne g0 h1) (ne g0 h2) (ne g1 h1) (ne g1 h2) (ne g3 h1)
    have hx : exec null (.quiet p) t = (exit (exec null p t6).1 n0 n1 s0 s1, (exec null p t6).2) := by
      simp only [exec, he]
    rw [hx]
    refine ⟨?_, ?_, ?_⟩
    · intro k f hk
      show fileAt (exit _ _ _ _ _) k = _
      rw [x1, if_neg (ne g1 hk).symm, if_neg (ne g0 hk).symm]
      by_cases k2 : k = 2
      · subst k2; rw [if_pos rfl, ← hk, h2]
      · rw [if_neg k2]
        by_cases k1 : k = 1
        · subst k1; rw [if_pos rfl, ← hk, h1]
        · rw [if_neg k1]
          apply p1
          rw [hf, if_neg k2, if_neg k1, if_neg (ne g3 hk).symm, if_neg (ne g2 hk).symm, if_neg (ne g1 hk).symm,
            if_neg (ne g0 hk).symm, hk]
    · exact p2
    · show opened (exit _ _ _ _ _) = _
      simp only [Prog.quiets]
      omega

/-! ### C77 -/

/-- C77: whatever the uses and the nesting of the context, every descriptor that was open, the standard output and the standard
error among them, is open on the same file afterwards; what is printed inside goes nowhere and what is printed outside goes
to the standard output.  Partial: descriptors are leaked, see `C77_leak_violated`. -/
theorem C77_restore_partial (null : F) (p : Prog) (t : Fds F) {a b : F} (h1 : fileAt t 1 = some a) (h2 : fileAt t 2 = some b) :
    (∀ k f, fileAt t k = some f → fileAt (exec null p t).1 k = some f) ∧ (exec null p t).2 = (p.goes null a).map some :=
  ⟨(exec_spec null p t h1 h2).1, (exec_spec null p t h1 h2).2.1⟩

/-- C77 fails: every use of the context leaves two descriptors open for ever. -/
theorem C77_leak_violated (null : F) (p : Prog) (t : Fds F) {a b : F} (h1 : fileAt t 1 = some a) (h2 : fileAt t 2 = some b) :
    opened (exec null p t).1 = opened t + 2 * p.quiets :=
  (exec_spec null p t h1 h2).2.2

/-- A table with a hole, and a nested use. -/
example : exec "null" (.seq .print (.seq (.quiet (.seq .print (.quiet .print))) .print))
      [some "in", some "out", some "err", none, some "data"] =
    ([some "in", some "out", some "err", none, some "data", none, some "out", some "err", none, none, some "null",
        some "null"],
      [some "out", some "null", some "null", some "out"]) := by
  decide

end IMT.Utils
