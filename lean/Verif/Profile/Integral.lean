import Verif.Profile.Arith

/-! The integral of a profile: C96. -/

namespace IMT.Profile

variable {srt : List Rat → List Nat}

theorem trapz_append (A : List (Rat × Rat)) (a : Rat × Rat) (B : List (Rat × Rat)) :
    trapz (A ++ a :: B) = trapz (A ++ [a]) + trapz (a :: B) := by
  induction A with
  | nil => simp [trapz]
  | cons c A ih =>
    rcases A with _ | ⟨d, A⟩
    · simp [trapz]
    · show (d.1 - c.1) * (c.2 + d.2) / 2 + trapz (d :: A ++ a :: B) =
        ((d.1 - c.1) * (c.2 + d.2) / 2 + trapz (d :: A ++ [a])) + trapz (a :: B)
      rw [ih]
      ring

theorem trapz_scale (A : List (Rat × Rat)) (sx sy : Rat) :
    trapz (A.map fun r => (r.1 * sx, r.2 * sy)) = trapz A * (sx * sy) := by
  induction A with
  | nil => simp [trapz]
  | cons c A ih =>
    rcases A with _ | ⟨d, A⟩
    · simp [trapz]
    · have := ih
      simp only [List.map_cons] at this ⊢
      rw [trapz, this, trapz]
      ring

/-- C96: the integral is additive: cut at a valid point, the integral of the whole is the sum of those of the two
parts. -/
theorem C96_additive {p q r : Prof} (hp : Valid p) (hq : Valid q) (hr : Valid r) {A B : List (Rat × F)} {x v : Rat}
    (h : pts p = A ++ (x, some v) :: B) (h1 : pts q = A ++ [(x, some v)]) (h2 : pts r = (x, some v) :: B) :
    (integral p).1 = (integral q).1 + (integral r).1 := by
  unfold integral
  simp only
  rw [valid_eq hp, valid_eq hq, valid_eq hr, h, h1, h2, List.filterMap_append, List.filterMap_append]
  simp only [List.filterMap_cons, Option.map_some, List.filterMap_nil]
  exact trapz_append _ _ _

/-- C96: two neighbouring valid points (masked points between them are ignored) give the area of their trapezium, and the
unit is the product of the units. -/
theorem C96_segment {p : Prof} (hp : Valid p) {M : List (Rat × F)} {x1 v1 x2 v2 : Rat}
    (h : pts p = (x1, some v1) :: (M ++ [(x2, some v2)])) (hM : ∀ r ∈ M, r.2 = none) :
    integral p = ((x2 - x1) * (v1 + v2) / 2, p.uy.mul p.ux) := by
  unfold integral
  rw [valid_eq hp, h]
  have hM' : M.filterMap (fun r => r.2.map fun v => (r.1, v)) = [] := by
    rw [List.filterMap_eq_nil_iff]
    intro r hr
    rw [hM r hr]
    rfl
  simp [List.filterMap_append, hM', trapz]

/-- C96: ends that are masked do not count; a profile without two valid points has integral zero. -/
theorem C96_masked {p q : Prof} (hp : Valid p) (hq : Valid q) {A B M : List (Rat × F)} (h : pts p = A ++ M ++ B)
    (hM : ∀ r ∈ M, r.2 = none) (h1 : pts q = A ++ B) : (integral p).1 = (integral q).1 := by
  unfold integral
  rw [valid_eq hp, valid_eq hq, h, h1]
  have hM' : M.filterMap (fun r => r.2.map fun v => (r.1, v)) = [] := by
    rw [List.filterMap_eq_nil_iff]
    intro r hr
    rw [hM r hr]
    rfl
  simp [List.filterMap_append, hM']

/-- C96: the integral of a non-negative profile is not negative. -/
theorem C96_nonneg {p : Prof} (hp : Valid p) (h : ∀ x v, (x, some v) ∈ pts p → 0 ≤ v) : 0 ≤ (integral p).1 := by
  have hs : ((valid p).map Prod.fst).Pairwise (· ≤ ·) := by
    have : ((valid p).map Prod.fst).Sublist ((pts p).map Prod.fst) := by
      rw [valid_eq hp]
      generalize pts p = l
      induction l with
      | nil => simp
      | cons r l ih =>
        obtain ⟨a, v⟩ := r
        cases v with
        | none => simpa using ih.cons a
        | some v => simpa using ih
    rw [pts_fst hp] at this
    exact hp.2.2.sublist this
  have hn : ∀ r ∈ valid p, 0 ≤ r.2 := fun r hr => h r.1 r.2 ((mem_valid hp).mp hr)
  unfold integral
  simp only
  generalize valid p = l at hs hn
  induction l with
  | nil => simp [trapz]
  | cons a l ih =>
    rcases l with _ | ⟨b, l⟩
    · simp [trapz]
    · rw [trapz]
      rw [List.map_cons, List.pairwise_cons] at hs
      have h1 := hs.1 b.1 (by simp)
      have h2 := hn a (by simp)
      have h3 := hn b (by simp)
      have h4 := ih hs.2 fun r hr => hn r (by simp [hr])
      have h5 : 0 ≤ (b.1 - a.1) * (a.2 + b.2) := mul_nonneg (by linarith) (by linarith)
      linarith

/-- C96: multiplying a profile by a number multiplies its integral (distinct abscissae). -/
theorem C96_linear (hs : IsArgsort srt) {p : Prof} (hp : Valid p) (hx : Inc p.x) (c : Rat) :
    ∃ r, mulNum srt p c = .ok r ∧ (integral r).1 = c * (integral p).1 := by
  obtain ⟨r, e1, e2, e3, _, _⟩ := C92_mul (srt := srt) hs hp c
  refine ⟨r, e1, ?_⟩
  have hx' : ((pts p).map fun s => (s.1, s.2.map (· * c))).Pairwise fun a b => a.1 < b.1 := by
    rw [List.pairwise_map]
    exact pts_inc hp hx
  have hr : pts r = (pts p).map fun s => (s.1, s.2.map (· * c)) := by
    have hnd : ((pts p).map fun s : Rat × F => (s.1, s.2.map (· * c))).Pairwise fun a b => a.1 ≤ b.1 := hx'.imp fun h => le_of_lt h
    have hrs : (pts r).Pairwise fun a b => a.1 ≤ b.1 := by
      have := e2.2.2
      rw [← pts_fst e2, List.pairwise_map] at this
      exact this
    apply e3.eq_of_pairwise _ hrs hnd
    intro a b ha hb h1 h2
    have hab : a.1 = b.1 := le_antisymm h1 h2
    rw [e3.mem_iff] at ha
    by_contra hne
    exact hne (by
      obtain ⟨i, hi, rfl⟩ := List.mem_iff_getElem.mp ha
      obtain ⟨j, hj, rfl⟩ := List.mem_iff_getElem.mp hb
      have hp' := List.pairwise_iff_getElem.mp hx'
      rcases Nat.lt_trichotomy i j with hl | hl | hl
      · have := hp' i j hi hj hl; rw [hab] at this; exact absurd this (lt_irrefl _)
      · subst hl; rfl
      · have := hp' j i hj hi hl; rw [hab] at this; exact absurd this (lt_irrefl _))
  unfold integral
  simp only
  rw [valid_eq e2, valid_eq hp, hr]
  have : ((pts p).map fun s : Rat × F => (s.1, s.2.map (· * c))).filterMap (fun r => r.2.map fun v => (r.1, v)) =
      ((pts p).filterMap fun r => r.2.map fun v => (r.1, v)).map fun r => (r.1 * 1, r.2 * c) := by
    generalize pts p = l
    induction l with
    | nil => rfl
    | cons a l ih =>
      obtain ⟨x, v⟩ := a
      cases v <;> simp [ih]
  rw [this, trapz_scale]
  ring

example : integral ex3 = ((5 - 1) * (1 + 9) / 2, Sym.s.mul .m) := by decide +kernel

end IMT.Profile
