import Verif.Ascii.SeriesModel

/-! Series of vector fields from ascii files: C365. -/

namespace IMT.Ascii

theorem readOne_error (paths : List String) (len : Nat) (i : Int) : ∃ e, readOne paths len i = .error e := by
  unfold readOne
  cases paths[i.toNat]? with
  | none => exact ⟨_, rfl⟩
  | some p =>
    by_cases h : p.length ≠ len
    · exact ⟨.exception, by simp [h]⟩
    · exact ⟨.attributeError, by simp [h]⟩

theorem readFrom_error {paths : List String} {len : Nat} {incr hi i : Int} (h : i ≤ hi) {fuel : Nat} (hf : 0 < fuel) :
    readFrom paths len incr hi fuel i = readOne paths len i := by
  obtain ⟨e, he⟩ := readOne_error paths len i
  obtain ⟨k, rfl⟩ : ∃ k, fuel = k + 1 := ⟨fuel - 1, by omega⟩
  rw [readFrom, if_neg (by omega), he]

theorem checkArgs_sorted {a : SeriesArgs} {n lo hi : Int} (h : checkArgs a = .ok (n, some (lo, hi))) : lo ≤ hi := by
  unfold checkArgs at h
  cases hi' : a.incr with
  | none => rw [hi'] at h; cases h
  | some m =>
    simp only [hi'] at h
    by_cases hm : m < 1
    · rw [if_pos hm] at h; cases h
    · rw [if_neg hm] at h
      rcases hv : a.interval with _ | ⟨_ | ⟨x, _ | ⟨y, _ | ⟨z, l⟩⟩⟩⟩ <;> simp only [hv] at h <;> try cases h
      · by_cases hxy : y < x
        · simp only [hxy, if_true, Except.ok.injEq, Prod.mk.injEq, Option.some.injEq] at h; omega
        · simp only [hxy, if_false, Except.ok.injEq, Prod.mk.injEq, Option.some.injEq] at h; omega

/-- C365 fails for all files and arguments: no fields are ever returned. -/
theorem C365_never_violated (glob : Res (List String)) (a : SeriesArgs) : ∃ e, importSeries glob a = .error e := by
  unfold importSeries
  cases hc : checkArgs a with
  | error e => exact ⟨e, rfl⟩
  | ok r =>
    obtain ⟨n, itv⟩ := r
    simp only
    cases glob with
    | error e => exact ⟨e, rfl⟩
    | ok paths =>
      simp only
      by_cases h1 : (itv.getD (0, (paths.length : Int) - 1)).1 < 0 ∨ (itv.getD (0, (paths.length : Int) - 1)).2 > paths.length
      · exact ⟨.valueError, by rw [if_pos h1]⟩
      · rw [if_neg h1]
        by_cases h2 : a.times.getD paths.length ≠ paths.length
        · exact ⟨.valueError, by rw [if_pos h2]⟩
        · rw [if_neg h2]
          cases paths with
          | nil => exact ⟨_, rfl⟩
          | cons p l =>
            simp only
            by_cases h3 : a.kind ≠ "TVF" ∧ a.kind ≠ "SVF"
            · exact ⟨.valueError, by rw [if_pos h3]⟩
            · rw [if_neg h3]
              have hle : (itv.getD (0, (((p :: l).length : Nat) : Int) - 1)).1 ≤ (itv.getD (0, (((p :: l).length : Nat) : Int) - 1)).2 := by
                cases itv with
                | none => simp
                | some v => exact checkArgs_sorted hc
              rw [readFrom_error hle (by omega)]
              exact readOne_error _ _ _

/-- C365 fails for the arguments and the files that are expected: AttributeError. -/
theorem C365_expected_violated {paths : List String} {p : String} (hp : paths.head? = some p) {a : SeriesArgs} (hi : a.incr = some 1) (hv : a.interval = none)
    (ht : a.times = none) (hk : a.kind = "TVF" ∨ a.kind = "SVF") : importSeries (.ok paths) a = .error .attributeError := by
  cases paths with
  | nil => cases hp
  | cons q l =>
    have hc : checkArgs a = .ok (1, none) := by unfold checkArgs; simp [hi, hv]
    unfold importSeries
    simp only [hc, Option.getD_none, ht]
    rw [if_neg (by omega), if_neg (by simp), if_neg (by rcases hk with h | h <;> simp [h]), readFrom_error (by simp) (by simp only [List.length_cons]; omega)]
    simp [readOne]

/-- C365: arguments that make no sense are refused, before the files are looked for. -/
theorem C365_refused (glob : Res (List String)) {a : SeriesArgs} :
    (a.incr = none → importSeries glob a = .error .typeError) ∧
    (∀ n, a.incr = some n → (n < 1 ∨ ∃ l, a.interval = some l ∧ l.length ≠ 2) → importSeries glob a = .error .valueError) := by
  constructor
  · intro h
    have : checkArgs a = .error .typeError := by unfold checkArgs; rw [h]
    unfold importSeries
    rw [this]
  · intro n hn h
    have : checkArgs a = .error .valueError := by
      unfold checkArgs
      simp only [hn]
      by_cases hm : n < 1
      · rw [if_pos hm]
      · rw [if_neg hm]
        obtain ⟨l, hl, h2⟩ := h.resolve_left hm
        rcases l with _ | ⟨x, _ | ⟨y, _ | ⟨z, l⟩⟩⟩ <;> simp only [hl]
        simp at h2
    unfold importSeries
    rw [this]

/-! ### the hypotheses are met -/

example : importSeries (.ok ["a1", "a2"]) ⟨"TVF", some 1, none, none⟩ = .error .attributeError := C365_expected_violated rfl rfl rfl rfl (.inl rfl)

example : importSeries (.ok ["a1", "a2"]) ⟨"TVF", some 1, some [2, 2], none⟩ = .error .indexError := by decide +kernel

example : importSeries (.ok ["a1", "a2"]) ⟨"TVF", some 0, none, none⟩ = .error .valueError := (C365_refused _).2 0 rfl (.inl (by omega))

end IMT.Ascii
