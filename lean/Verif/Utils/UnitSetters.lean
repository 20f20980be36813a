import Verif.Utils.Model

/-!
Property C79: assignment of units.
-/

namespace IMT.Utils

/-- C79, values of vector fields and times: along every history of assignments the factor of the stored unit stays 1, as long as
the strings assigned stand for units of factor 1 (for times, whatever they stand for). -/
theorem C79_history_partial (old : Unum) (h : old.num = 1) (as : List UArg) :
    ((∀ u, .str (.ok u) ∈ as → u.num = 1) → (as.foldl (fun s a => (setVFUnit s a).1) old).num = 1) ∧
    (as.foldl (fun s a => (setTimeUnit s a).1) old).num = 1 := by
  induction as generalizing old with
  | nil => exact ⟨fun _ => h, h⟩
  | cons a as ih =>
    simp only [List.foldl_cons]
    constructor
    · intro hs
      refine (ih _ ?_).1 fun u hu => hs u (List.mem_cons_of_mem _ hu)
      cases a with
      | unum u =>
        show (if u.num = 1 then (u, Except.ok PUnit.unit) else (old, Except.error Err.valueError)).1.num = 1
        by_cases hu : u.num = 1
        · rw [if_pos hu]; exact hu
        · rw [if_neg hu]; exact h
      | str r =>
        cases r with
        | ok u => exact hs u List.mem_cons_self
        | error e => exact h
      | other => exact h
    · refine (ih _ ?_).2
      cases a with
      | unum u =>
        show (if u.num = 1 then (u, Except.ok PUnit.unit) else (old, Except.error Err.valueError)).1.num = 1
        by_cases hu : u.num = 1
        · rw [if_pos hu]; exact hu
        · rw [if_neg hu]; exact h
      | str r =>
        cases r with
        | ok u => exact h
        | error e => exact h
      | other => exact h

/-- C79, values of vector fields and times: a refused assignment raises and keeps the unit, an accepted unit object is the one
stored, and every unit object of factor 1 is accepted. -/
theorem C79_exact (old u : Unum) :
    (u.num = 1 → setVFUnit old (.unum u) = (u, .ok ⟨⟩) ∧ setTimeUnit old (.unum u) = (u, .ok ⟨⟩)) ∧
    (u.num ≠ 1 → setVFUnit old (.unum u) = (old, .error .valueError) ∧
      setTimeUnit old (.unum u) = (old, .error .valueError)) := by
  constructor <;> intro h
  · exact ⟨if_pos h, if_pos h⟩
  · exact ⟨if_neg h, if_neg h⟩

/-- C79, axes of fields: whatever is assigned, an object that is refused leaves the unit as it was, and a unit object that is
accepted has a factor within the tolerance of `numpy.isclose` of 1.  Partial: factors in the tolerance are not reset, and strings
are not tested, see `C79_string_violated`. -/
theorem C79_axis_partial (old : Unum) (a : UArg) :
    ((setAxisUnit old a).2 ≠ .ok ⟨⟩ → (setAxisUnit old a).1 = old) ∧
    (∀ u, a = .unum u → (setAxisUnit old a).2 = .ok ⟨⟩ → (setAxisUnit old a).1 = u ∧ |u.num - 1| ≤ 1001 / 100000000) ∧
    (∀ u, a = .unum u → u.num = 1 → setAxisUnit old a = (u, .ok ⟨⟩)) := by
  have e : ∀ u, setAxisUnit old (.unum u) =
      if |u.num - 1| ≤ 1 / 100000000 + 1 / 100000 * |1| then (u, .ok ⟨⟩) else (old, .error .valueError) := fun _ => rfl
  refine ⟨?_, ?_, ?_⟩
  · intro h
    cases a with
    | unum u =>
      rw [e] at h ⊢
      by_cases hc : |u.num - 1| ≤ 1 / 100000000 + 1 / 100000 * |1|
      · rw [if_pos hc] at h
        exact absurd rfl h
      · rw [if_neg hc]
    | str r =>
      cases r with
      | ok u => exact absurd rfl h
      | error e => rfl
    | other => rfl
  · rintro u rfl h
    rw [e] at h ⊢
    by_cases hc : |u.num - 1| ≤ 1 / 100000000 + 1 / 100000 * |1|
    · rw [if_pos hc]
      refine ⟨rfl, ?_⟩
      rw [abs_one] at hc
      linarith
    · rw [if_neg hc] at h
      cases h
  · rintro u rfl h
    rw [e, if_pos]
    rw [h]
    norm_num

/-- C79: objects that are neither units nor strings are refused by every container, which keeps its unit. -/
theorem C79_other (old : Unum) :
    (∃ e, setAxisUnit old .other = (old, .error e)) ∧ (∃ e, setSFUnit old .other = (old, .error e)) ∧
    (∃ e, setVFUnit old .other = (old, .error e)) ∧ (∃ e, setTimeUnit old .other = (old, .error e)) ∧
    (∃ e, setPointsUnit old .other = (old, .error e)) :=
  ⟨⟨_, rfl⟩, ⟨_, rfl⟩, ⟨_, rfl⟩, ⟨_, rfl⟩, ⟨_, rfl⟩⟩

/-- C79 fails for the values of scalar fields: every factor below 1, negative ones included, is stored. -/
theorem C79_scalar_violated (old u : Unum) (h : u.num ≤ 1) : setSFUnit old (.unum u) = (u, .ok ⟨⟩) := by
  unfold setSFUnit
  simp only []
  rw [if_pos]
  have : u.num - 1 ≤ 0 := by linarith
  refine lt_of_le_of_lt this ?_
  norm_num

/-- C79 fails for point sets and profiles: every unit is stored. -/
theorem C79_points_violated (old u : Unum) : setPointsUnit old (.unum u) = (u, .ok ⟨⟩) := rfl

/-- C79 fails for strings: whatever unit the string stands for is stored, its factor being ignored. -/
theorem C79_string_violated (old u : Unum) :
    setAxisUnit old (.str (.ok u)) = (u, .ok ⟨⟩) ∧ setSFUnit old (.str (.ok u)) = (u, .ok ⟨⟩) ∧
    setVFUnit old (.str (.ok u)) = (u, .ok ⟨⟩) ∧ setPointsUnit old (.str (.ok u)) = (u, .ok ⟨⟩) :=
  ⟨rfl, rfl, rfl, rfl⟩

/-- C79 fails for the unit of times: assigning a string succeeds and changes nothing. -/
theorem C79_time_string_violated (old u : Unum) : setTimeUnit old (.str (.ok u)) = (old, .ok ⟨⟩) := rfl

/-- The factors 1 and 1/2 on the axes and on the values of a scalar field. -/
example : setAxisUnit ⟨1, .mm⟩ (.unum ⟨1, .s⟩) = (⟨1, .s⟩, .ok ⟨⟩) ∧
    setAxisUnit ⟨1, .mm⟩ (.unum ⟨1 / 2, .s⟩) = (⟨1, .mm⟩, .error .valueError) ∧
    setSFUnit ⟨1, .mm⟩ (.unum ⟨1 / 2, .s⟩) = (⟨1 / 2, .s⟩, .ok ⟨⟩) := by
  refine ⟨?_, ?_, ?_⟩ <;> decide +kernel

end IMT.Utils
