import Verif.Temporal.PowModel
import Verif.Temporal.Arith

/-! Property C47, quotients of a record by a field and powers of a record. -/

namespace IMT.Temporal

variable {srt : List Rat → List Nat}

/-- C47 fails for the power of a record: the fields are the powers of the fields, but every one of them is at time 0. -/
theorem C47_pow_violated (hs : Profile.IsArgsort srt) {t : TF} (ht : Consistent t) (n : Nat) :
    ∃ r, pow srt t n = .ok r ∧ r.times = List.replicate t.fields.length 0 ∧
      (r.fields).Perm (t.fields.map fun f => f.pow n) ∧ ((∃ x ∈ t.times, x ≠ 0) → r.times ≠ t.times) := by
  obtain ⟨r, e, p, perm⟩ := addAll_spec hs t.ax (t.fields.map fun f => f.pow n) (t := TF.empty) rfl (fun h => absurd rfl h)
    (by
      intro f hf
      obtain ⟨g, hg, rfl⟩ := List.mem_map.mp hf
      exact ht.ax g hg)
  have e0 : entries TF.empty = [] := rfl
  rw [e0, List.append_nil] at perm
  have hz := times_zero p perm
  rw [List.length_map] at hz
  refine ⟨r, e, hz, ?_, ?_⟩
  · have := perm.map Prod.snd
    rw [entries_snd p, List.map_map] at this
    have h2 : List.map (Prod.snd ∘ fun f : SF => ((0 : Rat), f)) (List.map (fun f => f.pow n) t.fields) =
        List.map (fun f => f.pow n) t.fields := by
      rw [List.map_map]; rfl
    rwa [h2] at this
  · rintro ⟨x, hx, hne⟩ heq
    rw [← heq, hz] at hx
    exact hne (List.eq_of_mem_replicate hx)

example : ((pow Profile.argsort rec3 2).toOption.map fun r => (r.times, r.fields.map fun f => f.cell 1 0)) =
    some ([0, 0, 0], [some 100, some 100, some 100]) := by decide +kernel

/-- C47 fails for the quotient of a record by a field: the fields are the quotients, but every one of them is at time 0. -/
theorem C47_div_field_violated (hs : Profile.IsArgsort srt) {t r : TF} {g : SF} (ht : Consistent t) (h : divSF srt t g = .ok r) :
    r.times = List.replicate t.fields.length 0 ∧ ((∃ x ∈ t.times, x ≠ 0) → r.times ≠ t.times) ∧
      ∃ fs : List SF, r.fields.Perm fs ∧ List.Forall₂ (fun f q => f.div g = .ok q) t.fields fs := by
  unfold divSF at h
  split at h
  · cases h
  · split at h
    · cases h
    · cases hm : mapRes (fun f : SF => f.div g) t.fields with
      | error e => rw [hm] at h; cases h
      | ok fs =>
        rw [hm] at h
        simp only at h
        obtain ⟨h1, h2⟩ := mapRes_get hm
        have hrel : List.Forall₂ (fun f q => f.div g = .ok q) t.fields fs := by
          rw [List.forall₂_iff_get]
          refine ⟨h1.symm, fun i hi hj => ?_⟩
          exact h2 i _ _ (List.getElem?_eq_getElem hi) (List.getElem?_eq_getElem hj)
        obtain ⟨r', e, p, perm⟩ := addAll_spec hs t.ax fs (t := TF.empty) rfl (fun h => absurd rfl h)
          (by
            intro f hf
            obtain ⟨i, hi⟩ := List.getElem?_of_mem hf
            have hik := getElem?_some_lt hi
            have hit : i < t.fields.length := by omega
            have e := h2 i _ _ (List.getElem?_eq_getElem hit) hi
            unfold SF.div at e
            split at e
            · cases e
            · cases e
              have := ht.ax t.fields[i] (List.getElem_mem hit)
              exact this)
        have e0 : entries TF.empty = [] := rfl
        rw [e0, List.append_nil] at perm
        rw [e] at h
        cases h
        have hz := times_zero p perm
        rw [h1] at hz
        refine ⟨hz, ?_, fs, ?_, hrel⟩
        · rintro ⟨x, hx, hne⟩ heq
          rw [← heq, hz] at hx
          exact hne (List.eq_of_mem_replicate hx)
        · have := perm.map Prod.snd
          rw [entries_snd p, List.map_map] at this
          simpa [Function.comp_def] using this

example : ((divSF Profile.argsort rec3 SF.sample).toOption.map fun r => (r.times, r.fields.map fun f => f.cell 1 0)) =
    some ([0, 0, 0], [some 1, some (-1), some 1]) := by decide +kernel

end IMT.Temporal
