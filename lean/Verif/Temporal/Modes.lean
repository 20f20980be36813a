import Verif.Temporal.ModesModel
import Verif.Temporal.Lemmas
import Verif.Profile.Lemmas
import Verif.Scalar.Geom

/-! C378: the modes of a decomposition as a series of fields. -/

namespace IMT.Temporal

variable {srt : List Rat → List Nat}

/-- The series of the first fields, at the times 1, 2, 3... -/
def counted (fs : List SF) (t : TF) : Prop :=
  t.fields = fs ∧ t.times = (List.range fs.length).map (fun i : Nat => (i : Rat) + 1) ∧ t.ut = Sym.one

theorem inc_counted (n : Nat) : Inc ((List.range n).map fun i : Nat => (i : Rat) + 1) := by
  unfold Inc
  rw [List.pairwise_map]
  refine List.Pairwise.imp ?_ List.pairwise_lt_range
  intro a b h
  have : (a : Rat) < b := by exact_mod_cast h
  linarith

theorem loop_counted (hs : Profile.IsArgsort srt) (A : List Rat) (fs : List SF) (done : List SF) (t : TF) (hd : done ≠ []) (hc : counted done t)
    (hA : t.ax = A) (hf : ∀ f ∈ fs, f.ax = A) :
    ∃ r, modesLoop srt t done.length fs = .ok r ∧ counted (done ++ fs) r ∧ r.ax = A ∧ r.ay = t.ay ∧ r.ux = t.ux ∧ r.uy = t.uy := by
  induction fs generalizing done t with
  | nil => exact ⟨t, rfl, by simpa using hc, hA, rfl, rfl, rfl⟩
  | cons f fs ih =>
    obtain ⟨h1, h2, h3⟩ := hc
    have hlen : t.fields.length ≠ 0 := by rw [h1]; exact fun e => hd (List.length_eq_zero_iff.mp e)
    have hst : storedTime t ((done.length : Rat) + 1) Sym.one = (done.length : Rat) + 1 := by
      unfold storedTime
      rw [h3]
      have : SF.unitNum (Sym.one.div Sym.one) = 1 := by decide +kernel
      rw [this, mul_one]
    have htimes : t.times ++ [storedTime t ((done.length : Rat) + 1) Sym.one] =
        (List.range (done ++ [f]).length).map fun i : Nat => (i : Rat) + 1 := by
      rw [h2, hst, List.length_append, List.length_singleton, List.range_succ, List.map_append]
      rfl
    have hadd : addField srt t f ((done.length : Rat) + 1) Sym.one =
        ({ t with times := (List.range (done ++ [f]).length).map (fun i : Nat => (i : Rat) + 1), fields := done ++ [f], nd := true }, .ok ⟨⟩) := by
      unfold addField
      rw [if_neg hlen, if_neg (by rintro ⟨h, _⟩; exact h (hA.trans (hf f (by simp)).symm)), htimes, h1]
      unfold sortByTime
      simp only
      have hsrt := Profile.order_inc hs (inc_counted (done ++ [f]).length)
      rw [hsrt]
      rw [if_neg (by
        simp only [List.length_append, List.length_singleton]
        have : done.length ≠ 0 := fun e => hd (List.length_eq_zero_iff.mp e)
        omega)]
      have e1 : (List.range ((List.range (done ++ [f]).length).map fun i : Nat => (i : Rat) + 1).length) = List.range (done ++ [f]).length := by simp
      rw [Profile.take_range, if_neg (by simp), e1, Profile.take_range]
    obtain ⟨r, r1, r2, r3, r4, r5, r6⟩ := ih (done ++ [f])
      { t with times := (List.range (done ++ [f]).length).map (fun i : Nat => (i : Rat) + 1), fields := done ++ [f], nd := true } (by simp)
      ⟨rfl, rfl, h3⟩ hA (fun g hg => hf g (by simp [hg]))
    refine ⟨r, ?_, by simpa using r2, r3, r4, r5, r6⟩
    unfold modesLoop
    rw [hadd]
    simpa using r1

/-- C378: the modes of a base, all with the same abscissas, make a series: the first mode at time 1, the second at time 2 and so on, each one unchanged, without
unit of time. -/
theorem C378_series_partial (hs : Profile.IsArgsort srt) (b : Base) (A : List Rat) (hb : ∀ f ∈ b.modes, f.ax = A) :
    ∃ t, b.asTF srt = .ok t ∧ t.fields = b.modes ∧ t.times.length = b.modes.length ∧ t.ut = Sym.one ∧
      (∀ i < b.modes.length, t.times[i]? = some ((i : Rat) + 1)) ∧ (b.modes ≠ [] → t.ax = A) ∧
      ∀ f fs, b.modes = f :: fs → t.ay = f.ay ∧ t.ux = f.ux ∧ t.uy = f.uy := by
  have fin : ∀ t : TF, counted b.modes t → t.times.length = b.modes.length ∧ ∀ i < b.modes.length, t.times[i]? = some ((i : Rat) + 1) := by
    intro t ht
    rw [ht.2.1]
    refine ⟨by simp, fun i hi => ?_⟩
    simp [hi]
  cases hm : b.modes with
  | nil =>
    refine ⟨TF.empty, ?_, rfl, rfl, rfl, by simp, by simp, by simp⟩
    unfold Base.asTF
    rw [hm]
    rfl
  | cons f fs =>
    have hfA : f.ax = A := hb f (by simp [hm])
    obtain ⟨r, r1, r2, r3, r4, r5, r6⟩ := loop_counted hs A fs [f] ⟨f.ax, f.ay, f.ux, f.uy, [(0 : Rat) + 1], Sym.one, [f], true⟩ (by simp)
      ⟨rfl, by simp, rfl⟩ hfA (fun g hg => hb g (by simp [hm, hg]))
    have r2' : counted b.modes r := by rw [hm]; simpa using r2
    obtain ⟨f1, f2⟩ := fin r r2'
    rw [hm] at f1 f2
    refine ⟨r, ?_, by simpa using r2.1, f1, r2.2.2, f2, fun _ => r3, ?_⟩
    · unfold Base.asTF
      rw [hm]
      unfold modesLoop addField TF.empty
      simpa using r1
    · intro g gs hg
      cases hg
      exact ⟨r4, r5, r6⟩

theorem take_get {α : Type} (l : List α) (ks : List Nat) (h : ∀ k ∈ ks, k < l.length) (i : Nat) :
    (Profile.take l ks)[i]? = ks[i]?.bind fun k => l[k]? := by
  induction ks generalizing i with
  | nil => simp [Profile.take]
  | cons k ks ih =>
    have hk := h k (by simp)
    rw [Profile.take_cons l k ks hk]
    cases i with
    | zero => simp [hk]
    | succ i => simpa using ih (fun j hj => h j (by simp [hj])) i

/-- C378 is violated: in a base that was reduced to the modes `ks`, the time of a mode is not given by its number: a mode which is not at its own place is at
the time of another one. -/
theorem C378_number_violated (hs : Profile.IsArgsort srt) (modes : List SF) (A : List Rat) (hb : ∀ f ∈ modes, f.ax = A) (ks : List Nat)
    (hk : ∀ k ∈ ks, k < modes.length) {i n : Nat} (hi : ks[i]? = some n) (hne : n ≠ i) :
    ((⟨modes, List.range modes.length⟩ : Base).keep ks).nmb[i]? = some n ∧
    ∃ t, ((⟨modes, List.range modes.length⟩ : Base).keep ks).asTF srt = .ok t ∧ t.fields[i]? = modes[n]? ∧ modes[n]?.isSome ∧
      t.times[i]? = some ((i : Rat) + 1) ∧ t.times[i]? ≠ some ((n : Rat) + 1) := by
  have hn : n < modes.length := hk n (List.mem_of_getElem? hi)
  have hget : (Profile.take modes ks)[i]? = modes[n]? := by rw [take_get _ _ hk, hi]; rfl
  refine ⟨?_, ?_⟩
  · show (Profile.take (List.range modes.length) ks)[i]? = some n
    rw [take_get _ _ (by simpa using hk), hi]
    simp [hn]
  · obtain ⟨t, h1, h2, _, _, h5, _⟩ := C378_series_partial hs ((⟨modes, List.range modes.length⟩ : Base).keep ks) A (by
      intro f hf
      obtain ⟨k, _, hk⟩ := List.mem_filterMap.mp hf
      exact hb f (List.mem_of_getElem? hk))
    have hl : i < ((⟨modes, List.range modes.length⟩ : Base).keep ks).modes.length := by
      show i < (Profile.take modes ks).length
      rw [Profile.take_length hk]
      exact (List.getElem?_eq_some_iff.mp hi).1
    refine ⟨t, h1, by rw [h2]; exact hget, by simp [hn], h5 i hl, ?_⟩
    rw [h5 i hl]
    intro e
    simp only [Option.some.injEq, add_left_inj, Nat.cast_inj] at e
    exact hne e.symm

/-- C378 is violated: a mode on other abscissas is refused when it has the ordinates of the first one, and accepted when it has not. -/
theorem C378_grid_violated (f g : SF) (ns : List Nat) (hx : f.ax ≠ g.ax) :
    (f.ay = g.ay → (Base.asTF srt ⟨[f, g], ns⟩) = .error .valueError) ∧
    (f.ay ≠ g.ay → Profile.IsArgsort srt → ∃ t, Base.asTF srt ⟨[f, g], ns⟩ = .ok t ∧ t.fields = [f, g]) := by
  refine ⟨fun hy => ?_, fun hy hs => ?_⟩
  · unfold Base.asTF modesLoop addField TF.empty
    simp [modesLoop, addField, hx, hy]
  · have hsrt := Profile.order_inc hs (inc_counted 2)
    have e2 : ((List.range 2).map fun i : Nat => (i : Rat) + 1) = [0 + 1, 1 + 1] := by
      simp [List.range_succ]
    rw [e2] at hsrt
    have hu : SF.unitNum (Sym.one.div Sym.one) = 1 := by decide +kernel
    unfold Base.asTF
    refine ⟨⟨f.ax, f.ay, f.ux, f.uy, [0 + 1, 1 + 1], Sym.one, [f, g], true⟩, ?_, rfl⟩
    have hadd : addField srt ⟨f.ax, f.ay, f.ux, f.uy, [0 + 1], Sym.one, [f], true⟩ g (((0 + 1 : Nat) : Rat) + 1) Sym.one =
        (⟨f.ax, f.ay, f.ux, f.uy, [0 + 1, 1 + 1], Sym.one, [f, g], true⟩, .ok ⟨⟩) := by
      unfold addField
      rw [if_neg (by simp), if_neg (by rintro ⟨_, h⟩; exact hy h)]
      unfold sortByTime storedTime
      simp only [hu, mul_one, List.cons_append, List.nil_append, zero_add, Nat.cast_one] at hsrt ⊢
      rw [if_neg (by simp), hsrt]
      have e1 : List.range ([(1 : Rat), 1 + 1]).length = List.range [f, g].length := rfl
      rw [Profile.take_range, if_neg (by simp), e1, Profile.take_range]
    unfold modesLoop
    have h0 : addField srt TF.empty f (((0 : Nat) : Rat) + 1) Sym.one = (⟨f.ax, f.ay, f.ux, f.uy, [0 + 1], Sym.one, [f], true⟩, .ok ⟨⟩) := by
      unfold addField TF.empty
      simp
    rw [h0]
    simp only
    unfold modesLoop
    rw [hadd]
    rfl

example : ((Base.asTF Profile.argsort ⟨[SF.sample, SF.sample.neg], [0, 3]⟩).toOption.map fun t => (t.times, t.fields.map fun f => f.cell 1 0)) =
    some ([1, 2], [SF.sample.cell 1 0, SF.sample.neg.cell 1 0]) := by decide +kernel

end IMT.Temporal
