import Verif.Protocol.Model

/-!
Property C78: the processing protocol across interruptions.
-/

namespace IMT.Protocol

variable {V : Type}

/-! ### Specification -/

/-- What each product should contain, from the content of the source. -/
def value (S : Stages V) (s : V) : Product → V
  | .cln => S.fcln s
  | .mean => S.fmean (S.fcln s)
  | .pod => S.fpod (S.fcln s)
  | .recon => S.frec (S.fpod (S.fcln s))
  | .traj => S.ftraj (S.frec (S.fpod (S.fcln s)))
  | .recDet => S.frecDet (S.fpod (S.fcln s))
  | .trajDet => S.ftraj (S.frecDet (S.fpod (S.fcln s)))

/-- The products a run is asked for. -/
def asked (detailled : Bool) (p : Product) : Prop := detailled = true ∨ (p ≠ .recDet ∧ p ≠ .trajDet)

/-- Every product is missing or up to date. -/
def Good (S : Stages V) (s : V) (d : Disk V) : Prop := ∀ p, d p = .absent ∨ d p = .whole (value S s p)

/-! ### Lemmas -/

theorem final_append (d : Disk V) (t : List (Disk V)) (u : Trace V) (r : Res PUnit) :
    final d (t ++ u.1, r) = final (final d (t, r)) u := by
  unfold final
  simp only [List.getLast?_append]
  cases u.1.getLast? <;> simp

theorem final_export (d : Disk V) (p : Product) (v : V) : final d (export' d p v) = put d p (.whole v) := rfl

theorem andThen_ok {d : Disk V} {a b : Disk V → Trace V} (h : (a d).2 = .ok ⟨⟩) :
    andThen d a b = ((a d).1 ++ (b (final d (a d))).1, (b (final d (a d))).2) := by
  unfold andThen
  rw [h]

theorem final_andThen {d : Disk V} {a b : Disk V → Trace V} (h : (a d).2 = .ok ⟨⟩) :
    final d (andThen d a b) = final (final d (a d)) (b (final d (a d))) := by
  rw [andThen_ok h, final_append]
  rfl

/-- A trace that ends well, in `d'`, all of whose states satisfy `P`. -/
structure Runs (P : Disk V → Prop) (d d' : Disk V) (t : Trace V) : Prop where
  ok : t.2 = .ok ⟨⟩
  fin : final d t = d'
  all : ∀ e ∈ t.1, P e

theorem Runs.andThen {P : Disk V → Prop} {d d' d'' : Disk V} {a b : Disk V → Trace V} (ha : Runs P d d' (a d))
    (hb : Runs P d' d'' (b d')) : Runs P d d'' (andThen d a b) := by
  rw [andThen_ok ha.ok, ha.fin]
  refine ⟨hb.ok, ?_, ?_⟩
  · rw [final_append]
    rw [show final d ((a d).1, (b d').2) = final d (a d) from rfl, ha.fin, hb.fin]
  · intro e he
    rcases List.mem_append.1 he with h | h
    · exact ha.all e h
    · exact hb.all e h

theorem runs_stage {P : Disk V → Prop} {d : Disk V} {i : File V} {v : V} (hi : i = .whole v) (out : Product) (f : V → V)
    (hb : P (put d out .broken)) (hw : P (put d out (.whole (f v)))) :
    Runs P d (put d out (.whole (f v))) (stage i d out f) := by
  subst hi
  refine ⟨rfl, rfl, ?_⟩
  intro e he
  have : e = put d out .broken ∨ e = put d out (.whole (f v)) := by simpa [stage, read, export'] using he
  rcases this with rfl | rfl
  · exact hb
  · exact hw

theorem Runs.nil {P : Disk V → Prop} (d : Disk V) : Runs P d d ([], .ok ⟨⟩) := ⟨rfl, rfl, by simp⟩

@[simp] theorem put_same (d : Disk V) (p : Product) (f : File V) : put d p f p = f := by simp [put]

theorem put_other (d : Disk V) {p q : Product} (h : q ≠ p) (f : File V) : put d p f q = d q := by simp [put, h]

/-- Every product is missing, up to date or broken. -/
def Weak (S : Stages V) (s : V) (d : Disk V) : Prop :=
  ∀ p, d p = .absent ∨ d p = .whole (value S s p) ∨ d p = .broken

theorem Good.weak {S : Stages V} {s : V} {d : Disk V} (h : Good S s d) : Weak S s d :=
  fun p => (h p).imp_right Or.inl

theorem Weak.put {S : Stages V} {s : V} {d : Disk V} (h : Weak S s d) (p : Product) {f : File V}
    (hf : f = .broken ∨ f = .whole (value S s p)) : Weak S s (put d p f) := by
  intro q
  by_cases hq : q = p
  · subst hq
    rw [put_same]
    rcases hf with rfl | rfl <;> simp
  · rw [put_other d hq]
    exact h q

theorem Good.put {S : Stages V} {s : V} {d : Disk V} (h : Good S s d) (p : Product) :
    Good S s (put d p (.whole (value S s p))) := by
  intro q
  by_cases hq : q = p
  · subst hq; right; rw [put_same]
  · rw [put_other d hq]; exact h q

theorem Good.whole {S : Stages V} {s : V} {d : Disk V} (h : Good S s d) {p : Product} (he : (d p).exists' = true) :
    d p = .whole (value S s p) := by
  rcases h p with h | h
  · rw [h] at he; cases he
  · exact h

/-- One stage from a good disk. -/
theorem good_stage {S : Stages V} {s : V} {d : Disk V} (h : Good S s d) {i out : Product} (hi : d i = .whole (value S s i))
    {f : V → V} (hf : f (value S s i) = value S s out) :
    Runs (Weak S s) d (put d out (.whole (value S s out))) (stage (d i) d out f) := by
  have := runs_stage (P := Weak S s) hi out f (h.weak.put out (Or.inl rfl)) (h.weak.put out (Or.inr (by rw [hf])))
  rwa [hf] at this

theorem good_prepare {S : Stages V} {s : V} {d : Disk V} (h : Good S s d) :
    Runs (Weak S s) d (put (put d .cln (.whole (value S s .cln))) .mean (.whole (value S s .mean)))
      (prepare S (.whole s) d) := by
  unfold prepare read
  simp only []
  refine Runs.andThen (d' := put d .cln (.whole (value S s .cln))) ⟨rfl, rfl, ?_⟩ ⟨rfl, rfl, ?_⟩
  · intro e he
    have : e = put d .cln .broken ∨ e = put d .cln (.whole (value S s .cln)) := by simpa [export', value] using he
    rcases this with rfl | rfl
    · exact h.weak.put _ (Or.inl rfl)
    · exact h.weak.put _ (Or.inr rfl)
  · intro e he
    have : e = put (put d .cln (.whole (value S s .cln))) .mean .broken ∨
      e = put (put d .cln (.whole (value S s .cln))) .mean (.whole (value S s .mean)) := by simpa [export', value] using he
    rcases this with rfl | rfl
    · exact (h.weak.put .cln (Or.inr rfl)).put _ (Or.inl rfl)
    · exact (h.weak.put .cln (Or.inr rfl)).put _ (Or.inr rfl)

/-- The end of the main chain: a stage writing `out`, then the rest. -/
def putAll (S : Stages V) (s : V) (d : Disk V) : List Product → Disk V
  | [] => d
  | p :: ps => putAll S s (put d p (.whole (value S s p))) ps

theorem putAll_apply (S : Stages V) (s : V) (d : Disk V) (ps : List Product) (q : Product) :
    putAll S s d ps q = if q ∈ ps then .whole (value S s q) else d q := by
  induction ps generalizing d with
  | nil => simp [putAll]
  | cons p ps ih =>
    rw [putAll, ih]
    by_cases hq : q ∈ ps
    · simp [hq]
    · by_cases hp : q = p
      · subst hp; simp
      · simp [hq, hp, put_other d hp]

theorem Good.putAll {S : Stages V} {s : V} {d : Disk V} (h : Good S s d) (ps : List Product) : Good S s (putAll S s d ps) := by
  induction ps generalizing d with
  | nil => exact h
  | cons p ps ih => exact ih (h.put p)

theorem good_traj {S : Stages V} {s : V} {d : Disk V} (h : Good S s d) (hr : d .recon = .whole (value S s .recon)) :
    Runs (Weak S s) d (putAll S s d [.traj]) (cpDetection S false d) := good_stage h hr rfl

theorem good_rec {S : Stages V} {s : V} {d : Disk V} (h : Good S s d) (hr : d .pod = .whole (value S s .pod)) :
    Runs (Weak S s) d (putAll S s d [.recon, .traj]) (andThen d (podReconstr S false) (cpDetection S false)) :=
  Runs.andThen (good_stage h hr (out := .recon) rfl) (good_traj (h.put _) (put_same _ _ _))

theorem good_pod {S : Stages V} {s : V} {d : Disk V} (h : Good S s d) (hr : d .cln = .whole (value S s .cln)) :
    Runs (Weak S s) d (putAll S s d [.pod, .recon, .traj])
      (andThen d (podDecomp S) fun d => andThen d (podReconstr S false) (cpDetection S false)) :=
  Runs.andThen (good_stage h hr (out := .pod) rfl) (good_rec (h.put _) (put_same _ _ _))

theorem good_all {S : Stages V} {s : V} {d : Disk V} (h : Good S s d) :
    Runs (Weak S s) d (putAll S s d [.cln, .mean, .pod, .recon, .traj]) (andThen d (prepare S (.whole s)) fun d =>
      andThen d (podDecomp S) fun d => andThen d (podReconstr S false) (cpDetection S false)) :=
  Runs.andThen (good_prepare h) (good_pod ((h.put _).put _) (by rw [put_other _ (by decide), put_same]))

/-- The first part from a good disk. -/
theorem good_main {S : Stages V} {s : V} {d : Disk V} (h : Good S s d) (hm : d .cln ≠ .absent → d .mean ≠ .absent) :
    ∃ d', Runs (Weak S s) d d' (mainPart S (.whole s) d) ∧ Good S s d' ∧
      (∀ p, p ≠ .recDet → p ≠ .trajDet → d' p = .whole (value S s p)) ∧ d' .recDet = d .recDet ∧ d' .trajDet = d .trajDet := by
  have hmean : (d .cln).exists' = true → d .mean = .whole (value S s .mean) := by
    intro he
    refine (h .mean).resolve_left (hm ?_)
    intro e; rw [e] at he; cases he
  unfold mainPart
  by_cases h1 : (d .cln).exists' = true
  · have v1 := h.whole h1
    have vm := hmean h1
    rw [if_neg (by simp [h1])]
    by_cases h2 : (d .pod).exists' = true
    · have v2 := h.whole h2
      rw [if_neg (by simp [h2])]
      by_cases h3 : (d .recon).exists' = true
      · have v3 := h.whole h3
        rw [if_neg (by simp [h3])]
        by_cases h4 : (d .traj).exists' = true
        · have v4 := h.whole h4
          rw [if_neg (by simp [h4])]
          refine ⟨d, Runs.nil d, h, ?_, rfl, rfl⟩
          intro p; cases p <;> simp [*]
        · rw [if_pos (by simp [h4])]
          refine ⟨_, good_traj h v3, h.putAll _, ?_, ?_, ?_⟩
          · intro p; rw [putAll_apply]; cases p <;> simp [*]
          · rw [putAll_apply]; simp
          · rw [putAll_apply]; simp
      · rw [if_pos (by simp [h3])]
        refine ⟨_, good_rec h v2, h.putAll _, ?_, ?_, ?_⟩
        · intro p; rw [putAll_apply]; cases p <;> simp [*]
        · rw [putAll_apply]; simp
        · rw [putAll_apply]; simp
    · rw [if_pos (by simp [h2])]
      refine ⟨_, good_pod h v1, h.putAll _, ?_, ?_, ?_⟩
      · intro p; rw [putAll_apply]; cases p <;> simp [*]
      · rw [putAll_apply]; simp
      · rw [putAll_apply]; simp
  · rw [if_pos (by simp [h1])]
    refine ⟨_, good_all h, h.putAll _, ?_, ?_, ?_⟩
    · intro p; rw [putAll_apply]; cases p <;> simp
    · rw [putAll_apply]; simp
    · rw [putAll_apply]; simp

theorem good_det {S : Stages V} {s : V} {d : Disk V} (h : Good S s d) (hp : d .pod = .whole (value S s .pod)) :
    ∃ d', Runs (Weak S s) d d' (detPart S true d) ∧ Good S s d' ∧
      d' .recDet = .whole (value S s .recDet) ∧ d' .trajDet = .whole (value S s .trajDet) ∧
      (∀ p, p ≠ .recDet → p ≠ .trajDet → d' p = d p) := by
  have tr : ∀ {d : Disk V}, Good S s d → d .recDet = .whole (value S s .recDet) →
      Runs (Weak S s) d (putAll S s d [.trajDet]) (cpDetection S true d) := fun h hr => good_stage h hr rfl
  unfold detPart
  rw [if_pos rfl]
  by_cases h1 : (d .recDet).exists' = true
  · have v1 := h.whole h1
    rw [if_neg (by simp [h1])]
    by_cases h2 : (d .trajDet).exists' = true
    · have v2 := h.whole h2
      rw [if_neg (by simp [h2])]
      exact ⟨d, Runs.nil d, h, v1, v2, fun _ _ _ => rfl⟩
    · rw [if_pos (by simp [h2])]
      refine ⟨_, tr h v1, h.putAll _, ?_, ?_, ?_⟩
      · rw [putAll_apply]; simp [v1]
      · rw [putAll_apply]; simp
      · intro p p1 p2; rw [putAll_apply]; simp [p2]
  · rw [if_pos (by simp [h1])]
    refine ⟨putAll S s d [.recDet, .trajDet], Runs.andThen (good_stage h hp (out := .recDet) rfl) (tr (h.put _) (put_same _ _ _)),
      h.putAll _, ?_, ?_, ?_⟩
    · rw [putAll_apply]; simp
    · rw [putAll_apply]; simp
    · intro p p1 p2; rw [putAll_apply]; simp [p1, p2]

theorem good_compute {S : Stages V} {s : V} {d : Disk V} (h : Good S s d) (hm : d .cln ≠ .absent → d .mean ≠ .absent)
    (det : Bool) :
    ∃ d', Runs (Weak S s) d d' (compute S (.whole s) det d) ∧ Good S s d' ∧ (∀ p, asked det p → d' p = .whole (value S s p)) ∧
      (∀ p, ¬ asked det p → d' p = d p) := by
  obtain ⟨d1, r1, g1, v1, k1, k2⟩ := good_main h hm
  cases det with
  | false =>
    refine ⟨d1, Runs.andThen r1 (Runs.nil d1), g1, ?_, ?_⟩
    · rintro p (hp | hp)
      · cases hp
      · exact v1 p hp.1 hp.2
    · intro p hp
      unfold asked at hp
      cases p <;> simp_all
  | true =>
    obtain ⟨d2, r2, g2, v2, v3, k3⟩ := good_det g1 (v1 .pod (by decide) (by decide))
    refine ⟨d2, Runs.andThen r1 r2, g2, ?_, ?_⟩
    · intro p _
      by_cases e1 : p = .recDet
      · rw [e1]; exact v2
      by_cases e2 : p = .trajDet
      · rw [e2]; exact v3
      rw [k3 p e1 e2]; exact v1 p e1 e2
    · intro p hp
      exact absurd (Or.inl rfl) hp

/-! ### C78 -/

/-- C78: from any set of up-to-date products (the mean being there if the cleaned fields are), `compute_everything` ends with
every product it is asked for up to date and leaves the others alone, and a further run writes nothing. -/
theorem C78_run_partial (S : Stages V) (s : V) (det : Bool) (d : Disk V) (h : Good S s d)
    (hm : d .cln ≠ .absent → d .mean ≠ .absent) :
    (compute S (.whole s) det d).2 = .ok ⟨⟩ ∧
    (∀ p, asked det p → final d (compute S (.whole s) det d) p = .whole (value S s p)) ∧
    (∀ p, ¬ asked det p → final d (compute S (.whole s) det d) p = d p) ∧
    compute S (.whole s) det (final d (compute S (.whole s) det d)) = ([], .ok ⟨⟩) := by
  obtain ⟨d', r, g, v, k⟩ := good_compute h hm det
  rw [r.fin]
  refine ⟨r.ok, v, k, ?_⟩
  have ex : ∀ p, asked det p → (d' p).exists' = true := by intro p hp; rw [v p hp]; rfl
  have a : ∀ p, p ≠ .recDet → p ≠ .trajDet → asked det p := fun p h1 h2 => Or.inr ⟨h1, h2⟩
  have hmain : mainPart S (.whole s) d' = ([], .ok ⟨⟩) := by
    unfold mainPart
    rw [ex _ (a _ (by decide) (by decide)), ex _ (a _ (by decide) (by decide)), ex _ (a _ (by decide) (by decide)),
      ex _ (a _ (by decide) (by decide))]
    simp
  have hdet : detPart S det d' = ([], .ok ⟨⟩) := by
    unfold detPart
    cases det with
    | false => rfl
    | true =>
      rw [ex .recDet (Or.inl rfl), ex .trajDet (Or.inl rfl)]
      simp
  unfold compute andThen
  rw [hmain]
  show ([] ++ (detPart S det (final d' ([], .ok ⟨⟩))).1, (detPart S det (final d' ([], .ok ⟨⟩))).2) = _
  rw [show final d' ([], Except.ok PUnit.unit) = d' from rfl, hdet]
  rfl

/-- C78, crashes: when a run is interrupted at any point outside the writing of a file, and not between the cleaned fields and
their mean, running again ends with every product up to date.  Partial: the other points are in `C78_broken_violated`,
`C78_silent_violated` and `C78_mean_violated`. -/
theorem C78_crash_partial (S : Stages V) (s : V) (det : Bool) (d : Disk V) (h : Good S s d)
    (hm : d .cln ≠ .absent → d .mean ≠ .absent) (e : Disk V) (he : e ∈ (compute S (.whole s) det d).1)
    (hw : ∀ p, e p ≠ .broken) (hem : e .cln ≠ .absent → e .mean ≠ .absent) :
    (compute S (.whole s) det e).2 = .ok ⟨⟩ ∧
    (∀ p, asked det p → final e (compute S (.whole s) det e) p = .whole (value S s p)) := by
  obtain ⟨d', r, g, v, k⟩ := good_compute h hm det
  have ge : Good S s e := fun p => by
    rcases r.all e he p with x | x | x
    · exact Or.inl x
    · exact Or.inr x
    · exact absurd x (hw p)
  obtain ⟨h1, h2, -, -⟩ := C78_run_partial S s det e ge hem
  exact ⟨h1, h2⟩

/-- C78: whatever was on the disk, broken files included, deleting the cleaned fields makes the next run rebuild the main products from the
source; so does `recompute_everything`. -/
theorem C78_rebuild (S : Stages V) (s : V) (d : Disk V) (p : Product) (hp : asked false p) :
    final d (recompute S (.whole s) d) p = .whole (value S s p) ∧
    (d .cln = .absent → final d (compute S (.whole s) false d) p = .whole (value S s p)) := by
  have h : final d (recompute S (.whole s) d) p = .whole (value S s p) := by
    rcases hp with hp | hp
    · cases hp
    · cases p <;> simp [recompute, prepare, podDecomp, podReconstr, cpDetection, andThen, stage, export', read, final, put,
        value] at hp ⊢
  refine ⟨h, ?_⟩
  intro hc
  have e1 : mainPart S (.whole s) d = recompute S (.whole s) d := by
    unfold mainPart recompute
    rw [hc, if_pos (by simp [File.exists'])]
  have ok : (recompute S (.whole s) d).2 = .ok ⟨⟩ := by
    simp [recompute, prepare, podDecomp, podReconstr, cpDetection, andThen, stage, export', read, final, put]
  unfold compute
  rw [final_andThen (by rw [e1]; exact ok), e1]
  exact h

/-- `n` runs. -/
def again (S : Stages V) (src : File V) (det : Bool) : Nat → Disk V → Disk V
  | 0, d => d
  | n + 1, d => again S src det n (final d (compute S src det d))

/-- C78 fails when the process dies between the writing of the cleaned fields and that of their mean, which happens in every first
run: however often the protocol is run again, the mean is never produced. -/
theorem C78_mean_violated (S : Stages V) (s : V) (det : Bool) :
    ∃ e ∈ (compute S (.whole s) det fun _ => .absent).1, (∀ p, e p ≠ .broken) ∧
      ∀ n, again S (.whole s) det n e .mean = .absent := by
  refine ⟨put (fun _ => .absent) .cln (.whole (S.fcln s)), ?_, ?_, ?_⟩
  · cases det <;> simp [compute, mainPart, prepare, andThen, export', read, final, File.exists', podDecomp, stage, put,
      podReconstr, cpDetection, detPart]
  · intro p; cases p <;> simp [put]
  · have key : ∀ d : Disk V, (d .cln).exists' = true → d .mean = .absent →
        ((final d (compute S (.whole s) det d)) .cln).exists' = true ∧ final d (compute S (.whole s) det d) .mean = .absent := by
      intro d hc hm
      cases det <;> cases h1 : d .cln <;> cases h2 : d .pod <;> cases h3 : d .recon <;> cases h4 : d .traj <;>
        cases h5 : d .recDet <;> cases h6 : d .trajDet <;>
        simp [compute, mainPart, detPart, andThen, export', read, final, File.exists', podDecomp, stage, put,
          podReconstr, cpDetection, h1, h2, h3, h4, h5, h6, hm] at hc ⊢
    intro n
    have : ∀ (n : Nat) (d : Disk V), (d .cln).exists' = true → d .mean = .absent → again S (.whole s) det n d .mean = .absent := by
      intro n
      induction n with
      | zero => intro d _ hm; exact hm
      | succ n ih =>
        intro d hc hm
        obtain ⟨a, b⟩ := key d hc hm
        exact ih _ a b
    exact this n _ (by simp [put, File.exists']) (by simp [put])

/-- C78 fails when the process dies while a file other than the last is written: from then on every run ends with EOFError and
changes nothing. -/
theorem C78_broken_violated (S : Stages V) (s : V) (det : Bool) (p : Product) (hp : p = .cln ∨ p = .pod ∨ p = .recon) :
    ∃ e ∈ (compute S (.whole s) det fun _ => .absent).1, e p = .broken ∧
      compute S (.whole s) det e = ([], .error .eofError) := by
  rcases hp with rfl | rfl | rfl
  · refine ⟨put (fun _ => .absent) .cln .broken, ?_, by simp, ?_⟩
    · cases det <;> simp [compute, mainPart, prepare, andThen, export', read, final, File.exists', podDecomp, stage, put,
        podReconstr, cpDetection, detPart]
    · simp [compute, mainPart, andThen, read, File.exists', podDecomp, stage, put]
  · refine ⟨put (putAll S s (fun _ => .absent) [.cln, .mean]) .pod .broken, ?_, by simp, ?_⟩
    · cases det <;> simp [compute, mainPart, prepare, andThen, export', read, final, File.exists', podDecomp, stage, put,
        podReconstr, cpDetection, detPart, putAll, value]
    · simp [compute, mainPart, andThen, read, File.exists', podReconstr, stage, put, putAll]
  · refine ⟨put (putAll S s (fun _ => .absent) [.cln, .mean, .pod]) .recon .broken, ?_, by simp, ?_⟩
    · cases det <;> simp [compute, mainPart, prepare, andThen, export', read, final, File.exists', podDecomp, stage, put,
        podReconstr, cpDetection, detPart, putAll, value]
    · simp [compute, mainPart, andThen, read, File.exists', cpDetection, stage, put, putAll]

/-- C78 fails silently when the process dies while the trajectories are written: further runs end well and leave the broken
file. -/
theorem C78_silent_violated (S : Stages V) (s : V) :
    ∃ e ∈ (compute S (.whole s) false fun _ => .absent).1, e .traj = .broken ∧
      compute S (.whole s) false e = ([], .ok ⟨⟩) := by
  refine ⟨put (putAll S s (fun _ => .absent) [.cln, .mean, .pod, .recon]) .traj .broken, ?_, by simp, ?_⟩
  · simp [compute, mainPart, prepare, andThen, export', read, final, File.exists', podDecomp, stage, put,
      podReconstr, cpDetection, detPart, putAll, value]
  · simp [compute, mainPart, andThen, File.exists', put, putAll, detPart]

/-- C78 fails for the detailed products: when the rest is recomputed, by deleting the cleaned fields or by `recompute_everything`, they
are kept as they were, whatever they contain. -/
theorem C78_stale_violated (S : Stages V) (s : V) (d : Disk V) (hc : d .cln = .absent) {v w : V} (hr : d .recDet = .whole v)
    (ht : d .trajDet = .whole w) :
    (compute S (.whole s) true d).2 = .ok ⟨⟩ ∧ final d (compute S (.whole s) true d) .pod = .whole (value S s .pod) ∧
    final d (compute S (.whole s) true d) .recDet = .whole v ∧ final d (compute S (.whole s) true d) .trajDet = .whole w ∧
    final d (recompute S (.whole s) d) .recDet = .whole v := by
  refine ⟨?_, ?_, ?_, ?_, ?_⟩ <;>
  simp [compute, recompute, mainPart, prepare, andThen, export', read, final, File.exists', podDecomp, stage, put,
    podReconstr, cpDetection, detPart, value, hc, hr, ht]

/-- C78: with the default number of threads no protocol can be built. -/
theorem C78_default_violated : newThread none = .error .attributeError := rfl

/-- A protocol on numbers, from an empty disk: seven products are written, in fourteen steps. -/
example : (compute (V := Nat) ⟨(· + 1), (· * 2), (· * 3), (· + 5), (· * 7), (· + 11)⟩ (.whole 1) true fun _ => .absent).1.length = 14 ∧
    final (fun _ => .absent)
      (compute (V := Nat) ⟨(· + 1), (· * 2), (· * 3), (· + 5), (· * 7), (· + 11)⟩ (.whole 1) true fun _ => .absent) .trajDet =
        .whole 119 := by
  decide

/-- The hypotheses of `C78_run_partial` are met by a partly filled disk. -/
example : Good (V := Nat) ⟨(· + 1), (· * 2), (· * 3), (· + 5), (· * 7), (· + 11)⟩ 1
    (fun p => if p = .cln then .whole 2 else if p = .mean then .whole 4 else if p = .trajDet then .whole 119 else .absent) := by
  intro p; cases p <;> simp [value]

end IMT.Protocol
