import Verif.Cleaning.Model
import Mathlib.Data.List.Basic

/-!
# What is on a disk
-/

namespace IMT.Cleaning

/-- The disk holds the path `p`, a folder (`true`) or a file (`false`). -/
inductive Has : Forest → Path → Bool → Prop
  | file (n r) : Has (.file n r) [n] false
  | dir (n s r) : Has (.dir n s r) [n] true
  | inside (n s r p k) : Has s p k → Has (.dir n s r) (n :: p) k
  | afterFile (n r p k) : Has r p k → Has (.file n r) p k
  | afterDir (n s r p k) : Has r p k → Has (.dir n s r) p k

/-- Names are different in every folder. -/
def Wf : Forest → Prop
  | .nil => True
  | .file n r => n ∉ r.names ∧ Wf r
  | .dir n s r => n ∉ r.names ∧ Wf s ∧ Wf r

theorem has_nil {p k} : ¬ Has .nil p k := by intro h; cases h

theorem has_file {n r p k} : Has (.file n r) p k ↔ (p = [n] ∧ k = false) ∨ Has r p k := by
  constructor
  · intro h
    cases h with
    | file => exact .inl ⟨rfl, rfl⟩
    | afterFile _ _ _ _ h => exact .inr h
  · rintro (⟨rfl, rfl⟩ | h)
    · exact .file n r
    · exact .afterFile _ _ _ _ h

theorem has_dir {n s r p k} : Has (.dir n s r) p k ↔
    (p = [n] ∧ k = true) ∨ (∃ q, p = n :: q ∧ Has s q k) ∨ Has r p k := by
  constructor
  · intro h
    cases h with
    | dir => exact .inl ⟨rfl, rfl⟩
    | inside _ _ _ q _ h => exact .inr (.inl ⟨q, rfl, h⟩)
    | afterDir _ _ _ _ _ h => exact .inr (.inr h)
  · rintro (⟨rfl, rfl⟩ | ⟨q, rfl, h⟩ | h)
    · exact .dir n s r
    · exact .inside _ _ _ _ _ h
    · exact .afterDir _ _ _ _ _ h

theorem has_ne_nil {f p k} (h : Has f p k) : p ≠ [] := by
  induction h <;> simp_all

theorem has_head {f p k} (h : Has f p k) : ∃ n q, p = n :: q ∧ n ∈ f.names := by
  induction h with
  | file n r => exact ⟨n, [], rfl, by simp [Forest.names]⟩
  | dir n s r => exact ⟨n, [], rfl, by simp [Forest.names]⟩
  | inside n s r p k h ih => exact ⟨n, p, rfl, by simp [Forest.names]⟩
  | afterFile n r p k h ih =>
    obtain ⟨m, q, rfl, hm⟩ := ih
    exact ⟨m, q, rfl, by simp [Forest.names, hm]⟩
  | afterDir n s r p k h ih =>
    obtain ⟨m, q, rfl, hm⟩ := ih
    exact ⟨m, q, rfl, by simp [Forest.names, hm]⟩

theorem not_has_of_head {f : Forest} {n q k} (h : n ∉ f.names) : ¬ Has f (n :: q) k := by
  intro hh
  obtain ⟨m, q', he, hm⟩ := has_head hh
  cases he
  exact h hm

theorem has_kind {f p} (hf : Wf f) (h1 : Has f p true) (h2 : Has f p false) : False := by
  induction f generalizing p with
  | nil => exact has_nil h1
  | file n r ih =>
    rw [has_file] at h1 h2
    rcases h1 with ⟨_, h⟩ | h1
    · cases h
    · rcases h2 with ⟨rfl, _⟩ | h2
      · exact not_has_of_head hf.1 h1
      · exact ih hf.2 h1 h2
  | dir n s r ihs ihr =>
    rw [has_dir] at h1 h2
    rcases h1 with ⟨rfl, _⟩ | ⟨q, rfl, h1⟩ | h1
    · rcases h2 with ⟨_, h⟩ | ⟨q, hq, h2⟩ | h2
      · cases h
      · cases hq; exact has_ne_nil h2 rfl
      · exact not_has_of_head hf.1 h2
    · rcases h2 with ⟨_, h⟩ | ⟨q', hq, h2⟩ | h2
      · cases h
      · cases hq; exact ihs hf.2.1 h1 h2
      · exact not_has_of_head hf.1 h2
    · rcases h2 with ⟨_, h⟩ | ⟨q', rfl, h2⟩ | h2
      · cases h
      · exact not_has_of_head hf.1 h1
      · exact ihr hf.2.2 h1 h2

/-- What a deletion does: it works on the paths `can` says, and leaves
everything but what `gone` says. -/
theorem rmFile_spec (f : Forest) (hf : Wf f) (p : Path) :
    ((f.rmFile p).isSome ↔ Has f p false) ∧
    ∀ g, f.rmFile p = some g → Wf g ∧ (∀ n, n ∈ g.names → n ∈ f.names) ∧
      ∀ q k, Has g q k ↔ Has f q k ∧ q ≠ p := by
  induction f generalizing p with
  | nil =>
    refine ⟨?_, ?_⟩
    · simp only [Forest.rmFile, Option.isSome_none, Bool.false_eq_true, false_iff]
      exact has_nil
    · intro g hg; cases hg
  | file n r ih =>
    unfold Forest.rmFile
    by_cases hp : p = [n]
    · subst hp
      rw [if_pos rfl]
      refine ⟨by simp [has_file], ?_⟩
      intro g hg
      cases hg
      refine ⟨hf.2, fun m hm => by simp [Forest.names, hm], ?_⟩
      intro q k
      rw [has_file]
      constructor
      · intro h
        refine ⟨.inr h, ?_⟩
        rintro rfl
        exact not_has_of_head hf.1 h
      · rintro ⟨⟨rfl, _⟩ | h, hne⟩
        · exact absurd rfl hne
        · exact h
    · rw [if_neg hp]
      obtain ⟨h1, h2⟩ := ih hf.2 p
      refine ⟨?_, ?_⟩
      · rw [Option.isSome_map, h1, has_file]
        simp [hp]
      · intro g hg
        rw [Option.map_eq_some_iff] at hg
        obtain ⟨r', hr', rfl⟩ := hg
        obtain ⟨w, nm, hh⟩ := h2 r' hr'
        refine ⟨⟨fun h => hf.1 (nm n h), w⟩, ?_, ?_⟩
        · intro m hm
          simp only [Forest.names, List.mem_cons] at hm ⊢
          rcases hm with rfl | hm
          · exact .inl rfl
          · exact .inr (nm m hm)
        · intro q k
          rw [has_file, has_file, hh]
          constructor
          · rintro (⟨rfl, rfl⟩ | ⟨h, hne⟩)
            · exact ⟨.inl ⟨rfl, rfl⟩, fun h => hp h.symm⟩
            · exact ⟨.inr h, hne⟩
          · rintro ⟨h | h, hne⟩
            · exact .inl h
            · exact .inr ⟨h, hne⟩
  | dir n s r ihs ihr =>
    unfold Forest.rmFile
    by_cases hp : p.head? = some n ∧ p.tail ≠ []
    · rw [if_pos hp]
      obtain ⟨m, t, rfl⟩ : ∃ m t, p = m :: t := by
        cases p with
        | nil => simp at hp
        | cons m t => exact ⟨m, t, rfl⟩
      simp only [List.head?_cons, Option.some.injEq, List.tail_cons] at hp ⊢
      obtain ⟨rfl, ht⟩ := hp
      obtain ⟨h1, h2⟩ := ihs hf.2.1 t
      refine ⟨?_, ?_⟩
      · rw [Option.isSome_map, h1, has_dir]
        constructor
        · exact fun h => .inr (.inl ⟨t, rfl, h⟩)
        · rintro (⟨h, _⟩ | ⟨q, hq, h⟩ | h)
          · cases h; exact absurd rfl ht
          · cases hq; exact h
          · exact absurd h (not_has_of_head hf.1)
      · intro g hg
        rw [Option.map_eq_some_iff] at hg
        obtain ⟨s', hs', rfl⟩ := hg
        obtain ⟨w, nm, hh⟩ := h2 s' hs'
        refine ⟨⟨hf.1, w, hf.2.2⟩, fun x hx => hx, ?_⟩
        intro q k
        rw [has_dir, has_dir]
        constructor
        · rintro (⟨rfl, rfl⟩ | ⟨q', rfl, h⟩ | h)
          · exact ⟨.inl ⟨rfl, rfl⟩, fun h => ht (by injection h with _ h; exact h.symm)⟩
          · rw [hh] at h
            exact ⟨.inr (.inl ⟨q', rfl, h.1⟩), fun he => h.2 (by injection he)⟩
          · refine ⟨.inr (.inr h), ?_⟩
            rintro rfl
            exact not_has_of_head hf.1 h
        · rintro ⟨⟨rfl, rfl⟩ | ⟨q', rfl, h⟩ | h, hne⟩
          · exact .inl ⟨rfl, rfl⟩
          · exact .inr (.inl ⟨q', rfl, (hh q' k).mpr ⟨h, fun he => hne (by rw [he])⟩⟩)
          · exact .inr (.inr h)
    · rw [if_neg hp]
      have hin : ∀ q, Has s q false → p ≠ n :: q := by
        rintro q hq rfl
        exact hp ⟨rfl, has_ne_nil hq⟩
      obtain ⟨h1, h2⟩ := ihr hf.2.2 p
      refine ⟨?_, ?_⟩
      · rw [Option.isSome_map, h1, has_dir]
        constructor
        · exact fun h => .inr (.inr h)
        · rintro (⟨_, h⟩ | ⟨q, hq, h⟩ | h)
          · cases h
          · exact absurd hq (hin q h)
          · exact h
      · intro g hg
        rw [Option.map_eq_some_iff] at hg
        obtain ⟨r', hr', rfl⟩ := hg
        obtain ⟨w, nm, hh⟩ := h2 r' hr'
        have hpr : Has r p false := h1.mp (by rw [hr']; rfl)
        have hpn : ∀ t, p ≠ n :: t := by
          rintro t rfl
          exact not_has_of_head hf.1 hpr
        refine ⟨⟨fun h => hf.1 (nm n h), hf.2.1, w⟩, ?_, ?_⟩
        · intro m hm
          simp only [Forest.names, List.mem_cons] at hm ⊢
          rcases hm with rfl | hm
          · exact .inl rfl
          · exact .inr (nm m hm)
        · intro q k
          rw [has_dir, has_dir, hh]
          constructor
          · rintro (⟨rfl, rfl⟩ | ⟨q', rfl, h⟩ | ⟨h, hne⟩)
            · exact ⟨.inl ⟨rfl, rfl⟩, fun h => hpn _ h.symm⟩
            · exact ⟨.inr (.inl ⟨q', rfl, h⟩), fun h => hpn _ h.symm⟩
            · exact ⟨.inr (.inr h), hne⟩
          · rintro ⟨h | h | h, hne⟩
            · exact .inl h
            · exact .inr (.inl h)
            · exact .inr (.inr ⟨h, hne⟩)

/-- The folder at `p` can be deleted: with all its content, or when it has none. -/
def CanRm (all : Bool) (f : Forest) (p : Path) : Prop :=
  Has f p true ∧ (all = true ∨ ∀ q k, Has f q k → p <+: q → q = p)

theorem forest_eq_nil {s : Forest} (h : ∀ q k, ¬ Has s q k) : s = .nil := by
  cases s with
  | nil => rfl
  | file n r => exact absurd (Has.file n r) (h _ _)
  | dir n t r => exact absurd (Has.dir n t r) (h _ _)

theorem rmDir_spec (all : Bool) (f : Forest) (hf : Wf f) (p : Path) :
    ((f.rmDir all p).isSome ↔ CanRm all f p) ∧
    ∀ g, f.rmDir all p = some g → Wf g ∧ (∀ n, n ∈ g.names → n ∈ f.names) ∧
      ∀ q k, Has g q k ↔ Has f q k ∧ ¬ p <+: q := by
  induction f generalizing p with
  | nil =>
    refine ⟨?_, ?_⟩
    · simp only [Forest.rmDir, Option.isSome_none, Bool.false_eq_true, false_iff]
      exact fun h => has_nil h.1
    · intro g hg; cases hg
  | file n r ih =>
    unfold Forest.rmDir
    obtain ⟨h1, h2⟩ := ih hf.2 p
    refine ⟨?_, ?_⟩
    · rw [Option.isSome_map, h1]
      unfold CanRm
      constructor
      · rintro ⟨ha, hb⟩
        refine ⟨has_file.mpr (.inr ha), hb.imp_right ?_⟩
        intro hb q k hq hpre
        rcases has_file.mp hq with ⟨rfl, _⟩ | hq
        · obtain ⟨m, t, rfl, hm⟩ := has_head ha
          obtain ⟨u, hu⟩ := hpre
          simp only [List.cons_append, List.cons.injEq] at hu
          exact absurd (hu.1 ▸ hm) hf.1
        · exact hb q k hq hpre
      · rintro ⟨ha, hb⟩
        rcases has_file.mp ha with ⟨_, h⟩ | ha
        · cases h
        · exact ⟨ha, hb.imp_right fun hb q k hq hpre => hb q k (has_file.mpr (.inr hq)) hpre⟩
    · intro g hg
      rw [Option.map_eq_some_iff] at hg
      obtain ⟨r', hr', rfl⟩ := hg
      obtain ⟨w, nm, hh⟩ := h2 r' hr'
      have hpr := (h1.mp (by rw [hr']; rfl)).1
      refine ⟨⟨fun h => hf.1 (nm n h), w⟩, ?_, ?_⟩
      · intro m hm
        simp only [Forest.names, List.mem_cons] at hm ⊢
        rcases hm with rfl | hm
        · exact .inl rfl
        · exact .inr (nm m hm)
      · intro q k
        rw [has_file, has_file, hh]
        constructor
        · rintro (⟨rfl, rfl⟩ | ⟨h, hne⟩)
          · refine ⟨.inl ⟨rfl, rfl⟩, ?_⟩
            rintro ⟨u, hu⟩
            obtain ⟨m, t, rfl, hm⟩ := has_head hpr
            simp only [List.cons_append, List.cons.injEq] at hu
            exact hf.1 (hu.1 ▸ hm)
          · exact ⟨.inr h, hne⟩
        · rintro ⟨h | h, hne⟩
          · exact .inl h
          · exact .inr ⟨h, hne⟩
  | dir n s r ihs ihr =>
    unfold Forest.rmDir
    by_cases hp1 : p = [n]
    · subst hp1
      rw [if_pos rfl]
      have hcan : (all = true ∨ s = .nil) ↔ CanRm all (.dir n s r) [n] := by
        unfold CanRm
        constructor
        · intro h
          refine ⟨Has.dir n s r, h.imp_right ?_⟩
          rintro rfl q k hq ⟨u, rfl⟩
          rcases has_dir.mp hq with ⟨h, _⟩ | ⟨q', hq', h⟩ | h
          · exact h
          · exact absurd h has_nil
          · exact absurd h (by simpa using not_has_of_head hf.1)
        · rintro ⟨_, h⟩
          refine h.imp_right fun h => forest_eq_nil ?_
          intro q k hq
          have := h (n :: q) k (Has.inside n s r q k hq) ⟨q, rfl⟩
          injection this with _ hnil
          exact has_ne_nil hq hnil
      by_cases hc : all = true ∨ s = .nil
      · rw [if_pos hc]
        refine ⟨by simpa using hcan.mp hc, ?_⟩
        intro g hg
        cases hg
        refine ⟨hf.2.2, fun m hm => by simp [Forest.names, hm], ?_⟩
        intro q k
        rw [has_dir]
        constructor
        · intro h
          refine ⟨.inr (.inr h), ?_⟩
          rintro ⟨u, rfl⟩
          exact not_has_of_head hf.1 (by simpa using h)
        · rintro ⟨⟨rfl, _⟩ | ⟨q', rfl, _⟩ | h, hne⟩
          · exact absurd (List.prefix_refl _) hne
          · exact absurd ⟨q', rfl⟩ hne
          · exact h
      · rw [if_neg hc]
        exact ⟨by simpa using fun h => hc (hcan.mpr h), fun g hg => by cases hg⟩
    · rw [if_neg hp1]
      by_cases hp : p.head? = some n ∧ p.tail ≠ []
      · rw [if_pos hp]
        obtain ⟨m, t, rfl⟩ : ∃ m t, p = m :: t := by
          cases p with
          | nil => simp at hp
          | cons m t => exact ⟨m, t, rfl⟩
        simp only [List.head?_cons, Option.some.injEq, List.tail_cons] at hp ⊢
        obtain ⟨rfl, ht⟩ := hp
        obtain ⟨h1, h2⟩ := ihs hf.2.1 t
        have hpre : ∀ q, m :: t <+: m :: q ↔ t <+: q := by
          intro q; simp
        refine ⟨?_, ?_⟩
        · rw [Option.isSome_map, h1]
          unfold CanRm
          constructor
          · rintro ⟨ha, hb⟩
            refine ⟨Has.inside _ _ _ _ _ ha, hb.imp_right ?_⟩
            intro hb q k hq hpq
            rcases has_dir.mp hq with ⟨rfl, _⟩ | ⟨q', rfl, h⟩ | h
            · have := hpq.length_le
              cases t with
              | nil => exact absurd rfl ht
              | cons => simp at this
            · rw [hb q' k h ((hpre q').mp hpq)]
            · obtain ⟨u, rfl⟩ := hpq
              exact absurd h (by simpa using not_has_of_head hf.1)
          · rintro ⟨ha, hb⟩
            have ha' : Has s t true := by
              rcases has_dir.mp ha with ⟨h, _⟩ | ⟨q, hq, h⟩ | h
              · cases h; exact absurd rfl ht
              · cases hq; exact h
              · exact absurd h (not_has_of_head hf.1)
            refine ⟨ha', hb.imp_right fun hb q k hq hpq => ?_⟩
            have := hb (m :: q) k (Has.inside _ _ _ _ _ hq) ((hpre q).mpr hpq)
            injection this
        · intro g hg
          rw [Option.map_eq_some_iff] at hg
          obtain ⟨s', hs', rfl⟩ := hg
          obtain ⟨w, nm, hh⟩ := h2 s' hs'
          refine ⟨⟨hf.1, w, hf.2.2⟩, fun x hx => hx, ?_⟩
          intro q k
          rw [has_dir, has_dir]
          constructor
          · rintro (⟨rfl, rfl⟩ | ⟨q', rfl, h⟩ | h)
            · refine ⟨.inl ⟨rfl, rfl⟩, fun h => ?_⟩
              have := h.length_le
              cases t with
              | nil => exact absurd rfl ht
              | cons => simp at this
            · rw [hh] at h
              exact ⟨.inr (.inl ⟨q', rfl, h.1⟩), fun he => h.2 ((hpre q').mp he)⟩
            · refine ⟨.inr (.inr h), ?_⟩
              rintro ⟨u, rfl⟩
              exact not_has_of_head hf.1 (by simpa using h)
          · rintro ⟨⟨rfl, rfl⟩ | ⟨q', rfl, h⟩ | h, hne⟩
            · exact .inl ⟨rfl, rfl⟩
            · exact .inr (.inl ⟨q', rfl, (hh q' k).mpr ⟨h, fun he => hne ((hpre q').mpr he)⟩⟩)
            · exact .inr (.inr h)
      · rw [if_neg hp]
        have hin : ∀ t, t ≠ [] → p ≠ n :: t := by
          rintro t hq rfl
          exact hp ⟨rfl, hq⟩
        have hpn : ∀ t, p ≠ n :: t := by
          intro t
          by_cases ht : t = []
          · subst ht; exact hp1
          · exact hin t ht
        obtain ⟨h1, h2⟩ := ihr hf.2.2 p
        have hpq : p ≠ [] → ∀ t, ¬ p <+: n :: t := by
          intro hne t h
          obtain ⟨u, hu⟩ := h
          cases p with
          | nil => exact hne rfl
          | cons m t' =>
            simp only [List.cons_append, List.cons.injEq] at hu
            exact hpn t' (by rw [hu.1])
        refine ⟨?_, ?_⟩
        · rw [Option.isSome_map, h1]
          unfold CanRm
          constructor
          · rintro ⟨ha, hb⟩
            refine ⟨Has.afterDir _ _ _ _ _ ha, hb.imp_right ?_⟩
            intro hb q k hq hpre
            rcases has_dir.mp hq with ⟨rfl, _⟩ | ⟨q', rfl, _⟩ | hq
            · exact absurd hpre (hpq (has_ne_nil ha) [])
            · exact absurd hpre (hpq (has_ne_nil ha) q')
            · exact hb q k hq hpre
          · rintro ⟨ha, hb⟩
            have ha' : Has r p true := by
              rcases has_dir.mp ha with ⟨h, _⟩ | ⟨q, hq, h⟩ | h
              · exact absurd h (hpn [])
              · exact absurd hq (hpn q)
              · exact h
            exact ⟨ha', hb.imp_right fun hb q k hq hpre =>
              hb q k (Has.afterDir _ _ _ _ _ hq) hpre⟩
        · intro g hg
          rw [Option.map_eq_some_iff] at hg
          obtain ⟨r', hr', rfl⟩ := hg
          obtain ⟨w, nm, hh⟩ := h2 r' hr'
          have hpr := (h1.mp (by rw [hr']; rfl)).1
          refine ⟨⟨fun h => hf.1 (nm n h), hf.2.1, w⟩, ?_, ?_⟩
          · intro m hm
            simp only [Forest.names, List.mem_cons] at hm ⊢
            rcases hm with rfl | hm
            · exact .inl rfl
            · exact .inr (nm m hm)
          · intro q k
            rw [has_dir, has_dir, hh]
            constructor
            · rintro (⟨rfl, rfl⟩ | ⟨q', rfl, h⟩ | ⟨h, hne⟩)
              · exact ⟨.inl ⟨rfl, rfl⟩, hpq (has_ne_nil hpr) []⟩
              · exact ⟨.inr (.inl ⟨q', rfl, h⟩), hpq (has_ne_nil hpr) q'⟩
              · exact ⟨.inr (.inr h), hne⟩
            · rintro ⟨h | h | h, hne⟩
              · exact .inl h
              · exact .inr (.inl h)
              · exact .inr (.inr ⟨h, hne⟩)

end IMT.Cleaning
