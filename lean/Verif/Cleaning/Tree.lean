import Verif.Cleaning.TreeModel
import Mathlib.Data.List.Basic

/-!
# The tree of a list of files: C310
-/

namespace IMT.Cleaning

open IMT.Utils (Files)

/-- The tree shows the path, a folder (`true`) or a file (`false`). -/
inductive In : Dic → Path → Bool → Prop
  | file (l f r) : f ∈ l → In (.names "files" l r) [f] false
  | dir (n d r) : In (.node n d r) [n] true
  | inside (n d r p k) : In d p k → In (.node n d r) (n :: p) k
  | afterNames (n l r p k) : In r p k → In (.names n l r) p k
  | afterNode (n d r p k) : In r p k → In (.node n d r) p k

/-- What a listed path puts in the tree: itself, and the folders it is in. -/
def Adds (isdir : Bool) (p q : Path) (k : Bool) : Prop :=
  (k = false ∧ isdir = false ∧ q = p) ∨ (k = true ∧ q ≠ [] ∧ q <+: p ∧ (q ≠ p ∨ isdir = true))

/-- No folder of the path is called `files`. -/
def NoFiles (isdir : Bool) (p : Path) : Prop :=
  p ≠ [] ∧ ∀ q, ∀ n : String, q ++ [n] <+: p → (q ++ [n] ≠ p ∨ isdir = true) → n ≠ "files"

/-- Keys are different, and lists are under `files` only. -/
def DicOk : Dic → Prop
  | .nil => True
  | .names k _ r => k = "files" ∧ "files" ∉ r.keys ∧ DicOk r
  | .node k d r => k ≠ "files" ∧ k ∉ r.keys ∧ DicOk d ∧ DicOk r

theorem in_nil {p k} : ¬ In .nil p k := by intro h; cases h

theorem in_names {l r p k} : In (.names "files" l r) p k ↔
    (k = false ∧ ∃ f ∈ l, p = [f]) ∨ In r p k := by
  constructor
  · intro h
    cases h with
    | file _ f _ hf => exact .inl ⟨rfl, f, hf, rfl⟩
    | afterNames _ _ _ _ _ h => exact .inr h
  · rintro (⟨rfl, f, hf, rfl⟩ | h)
    · exact .file _ _ _ hf
    · exact .afterNames _ _ _ _ _ h

theorem in_node {n d r p k} : In (.node n d r) p k ↔
    (k = true ∧ p = [n]) ∨ (∃ q, p = n :: q ∧ In d q k) ∨ In r p k := by
  constructor
  · intro h
    cases h with
    | dir => exact .inl ⟨rfl, rfl⟩
    | inside _ _ _ q _ h => exact .inr (.inl ⟨q, rfl, h⟩)
    | afterNode _ _ _ _ _ h => exact .inr (.inr h)
  · rintro (⟨rfl, rfl⟩ | ⟨q, rfl, h⟩ | h)
    · exact .dir _ _ _
    · exact .inside _ _ _ _ _ h
    · exact .afterNode _ _ _ _ _ h

theorem noFiles_cons {isdir : Bool} {c : String} {cs : Path} (h : NoFiles isdir (c :: cs))
    (hc : ¬ (isdir = false ∧ cs = [])) : c ≠ "files" ∧ (cs ≠ [] → NoFiles isdir cs) := by
  refine ⟨h.2 [] c ⟨cs, rfl⟩ ?_, fun hcs => ⟨hcs, ?_⟩⟩
  · cases isdir with
    | true => exact .inr rfl
    | false =>
      left
      intro he
      simp only [List.nil_append, List.cons.injEq, true_and] at he
      exact hc ⟨rfl, he.symm⟩
  · intro q n hp hor
    refine h.2 (c :: q) n (by simpa using hp) ?_
    rcases hor with h' | h'
    · left; simpa using h'
    · exact .inr h'

/-- What a path with a first component adds, in terms of the rest. -/
theorem adds_cons {isdir : Bool} {c : String} {cs q : Path} {k : Bool}
    (hc : ¬ (isdir = false ∧ cs = [])) :
    Adds isdir (c :: cs) q k ↔ (k = true ∧ q = [c]) ∨ ∃ q', q = c :: q' ∧ Adds isdir cs q' k := by
  unfold Adds
  constructor
  · rintro (⟨rfl, hd, rfl⟩ | ⟨rfl, hne, hpre, hor⟩)
    · exact .inr ⟨cs, rfl, .inl ⟨rfl, hd, rfl⟩⟩
    · cases q with
      | nil => exact absurd rfl hne
      | cons n q' =>
        rw [List.cons_prefix_cons] at hpre
        obtain ⟨rfl, hpre⟩ := hpre
        by_cases hq : q' = []
        · exact .inl ⟨rfl, by rw [hq]⟩
        · refine .inr ⟨q', rfl, .inr ⟨rfl, hq, hpre, ?_⟩⟩
          rcases hor with h | h
          · left; simpa using h
          · exact .inr h
  · rintro (⟨rfl, rfl⟩ | ⟨q', rfl, h⟩)
    · refine .inr ⟨rfl, by simp, ⟨cs, rfl⟩, ?_⟩
      cases isdir with
      | true => exact .inr rfl
      | false =>
        left
        intro he
        simp only [List.cons.injEq, true_and] at he
        exact hc ⟨rfl, he.symm⟩
    · rcases h with ⟨rfl, hd, rfl⟩ | ⟨rfl, hne, hpre, hor⟩
      · exact .inl ⟨rfl, hd, rfl⟩
      · refine .inr ⟨rfl, by simp, by simpa using hpre, ?_⟩
        rcases hor with h | h
        · left; simpa using h
        · exact .inr h

theorem adds_nil {q : Path} {k : Bool} : ¬ Adds true [] q k := by
  rintro (⟨_, h, _⟩ | ⟨_, hne, hpre, _⟩)
  · cases h
  · exact hne (List.prefix_nil.mp hpre)

theorem adds_file {c : String} {q : Path} {k : Bool} :
    Adds false [c] q k ↔ k = false ∧ q = [c] := by
  unfold Adds
  constructor
  · rintro (⟨h1, _, h2⟩ | ⟨_, hne, ⟨u, hu⟩, h⟩)
    · exact ⟨h1, h2⟩
    · exfalso
      cases q with
      | nil => exact hne rfl
      | cons n q =>
        simp only [List.cons_append, List.cons.injEq, List.append_eq_nil_iff] at hu
        rcases h with h | h
        · exact h (by rw [hu.1, hu.2.1])
        · cases h
  · rintro ⟨rfl, rfl⟩
    exact .inl ⟨rfl, rfl, rfl⟩

theorem chain_spec (isdir : Bool) (p : Path) (hp : p = [] → isdir = true)
    (h : p ≠ [] → NoFiles isdir p) :
    DicOk (chain isdir p) ∧ ∀ q k, In (chain isdir p) q k ↔ Adds isdir p q k := by
  induction p with
  | nil =>
    have := hp rfl
    subst this
    exact ⟨trivial, fun q k => ⟨fun h => absurd h in_nil, fun h => absurd h adds_nil⟩⟩
  | cons c cs ih =>
    unfold chain
    by_cases hc : isdir = false ∧ cs = []
    · rw [if_pos hc]
      obtain ⟨rfl, rfl⟩ := hc
      refine ⟨⟨rfl, by simp [Dic.keys], trivial⟩, fun q k => ?_⟩
      rw [in_names, adds_file]
      simp [in_nil]
    · rw [if_neg hc]
      obtain ⟨h1, h2⟩ := noFiles_cons (h (by simp)) hc
      obtain ⟨i1, i2⟩ := ih (by
        rintro rfl
        cases isdir with
        | true => rfl
        | false => exact absurd ⟨rfl, rfl⟩ hc) h2
      refine ⟨⟨h1, by simp [Dic.keys], i1, trivial⟩, fun q k => ?_⟩
      rw [in_node, adds_cons hc]
      simp only [in_nil, or_false, i2]

theorem addNode_spec (c : String) (new : Dic) (hn : DicOk new) (hc : c ≠ "files") (d : Dic)
    (hd : DicOk d) (hk : c ∉ d.keys) :
    DicOk (d.addNode c new) ∧ (∀ n, n ∈ (d.addNode c new).keys ↔ n ∈ d.keys ∨ n = c) ∧
    ∀ q k, In (d.addNode c new) q k ↔
      In d q k ∨ (k = true ∧ q = [c]) ∨ ∃ q', q = c :: q' ∧ In new q' k := by
  induction d with
  | nil =>
    refine ⟨⟨hc, by simp [Dic.keys], hn, trivial⟩, by simp [Dic.addNode, Dic.keys], fun q k => ?_⟩
    simp only [Dic.addNode, in_node, in_nil, or_false, false_or]
  | names key l r ih =>
    obtain ⟨rfl, h2, h3⟩ := hd
    simp only [Dic.keys, List.mem_cons, not_or] at hk
    obtain ⟨a, b, e⟩ := ih h3 hk.2
    refine ⟨⟨rfl, ?_, a⟩, ?_, fun q k => ?_⟩
    · rw [b]; simp [h2, Ne.symm hc]
    · intro n; simp only [Dic.addNode, Dic.keys, List.mem_cons, b]; tauto
    · simp only [Dic.addNode, in_names, e, or_assoc]
  | node key d r _ ih =>
    obtain ⟨h1, h2, h3, h4⟩ := hd
    simp only [Dic.keys, List.mem_cons, not_or] at hk
    obtain ⟨a, b, e⟩ := ih h4 hk.2
    refine ⟨⟨h1, ?_, h3, a⟩, ?_, fun q k => ?_⟩
    · rw [b]
      rintro (h | h)
      · exact h2 h
      · exact hk.1 h.symm
    · intro n; simp only [Dic.addNode, Dic.keys, List.mem_cons, b]; tauto
    · simp only [Dic.addNode, in_node, e, or_assoc]

theorem addFile_spec (f : String) (d : Dic) (hd : DicOk d) :
    ∃ d', d.addFile f = .ok d' ∧ DicOk d' ∧
      (∀ n, n ∈ d'.keys ↔ n ∈ d.keys ∨ n = "files") ∧
      ∀ q k, In d' q k ↔ In d q k ∨ (k = false ∧ q = [f]) := by
  induction d with
  | nil =>
    refine ⟨_, rfl, ⟨rfl, by simp [Dic.keys], trivial⟩, by simp [Dic.keys], fun q k => ?_⟩
    rw [in_names]; simp [in_nil]
  | names key l r ih =>
    obtain ⟨rfl, h2, h3⟩ := hd
    refine ⟨.names "files" (l ++ [f]) r, by simp [Dic.addFile], ⟨rfl, h2, h3⟩, ?_, fun q k => ?_⟩
    · intro n
      simp only [Dic.keys, List.mem_cons]
      tauto
    · rw [in_names, in_names]
      constructor
      · rintro (⟨rfl, g, hg, rfl⟩ | h)
        · rcases List.mem_append.mp hg with hg | hg
          · exact .inl (.inl ⟨rfl, g, hg, rfl⟩)
          · rw [List.mem_singleton] at hg
            exact .inr ⟨rfl, by rw [hg]⟩
        · exact .inl (.inr h)
      · rintro ((⟨rfl, g, hg, rfl⟩ | h) | ⟨rfl, rfl⟩)
        · exact .inl ⟨rfl, g, by simp [hg], rfl⟩
        · exact .inr h
        · exact .inl ⟨rfl, f, by simp, rfl⟩
  | node key d r _ ih =>
    obtain ⟨h1, h2, h3, h4⟩ := hd
    obtain ⟨r', e1, e2, e3, e4⟩ := ih h4
    refine ⟨.node key d r', by simp [Dic.addFile, h1, e1, Except.map], ⟨h1, ?_, h3, e2⟩, ?_, fun q k => ?_⟩
    · rw [e3]
      rintro (h | h)
      · exact h2 h
      · exact h1 h
    · intro n
      simp only [Dic.keys, List.mem_cons, e3]
      tauto
    · simp only [in_node, e4, or_assoc]

theorem in_head {d : Dic} (hd : DicOk d) {p k} (h : In d p k) :
    ∃ n q, p = n :: q ∧ ((k = true ∨ q ≠ []) → n ∈ d.keys) := by
  induction d generalizing p with
  | nil => exact absurd h in_nil
  | names key l r ih =>
    obtain ⟨rfl, h2, h3⟩ := hd
    rcases in_names.mp h with ⟨rfl, f, hf, rfl⟩ | h
    · exact ⟨f, [], rfl, by simp⟩
    · obtain ⟨n, q, rfl, hn⟩ := ih h3 h
      exact ⟨n, q, rfl, fun hh => by simp [Dic.keys, hn hh]⟩
  | node key d r ihd ihr =>
    rcases in_node.mp h with ⟨rfl, rfl⟩ | ⟨q, rfl, h⟩ | h
    · exact ⟨key, [], rfl, by simp [Dic.keys]⟩
    · exact ⟨key, q, rfl, by simp [Dic.keys]⟩
    · obtain ⟨n, q, rfl, hn⟩ := ihr hd.2.2.2 h
      exact ⟨n, q, rfl, fun hh => by simp [Dic.keys, hn hh]⟩

theorem intoKey_spec (c : String) (hc : c ≠ "files") (f : Dic → Res Dic) (last : Bool)
    (new : Path → Bool → Prop)
    (hf : ∀ d, DicOk d → ∃ d', f d = .ok d' ∧ DicOk d' ∧ ∀ q k, In d' q k ↔ In d q k ∨ new q k)
    (d : Dic) (hd : DicOk d) (hk : c ∈ d.keys) :
    ∃ d', intoKey c f last d = .ok d' ∧ DicOk d' ∧ (∀ n, n ∈ d'.keys ↔ n ∈ d.keys) ∧
      ∀ q k, In d' q k ↔
        In d q k ∨ (k = true ∧ q = [c]) ∨ ∃ q', q = c :: q' ∧ new q' k := by
  induction d with
  | nil => cases hk
  | names key l r ih =>
    obtain ⟨rfl, h2, h3⟩ := hd
    simp only [Dic.keys, List.mem_cons] at hk
    obtain ⟨r', e1, e2, e3, e4⟩ := ih h3 (hk.resolve_left hc)
    refine ⟨.names "files" l r', by simp [intoKey, Ne.symm hc, e1, Except.map],
      ⟨rfl, by rw [e3]; exact h2, e2⟩, ?_, fun q k => ?_⟩
    · intro n; simp only [Dic.keys, List.mem_cons, e3]
    · simp only [in_names, e4, or_assoc]
  | node key d r _ ih =>
    obtain ⟨h1, h2, h3, h4⟩ := hd
    by_cases hkc : key = c
    · subst hkc
      obtain ⟨d', e1, e2, e3⟩ := hf d h3
      refine ⟨.node key d' r, by simp [intoKey, e1, Except.map], ⟨h1, h2, e2, h4⟩,
        fun n => Iff.rfl, fun q k => ?_⟩
      simp only [in_node, e3]
      constructor
      · rintro (h | ⟨q', rfl, h | h⟩ | h)
        · exact .inl (.inl h)
        · exact .inl (.inr (.inl ⟨q', rfl, h⟩))
        · exact .inr (.inr ⟨q', rfl, h⟩)
        · exact .inl (.inr (.inr h))
      · rintro ((h | ⟨q', rfl, h⟩ | h) | h | ⟨q', rfl, h⟩)
        · exact .inl h
        · exact .inr (.inl ⟨q', rfl, .inl h⟩)
        · exact .inr (.inr h)
        · exact .inl h
        · exact .inr (.inl ⟨q', rfl, .inr h⟩)
    · simp only [Dic.keys, List.mem_cons] at hk
      obtain ⟨r', e1, e2, e3, e4⟩ := ih h4 (hk.resolve_left (Ne.symm hkc))
      refine ⟨.node key d r', by simp [intoKey, hkc, e1, Except.map],
        ⟨h1, by rw [e3]; exact h2, h3, e2⟩, ?_, fun q k => ?_⟩
      · intro n; simp only [Dic.keys, List.mem_cons, e3]
      · simp only [in_node, e4, or_assoc]

theorem insert_spec (isdir : Bool) (p : Path) (hp : p = [] → isdir = true)
    (h : p ≠ [] → NoFiles isdir p) (d : Dic) (hd : DicOk d) :
    ∃ d', insert isdir p d = .ok d' ∧ DicOk d' ∧ ∀ q k, In d' q k ↔ In d q k ∨ Adds isdir p q k := by
  induction p generalizing d with
  | nil =>
    have := hp rfl
    subst this
    exact ⟨d, rfl, hd, fun q k => by simp [adds_nil]⟩
  | cons c cs ih =>
    unfold insert
    by_cases hc : isdir = false ∧ cs = []
    · rw [if_pos hc]
      obtain ⟨rfl, rfl⟩ := hc
      obtain ⟨d', e1, e2, _, e4⟩ := addFile_spec c d hd
      exact ⟨d', e1, e2, fun q k => by rw [e4, adds_file]⟩
    · rw [if_neg hc]
      obtain ⟨h1, h2⟩ := noFiles_cons (h (by simp)) hc
      have hnil : cs = [] → isdir = true := by
        rintro rfl
        cases isdir with
        | true => rfl
        | false => exact absurd ⟨rfl, rfl⟩ hc
      by_cases hk : c ∈ d.keys
      · rw [if_pos hk]
        obtain ⟨d', e1, e2, _, e4⟩ := intoKey_spec c h1 (insert isdir cs) (decide (cs = []))
          (Adds isdir cs) (fun d hd => ih hnil h2 d hd) d hd hk
        exact ⟨d', e1, e2, fun q k => by rw [e4, adds_cons hc]⟩
      · rw [if_neg hk]
        obtain ⟨c1, c2⟩ := chain_spec isdir cs hnil h2
        obtain ⟨e1, _, e3⟩ := addNode_spec c (chain isdir cs) c1 h1 d hd hk
        exact ⟨_, rfl, e1, fun q k => by rw [e3, adds_cons hc]; simp only [c2]⟩

/-- **C310.**  When no folder is called `files`, the tree shows exactly the listed
files, the listed folders and the folders they are in, each folder once. -/
theorem C310_tree_partial (s : Files Path)
    (h : ∀ kp ∈ s.isdir.zip s.paths, NoFiles (decide (kp.1 = some true)) kp.2) :
    ∃ d, buildTree s = .ok d ∧ DicOk d ∧
      ∀ q k, In d q k ↔ ∃ kp ∈ s.isdir.zip s.paths, Adds (decide (kp.1 = some true)) kp.2 q k := by
  unfold buildTree
  suffices H : ∀ (l : List (Option Bool × Path)) (d : Dic), DicOk d →
      (∀ kp ∈ l, NoFiles (decide (kp.1 = some true)) kp.2) →
      ∃ d', insertAll d l = .ok d' ∧ DicOk d' ∧
        ∀ q k, In d' q k ↔ In d q k ∨ ∃ kp ∈ l, Adds (decide (kp.1 = some true)) kp.2 q k by
    obtain ⟨d, e1, e2, e3⟩ := H _ .nil trivial h
    exact ⟨d, e1, e2, fun q k => by rw [e3]; simp [in_nil]⟩
  intro l
  induction l with
  | nil => exact fun d hd _ => ⟨d, rfl, hd, fun q k => by simp⟩
  | cons x xs ih =>
    intro d hd hl
    obtain ⟨k, p⟩ := x
    have hx := hl (k, p) (by simp)
    obtain ⟨d1, e1, e2, e3⟩ := insert_spec (decide (k = some true)) p
      (fun hp => absurd hp hx.1) (fun _ => hx) d hd
    obtain ⟨d2, f1, f2, f3⟩ := ih d1 e2 (fun kp hkp => hl kp (by simp [hkp]))
    refine ⟨d2, by simp only [insertAll, e1, f1], f2, fun q k' => ?_⟩
    rw [f3, e3]
    simp only [List.mem_cons, exists_eq_or_imp, or_assoc]

/-- **C310 fails** next to a folder called `files`: the tree of a file and of a
file of that folder cannot be built, in either order. -/
theorem C310_files_violated (f g : String) :
    buildTree ⟨[["files", g], [f]], [true, true], [some false, some false]⟩ =
      .error .attributeError ∧
    buildTree ⟨[[f], ["files", g]], [true, true], [some false, some false]⟩ =
      .error .attributeError := by
  constructor
  · simp [buildTree, insertAll, insert, Dic.keys, Dic.addNode, chain, Dic.addFile]
  · simp [buildTree, insertAll, insert, Dic.keys, Dic.addFile, intoKey]

/-- **C310 fails** for a folder called `files` listed after a file: the tree does
not show it. -/
theorem C310_lost_violated (f : String) :
    ∃ d, buildTree ⟨[[f], ["files"]], [true, true], [some false, some true]⟩ = .ok d ∧
      ∀ p, ¬ In d p true := by
  refine ⟨.names "files" [f] .nil, ?_, ?_⟩
  · simp [buildTree, insertAll, insert, Dic.keys, Dic.addFile, intoKey]
  · intro p h
    rcases in_names.mp h with ⟨h, _⟩ | h
    · cases h
    · exact in_nil h

example : buildTree ⟨[["data", "a.txt"], ["data", "old"], ["data", "b.txt"]], [true, true, false],
    [some false, some true, none]⟩ =
    .ok (.node "data" (.names "files" ["a.txt", "b.txt"] (.node "old" .nil .nil)) .nil) := by
  rfl

example : NoFiles false ["data", "files"] := by
  refine ⟨by simp, ?_⟩
  rintro q n ⟨u, hp⟩ (h | h)
  · match q, hp with
    | [], hp =>
      have : n = "data" := by simp at hp; exact hp.1
      subst this
      decide
    | [a], hp => exact absurd (by simp at hp; simp [hp]) h
    | a :: b :: q, hp => simp at hp
  · cases h

end IMT.Cleaning
