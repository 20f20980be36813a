import Verif.Cleaning.ShowModel
import Verif.Cleaning.Tree

/-!
# The text of the tree of files: C345
-/

namespace IMT.Cleaning

open IMT.Utils (Files)

/-! ### Specification -/

/-- What a reader understands of a line. -/
inductive Seen
  | folder (p : Path)
  | file (p : Path)
  | number (p : Path) (k : Nat)
  deriving DecidableEq

/-- How indented lines are read: a line of depth `k` is in the folder made of the `k` first names of the last folder that was read. -/
def read : Path → List Row → List Seen
  | _, [] => []
  | st, ⟨k, .folder n⟩ :: l => .folder (st.take k ++ [n]) :: read (st.take k ++ [n]) l
  | st, ⟨k, .file n⟩ :: l => .file (st.take k ++ [n]) :: read st l
  | st, ⟨k, .number c⟩ :: l => .number (st.take k) c :: read st l

/-- The folder `q` of the tree holds the list of files `l`. -/
inductive Lists : Dic → Path → List String → Prop
  | here (l r) : Lists (.names "files" l r) [] l
  | inside (n d r q l) : Lists d q l → Lists (.node n d r) (n :: q) l
  | afterNames (n l' r q l) : Lists r q l → Lists (.names n l' r) q l
  | afterNode (n d r q l) : Lists r q l → Lists (.node n d r) q l

/-! ### Lemmas -/

/-- A thing seen in the folder `b`. -/
def Seen.within (b : Path) : Seen → Seen
  | .folder p => .folder (b ++ p)
  | .file p => .file (b ++ p)
  | .number p k => .number (b ++ p) k

/-- What the lines of a folder show. -/
def countSeen (max : Nat) (d : Dic) : List Seen :=
  match under d with
  | none => []
  | some l => if l.length > max then [.number [] l.length] else []

def fileSeen (max : Nat) (d : Dic) : List Seen :=
  match under d with
  | none => []
  | some l => if l.length ≤ max then l.map fun f => .file [f] else []

def folderSeen (max : Nat) : Dic → List Seen
  | .nil => []
  | .names _ _ r => folderSeen max r
  | .node k d r =>
    if k = "files" then folderSeen max r
    else .folder [k] :: (countSeen max d ++ folderSeen max d ++ fileSeen max d).map (Seen.within [k]) ++ folderSeen max r

def seen (max : Nat) (d : Dic) : List Seen := countSeen max d ++ folderSeen max d ++ fileSeen max d

/-- Rows moved under the folder `b`. -/
def moved (b : Path) (l : List Row) : List Row := l.map fun r => { r with depth := r.depth + b.length }

/-- The rows `l`, under any folder, show `s` and leave the reader under that folder. -/
def Shows (l : List Row) (s : List Seen) : Prop :=
  ∀ b st : Path, b <+: st → ∀ rest, ∃ st', b <+: st' ∧ read st (moved b l ++ rest) = s.map (Seen.within b) ++ read st' rest

theorem take_of_prefix {b st : Path} (h : b <+: st) : st.take b.length = b := (List.prefix_iff_eq_take.1 h).symm

theorem shows_nil : Shows [] [] := fun _ st h _ => ⟨st, h, rfl⟩

theorem shows_append {l l' : List Row} {s s' : List Seen} (h : Shows l s) (h' : Shows l' s') : Shows (l ++ l') (s ++ s') := by
  intro b st hb rest
  obtain ⟨st1, h1, e1⟩ := h b st hb (moved b l' ++ rest)
  obtain ⟨st2, h2, e2⟩ := h' b st1 h1 rest
  refine ⟨st2, h2, ?_⟩
  rw [show moved b (l ++ l') ++ rest = moved b l ++ (moved b l' ++ rest) by simp [moved], e1, e2]
  simp

theorem shows_count (max : Nat) (d : Dic) : Shows (countRow max d) (countSeen max d) := by
  unfold countRow countSeen
  cases under d with
  | none => exact shows_nil
  | some l =>
    simp only
    split
    · intro b st hb rest
      refine ⟨st, hb, ?_⟩
      simp [moved, read, Seen.within, take_of_prefix hb]
    · exact shows_nil

theorem shows_files (max : Nat) (d : Dic) : Shows (fileRows max d) (fileSeen max d) := by
  unfold fileRows fileSeen
  cases under d with
  | none => exact shows_nil
  | some l =>
    simp only
    split
    · clear * -
      induction l with
      | nil => exact shows_nil
      | cons f l ih =>
        refine shows_append (l := [⟨0, .file f⟩]) (s := [.file [f]]) ?_ ih
        intro b st hb rest
        refine ⟨st, hb, ?_⟩
        simp [moved, read, Seen.within, take_of_prefix hb]
    · exact shows_nil

theorem within_within (b c : Path) (s : Seen) : Seen.within b (Seen.within c s) = Seen.within (b ++ c) s := by
  cases s <;> simp [Seen.within]

theorem moved_deeper (b : Path) (k : String) (l : List Row) : moved b (l.map deeper) = moved (b ++ [k]) l := by
  simp only [moved, List.map_map]
  refine List.map_congr_left fun r _ => ?_
  simp only [Function.comp, deeper, List.length_append, List.length_cons, List.length_nil]
  congr 1
  omega

theorem shows_folders (max : Nat) (d : Dic) : Shows (folderRows max d) (folderSeen max d) := by
  induction d with
  | nil => exact shows_nil
  | names _ _ r ih => exact ih
  | node k d r ih1 ih2 =>
    unfold folderRows folderSeen
    by_cases hk : k = "files"
    · rw [if_pos hk, if_pos hk]; exact ih2
    · rw [if_neg hk, if_neg hk]
      refine shows_append (l := ⟨0, .folder k⟩ :: (countRow max d ++ folderRows max d ++ fileRows max d).map deeper)
        (s := .folder [k] :: (countSeen max d ++ folderSeen max d ++ fileSeen max d).map (Seen.within [k])) ?_ ih2
      intro b st hb rest
      have hd : Shows (countRow max d ++ folderRows max d ++ fileRows max d) (countSeen max d ++ folderSeen max d ++ fileSeen max d) :=
        shows_append (shows_append (shows_count max d) ih1) (shows_files max d)
      obtain ⟨st', h', e⟩ := hd (b ++ [k]) (b ++ [k]) (List.prefix_refl _) rest
      refine ⟨st', (List.prefix_append b [k]).trans h', ?_⟩
      have e1 : moved b (⟨0, .folder k⟩ :: (countRow max d ++ folderRows max d ++ fileRows max d).map deeper) ++ rest =
          ⟨b.length, .folder k⟩ :: (moved (b ++ [k]) (countRow max d ++ folderRows max d ++ fileRows max d) ++ rest) := by
        rw [← moved_deeper]
        simp [moved]
      rw [e1, read, take_of_prefix hb, e]
      simp only [List.map_cons, List.map_map, Seen.within, List.cons_append]
      congr 2
      exact List.map_congr_left fun s _ => (within_within b [k] s).symm

/-- What is read is what the folder shows. -/
theorem read_rows (max : Nat) (d : Dic) : read [] (rows max d) = seen max d := by
  obtain ⟨st, _, e⟩ := shows_append (shows_append (shows_count max d) (shows_folders max d)) (shows_files max d) [] [] (List.prefix_refl _) []
  have e1 : moved [] (countRow max d ++ folderRows max d ++ fileRows max d) ++ [] = rows max d := by
    simp only [moved, List.length_nil, Nat.add_zero, List.append_nil]
    exact List.map_id' _
  have e2 : (countSeen max d ++ folderSeen max d ++ fileSeen max d).map (Seen.within []) ++ read st [] = seen max d := by
    have : Seen.within [] = id := funext fun s => by cases s <;> rfl
    simp only [read, List.append_nil, this, seen, List.map_id]
  rw [← e1, e, e2]

theorem lists_nil {q l} : ¬ Lists .nil q l := by intro h; cases h

theorem lists_names {l' r q l} : Lists (.names "files" l' r) q l ↔ (q = [] ∧ l = l') ∨ Lists r q l := by
  constructor
  · intro h
    cases h with
    | here => exact .inl ⟨rfl, rfl⟩
    | afterNames _ _ _ _ _ h => exact .inr h
  · rintro (⟨rfl, rfl⟩ | h)
    · exact .here _ _
    · exact .afterNames _ _ _ _ _ h

theorem lists_node {n d r q l} : Lists (.node n d r) q l ↔ (∃ q', q = n :: q' ∧ Lists d q' l) ∨ Lists r q l := by
  constructor
  · intro h
    cases h with
    | inside _ _ _ q' _ h => exact .inl ⟨q', rfl, h⟩
    | afterNode _ _ _ _ _ h => exact .inr h
  · rintro (⟨q', rfl, h⟩ | h)
    · exact .inside _ _ _ _ _ h
    · exact .afterNode _ _ _ _ _ h

/-- The files of the tree are those of the lists. -/
theorem in_iff_lists {d : Dic} (hd : DicOk d) (p : Path) : In d p false ↔ ∃ q l f, Lists d q l ∧ f ∈ l ∧ p = q ++ [f] := by
  induction d generalizing p with
  | nil => simp [in_nil, lists_nil]
  | names k l r ih =>
    obtain ⟨rfl, _, h3⟩ := hd
    rw [in_names, ih h3]
    constructor
    · rintro (⟨-, f, hf, rfl⟩ | ⟨q, l', f, h1, h2, rfl⟩)
      · exact ⟨[], l, f, .here _ _, hf, rfl⟩
      · exact ⟨q, l', f, .afterNames _ _ _ _ _ h1, h2, rfl⟩
    · rintro ⟨q, l', f, h1, h2, rfl⟩
      rcases lists_names.1 h1 with ⟨rfl, rfl⟩ | h1
      · exact .inl ⟨rfl, f, h2, rfl⟩
      · exact .inr ⟨q, l', f, h1, h2, rfl⟩
  | node k d r ih1 ih2 =>
    obtain ⟨h1, h2, h3, h4⟩ := hd
    rw [in_node, ih2 h4]
    constructor
    · rintro (⟨h, -⟩ | ⟨q', rfl, h⟩ | ⟨q, l', f, h1, h2, rfl⟩)
      · cases h
      · obtain ⟨q, l', f, h1, h2, rfl⟩ := (ih1 h3 q').1 h
        exact ⟨k :: q, l', f, .inside _ _ _ _ _ h1, h2, rfl⟩
      · exact ⟨q, l', f, .afterNode _ _ _ _ _ h1, h2, rfl⟩
    · rintro ⟨q, l', f, h1, h2, rfl⟩
      rcases lists_node.1 h1 with ⟨q', rfl, h⟩ | h
      · exact .inr (.inl ⟨q' ++ [f], rfl, (ih1 h3 _).2 ⟨q', l', f, h, h2, rfl⟩⟩)
      · exact .inr (.inr ⟨q, l', f, h, h2, rfl⟩)

theorem under_none {d : Dic} (h : "files" ∉ d.keys) : under d = none := by
  induction d with
  | nil => rfl
  | names k l r ih =>
    simp only [Dic.keys, List.mem_cons, not_or] at h
    rw [under, if_neg (Ne.symm h.1), ih h.2]
  | node k d r _ ih =>
    simp only [Dic.keys, List.mem_cons, not_or] at h
    rw [under, if_neg (Ne.symm h.1), ih h.2]

/-- Names under the key of the folder itself. -/
theorem under_iff {d : Dic} (hd : DicOk d) (l : List String) : under d = some l ↔ Lists d [] l := by
  induction d with
  | nil => simp [under, lists_nil]
  | names k l' r ih =>
    obtain ⟨rfl, h2, h3⟩ := hd
    have hr : ¬ Lists r [] l := by
      rw [← ih h3]
      rw [under_none h2]
      exact nofun
    rw [lists_names, under, if_pos rfl]
    simp only [hr, or_false, true_and, Option.some.injEq]
    exact eq_comm
  | node k d r _ ih =>
    obtain ⟨h1, h2, h3, h4⟩ := hd
    rw [under, if_neg h1, ih h4, lists_node]
    simp

theorem mem_count {max : Nat} {d : Dic} (hd : DicOk d) {s : Seen} :
    s ∈ countSeen max d ↔ ∃ l, Lists d [] l ∧ max < l.length ∧ s = .number [] l.length := by
  unfold countSeen
  split
  · next h =>
    simp only [List.not_mem_nil, false_iff, not_exists, not_and]
    intro l hl
    rw [(under_iff hd l).2 hl] at h
    cases h
  · next l h =>
    have := (under_iff hd l).1 h
    split
    · next hm =>
      constructor
      · intro hs; exact ⟨l, this, hm, by simpa using hs⟩
      · rintro ⟨l', h', _, rfl⟩
        rw [(under_iff hd l').2 h'] at h
        obtain rfl := Option.some.inj h
        simp
    · next hm =>
      simp only [List.not_mem_nil, false_iff, not_exists, not_and]
      intro l' h' hm'
      rw [(under_iff hd l').2 h'] at h
      obtain rfl := Option.some.inj h
      exact absurd hm' hm

theorem mem_file {max : Nat} {d : Dic} (hd : DicOk d) {s : Seen} :
    s ∈ fileSeen max d ↔ ∃ l f, Lists d [] l ∧ l.length ≤ max ∧ f ∈ l ∧ s = .file [f] := by
  unfold fileSeen
  split
  · next h =>
    simp only [List.not_mem_nil, false_iff, not_exists, not_and]
    intro l f hl
    rw [(under_iff hd l).2 hl] at h
    cases h
  · next l h =>
    have := (under_iff hd l).1 h
    split
    · next hm =>
      constructor
      · intro hs
        obtain ⟨f, hf, rfl⟩ := List.mem_map.1 hs
        exact ⟨l, f, this, hm, hf, rfl⟩
      · rintro ⟨l', f, h', _, hf, rfl⟩
        rw [(under_iff hd l').2 h'] at h
        obtain rfl := Option.some.inj h
        exact List.mem_map.2 ⟨f, hf, rfl⟩
    · next hm =>
      simp only [List.not_mem_nil, false_iff, not_exists, not_and]
      intro l' f h' hm'
      rw [(under_iff hd l').2 h'] at h
      obtain rfl := Option.some.inj h
      exact absurd hm' hm

/-- What is in the tree, as it should be seen. -/
def Right (max : Nat) (d : Dic) : Seen → Prop
  | .folder p => In d p true
  | .file p => ∃ q l f, Lists d q l ∧ l.length ≤ max ∧ f ∈ l ∧ p = q ++ [f]
  | .number q k => ∃ l, Lists d q l ∧ max < l.length ∧ k = l.length

theorem mem_folder {max : Nat} {d : Dic} (hd : DicOk d) (s : Seen) :
    (s ∈ folderSeen max d ∨ s ∈ countSeen max d ∨ s ∈ fileSeen max d) ↔ Right max d s := by
  induction d generalizing s with
  | nil => cases s <;> simp [folderSeen, countSeen, fileSeen, under, Right, in_nil, lists_nil]
  | names k l r ih =>
    rw [mem_count hd, mem_file hd]
    obtain ⟨rfl, h2, h3⟩ := hd
    have ih := ih h3 s
    rw [mem_count h3, mem_file h3] at ih
    have hr : ∀ l', ¬ Lists r [] l' := fun l' hl' => by
      have := (under_iff h3 l').2 hl'
      rw [under_none h2] at this
      cases this
    simp only [hr, false_and, exists_false, or_false] at ih
    simp only [folderSeen, ih, lists_names, hr, or_false, true_and]
    cases s with
    | folder p => simp [Right, in_names]
    | file p =>
      simp only [Right, lists_names]
      constructor
      · rintro (⟨q, l', f, a, b, c, e⟩ | ⟨l', _, _, e⟩ | ⟨l', f, rfl, b, c, e⟩)
        · exact ⟨q, l', f, .inr a, b, c, e⟩
        · cases e
        · cases e; exact ⟨[], l', f, .inl ⟨rfl, rfl⟩, b, c, rfl⟩
      · rintro ⟨q, l', f, ⟨rfl, rfl⟩ | a, b, c, rfl⟩
        · exact .inr (.inr ⟨l', f, rfl, b, c, rfl⟩)
        · exact .inl ⟨q, l', f, a, b, c, rfl⟩
    | number q k =>
      simp only [Right, lists_names]
      constructor
      · rintro (⟨l', a, b, e⟩ | ⟨l', rfl, b, e⟩ | ⟨l', f, _, _, _, e⟩)
        · exact ⟨l', .inr a, b, e⟩
        · cases e; exact ⟨l', .inl ⟨rfl, rfl⟩, b, rfl⟩
        · cases e
      · rintro ⟨l', ⟨rfl, rfl⟩ | a, b, rfl⟩
        · exact .inr (.inl ⟨l', rfl, b, rfl⟩)
        · exact .inl ⟨l', a, b, rfl⟩
  | node k d r ih1 ih2 =>
    rw [mem_count hd, mem_file hd]
    obtain ⟨h1, h2, h3, h4⟩ := hd
    have i1 := ih1 h3
    have i2 := ih2 h4 s
    rw [mem_count h4, mem_file h4] at i2
    have hn : ∀ l', Lists (.node k d r) [] l' ↔ Lists r [] l' := fun l' => by rw [lists_node]; simp
    simp only [hn]
    have e0 : s ∈ folderSeen max (.node k d r) ↔ s = .folder [k] ∨ (∃ t, Right max d t ∧ s = Seen.within [k] t) ∨ s ∈ folderSeen max r := by
      rw [folderSeen, if_neg h1]
      simp only [List.cons_append, List.mem_cons, List.mem_append, List.mem_map, ← i1]
      constructor
      · rintro (h | ⟨t, (h | h) | h, rfl⟩ | h)
        · exact .inl h
        · exact .inr (.inl ⟨t, .inr (.inl h), rfl⟩)
        · exact .inr (.inl ⟨t, .inl h, rfl⟩)
        · exact .inr (.inl ⟨t, .inr (.inr h), rfl⟩)
        · exact .inr (.inr h)
      · rintro (h | ⟨t, h | h | h, rfl⟩ | h)
        · exact .inl h
        · exact .inr (.inl ⟨t, .inl (.inr h), rfl⟩)
        · exact .inr (.inl ⟨t, .inl (.inl h), rfl⟩)
        · exact .inr (.inl ⟨t, .inr h, rfl⟩)
        · exact .inr (.inr h)
    rw [e0, or_assoc, or_assoc, i2]
    cases s with
    | folder p =>
      simp only [Right, in_node, true_and, Seen.folder.injEq]
      refine or_congr Iff.rfl (or_congr ⟨?_, ?_⟩ Iff.rfl)
      · rintro ⟨t, ht, e⟩
        cases t with
        | folder p' => simp only [Seen.within, Seen.folder.injEq] at e; exact ⟨p', by simpa using e, ht⟩
        | file p' => simp [Seen.within] at e
        | number p' c => simp [Seen.within] at e
      · rintro ⟨q, rfl, h⟩; exact ⟨.folder q, h, rfl⟩
    | file p =>
      simp only [Right, lists_node, reduceCtorEq, false_or]
      constructor
      · rintro (⟨t, ht, e⟩ | ⟨q, l, f, a, b, c, e⟩)
        · cases t with
          | folder p' => simp [Seen.within] at e
          | file p' =>
            simp only [Seen.within, Seen.file.injEq] at e
            obtain ⟨q, l, f, a, b, c, rfl⟩ := ht
            exact ⟨k :: q, l, f, .inl ⟨q, rfl, a⟩, b, c, by simpa using e⟩
          | number p' c => simp [Seen.within] at e
        · exact ⟨q, l, f, .inr a, b, c, e⟩
      · rintro ⟨q, l, f, ⟨q', rfl, a⟩ | a, b, c, rfl⟩
        · exact .inl ⟨.file (q' ++ [f]), ⟨q', l, f, a, b, c, rfl⟩, rfl⟩
        · exact .inr ⟨q, l, f, a, b, c, rfl⟩
    | number p n =>
      simp only [Right, lists_node, reduceCtorEq, false_or]
      constructor
      · rintro (⟨t, ht, e⟩ | ⟨l, a, b, e⟩)
        · cases t with
          | folder p' => simp [Seen.within] at e
          | file p' => simp [Seen.within] at e
          | number p' c =>
            simp only [Seen.within, Seen.number.injEq] at e
            obtain ⟨l, a, b, rfl⟩ := ht
            exact ⟨l, .inl ⟨p', by simpa using e.1, a⟩, b, e.2⟩
        · exact ⟨l, .inr a, b, e⟩
      · rintro ⟨l, ⟨q', rfl, a⟩ | a, b, rfl⟩
        · exact .inl ⟨.number q' l.length, ⟨l, a, b, rfl⟩, rfl⟩
        · exact .inr ⟨l, a, b, rfl⟩

/-! ### Theorems -/

/-- **C345.**  A reader of the lines sees the folders of the tree, the files of the folders that have at most `max` of them, and the
number of files of the others, each in its folder, and nothing else. -/
theorem C345_lines (max : Nat) (d : Dic) (hd : DicOk d) :
    (∀ p, .folder p ∈ read [] (rows max d) ↔ In d p true) ∧
    (∀ p, .file p ∈ read [] (rows max d) ↔ ∃ q l f, Lists d q l ∧ l.length ≤ max ∧ f ∈ l ∧ p = q ++ [f]) ∧
    (∀ q k, .number q k ∈ read [] (rows max d) ↔ ∃ l, Lists d q l ∧ max < l.length ∧ k = l.length) := by
  have key : ∀ s, s ∈ read [] (rows max d) ↔ Right max d s := fun s => by
    rw [read_rows, ← mem_folder hd, seen]
    simp only [List.mem_append]
    constructor
    · rintro ((h | h) | h) <;> simp [h]
    · rintro (h | h | h) <;> simp [h]
  exact ⟨fun p => key _, fun p => key _, fun q k => key _⟩

/-- **C345.**  When no folder is called `files`, the text shows the listed folders and those that hold listed paths, no other; the
files it shows are listed; and each listed file is shown, or counted in the line of its folder. -/
theorem C345_shown_partial (s : Files Path) (max : Nat) (h : ∀ kp ∈ s.isdir.zip s.paths, NoFiles (decide (kp.1 = some true)) kp.2) :
    ∃ l, representation s max false = .ok (none, l) ∧
      (∀ p, .folder p ∈ read [] l ↔ ∃ kp ∈ s.isdir.zip s.paths, Adds (decide (kp.1 = some true)) kp.2 p true) ∧
      (∀ p, .file p ∈ read [] l → ∃ kp ∈ s.isdir.zip s.paths, kp.1 ≠ some true ∧ kp.2 = p) ∧
      (∀ kp ∈ s.isdir.zip s.paths, kp.1 ≠ some true →
        .file kp.2 ∈ read [] l ∨ ∃ q f k, kp.2 = q ++ [f] ∧ max < k ∧ .number q k ∈ read [] l) := by
  obtain ⟨d, e, hd, hin⟩ := C310_tree_partial s h
  obtain ⟨k1, k2, k3⟩ := C345_lines max d hd
  refine ⟨rows max d, by simp only [representation, e]; rfl, fun p => by rw [k1, hin], fun p hp => ?_, fun kp hkp hf => ?_⟩
  · obtain ⟨q, l, f, a, _, c, rfl⟩ := (k2 p).1 hp
    obtain ⟨kp, m, ad⟩ := (hin _ _).1 ((in_iff_lists hd _).2 ⟨q, l, f, a, c, rfl⟩)
    rcases ad with ⟨_, x, y⟩ | ⟨x, _⟩
    · exact ⟨kp, m, by simpa using x, y.symm⟩
    · cases x
  · have : In d kp.2 false := (hin _ _).2 ⟨kp, hkp, .inl ⟨rfl, by simpa using hf, rfl⟩⟩
    obtain ⟨q, l, f, a, c, e'⟩ := (in_iff_lists hd _).1 this
    by_cases hm : l.length ≤ max
    · exact .inl ((k2 _).2 ⟨q, l, f, a, hm, c, e'⟩)
    · exact .inr ⟨q, f, l.length, e', by omega, (k3 q _).2 ⟨l, a, by omega, rfl⟩⟩

/-- **C345.**  The heading is a path that all the things of the tree are on or under, and the lines are those of what is under it. -/
theorem C345_heading (s : Files Path) (max : Nat) (d : Dic) (e : buildTree s = .ok d) :
    ∃ q d', representation s max true = .ok (some q, rows max d') ∧
      ∀ p k, In d p k ↔ (k = true ∧ p ≠ [] ∧ p <+: q) ∨ ∃ p', p = q ++ p' ∧ In d' p' k := by
  refine ⟨(top d).1, (top d).2, by simp only [representation, e]; rfl, ?_⟩
  clear e
  suffices H : ∀ n : Nat, ∀ d : Dic, sizeOf d ≤ n → ∀ p k, In d p k ↔
      (k = true ∧ p ≠ [] ∧ p <+: (top d).1) ∨ ∃ p', p = (top d).1 ++ p' ∧ In (top d).2 p' k from H _ d le_rfl
  intro n
  induction n with
  | zero => intro d hn; cases d <;> simp at hn
  | succ n ih =>
    intro d hn p k
    have triv : top d = ([], d) → (In d p k ↔ (k = true ∧ p ≠ [] ∧ p <+: (top d).1) ∨ ∃ p', p = (top d).1 ++ p' ∧ In (top d).2 p' k) := by
      intro h
      rw [h]
      simp only [List.prefix_nil, List.nil_append, exists_eq_left']
      constructor
      · exact fun h => .inr h
      · rintro (⟨_, a, b⟩ | h)
        · exact absurd b a
        · exact h
    match d, triv with
    | .nil, triv => exact triv (by simp [top])
    | .names _ _ _, triv => exact triv (by simp [top])
    | .node _ _ (.names _ _ _), triv => exact triv (by simp [top])
    | .node _ _ (.node _ _ _), triv => exact triv (by simp [top])
    | .node c d .nil, triv =>
      by_cases hc : c = "files"
      · exact triv (by simp [top, hc])
      · have ht : top (.node c d .nil) = (c :: (top d).1, (top d).2) := by rw [top, if_neg hc]
        have hs : sizeOf d ≤ n := by simp at hn; omega
        rw [ht, in_node]
        simp only [ih d hs, in_nil, or_false]
        constructor
        · rintro (⟨rfl, rfl⟩ | ⟨q, rfl, ⟨rfl, h1, h2⟩ | ⟨p', rfl, h⟩⟩)
          · exact .inl ⟨rfl, by simp, ⟨(top d).1, rfl⟩⟩
          · exact .inl ⟨rfl, by simp, by simpa using h2⟩
          · exact .inr ⟨p', rfl, h⟩
        · rintro (⟨rfl, h1, h2⟩ | ⟨p', rfl, h⟩)
          · cases p with
            | nil => exact absurd rfl h1
            | cons a p =>
              rw [List.cons_prefix_cons] at h2
              obtain ⟨rfl, h2⟩ := h2
              by_cases hp : p = []
              · exact .inl ⟨rfl, by rw [hp]⟩
              · exact .inr ⟨p, rfl, .inl ⟨rfl, hp, h2⟩⟩
          · exact .inr ⟨(top d).1 ++ p', rfl, .inr ⟨p', rfl, h⟩⟩

/-- **C345 fails** for a folder called `files`: whatever is in it, it is not shown, and its folders are shown as files of the folder it is
in. -/
theorem C345_files_violated (sub : String) (max : Nat) (hm : 1 ≤ max) :
    representation ⟨[["files", sub]], [true], [some true]⟩ max false = .ok (none, [⟨0, .file sub⟩]) := by
  simp [representation, buildTree, insertAll, insert, Dic.keys, Dic.addNode, chain, rows, countRow, folderRows, fileRows, under, hm]
  omega

example : read [] (rows 2 (.node "data" (.names "files" ["a", "b", "c"] (.node "old" (.names "files" ["x"] .nil) .nil)) .nil)) =
    [.folder ["data"], .number ["data"] 3, .folder ["data", "old"], .file ["data", "old", "x"]] := by decide +kernel

example : DicOk (.node "data" (.names "files" ["a", "b", "c"] (.node "old" (.names "files" ["x"] .nil) .nil)) .nil) := by
  simp [DicOk, Dic.keys]

example : (top (.node "data" (.node "run" (.names "files" ["a"] (.node "old" .nil .nil)) .nil) .nil)).1 = ["data", "run"] := by decide +kernel

end IMT.Cleaning
