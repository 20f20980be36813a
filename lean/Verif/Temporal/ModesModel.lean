import Verif.Temporal.Model

/-!
Model of `modes_as_tf` of a `ModalFields` (`/repo/IMTreatment/pod/pod.py:139-152`), for modes that are scalar fields.
-/

namespace IMT.Temporal

/-- The loop of `modes_as_tf`, pod.py:149-151, from the index `i` on. -/
def modesLoop (srt : List Rat → List Nat) (t : TF) (i : Nat) : List SF → Res TF
  | [] => .ok t
  | f :: fs => match addField srt t f ((i : Rat) + 1) Sym.one with
    | (_, .error e) => .error e
    | (t', .ok _) => modesLoop srt t' (i + 1) fs

/-- A modal base: `modes` and `modes_nmb`, pod.py:120-121. -/
structure Base where
  modes : List SF
  nmb : List Nat

/-- `crop_modal_base(modes_to_keep=ks)`, pod.py:155-240, for indices of modes: the modes and their numbers (the rest of the base is in the model of
decompositions). -/
def Base.keep (b : Base) (ks : List Nat) : Base := ⟨Profile.take b.modes ks, Profile.take b.nmb ks⟩

/-- `modes_as_tf`, pod.py:139-152. -/
def Base.asTF (srt : List Rat → List Nat) (b : Base) : Res TF := modesLoop srt TF.empty 0 b.modes

end IMT.Temporal
