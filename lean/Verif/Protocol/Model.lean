import Verif.Prelude

/-!
Model of `/repo/IMTreatment/protocols/protocols.py`: the files the processing protocol reads and writes, and the points at which
it can be interrupted.  The numerical content of the stages is abstract (`Stages`); the displays saved as pictures and the memory
test of `CP_detection` (176-184), which only chooses a number of threads, are not modelled.
-/

namespace IMT.Protocol

/-- The product files, protocols/protocols.py:95-100, 118, 155-158, 214-217. -/
inductive Product where
  | cln
  | mean
  | pod
  | recon
  | traj
  | recDet
  | trajDet
  deriving DecidableEq

/-- A file: missing, begun and not ended, whole. -/
inductive File (V : Type) where
  | absent
  | broken
  | whole (v : V)
  deriving DecidableEq

/-- The products on the disk. -/
abbrev Disk (V : Type) := Product → File V

/-- What the stages compute: `prepare_data` (67-101), `pod_decomp` (103-120), `pod_reconstr` (122-160), `CP_detection` (162-219). -/
structure Stages (V : Type) where
  fcln : V → V
  fmean : V → V
  fpod : V → V
  frec : V → V
  ftraj : V → V
  frecDet : V → V

/-- `import_from_file`: a missing file raises OSError, a truncated one EOFError. -/
def read {V : Type} : File V → Res V
  | .absent => .error .osError
  | .broken => .error .eofError
  | .whole v => .ok v

/-- `d[p] = f`. -/
def put {V : Type} (d : Disk V) (p : Product) (f : File V) : Disk V := fun q => if q = p then f else d q

/-- What a stage does: the successive states of the disk, at any of which the process may die, and how it ends. -/
abbrev Trace (V : Type) := List (Disk V) × Res PUnit

/-- The state reached by a trace. -/
def final {V : Type} (d : Disk V) (t : Trace V) : Disk V := t.1.getLast?.getD d

/-- `export_to_file`: the file is truncated, then filled. -/
def export' {V : Type} (d : Disk V) (p : Product) (v : V) : Trace V := ([put d p .broken, put d p (.whole v)], .ok ⟨⟩)

/-- One stage after another: an exception ends everything. -/
def andThen {V : Type} (d : Disk V) (a : Disk V → Trace V) (b : Disk V → Trace V) : Trace V :=
  match (a d).2 with
  | .error e => ((a d).1, .error e)
  | .ok _ => ((a d).1 ++ (b (final d (a d))).1, (b (final d (a d))).2)

/-- A stage reading one product (or the source) and writing another. -/
def stage {V : Type} (input : File V) (d : Disk V) (out : Product) (f : V → V) : Trace V :=
  match read input with
  | .error e => ([], .error e)
  | .ok v => export' d out (f v)

/-- `prepare_data`, protocols/protocols.py:67-101: the cleaned fields, then their mean. -/
def prepare {V : Type} (S : Stages V) (src : File V) (d : Disk V) : Trace V :=
  match read src with
  | .error e => ([], .error e)
  | .ok v => andThen d (fun d => export' d .cln (S.fcln v)) fun d => export' d .mean (S.fmean (S.fcln v))

/-- `pod_decomp`, protocols/protocols.py:103-120. -/
def podDecomp {V : Type} (S : Stages V) (d : Disk V) : Trace V := stage (d .cln) d .pod S.fpod

/-- `pod_reconstr`, protocols/protocols.py:122-160. -/
def podReconstr {V : Type} (S : Stages V) (detailled : Bool) (d : Disk V) : Trace V :=
  if detailled then stage (d .pod) d .recDet S.frecDet else stage (d .pod) d .recon S.frec

/-- `CP_detection`, protocols/protocols.py:162-219. -/
def cpDetection {V : Type} (S : Stages V) (detailled : Bool) (d : Disk V) : Trace V :=
  if detailled then stage (d .recDet) d .trajDet S.ftraj else stage (d .recon) d .traj S.ftraj

/-- `os.path.exists`. -/
def File.exists' {V : Type} : File V → Bool
  | .absent => false
  | _ => true

/-- The first part of `compute_everything`, protocols/protocols.py:224-247. -/
def mainPart {V : Type} (S : Stages V) (src : File V) (d : Disk V) : Trace V :=
  if ¬ (d .cln).exists' then
    andThen d (prepare S src) fun d => andThen d (podDecomp S) fun d => andThen d (podReconstr S false) (cpDetection S false)
  else if ¬ (d .pod).exists' then
    andThen d (podDecomp S) fun d => andThen d (podReconstr S false) (cpDetection S false)
  else if ¬ (d .recon).exists' then andThen d (podReconstr S false) (cpDetection S false)
  else if ¬ (d .traj).exists' then cpDetection S false d
  else ([], .ok ⟨⟩)

/-- The second part of `compute_everything`, protocols/protocols.py:249-260. -/
def detPart {V : Type} (S : Stages V) (detailled : Bool) (d : Disk V) : Trace V :=
  if detailled then
    if ¬ (d .recDet).exists' then andThen d (podReconstr S true) (cpDetection S true)
    else if ¬ (d .trajDet).exists' then cpDetection S true d
    else ([], .ok ⟨⟩)
  else ([], .ok ⟨⟩)

/-- `compute_everything`, protocols/protocols.py:221-260. -/
def compute {V : Type} (S : Stages V) (src : File V) (detailled : Bool) (d : Disk V) : Trace V :=
  andThen d (mainPart S src) (detPart S detailled)

/-- `recompute_everything`, protocols/protocols.py:262-268. -/
def recompute {V : Type} (S : Stages V) (src : File V) (d : Disk V) : Trace V :=
  andThen d (prepare S src) fun d => andThen d (podDecomp S) fun d => andThen d (podReconstr S false) (cpDetection S false)

/-- The `thread` argument of the constructor, protocols/protocols.py:41, 61-64: with the default value `'all'` (here `none`) the
constructor calls `psutil.cpu_coun`, which does not exist. -/
def newThread : Option Nat → Res Nat
  | none => .error .attributeError
  | some n => .ok n

end IMT.Protocol
