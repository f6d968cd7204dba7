import Verif.Training.Run

/-!
# Saving networks during a training, and what is left when the process dies

`Network.save_as_hdf5` and `from_hdf5` (`brainstorm/structure/network.py:81-102, 513-535`) and the hook `SaveNetwork`
(`brainstorm/hooks.py:189-203`), step by step.
-/

namespace Verif.Checkpoint

open Verif.Training (Env Hook Val Logs Res Event St)

/-- What is written to a file (network.py:527-535); `D` are descriptions, `P` parameters. -/
inductive Entry (D P : Type)
  | info
  | format
  | description (d : D)
  | parameters (p : P)
deriving DecidableEq, Repr

/-- One operation on files.  `open` is `h5py.File(filename, 'w')`, which truncates the file; `close` happens at the end of the
`with` block, also if there is an exception. -/
inductive Op (D P : Type)
  | openFile (file : Name)
  | write (file : Name) (e : Entry D P)
  | close (file : Name)
deriving DecidableEq, Repr

/-- A file: what has been written to it since it was opened, and whether it was closed. -/
structure Content (D P : Type) where
  entries : List (Entry D P)
  closed : Bool
deriving DecidableEq, Repr

/-- The files by name. -/
abbrev Disk (D P : Type) := Name → Option (Content D P)

variable {D P : Type}

/-- The effect of an operation. -/
def Op.apply (disk : Disk D P) : Op D P → Disk D P
  | .openFile f => Function.update disk f (some ⟨[], false⟩)
  | .write f e => Function.update disk f ((disk f).map fun c => ⟨c.entries ++ [e], c.closed⟩)
  | .close f => Function.update disk f ((disk f).map fun c => ⟨c.entries, true⟩)

/-- One call of `save_as_hdf5`: the file, the description of the network (`none`: `get_description` or `json.dumps` raises), its
parameters. -/
structure Save (D P : Type) where
  file : Name
  description : Option D
  parameters : P
deriving DecidableEq, Repr

/-- `save_as_hdf5(filename)` (network.py:513-535), without a comment.  The description is made when the file is open already. -/
def Save.ops (s : Save D P) : List (Op D P) :=
  .openFile s.file :: .write s.file .info :: .write s.file .format ::
    match s.description with
    | none => [.close s.file]
    | some d => [.write s.file (.description d), .write s.file (.parameters s.parameters), .close s.file]

/-- The files when the process has died after `k` operations. -/
def crash (disk : Disk D P) (saves : List (Save D P)) (k : Nat) : Disk D P :=
  ((saves.flatMap Save.ops).take k).foldl Op.apply disk

/-- What can be found in a file afterwards (`none`: nothing that could be read): a file that was closed holds everything that was
written; a file that was not closed may be unreadable, or hold what was written up to some point. -/
def Found (disk : Disk D P) (file : Name) (found : Option (List (Entry D P))) : Prop :=
  match disk file with
  | none => found = none
  | some c => if c.closed then found = some c.entries else found = none ∨ ∃ es, es <+: c.entries ∧ found = some es

/-- `from_hdf5` (network.py:81-102): both entries are needed.  What becomes of them is the subject of C28 and C83. -/
def load (es : List (Entry D P)) : Option (D × P) :=
  (es.findSome? fun e => match e with | .description d => some d | _ => none).bind fun d =>
  (es.findSome? fun e => match e with | .parameters p => some p | _ => none).map fun p => (d, p)

/-- A training with hooks of the class `SaveNetwork` (hooks.py:189-203): `files` has their file names.  The other hooks and the network are
as in `env`; `describe` and `params` are what `get_description` and `net.get('parameters')` make of the network.  The second part of the
world is the list of all calls of `save_as_hdf5`. -/
def withSaves {W V : Type} (env : Env W V) (describe : W → Option D) (params : W → P) (files : Dict Name Name) :
    Env (W × List (Save D P)) V where
  call nm e u logs w := match Dict.get? files nm with
    | some f => ((w.1, w.2 ++ [⟨f, describe w.1, params w.1⟩]), if (describe w.1).isSome then .value .none else .error)
    | none => (((env.call nm e u logs w.1).1, w.2), (env.call nm e u logs w.1).2)
  step w := (env.step w.1, w.2)
  batches w := env.batches w.1
  rolling w := env.rolling w.1

end Verif.Checkpoint
