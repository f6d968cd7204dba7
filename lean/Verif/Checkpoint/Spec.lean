import Verif.Checkpoint.Model

/-! # Specification of C90 -/

namespace Verif.Checkpoint

open Verif.Training (Event St)

variable {D P W V : Type}

/-- Which calls of `save_as_hdf5` are complete after `k` operations, and which one, if any, has begun but is not complete. -/
def progress : List (Save D P) → Nat → List (Save D P) × Option (Save D P)
  | [], _ => ([], none)
  | s :: ss, k => if k < s.ops.length then ([], if k = 0 then none else some s)
    else (s :: (progress ss (k - s.ops.length)).1, (progress ss (k - s.ops.length)).2)

/-- The last of these calls for a file. -/
def lastTo (file : Name) (saves : List (Save D P)) : Option (Save D P) := (saves.filter fun s => decide (s.file = file)).getLast?

/-- What the file should hold: nothing if the network could not be described. -/
def Save.content (s : Save D P) : Option (D × P) := s.description.map fun d => (d, s.parameters)

/-- The network at the moment of an event that is the call of a `SaveNetwork` hook. -/
def savedAt (describe : W → Option D) (params : W → P) (files : Dict Name Name) (x : St (W × List (Save D P)) V × Event V) : Option (Save D P) :=
  match x.2 with
  | .call _ nm _ _ _ _ => (Dict.get? files nm).map fun f => ⟨f, describe x.1.w.1, params x.1.w.1⟩
  | _ => none

end Verif.Checkpoint
