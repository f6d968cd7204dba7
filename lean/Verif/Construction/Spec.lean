import Verif.Construction.Model
import Mathlib.Logic.Relation

/-!
# What a construction script means, without scopes and pointers
-/

namespace Verif.Construction

/-- A layer a script creates: the name it was given (its type if none). -/
def created : List Op → List Name
  | [] => []
  | .create t n :: ops =>
    match checkCreate t n with
    | .ok (base, _) => base :: created ops
    | .error _ => created ops
  | .connect .. :: ops => created ops

/-- The types of the layers a script creates, in order. -/
def createdTypes : List Op → List Name
  | [] => []
  | .create t n :: ops =>
    match checkCreate t n with
    | .ok (_, ty) => ty :: createdTypes ops
    | .error _ => createdTypes ops
  | .connect .. :: ops => createdTypes ops

/-- A connection made by a script. -/
structure Wire where
  src : Nat
  outputName : Name
  inputName : Name
  dst : Nat
deriving DecidableEq, Repr

/-- The connections a script makes, in order, when `n` layers exist at its
start.  Layers are numbered in the order of creation. -/
def wires (n : Nat) : List Op → List Wire
  | [] => []
  | .create t nm :: ops =>
    match checkCreate t nm with
    | .ok _ => wires (n + 1) ops
    | .error _ => wires n ops
  | .connect a o i b :: ops =>
    if a < n ∧ b < n then ⟨a, o, i, b⟩ :: wires n ops else wires n ops

/-- Two layers are directly wired. -/
def Wired (ops : List Op) (a b : Nat) : Prop := ∃ w ∈ wires 0 ops, w.src = a ∧ w.dst = b

/-- Two layers are connected, directly or through other layers, in any
direction. -/
def Connected (ops : List Op) : Nat → Nat → Prop := Relation.EqvGen (Wired ops)

end Verif.Construction
