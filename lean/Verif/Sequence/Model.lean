import Verif.Session.Model

/-!
# Long sequences in pieces

`Network.forward_pass` with a context, and a long sequence that is processed piece by piece.
-/

namespace Verif.Sequence

open Verif.Structure Verif.Layout Verif.Buffers Verif.Memory Verif.Session

/-- What `get_context` returns, see `getContext`. -/
abbrev Context := List (Option (List ℝ))

/-- `Network.forward_pass(context=context)` (network.py:405-430); without a context, `forwardPass` is the same. -/
def forwardFrom (net : Net) (P : ℕ → ℕ → List MLayer) (context : Option Context) (rnd : ℕ → ℝ) (st : State ℝ) : Option (State ℝ) :=
  (prepareForward net st context).bind (onMemory net rnd fun T B => forward (P T B))

/-- A sequence in pieces: `provide_external_data(piece)`, `forward_pass(context=context)`, `context = get_context()` for one piece
after the other (network.py:381-430, 477-488).  The result are the states after the forward passes. -/
def pieces (net : Net) (input : Name) (P : ℕ → ℕ → List MLayer) : Option Context → List Batch → State ℝ → Option (List (State ℝ))
  | _, [], _ => some []
  | context, b :: bs, st =>
    (provide net input b st).bind fun st =>
    (forwardFrom net P context b.rnd st).bind fun st =>
    (getContext net st).bind fun context =>
    (pieces net input P (some context) bs st).map (st :: ·)

end Verif.Sequence
