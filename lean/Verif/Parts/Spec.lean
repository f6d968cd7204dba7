import Verif.Descent.Spec
import Verif.Evaluate.Spec
import Verif.EndToEnd.Formulas
import Verif.Determined.Props

/-!
# Specification for C85: what both passes over a batch compute, and where the layers are differentiable
-/

namespace Verif.Parts

open Verif.Structure Verif.Layout Verif.Buffers Verif.Memory Verif.Session Verif.Determined Verif.Setup

/-- Provided with the batch `b` in the state `st`, the network reports `loss` after both passes, and the gradients are `g`. -/
def Gives (net : Net) (input : Name) (P : ℕ → ℕ → List MLayer) (report : ℕ → ℕ → Mem → Option ℝ) (st : State ℝ) (b : Batch) (loss : ℝ)
    (g : List ℝ) : Prop :=
  ∃ st₁ st₂ st₃, provide net input b st = some st₁ ∧ forwardPass net P b.rnd st₁ = some st₂ ∧ backwardPass net P b.rnd st₂ = some st₃ ∧
    report b.T b.B (memOf st₃) = some loss ∧ st₃.read (str "gradients") = some g

/-- When the network, in the state `st`, processes the batch `b`, all layers are differentiable at what they read. -/
def RegularAt {layers : List LayerInfo} {data : LayerInfo} {rest : List LayerInfo} {L : Layout} (F : Memory.Fits layers L data rest)
    (ps : ∀ T B, ∀ l ∈ rest, LibLayer layers data l T B) (st : State ℝ) (b : Batch) : Prop :=
  ∀ st₁ st₂, provide (netOf layers L) data.name b st = some st₁ →
    forwardPass (netOf layers L) (fun T B => libNetwork F (ps T B)) b.rnd st₁ = some st₂ →
    ∀ l (hl : l ∈ rest), (ps b.T b.B l hl).Regular (valueOut (netOf layers L) b.T b.B l.name (seen (netOf layers L) b.T b.B b.rnd (memOf st₂)))

/-- A sufficient condition for `RegularAt`: the layers have no kinks.  (Compare `Smooth`, which does not include the two LSTM layers.) -/
structure NoKinks (a : Architecture.Arch) (kwargs : Name → Setup.Kwargs) : Prop where
  types : ∀ n t, EndToEnd.HasType a n t → t ∈ [str "Input", str "FullyConnected", str "Elementwise", str "NoOp", str "Highway", str "Merge",
    str "Mask", str "SquaredDifference", str "SquaredError", str "L2Decay", str "Loss", str "Recurrent", str "Clockwork", str "Lstm",
    str "ClockworkLstm", str "Convolution2D", str "Pooling2D"]
  given : ∀ n, EndToEnd.HasType a n (str "FullyConnected") ∨ EndToEnd.HasType a n (str "Elementwise") →
    EndToEnd.actOf (kwargs n) .rel ≠ some .rel
  notRel : ∀ n, EndToEnd.HasType a n (str "Recurrent") ∨ EndToEnd.HasType a n (str "Clockwork") ∨ EndToEnd.HasType a n (str "Lstm") ∨
    EndToEnd.HasType a n (str "ClockworkLstm") ∨ EndToEnd.HasType a n (str "Convolution2D") → EndToEnd.actOf (kwargs n) .tanh ≠ some .rel
  average : ∀ n, EndToEnd.HasType a n (str "Pooling2D") → poolIsMax (kwargs n) = some false

/-- The batches contain the same sequences, perhaps in another order: they can be cut into the same parts. -/
def SameSequences (data : LayerInfo) (w w' : Batch) (bs bs' : List Batch) : Prop :=
  Evaluate.Cut data w bs ∧ Evaluate.Cut data w' bs' ∧ bs.Perm bs'

end Verif.Parts
