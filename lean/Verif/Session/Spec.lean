import Verif.Session.Model
import Verif.Memory.State

/-!
# Specification for C77: the loss as a function of the parameters
-/

namespace Verif.Session

open Verif.Structure Verif.Layout Verif.Buffers Verif.Memory

/-- The batch has data of the right size for each output of the Input layer `data`. -/
structure Batch.Good (data : LayerInfo) (b : Batch) : Prop where
  names : (b.data.map Prod.fst).Nodup
  complete : ∀ e ∈ data.outShapes, e.1 ∈ b.data.map Prod.fst
  sizes : ∀ d ∈ b.data, ∃ s, (d.1, s) ∈ data.outShapes ∧ d.2.length = (structShape s b.T b.B).prod

/-- The loss on a batch for given parameters: that of a new network, to which the parameters are assigned before it processes
the batch.  `report` is what `get_loss_values()['total_loss']` makes of the memory. -/
noncomputable def lossOf (net : Net) (input : Name) (P : ℕ → ℕ → List MLayer) (report : ℕ → ℕ → Mem → Option ℝ) (b : Batch)
    (θ : List ℝ) : Option ℝ :=
  (create net).bind fun st =>
  (st.write (str "parameters") θ).bind fun st =>
  (provide net input b st).bind fun st =>
  (forwardPass net P b.rnd st).bind fun st =>
  report b.T b.B (memOf st)

/-- The states that a network can be in: it is created, data are provided, handlers are set, arrays are assigned to, and passes are
done, in any order (the layers may work differently from pass to pass). -/
inductive Reachable (net : Net) : State ℝ → Prop
  | new {st} : create net = some st → Reachable net st
  | step {st st'} (op : Op ℝ) : Reachable net st → step net st op = some st' → Reachable net st'
  | forward {st st'} (P : ℕ → ℕ → List MLayer) (rnd : ℕ → ℝ) : Reachable net st → forwardPass net P rnd st = some st' → Reachable net st'
  | backward {st st'} (P : ℕ → ℕ → List MLayer) (rnd : ℕ → ℝ) : Reachable net st → backwardPass net P rnd st = some st' →
      Reachable net st'

/-- The learning rate that the momentum steppers use: with `scale_learning_rate`, it is multiplied by one minus the momentum. -/
def rateOf (scale : Bool) (lr momentum : ℝ) : ℝ := if scale then lr * (1 - momentum) else lr

end Verif.Session
