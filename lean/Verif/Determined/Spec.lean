import Verif.Constrained.Spec

/-!
# Specification for C81: the gradients as a function of parameters and batch
-/

namespace Verif.Determined

open Verif.Structure Verif.Layout Verif.Buffers Verif.Memory Verif.Session
open Verif.Constrained (Mods Run)

/-- The gradients on a batch for given parameters: those that a new network computes, to which the parameters are assigned before it
processes the batch forward and backward. -/
noncomputable def gradOf (net : Net) (input : Name) (P : ℕ → ℕ → List MLayer) (b : Batch) (θ : List ℝ) : Option (List ℝ) :=
  (create net).bind fun st =>
  (st.write (str "parameters") θ).bind fun st =>
  (provide net input b st).bind fun st =>
  (forwardPass net P b.rnd st).bind fun st =>
  (backwardPass net P b.rnd st).bind fun st =>
  st.read (str "gradients")

/-- For every parameter of every layer, the same modifiers are installed. -/
def SameMods (layers : List LayerInfo) (m m' : Mods) : Prop := ∀ l ∈ layers, ∀ e ∈ l.paramShapes, m.at l.name e.1 = m'.at l.name e.1

/-- Two trainings are at the same point: they have the same parameters, the steppers remember the same, and so do the modifiers.  All
other arrays may differ, and so may the sizes of the buffers. -/
structure Same (layers : List LayerInfo) {S : Type} (r r' : Run S) : Prop where
  parameters : r.st.read (str "parameters") = r'.st.read (str "parameters")
  mem : r.mem = r'.mem
  grads : SameMods layers r.grads r'.grads
  weights : SameMods layers r.weights r'.weights

/-- The steppers of the library that use gradients. -/
inductive Algorithm
  | sgd
  | momentum (scale : Bool)
  | nesterov (scale : Bool)

/-- What a stepper remembers: nothing, or velocities. -/
def Algorithm.Memory : Algorithm → Type
  | .sgd => Unit
  | .momentum _ => List ℝ
  | .nesterov _ => List ℝ

/-- There is a velocity for each of the `n` parameters. -/
def Algorithm.Ok (n : ℕ) : (alg : Algorithm) → alg.Memory → Prop
  | .sgd, _ => True
  | .momentum _, v => List.length (α := ℝ) v = n
  | .nesterov _, v => List.length (α := ℝ) v = n

/-- The `run` method of the stepper with learning rate `lr` and momentum `μ`. -/
noncomputable def Algorithm.run (net : Net) (P : ℕ → ℕ → List MLayer) (lr μ : ℝ) : (alg : Algorithm) → Constrained.Stepper alg.Memory
  | .sgd => Constrained.sgdRun net P lr
  | .momentum scale => Constrained.momentumRun net P scale lr μ
  | .nesterov scale => Constrained.nesterovRun net P scale lr μ

/-- What can be trained: the network is in one of its states, the stepper remembers something that it can have computed (`ok`), and the
modifiers can be installed. -/
structure CanTrain (layers : List LayerInfo) (net : Net) {S : Type} (ok : S → Prop) (r : Run S) : Prop where
  state : Reachable net r.st
  mem : ok r.mem
  grads : r.grads.Good true layers
  weights : r.weights.Good false layers

/-- Both trainings succeed, record the same losses and lead to the same point. -/
def SameOutcome (layers : List LayerInfo) {S : Type} (x x' : Option (Run S × List ℝ)) : Prop :=
  ∃ r r' log, x = some (r, log) ∧ x' = some (r', log) ∧ Same layers r r'

end Verif.Determined
