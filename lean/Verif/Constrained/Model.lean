import Verif.Session.Model
import Verif.Modifiers.Model

/-!
# Training with weight and gradient modifiers

The modifiers of the library in the training loop: gradient modifiers act at the end of each backward pass, weight modifiers after
each update.  Numbers are real numbers; `none` stands for a raised exception.
-/

namespace Verif.Constrained

open Verif.Structure Verif.Layout Verif.Buffers Verif.Memory Verif.Session

/-- The modifiers of the library (value_modifiers.py:50-212) with their attributes.  `big` is the largest number of the number type;
`weights` is what a `FreezeValues` object remembers.  Simplification: the copies on the device are not attributes of their own; they
are equal to the mask and the weights (C43, C44). -/
inductive Modifier
  | clipValues (low high : ℝ)
  | constrainL2Norm (limit big : ℝ)
  | maskValues (mask : List ℝ)
  | freezeValues (weights : Option (List ℝ))
  | l1Decay (factor : ℝ)
  | l2Decay (factor : ℝ)

/-- `isinstance(gm, GradientModifier)` (network.py:503). -/
def Modifier.isGradient : Modifier → Bool
  | .l1Decay _ => true
  | .l2Decay _ => true
  | _ => false

/-- The entries of an array with `r` rows of `c` entries. -/
def rowsOf (r c : ℕ) (x : List ℝ) : Fin r → Fin c → ℝ := fun i j => x.getD (i * c + j) 0

/-- `ValueModifier.__call__` for an array of the given shape with entries `x` in the order of C: value_modifiers.py:106-107 (clip),
70-83 (norm; with no rows the division in line 73 fails), 140-145 (mask), 169-178 (freeze).  The result are the object and the entries
afterwards.  Gradient modifiers need more arguments.  Simplification: masks and weights must have as many entries as the array (no
broadcasting). -/
noncomputable def Modifier.value (shape : List ℕ) (x : List ℝ) : Modifier → Option (Modifier × List ℝ)
  | .clipValues low high => some (.clipValues low high, x.map fun a => min (max a low) high)
  | .constrainL2Norm limit big =>
    if shape.length < 2 then some (.constrainL2Norm limit big, x)
    else
      let r := shape.headD 0
      if r = 0 then none
      else some (.constrainL2Norm limit big,
        (List.ofFn fun i => List.ofFn (Modifiers.constrainL2 limit big shape.length (rowsOf r (x.length / r) x) i)).flatten)
  | .maskValues mask => if mask.length = x.length then some (.maskValues mask, List.zipWith (· * ·) x mask) else none
  | .freezeValues weights =>
    let w := weights.getD x
    if w.length = x.length then some (.freezeValues (some w), w) else none
  | .l1Decay _ => none
  | .l2Decay _ => none

/-- `GradientModifier.__call__` (value_modifiers.py:193-196, 211-212) for parameters `p` and gradients `g`. -/
noncomputable def Modifier.gradient (p g : List ℝ) : Modifier → Option (Modifier × List ℝ)
  | .l1Decay factor => some (.l1Decay factor, List.zipWith (fun p g => g + factor * Real.sign p) p g)
  | .l2Decay factor => some (.l2Decay factor, List.zipWith (fun p g => g + factor * p) p g)
  | _ => none

/-- How a modifier is called: with the shape of the array, the parameters that belong to it, and its entries. -/
abbrev Call := List ℕ → List ℝ → List ℝ → Modifier → Option (Modifier × List ℝ)

/-- The call of a weight modifier (network.py:495-496). -/
noncomputable def weightCall : Call := fun shape _ x m => m.value shape x

/-- The call of a gradient modifier (network.py:503-510). -/
noncomputable def gradCall : Call := fun shape p x m => if m.isGradient then m.gradient p x else m.value shape x

/-- `view.shape`. -/
def shapeOf (st : State ℝ) (n : Name) : Option (List ℕ) := st.views.bind fun v => (Dict.get? v.2 n).map View.shape

/-- The innermost loop (network.py:493-496, 501-510) for the array `view` of the category `cat`, `parameters` or `gradients`, of a layer.
Simplification: the modifiers are given seeds (network.py:494, 502), but none of those here draws random numbers. -/
noncomputable def callAll (call : Call) (layer cat view : Name) : List Modifier → State ℝ → Option (List Modifier × State ℝ)
  | [], st => some ([], st)
  | m :: ms, st =>
    (shapeOf st (path layer cat view)).bind fun shape =>
    (st.read (path layer (str "parameters") view)).bind fun p =>
    (st.read (path layer cat view)).bind fun x =>
    (call shape p x m).bind fun r =>
    (st.write (path layer cat view) r.2).bind fun st =>
    (callAll call layer cat view ms st).map fun q => (r.1 :: q.1, q.2)

/-- The installed modifiers (network.py:315, 356).  Simplification: the dictionary of dictionaries is flattened, with pairs of layer and
view as keys.  Each modifier is an object of its own (C62). -/
abbrev Mods := Dict (Name × Name) (List Modifier)

/-- The outer loops (network.py:491-492, 499-500). -/
noncomputable def applyAll (call : Call) (cat : Name) : Mods → State ℝ → Option (Mods × State ℝ)
  | [], st => some ([], st)
  | (k, ms) :: rest, st =>
    (callAll call k.1 cat k.2 ms st).bind fun r =>
    (applyAll call cat rest r.2).map fun q => ((k, r.1) :: q.1, q.2)

/-- `apply_weight_modifiers` (network.py:490-496). -/
noncomputable def applyWeightModifiers : Mods → State ℝ → Option (Mods × State ℝ) := applyAll weightCall (str "parameters")

/-- `apply_gradient_modifiers` (network.py:498-510). -/
noncomputable def applyGradientModifiers : Mods → State ℝ → Option (Mods × State ℝ) := applyAll gradCall (str "gradients")

/-- `Network.backward_pass` (network.py:432-445). -/
noncomputable def backwardPass (net : Net) (P : ℕ → ℕ → List MLayer) (rnd : ℕ → ℝ) (gm : Mods) (st : State ℝ) : Option (Mods × State ℝ) :=
  (Session.backwardPass net P rnd st).bind (applyGradientModifiers gm)

/-- A stepper with gradient modifiers: what its `run` does to the buffers, to what it remembers and to the gradient modifiers. -/
abbrev Stepper (S : Type) := (ℕ → ℝ) → State ℝ × S × Mods → Option (State ℝ × S × Mods)

/-- `SgdStepper.run` (steppers.py:61-69). -/
noncomputable def sgdRun (net : Net) (P : ℕ → ℕ → List MLayer) (lr : ℝ) : Stepper Unit := fun rnd s =>
  (forwardPass net P rnd s.1).bind fun st =>
  (backwardPass net P rnd s.2.2 st).bind fun r =>
  (r.2.read (str "gradients")).bind fun gradients =>
  let update := gradients.map (-lr * ·)
  (r.2.read (str "parameters")).bind fun parameters =>
  (r.2.write (str "parameters") (List.zipWith (· + ·) update parameters)).map fun st => (st, s.2.1, r.1)

/-- `MomentumStepper.run` (steppers.py:96-114); the second component is `self.velocity`. -/
noncomputable def momentumRun (net : Net) (P : ℕ → ℕ → List MLayer) (scale : Bool) (lr momentum : ℝ) : Stepper (List ℝ) := fun rnd s =>
  let rate := if scale then lr * (1 - momentum) else lr
  (forwardPass net P rnd s.1).bind fun st =>
  (backwardPass net P rnd s.2.2 st).bind fun r =>
  let velocity := s.2.1.map (momentum * ·)
  (r.2.read (str "gradients")).bind fun gradients =>
  let velocity := List.zipWith (fun g v => -rate * g + v) gradients velocity
  (r.2.read (str "parameters")).bind fun parameters =>
  (r.2.write (str "parameters") (List.zipWith (· + ·) velocity parameters)).map fun st => (st, velocity, r.1)

/-- `NesterovStepper.run` (steppers.py:126-145). -/
noncomputable def nesterovRun (net : Net) (P : ℕ → ℕ → List MLayer) (scale : Bool) (lr momentum : ℝ) : Stepper (List ℝ) := fun rnd s =>
  let rate := if scale then lr * (1 - momentum) else lr
  let velocity := s.2.1.map (momentum * ·)
  (s.1.read (str "parameters")).bind fun parameters =>
  (s.1.write (str "parameters") (List.zipWith (· + ·) velocity parameters)).bind fun st =>
  (forwardPass net P rnd st).bind fun st =>
  (backwardPass net P rnd s.2.2 st).bind fun r =>
  (r.2.read (str "gradients")).bind fun gradients =>
  let velocity := List.zipWith (fun g v => -rate * g + v) gradients velocity
  (r.2.read (str "parameters")).bind fun parameters =>
  (r.2.write (str "parameters") (List.zipWith (fun g p => -rate * g + p) gradients parameters)).map fun st => (st, velocity, r.1)

/-- What is kept from update to update: the buffers, what the stepper remembers, the gradient modifiers and the weight modifiers. -/
structure Run (S : Type) where
  st : State ℝ
  mem : S
  grads : Mods
  weights : Mods

/-- One round of the loop over batches in `Trainer.train` (trainer.py:95-104, training/utils.py:6-9): the batch is provided, the stepper
runs, the loss is recorded, the weight modifiers are applied, and hooks may evaluate the network. -/
noncomputable def round {S : Type} (net : Net) (input : Name) (Q : ℕ → ℕ → List MLayer) (report : ℕ → ℕ → Mem → Option ℝ)
    (run : Stepper S) (b : Batch) (evals : List Batch) (s : Run S) : Option (Run S × ℝ) :=
  (provide net input b s.st).bind fun st =>
  (run b.rnd (st, s.mem, s.grads)).bind fun r =>
  (report b.T b.B (memOf r.1)).bind fun loss =>
  (applyWeightModifiers s.weights r.1).bind fun q =>
  (evaluate net input Q evals q.2).map fun st => (⟨st, r.2.1, r.2.2, q.1⟩, loss)

/-- The state after the first `n` batches and the losses recorded so far. -/
noncomputable def train {S : Type} (net : Net) (input : Name) (Q : ℕ → ℕ → List MLayer) (report : ℕ → ℕ → Mem → Option ℝ)
    (run : ℕ → Stepper S) (batches : ℕ → Batch) (evals : ℕ → List Batch) (s : Run S) : ℕ → Option (Run S × List ℝ)
  | 0 => some (s, [])
  | n + 1 => (train net input Q report run batches evals s n).bind fun (s, log) =>
      (round net input Q report (run n) (batches n) (evals n) s).map fun (s, loss) => (s, log ++ [loss])

end Verif.Constrained
