import Verif.Memory.State
import Verif.Buffers.Model

/-!
# Training steps on the buffers of a network

Passes and steppers work on the state of the buffer manager: the passes on its memory, the steppers on its arrays
`parameters` and `gradients`.  Numbers are real numbers.  `none` stands for a raised exception.
-/

namespace Verif.Session

open Verif.Structure Verif.Layout Verif.Buffers Verif.Memory

/-- The number of entries of all buffers of the network. -/
abbrev total (net : Net) (T B : ℕ) : ℕ := (totalSizeSlicesShapes net.hubs T B).1

/-- What the layers find: the part of the full buffer that is in use, and behind it the random numbers that are drawn in this
pass (the layers never see what lies behind the part in use). -/
def seen (net : Net) (T B : ℕ) (rnd : ℕ → ℝ) (m : Mem) : Mem := fun c => if c < total net T B then m c else rnd (c - total net T B)

/-- Let the layers work on the full buffer. -/
def onMemory (net : Net) (rnd : ℕ → ℝ) (f : ℕ → ℕ → Mem → Mem) (st : State ℝ) : Option (State ℝ) :=
  st.onFull fun T B m => m.mapIdx fun c x => if c < total net T B then f T B (seen net T B rnd fun c => m.getD c 0) c else x

/-- `Network.forward_pass` without a context (network.py:405-430).  `P T B` are the layers, with the functions they compute for
`T` time steps and `B` sequences. -/
def forwardPass (net : Net) (P : ℕ → ℕ → List MLayer) (rnd : ℕ → ℝ) (st : State ℝ) : Option (State ℝ) :=
  (clearContext net st).bind (onMemory net rnd fun T B => forward (P T B))

/-- `Network.backward_pass` without gradient modifiers (network.py:432-445). -/
def backwardPass (net : Net) (P : ℕ → ℕ → List MLayer) (rnd : ℕ → ℝ) (st : State ℝ) : Option (State ℝ) :=
  (clearBackward net st).bind (onMemory net rnd fun T B m => (P T B).reverse.foldl (fun m l => l.bwd m) m)

/-- What a data iterator yields: the numbers of time steps and sequences and the data by name (in the order of C), and the random
numbers drawn while it is processed. -/
structure Batch where
  T : ℕ
  B : ℕ
  data : List (Name × List ℝ)
  rnd : ℕ → ℝ

/-- `provide_external_data(data)` for all outputs of the Input layer called `input` (network.py:381-403). -/
def provide (net : Net) (input : Name) (b : Batch) (st : State ℝ) : Option (State ℝ) :=
  provideExternalData net st b.T b.B (b.data.map fun d => (path input (str "outputs") d.1, d.2))

/-- `SgdStepper.run` (steppers.py:61-69). -/
def sgdRun (net : Net) (P : ℕ → ℕ → List MLayer) (lr : ℝ) (rnd : ℕ → ℝ) (s : State ℝ × Unit) : Option (State ℝ × Unit) :=
  (forwardPass net P rnd s.1).bind fun st =>
  (backwardPass net P rnd st).bind fun st =>
  (st.read (str "gradients")).bind fun gradients =>
  let update := gradients.map (-lr * ·)
  (st.read (str "parameters")).bind fun parameters =>
  (st.write (str "parameters") (List.zipWith (· + ·) update parameters)).map fun st => (st, s.2)

/-- `MomentumStepper.run` (steppers.py:96-114); the second component is `self.velocity`. -/
def momentumRun (net : Net) (P : ℕ → ℕ → List MLayer) (scale : Bool) (lr momentum : ℝ) (rnd : ℕ → ℝ) (s : State ℝ × List ℝ) :
    Option (State ℝ × List ℝ) :=
  let rate := if scale then lr * (1 - momentum) else lr
  (forwardPass net P rnd s.1).bind fun st =>
  (backwardPass net P rnd st).bind fun st =>
  let velocity := s.2.map (momentum * ·)
  (st.read (str "gradients")).bind fun gradients =>
  let velocity := List.zipWith (fun g v => -rate * g + v) gradients velocity
  (st.read (str "parameters")).bind fun parameters =>
  (st.write (str "parameters") (List.zipWith (· + ·) velocity parameters)).map fun st => (st, velocity)

/-- `NesterovStepper.run` (steppers.py:126-145). -/
def nesterovRun (net : Net) (P : ℕ → ℕ → List MLayer) (scale : Bool) (lr momentum : ℝ) (rnd : ℕ → ℝ) (s : State ℝ × List ℝ) :
    Option (State ℝ × List ℝ) :=
  let rate := if scale then lr * (1 - momentum) else lr
  let velocity := s.2.map (momentum * ·)
  (s.1.read (str "parameters")).bind fun parameters =>
  (s.1.write (str "parameters") (List.zipWith (· + ·) velocity parameters)).bind fun st =>
  (forwardPass net P rnd st).bind fun st =>
  (backwardPass net P rnd st).bind fun st =>
  (st.read (str "gradients")).bind fun gradients =>
  let velocity := List.zipWith (fun g v => -rate * g + v) gradients velocity
  (st.read (str "parameters")).bind fun parameters =>
  (st.write (str "parameters") (List.zipWith (fun g p => -rate * g + p) gradients parameters)).map fun st => (st, velocity)

/-- Forward passes on other data, as the hooks that monitor losses and scores do it (hooks.py:372-373, 421-422, tools.py:76-77): `Q`
are the layers as they work when it is not a training pass. -/
def evaluate (net : Net) (input : Name) (Q : ℕ → ℕ → List MLayer) : List Batch → State ℝ → Option (State ℝ)
  | [], st => some st
  | b :: bs, st => (provide net input b st).bind fun st => (forwardPass net Q b.rnd st).bind (evaluate net input Q bs)

/-- A stepper: what its `run` does to the buffers and to what it remembers. -/
abbrev Stepper (S : Type) := (ℕ → ℝ) → State ℝ × S → Option (State ℝ × S)

/-- One round of the loop over batches in `Trainer.train` (trainer.py:95-104, training/utils.py:6-9): the batch is provided, the
stepper runs, the loss is recorded, and hooks may evaluate the network.  `report` is what `get_loss_values()['total_loss']` makes
of the memory.  There are no weight modifiers. -/
noncomputable def round {S : Type} (net : Net) (input : Name) (Q : ℕ → ℕ → List MLayer) (report : ℕ → ℕ → Mem → Option ℝ)
    (run : Stepper S) (b : Batch) (evals : List Batch) (s : State ℝ × S) : Option ((State ℝ × S) × ℝ) :=
  (provide net input b s.1).bind fun st =>
  (run b.rnd (st, s.2)).bind fun s =>
  (report b.T b.B (memOf s.1)).bind fun loss =>
  (evaluate net input Q evals s.1).map fun st => ((st, s.2), loss)

/-- The state after the first `n` batches and the losses recorded so far; the stepper of round `i` has the learning rate and
momentum of that time. -/
noncomputable def train {S : Type} (net : Net) (input : Name) (Q : ℕ → ℕ → List MLayer) (report : ℕ → ℕ → Mem → Option ℝ)
    (run : ℕ → Stepper S) (batches : ℕ → Batch) (evals : ℕ → List Batch) (s : State ℝ × S) : ℕ → Option ((State ℝ × S) × List ℝ)
  | 0 => some (s, [])
  | n + 1 => (train net input Q report run batches evals s n).bind fun (s, log) =>
      (round net input Q report (run n) (batches n) (evals n) s).map fun (s, loss) => (s, log ++ [loss])

end Verif.Session
