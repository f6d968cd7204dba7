import Verif.Determined.Spec
import Verif.Evaluate.Model
import Verif.Training.Stock
import Verif.EndToEnd.Formulas

/-!
# `Trainer.train` with its hooks on the memory of a network: `brainstorm/training/trainer.py:67-110`

`Training/Trainer` models the loop with an abstract world.  Here the world is the network with its buffers, the stepper, the
modifiers, the data iterators and the hooks of the library.  Numbers are real numbers.
-/

namespace Verif.Trainer

open Verif.Structure Verif.Layout Verif.Buffers Verif.Memory Verif.Session
open Verif.Training (Env HookImpl Val Logs Res Crit Saved)

/-- Everything a training changes, except for what the trainer itself keeps (its counters and logs).

* `run`: the buffers, what the stepper remembers, the modifiers;
* `lr`, `momentum`: attributes of the stepper;
* `epoch`, `done`: the epoch that the data iterator is in (counted from 0) and how many of its batches it has yielded;
* `scores`: `train_scores`, here one entry for each batch: its size and the losses (trainer.py:90-91);
* `saved`: what the hooks called `SaveBestNetwork` remember;
* `failed`: an exception was raised while a batch was processed (C82 shows that this never happens). -/
structure World (S : Type) where
  run : Constrained.Run S
  lr : ℝ
  momentum : ℝ
  epoch : ℕ
  done : ℕ
  scores : List (ℕ × Dict Name ℝ)
  saved : Name → Saved ℝ (List ℝ)
  failed : Bool

/-- A scorer (scorers.py:16-23): its name, the arrays `out`, `targets` and `mask`, how many numbers the first two have for each row,
and what it computes. -/
structure Scoring where
  name : Name
  out : Name
  targets : Name
  columns : ℕ × ℕ
  mask : Option Name
  score : List (Verif.Scoring.Row ℝ) → ℝ

/-- The hooks of the library.

* `MonitorLoss` and `MonitorScores` (hooks.py:353-422), with what their data iterator yields when it is called (it may
  shuffle the data each time);
* `SaveBestNetwork` (hooks.py:57-157);
* `ModifyStepperAttribute` (hooks.py:864-883) for the learning rate or the momentum;
* hooks that only look: `EarlyStopper`, `StopAfterEpoch`, `StopAfterThresholdReached`, `StopOnNan`, `StopOnSigQuit`,
  `MonitorLayerParameters`, `MonitorLayerGradients`, `MonitorLayerInOuts`, `MonitorLayerDeltas`, `SaveLogs`, `SaveNetwork`,
  `InfoUpdater` (what they write to files or to the screen is left out), and any other hooks that change nothing. -/
inductive LibHook (S : Type)
  | monitor (data : ℕ → ℕ → List Batch) (scorers : List Scoring)
  | saveBest (c : Crit) (path : List Name) (epochScale : Bool)
  | modifyLr (schedule : ℕ → ℕ → Option ℝ)
  | modifyMomentum (schedule : ℕ → ℕ → Option ℝ)
  | watch (look : ℕ → ℕ → Logs ℝ → World S → Res ℝ)

/-- What is given for a training.

* `net`, `input`: the network and its Input layer;
* `Q`: the layers as they work when it is not a training pass;
* `losses`: what `get_loss_values()` makes of the memory, and `names`: its keys, which do not depend on the memory;
* `stepper`: `run` of the stepper with given learning rate and momentum;
* `epochs`: what the training data iterator yields in each epoch;
* `hooks`: the hooks by name. -/
structure Setting (S : Type) where
  net : Net
  input : Name
  Q : ℕ → ℕ → List MLayer
  losses : ℕ → ℕ → Mem → Dict Name ℝ
  names : List Name
  stepper : ℝ → ℝ → Constrained.Stepper S
  epochs : ℕ → List Batch
  hooks : Dict Name (LibHook S)

variable {S : Type}

/-- The epoch of the next batch, the number of the batch in it, and the scores so far: a new epoch begins with empty scores
(trainer.py:86-97). -/
def Setting.position (Z : Setting S) (w : World S) : ℕ × ℕ × List (ℕ × Dict Name ℝ) :=
  if w.done < (Z.epochs w.epoch).length then (w.epoch, w.done, w.scores) else (w.epoch + 1, 0, [])

/-- One round of the loop over the batches (trainer.py:98-102, training/utils.py:6-9, scorers.py:34-38): the batch is provided, the
stepper runs, the losses are gathered, the weight modifiers are applied.  Simplification: there are no `train_scorers` (the default). -/
noncomputable def Setting.step (Z : Setting S) (w : World S) : Option (World S) :=
  let p := Z.position w
  ((Z.epochs p.1)[p.2.1]?).bind fun b =>
  (provide Z.net Z.input b w.run.st).bind fun st =>
  (Z.stepper w.lr w.momentum b.rnd (st, w.run.mem, w.run.grads)).bind fun r =>
  (Constrained.applyWeightModifiers w.run.weights r.1).map fun q =>
  { w with
    run := ⟨q.2, r.2.1, r.2.2, q.1⟩
    epoch := p.1
    done := p.2.1 + 1
    scores := p.2.2 ++ [(b.B, Z.losses b.T b.B (memOf r.1))] }

/-- `_weighted_average(scores[name])` (scorers.py:58-59, 107-110). -/
noncomputable def average (scores : List (ℕ × Dict Name ℝ)) (name : Name) : ℝ :=
  Verif.Scoring.weightedAverage (scores.map fun x => ((x.1 : ℝ), (Dict.get? x.2 name).getD 0))

/-- `aggregate_losses_and_scores(train_scores, net, ())` (trainer.py:107-109, scorers.py:56-62). -/
noncomputable def Setting.rolling (Z : Setting S) (w : World S) : Val ℝ :=
  .dict (Z.names.map fun n => (n, .leaf (average w.scores n)))

/-- What `evaluate` returns (tools.py:72-82, scorers.py:56-62): an entry for each loss and for each scorer, from one forward pass for
each batch. -/
noncomputable def Setting.evaluation (Z : Setting S) (scorers : List Scoring) (bs : List Batch) (st : State ℝ) : Option (Val ℝ) :=
  (Z.names.mapM fun n => (Evaluate.evaluateLoss Z.net Z.input Z.Q (fun T B m => Dict.get? (Z.losses T B m) n) bs st).map
    fun v => (n, v)).bind fun ls =>
  (scorers.mapM fun s => (Evaluate.evaluateScore Z.net Z.input Z.Q (Evaluate.scored s.out s.targets s.columns.1 s.columns.2 s.mask)
    s.mask.isSome s.score bs st).map fun v => (s.name, v)).map fun ss =>
  .dict ((ss.foldl (fun d x => Dict.set d x.1 x.2) ls).map fun x => (x.1, .leaf x.2))

/-- `MonitorLoss.__call__` and `MonitorScores.__call__` (hooks.py:372-373, 421-422).  Without any batch the averages raise (scorers.py:107-110). -/
noncomputable def Setting.monitor (Z : Setting S) (data : ℕ → ℕ → List Batch) (scorers : List Scoring) : HookImpl (World S) ℝ :=
  fun e u _ w =>
    if data e u = [] then (w, .error)
    else match Z.evaluation scorers (data e u) w.run.st, evaluate Z.net Z.input Z.Q (data e u) w.run.st with
    | some v, some st => ({ w with run := { w.run with st := st } }, .value v)
    | _, _ => (w, .error)

/-- What a `SaveBestNetwork` hook remembers. -/
def remember (name : Name) (x : Saved ℝ (List ℝ)) (w : World S) : World S := { w with saved := Function.update w.saved name x }

/-- `net.get('parameters')` (hooks.py:148). -/
def parameters (w : World S) : List ℝ := (w.run.st.read (str "parameters")).getD []

/-- Calling a hook (trainer.py:156-169). -/
noncomputable def Setting.call (Z : Setting S) (name : Name) : HookImpl (World S) ℝ :=
  match Dict.get? Z.hooks name with
  | none => fun _ _ _ w => (w, .error)
  | some (.monitor data scorers) => Z.monitor data scorers
  | some (.saveBest c path sc) => Training.saveBestHook c path sc (fun w => w.saved name) (remember name) parameters
  | some (.modifyLr schedule) => Training.modifyHook schedule fun x w => { w with lr := x }
  | some (.modifyMomentum schedule) => Training.modifyHook schedule fun x w => { w with momentum := x }
  | some (.watch look) => fun e u logs w => (w, look e u logs w)

/-- The surroundings of the trainer.  Simplification: a failure while a batch is processed is recorded in the world. -/
noncomputable def Setting.env (Z : Setting S) : Env (World S) ℝ where
  call := Z.call
  step w := (Z.step w).getD { w with failed := true }
  batches w := (Z.epochs (Z.position w).1).length
  rolling := Z.rolling

/-- The training of a network of library layers: `P` are its layers in a training pass, `Q` in other passes.  The losses are those of
`get_loss_values()` (network.py:447-475), and the names those that it uses. -/
noncomputable def trainingOf (a : Architecture.Arch) (layers : Dict Name (Instantiate.LayerObj Setup.Kwargs)) (L : Layout) (input : Name)
    (P Q : ℕ → ℕ → List MLayer) (alg : Determined.Algorithm) (epochs : ℕ → List Batch) (hooks : Dict Name (LibHook alg.Memory)) :
    Setting alg.Memory where
  net := netOf (Setup.infos layers) L
  input := input
  Q := Q
  losses T B m := Setup.getLossValues a layers fun n => Memory.entry (netOf (Setup.infos layers) L) T B n m "outputs" "loss" 0
  names := Dict.keys (Setup.getLossValues (K := ℝ) a layers fun _ => 0)
  stepper lr μ := alg.run (netOf (Setup.infos layers) L) P lr μ
  epochs := epochs
  hooks := hooks

end Verif.Trainer
