import Verif.Trainer.Model

/-!
# Specification for C82: the batches of all epochs, and what a monitor should report
-/

namespace Verif.Trainer

open Verif.Structure Verif.Layout Verif.Buffers Verif.Memory Verif.Session
open Verif.Training (Event St Hook Logs leafAt)

/-- How many batches there are before epoch `e`. -/
def batchesBefore (epochs : ℕ → List Batch) (e : ℕ) : ℕ := ((List.range e).map fun i => (epochs i).length).sum

/-- Batch number `k` of the training, counted from 0 through all epochs (if no epoch is empty). -/
def batchNr (epochs : ℕ → List Batch) (k : ℕ) : Batch :=
  ((List.range (k + 1)).flatMap epochs).getD k ⟨0, 0, [], fun _ => 0⟩

/-- The average of the losses on some batches, where a batch counts as many times as it has sequences. -/
noncomputable def meanLoss (xs : List (ℕ × ℝ)) : ℝ := (xs.map fun x => (x.1 : ℝ) * x.2).sum / (xs.map fun x => (x.1 : ℝ)).sum

/-- Not yet begun: nothing was taken from the data iterator. -/
structure Fresh {S : Type} (w : World S) : Prop where
  failed : w.failed = false
  data : w.epoch = 0 ∧ w.done = 0
  scores : w.scores = []

/-- When a hook was called: the numbers of epochs and of updates. -/
def checks (name : Name) (trace : List (Event ℝ)) : List (ℕ × ℕ) :=
  trace.filterMap fun ev => match ev with
    | .call _ name' e u _ _ => if name' = name then some (e, u) else none
    | _ => none

/-- A monitor with this name is among the hooks. -/
def Monitored {S : Type} (hooks : Dict Name (LibHook S)) (order : List Hook) (mon : Name) : Prop :=
  mon ∈ order.map Hook.name ∧ ∃ dt, Dict.get? hooks mon = some (.monitor dt [])

/-- All monitors have logged the loss. -/
def AllLogged {S : Type} (hooks : Dict Name (LibHook S)) (order : List Hook) (logs : Logs ℝ) : Prop :=
  ∀ mon, Monitored hooks order mon → ∃ vs, vs ≠ [] ∧ leafAt logs [mon, str "total_loss"] = some vs

/-- Hooks that do not raise: monitors of the losses on data that are not empty, `SaveBestNetwork` for the loss of one of these monitors, schedules that are defined
everywhere, and hooks that only look, log nothing and do not raise in the first epoch or when all monitors have logged the loss. -/
def Harmless {S : Type} (hooks : Dict Name (LibHook S)) (order : List Hook) : LibHook S → Prop
  | .monitor dt scorers => scorers = [] ∧ ∀ e u, dt e u ≠ []
  | .saveBest _ path _ => ∃ mon, path = [mon, str "total_loss"] ∧ Monitored hooks order mon
  | .modifyLr schedule => ∀ e u, schedule e u ≠ none
  | .modifyMomentum schedule => ∀ e u, schedule e u ≠ none
  | .watch look => ∀ e u logs w, e = 0 ∨ AllLogged hooks order logs → look e u logs w = .value .none ∨ look e u logs w = .stop .none

end Verif.Trainer
