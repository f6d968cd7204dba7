import Verif.Training.Log

/-!
# `Trainer.train`: `brainstorm/training/trainer.py:67-169`

The network, the stepper, the data iterator and the internal state of hooks are an
abstract world `W`.  Besides the state of the program the model records a trace of
what happens: batches processed and hooks called.  An exception raised by a hook
(other than `StopIteration`) or by logging ends training (`none`).  Hooks are
assumed not to change the trainer's counters or logs themselves.
-/

namespace Verif.Training

/-- A hook as the trainer sees it (hooks.py:31-38). -/
structure Hook where
  name : Name
  epochScale : Bool
  interval : Nat
deriving DecidableEq, Repr

/-- The result of calling a hook: a value, `StopIteration` with a value, or another
exception. -/
inductive Res (V : Type)
  | value (v : Val V)
  | stop (v : Val V)
  | error

/-- The surroundings of a trainer.
* `call name epoch update logs`: calling the hook;
* `step`: providing one batch and `stepper.run()`, gathering scores and applying the
  weight modifiers (trainer.py:98-103);
* `batches`: how many batches the iterator yields in this epoch;
* `rolling`: the aggregated training scores (trainer.py:107-109). -/
structure Env (W V : Type) where
  call : Name → Nat → Nat → Logs V → W → W × Res V
  step : W → W
  batches : W → Nat
  rolling : W → Val V

/-- What happens during training. -/
inductive Event (V : Type)
  | batch (epoch update : Nat)
  | call (epochScale : Bool) (name : Name) (epoch update : Nat) (stop : Bool) (result : Val V)
  | rolling (epoch : Nat) (result : Val V)

/-- The state of the trainer and the world, with the trace so far. -/
structure St (W V : Type) where
  w : W
  logs : Logs V
  epoch : Nat
  update : Nat
  trace : List (Event V)

variable {W V : Type}

/-- `count` (trainer.py:143-144). -/
def St.count (s : St W V) (epochScale : Bool) : Nat := if epochScale then s.epoch else s.update

/-- `_call_hook` and `_add_log` for one hook (trainer.py:150-152, 156-169). -/
def callHook (env : Env W V) (h : Hook) (s : St W V) : Option (St W V × Bool) :=
  match env.call h.name s.epoch s.update s.logs s.w with
  | (_, .error) => none
  | (w, .value v) => (addLog h.name v s.logs).map (fun logs =>
      (⟨w, logs, s.epoch, s.update, s.trace ++ [.call h.epochScale h.name s.epoch s.update false v]⟩, false))
  | (w, .stop v) => (addLog h.name v s.logs).map (fun logs =>
      (⟨w, logs, s.epoch, s.update, s.trace ++ [.call h.epochScale h.name s.epoch s.update true v]⟩, true))

/-- `_emit_hooks` (trainer.py:140-154); an interval of 0 raises. -/
def emitHooks (env : Env W V) (epochScale : Bool) : List Hook → St W V → Bool → Option (St W V × Bool)
  | [], s, stop => some (s, stop)
  | h :: hs, s, stop =>
    if h.epochScale ≠ epochScale then emitHooks env epochScale hs s stop
    else if h.interval = 0 then none
    else if s.count epochScale % h.interval ≠ 0 then emitHooks env epochScale hs s stop
    else match callHook env h s with
      | none => none
      | some (s', st) => emitHooks env epochScale hs s' (stop || st)

/-- The loop over the batches of an epoch (trainer.py:98-105); returns whether an
update hook asked to stop. -/
def runBatches (env : Env W V) (hooks : List Hook) : Nat → St W V → Option (St W V × Bool)
  | 0, s => some (s, false)
  | n + 1, s =>
    let s₁ : St W V := ⟨env.step s.w, s.logs, s.epoch, s.update + 1, s.trace ++ [.batch s.epoch (s.update + 1)]⟩
    match emitHooks env false hooks s₁ false with
    | none => none
    | some (s₂, true) => some (s₂, true)
    | some (s₂, false) => runBatches env hooks n s₂

/-- One epoch (trainer.py:87-110). -/
def runEpoch (env : Env W V) (hooks : List Hook) (s : St W V) : Option (St W V × Bool) :=
  match runBatches env hooks (env.batches s.w) { s with epoch := s.epoch + 1 } with
  | none => none
  | some (s₁, stop) => match addLog (str "rolling_training") (env.rolling s₁.w) s₁.logs with
    | none => none
    | some logs => emitHooks env true hooks
        ⟨s₁.w, logs, s₁.epoch, s₁.update, s₁.trace ++ [.rolling s₁.epoch (env.rolling s₁.w)]⟩ stop

/-- `while not should_stop` (trainer.py:86-110) for at most `fuel` epochs; the
boolean tells whether training has ended. -/
def trainLoop (env : Env W V) (hooks : List Hook) : Nat → St W V → Option (St W V × Bool)
  | 0, s => some (s, false)
  | fuel + 1, s => match runEpoch env hooks s with
    | none => none
    | some (s', true) => some (s', true)
    | some (s', false) => trainLoop env hooks fuel s'

/-- `train` (trainer.py:67-110): after the initial hooks at most `fuel` epochs. -/
def train (env : Env W V) (hooks : List Hook) (fuel : Nat) (s : St W V) : Option (St W V × Bool) :=
  match emitHooks env false hooks s false with
  | none => none
  | some (s₁, true) => some (s₁, true)
  | some (s₁, false) => match emitHooks env true hooks s₁ false with
    | none => none
    | some (s₂, true) => some (s₂, true)
    | some (s₂, false) => trainLoop env hooks fuel s₂

/-! ### Specification -/

/-- The hooks due at a count, in the order they were added. -/
def due (hooks : List Hook) (epochScale : Bool) (count : Nat) : List Name :=
  (hooks.filter (fun h => decide (h.epochScale = epochScale) && decide (h.interval ∣ count))).map Hook.name

/-- The event is a stop request. -/
def Event.isStop : Event V → Bool
  | .call _ _ _ _ b _ => b
  | _ => false

/-- The event is the processing of a batch. -/
def Event.isBatch : Event V → Bool
  | .batch _ _ => true
  | _ => false

/-- The event is a stop request by a hook on the update timescale. -/
def Event.isUpdateStop : Event V → Bool
  | .call false _ _ _ b _ => b
  | _ => false

/-- The values an event should leave in the logs. -/
def Event.leaves : Event V → List (List Name × V)
  | .call _ name _ _ _ v => Training.leaves name v
  | .rolling _ v => Training.leaves (str "rolling_training") v
  | .batch _ _ => []

/-- An event without its outcome. -/
inductive Act
  | batch (epoch update : Nat)
  | call (epochScale : Bool) (name : Name) (epoch update : Nat)
  | rolling (epoch : Nat)
deriving DecidableEq, Repr

/-- Forget the outcome of an event. -/
def Event.act : Event V → Act
  | .batch e u => .batch e u
  | .call sc name e u _ _ => .call sc name e u
  | .rolling e _ => .rolling e

/-- The hooks called at update `u`, in order. -/
def updateCalls (acts : List Act) (u : Nat) : List Name :=
  acts.filterMap (fun a => match a with
    | .call false name _ u' => if u' = u then some name else none
    | _ => none)

/-- The hooks called at (the end of) epoch `e`, in order. -/
def epochCalls (acts : List Act) (e : Nat) : List Name :=
  acts.filterMap (fun a => match a with
    | .call true name e' _ => if e' = e then some name else none
    | _ => none)

/-- The numbers of the batches processed. -/
def batchNumbers (acts : List Act) : List Nat :=
  acts.filterMap (fun a => match a with
    | .batch _ u => some u
    | _ => none)

/-- The hooks on a timescale due at epoch `e` and update `u`, called in order. -/
def callsAt (hooks : List Hook) (epochScale : Bool) (e u : Nat) : List Act :=
  (due hooks epochScale (if epochScale then e else u)).map (fun name => Act.call epochScale name e u)

/-- `k` batches of epoch `e` after `u` updates: each is followed by the update hooks. -/
def planBatches (hooks : List Hook) (e : Nat) : Nat → Nat → List Act
  | _, 0 => []
  | u, k + 1 => Act.batch e (u + 1) :: (callsAt hooks false e (u + 1) ++ planBatches hooks e (u + 1) k)

/-- Epochs after epoch `e` and update `u`, with the given numbers of batches: after the
batches of an epoch its training scores are logged and the epoch hooks are called. -/
def planEpochs (hooks : List Hook) : Nat → Nat → List Nat → List Act
  | _, _, [] => []
  | e, u, k :: ks => planBatches hooks (e + 1) u k ++
      Act.rolling (e + 1) :: (callsAt hooks true (e + 1) (u + k) ++ planEpochs hooks (e + 1) (u + k) ks)

end Verif.Training
