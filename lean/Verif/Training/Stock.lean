import Verif.Training.Run
import Verif.Training.Hooks
import Mathlib.Algebra.Order.Field.Basic
import Mathlib.Algebra.Order.BigOperators.Group.List
import Mathlib.Tactic.FieldSimp

/-!
# The hooks of the library: `brainstorm/hooks.py`

What the hooks do when the trainer calls them.  The world `W` (network, stepper, hook objects, files) stays
abstract; a hook that keeps state gets it through access functions.  Messages are left out, logged values have a linear
order (no NaN, except for the test `finite` of `StopOnNan`).
-/

namespace Verif.Training

/-- What calling a hook does: epoch, update, logs and the world before. -/
abbrev HookImpl (W V : Type) := Nat → Nat → Logs V → W → W × Res V

variable {W V : Type}

/-- `get_by_path(logs, name)` (utils.py:103-129) where the path ends at a list; `none` is a `KeyError`, or the failure of the
caller to use a dictionary as a list. -/
def leafAt : Logs V → List Name → Option (List V)
  | _, [] => none
  | logs, k :: path => match Dict.get? logs k with
    | none => none
    | some (.values vs) => if path = [] then some vs else none
    | some (.dict sub) => leafAt sub path

/-- A decision as the trainer sees it: nothing is logged. -/
def Decision.res : Decision → Res V
  | .go => .value .none
  | .stop => .stop .none
  | .error => .error

/-- `EarlyStopper.__call__` (hooks.py:494-507). -/
def earlyStopperHook [LinearOrder V] (c : Crit) (patience : Nat) (path : List Name) : HookImpl W V :=
  fun e _ logs w => (w, (earlyStopper c patience e (leafAt logs path)).res)

/-- `max(e) >= threshold` or `min(e) <= threshold` (hooks.py:604-607); `max` of an empty list raises. -/
def reached [LinearOrder V] (c : Crit) (threshold : V) (e : List V) : Decision :=
  match c, e with
  | _, [] => .error
  | .max, x :: xs => if xs.foldl max x ≥ threshold then .stop else .go
  | .min, x :: xs => if xs.foldl min x ≤ threshold then .stop else .go

/-- `StopAfterThresholdReached.__call__` (hooks.py:601-612). -/
def thresholdHook [LinearOrder V] (c : Crit) (threshold : V) (path : List Name) : HookImpl W V :=
  fun _ _ logs w => (w, (match leafAt logs path with
    | none => .error
    | some e => reached c threshold e : Decision).res)

/-- The loop over `logs_to_check` (hooks.py:652-656). -/
def checkLogs (finite : V → Bool) (logs : Logs V) : List (List Name) → Decision
  | [] => .go
  | p :: ps => match leafAt logs p with
    | none => .error
    | some e => if e.all finite then checkLogs finite logs ps else .stop

/-- The check of the training loss (hooks.py:662-670). -/
def checkLoss (finite : V → Bool) (logs : Logs V) : Decision :=
  match Dict.get? logs (str "rolling_training") with
  | none => .go
  | some (.values _) => .error
  | some (.dict r) => match Dict.get? r (str "total_loss") with
    | some (.values e) => if e.all finite then .go else .stop
    | some (.dict _) => .error
    | none => match Dict.get? r (str "Loss") with
      | some (.values e) => if e.all finite then .go else .stop
      | _ => .error

/-- `StopOnNan.__call__` (hooks.py:651-670); `params w` are the parameters of the network. -/
def stopOnNanHook (finite : V → Bool) (params : W → List V) (toCheck : List (List Name)) (checkParams checkTraining : Bool) :
    HookImpl W V :=
  fun _ _ logs w => (w, (match checkLogs finite logs toCheck with
    | .error => .error
    | .stop => .stop
    | .go => if checkParams && !(params w).all finite then .stop
        else if checkTraining then checkLoss finite logs else .go : Decision).res)

/-- `StopOnSigQuit.__call__` (hooks.py:712-714); `quit w` tells whether the signal has arrived; the
message of the exception is its `value`, which the trainer logs. -/
def sigQuitHook (quit : W → Bool) (msg : V) : HookImpl W V :=
  fun _ _ _ w => (w, if quit w then .stop (.leaf msg) else .value .none)

/-- `SaveBestNetwork.__call__` (hooks.py:127-157).  `get` and `set` access what the hook remembers, `params` the parameters of the
network; the parameters are copied (`net.get`) or written to a file. -/
def saveBestHook {P : Type} [LinearOrder V] (c : Crit) (path : List Name) (epochScale : Bool) (get : W → Saved V P)
    (set : Saved V P → W → W) (params : W → P) : HookImpl W V :=
  fun e u logs w => match leafAt logs path with
    | none => (w, if e = 0 then .value .none else .error)
    | some l => match l.getLast? with
      | none => (w, .error)
      | some v => (set (saveBest c (get w) (if epochScale then e else u) v (params w)) w, .value .none)

/-- `ModifyStepperAttribute.__call__` (hooks.py:880-883); a schedule may raise. -/
def modifyHook {A : Type} (sched : Nat → Nat → Option A) (set : A → W → W) : HookImpl W V :=
  fun e u _ w => match sched e u with
    | none => (w, .error)
    | some a => (set a w, .value .none)

/-! ## Statistics -/

/-- `v.min()`, `v.mean()`, `v.max()` in a log (hooks.py:230-232 and the other monitors); an empty array raises. -/
def stats {K : Type} [Field K] [LinearOrder K] : List K → Option (Val K)
  | [] => none
  | x :: xs => some (.dict [(str "min", .leaf (xs.foldl min x)), (str "avg", .leaf ((x :: xs).sum / ((x :: xs).length : K))),
      (str "max", .leaf (xs.foldl max x))])

/-- The loop over the arrays of a layer (hooks.py:272-277, 301-306). -/
def statsOf {K : Type} [Field K] [LinearOrder K] (views : List (Name × List K)) : Option (Val K) :=
  (views.mapM (fun kv => (stats kv.2).map (fun l => (kv.1, l)))).map Val.dict

/-- `MonitorLayerGradients.__call__` (hooks.py:270-278). -/
def monitorGradients {K : Type} [Field K] [LinearOrder K] (gradients : List (Name × List K)) : Option (Val K) := statsOf gradients

/-- `MonitorLayerInOuts.__call__` (hooks.py:298-316). -/
def monitorInOuts {K : Type} [Field K] [LinearOrder K] (inputs outputs : List (Name × List K)) : Option (Val K) :=
  (statsOf inputs).bind (fun i => (statsOf outputs).map (fun o => .dict [(str "inputs", i), (str "outputs", o)]))

/-- `MonitorLayerDeltas.__call__` (hooks.py:225-250).  The last loop makes an empty dictionary `key_log` and then looks up
`key_log[key]` in it (246-248). -/
def monitorDeltas {K : Type} [Field K] [LinearOrder K] (internals outDeltas inDeltas : List (Name × List K)) : Option (Val K) :=
  match statsOf internals, statsOf outDeltas with
  | some (.dict i), some o =>
    match inDeltas with
    | [] => some (.dict (i ++ [(str "output_deltas", o), (str "input_deltas", .dict [])]))
    | _ :: _ => none
  | _, _ => none

/-! ## Files -/

/-- An HDF5 file: groups and datasets. -/
inductive File (V : Type)
  | dataset (vs : List V)
  | group (entries : List (Name × File V))

mutual
/-- What `_save_recursively` stores for an entry (hooks.py:181-186).  Names with `/` (a path for HDF5) are not modelled. -/
def saveLog : Log V → File V
  | .values vs => .dataset vs
  | .dict entries => .group (saveLogs entries)
/-- `SaveLogs._save_recursively` (hooks.py:179-186). -/
def saveLogs : List (Name × Log V) → List (Name × File V)
  | [] => []
  | (k, l) :: rest => (k, saveLog l) :: saveLogs rest
end

/-- Reading the dataset at a path. -/
def readFile : List (Name × File V) → List Name → Option (List V)
  | _, [] => none
  | f, k :: path => match Dict.get? f k with
    | none => none
    | some (.dataset vs) => if path = [] then some vs else none
    | some (.group sub) => readFile sub path

/-! ## The progress bar -/

/-- The generator `progress_bar` (utils.py:200-212) with 50 characters: printed so far, or finished. -/
inductive Bar
  | running (i : Nat)
  | done
deriving DecidableEq, Repr

/-- `bar.send(progress)`: `none` is `StopIteration` (utils.py:206-212). -/
def Bar.send (b : Bar) (progress maximum : Nat) : Option Bar :=
  match b with
  | .running _ => if progress * 50 / maximum < 50 then some (.running (progress * 50 / maximum)) else some .done
  | .done => none

/-- `ProgressBar.__call__` (hooks.py:833-845); float division in `ceil` and `trunc` is taken as exact; `length` is the length of the data iterator. -/
def progressHook (length : Nat) (get : W → Option Bar) (set : Option Bar → W → W) : HookImpl W V :=
  fun e u _ w =>
    if length = 0 then (w, .error)
    else if e ≠ 0 ∧ (u + length - 1) / length ≠ e then (w, .error)
    else if u % length = 1 then (set (some (.running 0)) w, .value .none)
    else if u % length = 0 then
      match get w with
      | none => (w, .value .none)
      | some b => match b.send length length with
        | none => (w, .stop .none)
        | some b' => (set (some b') w, .value .none)
    else
      match get w with
      | none => (w, .error)
      | some b => match b.send (u % length) length with
        | none => (w, .stop .none)
        | some b' => (set (some b') w, .value .none)

end Verif.Training
