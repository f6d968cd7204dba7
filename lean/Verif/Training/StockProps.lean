import Verif.Training.Stock
import Mathlib.Tactic.NormNum
import Mathlib.Algebra.Order.Field.Rat

/-!
# C66: the hooks of the library in a training run — stopping, saving, monitoring
-/

namespace Verif.Training

variable {W V : Type}

/-- The values that are in the log `path` after the events `pre` of a training run which began with the logs `logs`. -/
def loggedBefore (logs : Logs V) (pre : List (Event V)) (path : List Name) : List V :=
  valuesAt logs path ++ valuesOf (pre.flatMap Event.leaves) path

/-! ## What a hook sees -/

theorem leafAt_valuesAt : ∀ (path : List Name) (logs : Logs V),
    (∀ e, leafAt logs path = some e → valuesAt logs path = e) ∧ (leafAt logs path = none → valuesAt logs path = []) := by
  intro path
  induction path with
  | nil => intro logs; exact ⟨fun e h => by simp [leafAt] at h, fun _ => rfl⟩
  | cons k path ih =>
    intro logs
    simp only [leafAt, valuesAt]
    cases Dict.get? logs k with
    | none => exact ⟨fun e h => by simp at h, fun _ => rfl⟩
    | some lg =>
      cases lg with
      | values vs =>
        by_cases hp : path = []
        · simp [hp]
        · simp [hp]
      | dict sub => exact ih _

/-- An event of the trace of a training run, as a step. -/
theorem train_at (env : Env W V) (hooks : List Hook) (fuel : Nat) (s s' : St W V) (fin : Bool) (h0 : s.trace = [])
    (h : train env hooks fuel s = some (s', fin)) (pre post : List (Event V)) (ev : Event V)
    (ht : s'.trace = pre ++ ev :: post) :
    ∃ x x', Step env hooks x ev x' ∧ ∀ path, valuesAt x.logs path = loggedBefore s.logs pre path := by
  obtain ⟨L, h1, h2⟩ := train_run env hooks fuel s s' fin h
  rw [h0, List.nil_append] at h2
  rw [h2] at ht
  obtain ⟨L1, L2, rfl, e1, e2⟩ := List.map_eq_append_iff.1 ht
  obtain ⟨x, L3, rfl, rfl, e3⟩ := List.map_eq_cons_iff.1 e2
  obtain ⟨s₁, g1, g2, -⟩ := h1.split L1 L3 x rfl
  exact ⟨x.1, s₁, g2, fun path => by rw [g1.logs, e1]; rfl⟩

theorem Step.shown {env : Env W V} {hooks : List Hook} {x x' : St W V} {sc : Bool} {nm : Name} {e u : Nat} {st : Bool} {v : Val V}
    (hs : Step env hooks x (.call sc nm e u st v) x') :
    (env.call nm e u x.logs x.w).2 = (if st then .stop v else .value v) ∧ x'.w = (env.call nm e u x.logs x.w).1 := by
  generalize hev : (Event.call sc nm e u st v : Event V) = ev at hs
  cases hs with
  | batch => exact absurd hev (by simp)
  | rolling => exact absurd hev (by simp)
  | call hk w st' v' logs _ hc _ =>
    simp only [Event.call.injEq] at hev
    obtain ⟨-, rfl, rfl, rfl, rfl, rfl⟩ := hev
    rw [hc]
    exact ⟨rfl, rfl⟩

/-- The same for the list of events with states. -/
theorem Run.shown {env : Env W V} {hooks : List Hook} {s s' x : St W V} {L₁ L₂ : List (St W V × Event V)} {sc : Bool} {nm : Name}
    {e u : Nat} {st : Bool} {v : Val V} (h : Run env hooks s (L₁ ++ (x, .call sc nm e u st v) :: L₂) s') :
    (env.call nm e u x.logs x.w).2 = (if st then .stop v else .value v) ∧
      ∀ path, valuesAt x.logs path = loggedBefore s.logs (L₁.map Prod.snd) path := by
  obtain ⟨s₁, g1, g2, -⟩ := h.split L₁ L₂ _ rfl
  exact ⟨(Step.shown g2).1, fun path => by rw [g1.logs]; rfl⟩

/-- **C66** (what a hook is shown): every call of a hook in a training run happens with logs that hold, under every path, what
was logged before the run followed by everything logged by the events before the call. -/
theorem C66_logs_shown (env : Env W V) (hooks : List Hook) (fuel : Nat) (s s' : St W V) (fin : Bool) (h0 : s.trace = [])
    (h : train env hooks fuel s = some (s', fin)) (pre post : List (Event V)) (sc : Bool) (nm : Name) (e u : Nat) (st : Bool) (v : Val V)
    (ht : s'.trace = pre ++ .call sc nm e u st v :: post) :
    ∃ logs w, (env.call nm e u logs w).2 = (if st then .stop v else .value v) ∧
      ∀ path, valuesAt logs path = loggedBefore s.logs pre path := by
  obtain ⟨x, x', hs, hl⟩ := train_at env hooks fuel s s' fin h0 h pre post _ ht
  obtain ⟨h1, -⟩ := Step.shown hs
  exact ⟨x.logs, x.w, h1, hl⟩

/-! ## Hooks that stop -/

section Stop

variable [LinearOrder V]

/-- **C66** (`EarlyStopper`): in every training run, a check of an early stopper asks to stop exactly if the log it watches, as it
is at that moment, has its (first) best value at least `patience` entries before the end.  (By `C35_stop` training then ends.) -/
theorem C66_early_stopper (env : Env W V) (hooks : List Hook) (fuel : Nat) (s s' : St W V) (fin : Bool) (h0 : s.trace = [])
    (h : train env hooks fuel s = some (s', fin)) (nm : Name) (c : Crit) (patience : Nat) (path : List Name)
    (hk : env.call nm = earlyStopperHook c patience path)
    (pre post : List (Event V)) (sc : Bool) (e u : Nat) (st : Bool) (v : Val V)
    (ht : s'.trace = pre ++ .call sc nm e u st v :: post) :
    st = true ↔ ∃ i, FirstBest c (loggedBefore s.logs pre path) i ∧ i + patience < (loggedBefore s.logs pre path).length := by
  obtain ⟨logs, w, h1, h2⟩ := C66_logs_shown env hooks fuel s s' fin h0 h pre post sc nm e u st v ht
  rw [hk] at h1
  simp only [earlyStopperHook] at h1
  rw [← h2 path]
  obtain ⟨l1, l2⟩ := leafAt_valuesAt path logs
  cases hl : leafAt logs path with
  | none =>
    rw [l2 hl]
    rw [hl] at h1
    constructor
    · rintro rfl
      unfold earlyStopper at h1
      dsimp only at h1
      split at h1 <;> simp [Decision.res] at h1
    · rintro ⟨i, -, hi⟩; simp at hi
  | some l =>
    rw [l1 l hl]
    rw [hl] at h1
    by_cases hne : l = []
    · subst hne
      simp only [earlyStopper, argBest, Decision.res] at h1
      split at h1 <;> simp at h1
    · have hd := C37_decision c patience e l hne
      have hlen : 0 < l.length := List.length_pos_of_ne_nil hne
      have hst : st = true ↔ earlyStopper c patience e (some l) = .stop := by
        cases st <;> cases hx : earlyStopper c patience e (some l) <;> rw [hx] at h1 <;> simp [Decision.res] at h1 <;> simp
      rw [hst, hd]
      constructor
      · rintro ⟨i, h3, h4⟩; exact ⟨i, h3, by omega⟩
      · rintro ⟨i, h3, h4⟩; exact ⟨i, h3, by omega⟩

theorem foldl_max_ge {a : V} : ∀ (l : List V) (x : V), a ≤ l.foldl max x ↔ ∃ y ∈ x :: l, a ≤ y := by
  intro l
  induction l with
  | nil => intro x; simp
  | cons y l ih =>
    intro x
    rw [List.foldl_cons, ih]
    simp only [List.mem_cons, exists_eq_or_imp, le_max_iff]
    tauto

theorem foldl_min_le {a : V} : ∀ (l : List V) (x : V), l.foldl min x ≤ a ↔ ∃ y ∈ x :: l, y ≤ a := by
  intro l
  induction l with
  | nil => intro x; simp
  | cons y l ih =>
    intro x
    rw [List.foldl_cons, ih]
    simp only [List.mem_cons, exists_eq_or_imp, min_le_iff]
    tauto

/-- A value has reached the threshold. -/
def Reaches (c : Crit) (threshold x : V) : Prop :=
  match c with
  | .max => threshold ≤ x
  | .min => x ≤ threshold

theorem reached_spec (c : Crit) (threshold : V) (l : List V) [Decidable (∃ x ∈ l, Reaches c threshold x)] :
    reached c threshold l = if l = [] then .error else if (∃ x ∈ l, Reaches c threshold x) then .stop else .go := by
  cases l with
  | nil => cases c <;> rfl
  | cons x l =>
    rw [if_neg (by simp)]
    cases c with
    | max =>
      show (if threshold ≤ l.foldl max x then Decision.stop else .go) = _
      by_cases hx : ∃ y ∈ x :: l, Reaches .max threshold y
      · rw [if_pos hx, if_pos ((foldl_max_ge l x).2 hx)]
      · rw [if_neg hx, if_neg (fun h' => hx ((foldl_max_ge l x).1 h'))]
    | min =>
      show (if l.foldl min x ≤ threshold then Decision.stop else .go) = _
      by_cases hx : ∃ y ∈ x :: l, Reaches .min threshold y
      · rw [if_pos hx, if_pos ((foldl_min_le l x).2 hx)]
      · rw [if_neg hx, if_neg (fun h' => hx ((foldl_min_le l x).1 h'))]

/-- **C66** (`StopAfterThresholdReached`): in every training run, a check asks to stop exactly if some entry of the log it watches has
reached the threshold (not only the newest entry), and there is an entry at every check. -/
theorem C66_threshold (env : Env W V) (hooks : List Hook) (fuel : Nat) (s s' : St W V) (fin : Bool) (h0 : s.trace = [])
    (h : train env hooks fuel s = some (s', fin)) (nm : Name) (c : Crit) (threshold : V) (path : List Name)
    (hk : env.call nm = thresholdHook c threshold path)
    (pre post : List (Event V)) (sc : Bool) (e u : Nat) (st : Bool) (v : Val V)
    (ht : s'.trace = pre ++ .call sc nm e u st v :: post) :
    loggedBefore s.logs pre path ≠ [] ∧ (st = true ↔ ∃ x ∈ loggedBefore s.logs pre path, Reaches c threshold x) := by
  classical
  obtain ⟨logs, w, h1, h2⟩ := C66_logs_shown env hooks fuel s s' fin h0 h pre post sc nm e u st v ht
  rw [hk] at h1
  simp only [thresholdHook] at h1
  rw [← h2 path]
  obtain ⟨l1, l2⟩ := leafAt_valuesAt path logs
  cases hl : leafAt logs path with
  | none =>
    rw [hl] at h1
    cases st <;> simp [Decision.res] at h1
  | some l =>
    rw [l1 l hl]
    rw [hl] at h1
    dsimp only at h1
    rw [reached_spec] at h1
    by_cases hne : l = []
    · rw [if_pos hne] at h1
      cases st <;> simp [Decision.res] at h1
    · rw [if_neg hne] at h1
      refine ⟨hne, ?_⟩
      by_cases hex : ∃ x ∈ l, Reaches c threshold x
      · rw [if_pos hex] at h1
        cases st with
        | true => simp [hex]
        | false => simp [Decision.res] at h1
      · rw [if_neg hex] at h1
        cases st with
        | true => simp [Decision.res] at h1
        | false => simp [hex]

/-- **C66** (`StopAfterThresholdReached` without a log): hooks are also called before the first epoch, when nothing has been logged; a
hook that watches a log which no earlier hook writes (such as `rolling_training.total_loss`, written at the end of each epoch) makes
`train` fail at once with a `KeyError`.  (`EarlyStopper` and `SaveBestNetwork` skip this call.) -/
theorem C66_threshold_fails (env : Env W V) (hooks : List Hook) (fuel : Nat) (s : St W V) (nm : Name) (c : Crit) (threshold : V)
    (path : List Name) (hk : env.call nm = thresholdHook c threshold path) (k : Nat) (hs : List Hook)
    (hh : hooks = ⟨nm, false, k⟩ :: hs ∨ (hooks = ⟨nm, true, k⟩ :: hs ∧ ∀ x ∈ hs, x.epochScale = true))
    (h0 : s.epoch = 0 ∧ s.update = 0) (hl : s.logs = []) : train env hooks fuel s = none := by
  have hc : ∀ sc, callHook env ⟨nm, sc, k⟩ s = none := by
    intro sc
    unfold callHook
    rw [hk]
    have : leafAt s.logs path = none := by
      rw [hl]; cases path <;> rfl
    simp [thresholdHook, this, Decision.res]
  rcases hh with rfl | ⟨rfl, hh⟩
  · unfold train
    have : emitHooks env false (⟨nm, false, k⟩ :: hs) s false = none := by
      rw [emitHooks, if_neg (by simp)]
      by_cases hk0 : k = 0
      · rw [if_pos hk0]
      · rw [if_neg hk0, if_neg (by simp [St.count, h0.2]), hc]
    rw [this]
  · unfold train
    have e1 : emitHooks env false (⟨nm, true, k⟩ :: hs) s false = some (s, false) := by
      rw [emitHooks, if_pos (by simp)]
      clear hc
      induction hs with
      | nil => rfl
      | cons x hs ih =>
        rw [emitHooks, if_pos (by rw [hh x (by simp)]; simp)]
        exact ih (fun y hy => hh y (by simp [hy]))
    have e2 : emitHooks env true (⟨nm, true, k⟩ :: hs) s false = none := by
      rw [emitHooks, if_neg (by simp)]
      by_cases hk0 : k = 0
      · rw [if_pos hk0]
      · rw [if_neg hk0, if_neg (by simp [St.count, h0.1]), hc]
    rw [e1]
    dsimp only
    rw [e2]

end Stop

theorem checkLogs_stop (finite : V → Bool) (logs : Logs V) : ∀ ps : List (List Name),
    (checkLogs finite logs ps = .stop → ∃ p ∈ ps, ∃ x ∈ valuesAt logs p, finite x = false) ∧
    (checkLogs finite logs ps = .go → ∀ p ∈ ps, ∀ x ∈ valuesAt logs p, finite x = true) := by
  intro ps
  induction ps with
  | nil => exact ⟨fun h => by simp [checkLogs] at h, fun _ p hp => by simp at hp⟩
  | cons p ps ih =>
    obtain ⟨l1, -⟩ := leafAt_valuesAt p logs
    unfold checkLogs
    cases hl : leafAt logs p with
    | none => exact ⟨fun h => by simp at h, fun h => by simp at h⟩
    | some e =>
      dsimp only
      by_cases hf : e.all finite = true
      · rw [if_pos hf]
        refine ⟨fun h => ?_, fun h q hq x hx => ?_⟩
        · obtain ⟨q, hq, hx⟩ := ih.1 h
          exact ⟨q, by simp [hq], hx⟩
        · rcases List.mem_cons.1 hq with rfl | hq
          · rw [l1 e hl] at hx
            exact List.all_eq_true.1 hf x hx
          · exact ih.2 h q hq x hx
      · rw [if_neg hf]
        refine ⟨fun _ => ⟨p, by simp, ?_⟩, fun h => by simp at h⟩
        rw [l1 e hl]
        rw [Bool.not_eq_true] at hf
        obtain ⟨x, hx, hx'⟩ := List.all_eq_false.1 hf
        exact ⟨x, hx, by simpa using hx'⟩

theorem valuesAt_two (logs r : Logs V) (a b : Name) (e : List V) (h1 : Dict.get? logs a = some (.dict r))
    (h2 : Dict.get? r b = some (.values e)) : valuesAt logs [a, b] = e := by
  simp [valuesAt, h1, h2]

/-- The logs that `StopOnNan` looks at: those it was told to check, and the training loss. -/
def nanPaths (toCheck : List (List Name)) (checkTraining : Bool) : List (List Name) :=
  toCheck ++ if checkTraining then [[str "rolling_training", str "total_loss"], [str "rolling_training", str "Loss"]] else []

/-- **C66** (`StopOnNan`, stopping): in every part of a training run (`train_run` gives one for the whole run), if the hook asks to stop, then a log it looks at or the parameters contain a number that is not
finite. -/
theorem C66_nan_sound (env : Env W V) (hooks : List Hook) (s s' x : St W V) (L₁ L₂ : List (St W V × Event V)) (nm : Name) (finite : V → Bool) (params : W → List V) (toCheck : List (List Name))
    (checkParams checkTraining : Bool) (hk : env.call nm = stopOnNanHook finite params toCheck checkParams checkTraining)
    (sc : Bool) (e u : Nat) (v : Val V) (h : Run env hooks s (L₁ ++ (x, .call sc nm e u true v) :: L₂) s') :
    (∃ p ∈ nanPaths toCheck checkTraining, ∃ y ∈ loggedBefore s.logs (L₁.map Prod.snd) p, finite y = false) ∨
      (checkParams = true ∧ ∃ y ∈ params x.w, finite y = false) := by
  obtain ⟨h1, h2⟩ := h.shown
  generalize x.w = w at *
  generalize x.logs = logs at *
  generalize L₁.map Prod.snd = pre at *
  rw [hk] at h1
  simp only [stopOnNanHook] at h1
  cases hc : checkLogs finite logs toCheck with
  | error => rw [hc] at h1; simp [Decision.res] at h1
  | stop =>
    left
    obtain ⟨p, hp, hx⟩ := (checkLogs_stop finite logs toCheck).1 hc
    exact ⟨p, by simp [nanPaths, hp], by rw [← h2 p]; exact hx⟩
  | go =>
    rw [hc] at h1
    dsimp only at h1
    by_cases hp : (checkParams && !(params w).all finite) = true
    · right
      rw [Bool.and_eq_true, Bool.not_eq_true'] at hp
      obtain ⟨x, hx, hx'⟩ := List.all_eq_false.1 hp.2
      exact ⟨hp.1, x, hx, by simpa using hx'⟩
    · rw [if_neg hp] at h1
      cases checkTraining with
      | false => simp [Decision.res] at h1
      | true =>
        left
        simp only [if_true] at h1
        have find : ∀ (r : Logs V) (k : Name) (el : List V), Dict.get? logs (str "rolling_training") = some (.dict r) →
            Dict.get? r k = some (.values el) → (k = str "total_loss" ∨ k = str "Loss") → el.all finite ≠ true →
            ∃ p ∈ nanPaths toCheck true, ∃ x ∈ loggedBefore s.logs pre p, finite x = false := by
          intro r k el e1 e2 e3 e4
          rw [ne_eq, Bool.not_eq_true] at e4
          obtain ⟨x, hx, hx'⟩ := List.all_eq_false.1 e4
          refine ⟨[str "rolling_training", k], ?_, x, ?_, by simpa using hx'⟩
          · rcases e3 with rfl | rfl <;> simp [nanPaths]
          · rw [← h2, valuesAt_two logs r _ _ el e1 e2]; exact hx
        unfold checkLoss at h1
        cases hr : Dict.get? logs (str "rolling_training") with
        | none => rw [hr] at h1; simp [Decision.res] at h1
        | some lr =>
          rw [hr] at h1
          cases lr with
          | values _ => simp [Decision.res] at h1
          | dict r =>
            dsimp only at h1
            cases ht' : Dict.get? r (str "total_loss") with
            | some lt =>
              rw [ht'] at h1
              cases lt with
              | dict _ => simp [Decision.res] at h1
              | values el =>
                dsimp only at h1
                by_cases hf : el.all finite = true
                · rw [if_pos hf] at h1; simp [Decision.res] at h1
                · exact find r _ el hr ht' (.inl rfl) hf
            | none =>
              rw [ht'] at h1
              dsimp only at h1
              cases hl' : Dict.get? r (str "Loss") with
              | none => rw [hl'] at h1; simp [Decision.res] at h1
              | some ll =>
                rw [hl'] at h1
                cases ll with
                | dict _ => simp [Decision.res] at h1
                | values el =>
                  dsimp only at h1
                  by_cases hf : el.all finite = true
                  · rw [if_pos hf] at h1; simp [Decision.res] at h1
                  · exact find r _ el hr hl' (.inr rfl) hf

/-- **C66** (`StopOnNan`, going on): if the hook does not ask to stop, then all numbers in the logs it was told to check are finite,
all numbers of the log `rolling_training.total_loss` are (if the training loss is checked), and the parameters at the moment of the call
were (if parameters are checked). -/
theorem C66_nan_complete (env : Env W V) (hooks : List Hook) (s s' x : St W V) (L₁ L₂ : List (St W V × Event V)) (nm : Name) (finite : V → Bool) (params : W → List V) (toCheck : List (List Name))
    (checkParams checkTraining : Bool) (hk : env.call nm = stopOnNanHook finite params toCheck checkParams checkTraining)
    (sc : Bool) (e u : Nat) (v : Val V) (h : Run env hooks s (L₁ ++ (x, .call sc nm e u false v) :: L₂) s') :
    (∀ p ∈ toCheck, ∀ y ∈ loggedBefore s.logs (L₁.map Prod.snd) p, finite y = true) ∧
    (checkTraining = true → ∀ y ∈ loggedBefore s.logs (L₁.map Prod.snd) [str "rolling_training", str "total_loss"], finite y = true) ∧
    (checkParams = true → ∀ y ∈ params x.w, finite y = true) := by
  obtain ⟨h1, h2⟩ := h.shown
  generalize x.w = w at *
  generalize x.logs = logs at *
  generalize L₁.map Prod.snd = pre at *
  rw [hk] at h1
  simp only [stopOnNanHook] at h1
  cases hc : checkLogs finite logs toCheck with
  | error => rw [hc] at h1; simp [Decision.res] at h1
  | stop => rw [hc] at h1; simp [Decision.res] at h1
  | go =>
    rw [hc] at h1
    dsimp only at h1
    refine ⟨fun p hp x hx => (checkLogs_stop finite logs toCheck).2 hc p hp x (by rw [h2 p]; exact hx), ?_, ?_⟩
    · rintro rfl x hx
      rw [← h2] at hx
      by_cases hp : (checkParams && !(params w).all finite) = true
      · rw [if_pos hp] at h1; simp [Decision.res] at h1
      · rw [if_neg hp] at h1
        simp only [if_true, checkLoss] at h1
        simp only [valuesAt] at hx
        cases hr : Dict.get? logs (str "rolling_training") with
        | none => rw [hr] at hx; simp at hx
        | some lr =>
          rw [hr] at h1 hx
          cases lr with
          | values _ => simp at hx
          | dict r =>
            dsimp only at h1 hx
            cases ht' : Dict.get? r (str "total_loss") with
            | none => rw [ht'] at hx; simp at hx
            | some lt =>
              rw [ht'] at h1 hx
              cases lt with
              | dict sub => simp at hx
              | values el =>
                simp only [if_true] at h1 hx
                by_cases hf : el.all finite = true
                · exact List.all_eq_true.1 hf x hx
                · rw [if_neg hf] at h1; simp [Decision.res] at h1
    · rintro rfl x hx
      by_cases hp : (true && !(params w).all finite) = true
      · rw [if_pos hp] at h1; simp [Decision.res] at h1
      · have : (params w).all finite = true := by simpa using hp
        exact List.all_eq_true.1 this x hx

/-! ## Monitors -/

section Monitor

variable {K : Type} [Field K] [LinearOrder K] [IsStrictOrderedRing K]

theorem foldl_max_mem : ∀ (l : List K) (x : K), l.foldl max x ∈ x :: l := by
  intro l
  induction l with
  | nil => intro x; simp
  | cons y l ih =>
    intro x
    have := ih (max x y)
    rw [List.foldl_cons]
    rcases List.mem_cons.1 this with h | h
    · rw [h]; rcases max_choice x y with h' | h' <;> simp [h']
    · simp [h]

theorem foldl_min_mem : ∀ (l : List K) (x : K), l.foldl min x ∈ x :: l := by
  intro l
  induction l with
  | nil => intro x; simp
  | cons y l ih =>
    intro x
    have := ih (min x y)
    rw [List.foldl_cons]
    rcases List.mem_cons.1 this with h | h
    · rw [h]; rcases min_choice x y with h' | h' <;> simp [h']
    · simp [h]

/-- **C66** (statistics): the monitors log the smallest entry, the mean and the largest entry of an array, and the mean lies between the
other two; only an empty array is an error. -/
theorem C66_stats (l : List K) : (l = [] ∧ stats l = none) ∨
    ∃ lo avg hi, stats l = some (.dict [(str "min", .leaf lo), (str "avg", .leaf avg), (str "max", .leaf hi)]) ∧
      (lo ∈ l ∧ ∀ x ∈ l, lo ≤ x) ∧ (hi ∈ l ∧ ∀ x ∈ l, x ≤ hi) ∧ avg * l.length = l.sum ∧ lo ≤ avg ∧ avg ≤ hi := by
  cases l with
  | nil => exact .inl ⟨rfl, rfl⟩
  | cons x l =>
    right
    have hpos : (0 : K) < ((x :: l).length : K) := by exact_mod_cast Nat.succ_pos _
    have hlo : ∀ y ∈ x :: l, l.foldl min x ≤ y := fun y hy => (foldl_min_le l x).2 ⟨y, hy, le_refl _⟩
    have hhi : ∀ y ∈ x :: l, y ≤ l.foldl max x := fun y hy => (foldl_max_ge l x).2 ⟨y, hy, le_refl _⟩
    refine ⟨_, _, _, rfl, ⟨foldl_min_mem l x, hlo⟩, ⟨foldl_max_mem l x, hhi⟩, ?_, ?_, ?_⟩
    · rw [div_mul_cancel₀ _ (ne_of_gt hpos)]
    · rw [le_div_iff₀ hpos]
      have := List.card_nsmul_le_sum (x :: l) (l.foldl min x) hlo
      rw [nsmul_eq_mul, mul_comm] at this
      exact this
    · rw [div_le_iff₀ hpos]
      have := List.sum_le_card_nsmul (x :: l) (l.foldl max x) hhi
      rw [nsmul_eq_mul, mul_comm] at this
      exact this

omit [IsStrictOrderedRing K] in
/-- **C66** (`MonitorLayerDeltas`): the hook fails for every layer that has inputs, whatever is in the buffers; that is for every layer
except the input layer. -/
theorem C66_monitor_deltas_fails (internals outDeltas inDeltas : List (Name × List K)) (h : inDeltas ≠ []) :
    monitorDeltas internals outDeltas inDeltas = none := by
  unfold monitorDeltas
  cases inDeltas with
  | nil => exact absurd rfl h
  | cons x l => split <;> rfl

end Monitor

/-! ## Saving -/

/-- **C66** (`SaveLogs`): the file has a dataset under exactly the paths at which the logs have a list, with the same values. -/
theorem C66_save_logs (path : List Name) (logs : Logs V) : readFile (saveLogs logs) path = leafAt logs path := by
  have hget : ∀ (logs : List (Name × Log V)) (k : Name), Dict.get? (saveLogs logs) k = (Dict.get? logs k).map saveLog := by
    intro logs k
    induction logs with
    | nil => simp [saveLogs, Dict.get?]
    | cons x l ih =>
      obtain ⟨k', lg⟩ := x
      rw [saveLogs]
      simp only [Dict.get?] at ih ⊢
      by_cases hk : k' = k
      · simp [hk]
      · simp [hk, ih]
  induction path generalizing logs with
  | nil => rfl
  | cons k path ih =>
    simp only [readFile, leafAt, hget]
    cases h : Dict.get? logs k with
    | none => rfl
    | some lg =>
      cases lg with
      | values vs => simp [saveLog]
      | dict sub => simp only [Option.map_some, saveLog]; exact ih sub

/-! ## Examples -/

/-- Two batches per epoch, a loss that falls by 3 per epoch; one hook stops at a loss of 10 or less, the other at a loss above 20
(taken as "not finite"). -/
def lossEnv (first : Nat) : Env Nat Nat where
  call name := if name = str "low" then thresholdHook .min 10 [str "loss"]
    else if name = str "nan" then stopOnNanHook (fun v => decide (v ≤ 20)) (fun w => [w]) [[str "loss"]] true true
    else fun e _ _ w => (w, .value (.leaf (first - 3 * e)))
  step w := w + 1
  batches _ := 2
  rolling w := .dict [(str "total_loss", .leaf w)]

/-- The loss is 18, 15, 12, 9 after 0, 1, 2, 3 epochs: training ends after epoch 3; a loss of 30 stops it at once; a hook that is called
before the loss is logged makes training fail. -/
example :
    (train (lossEnv 18) [⟨str "loss", true, 1⟩, ⟨str "low", true, 1⟩, ⟨str "nan", true, 1⟩] 9 ⟨0, [], 0, 0, []⟩).map
      (fun r => (r.1.epoch, r.1.update, r.2, valuesAt r.1.logs [str "loss"])) = some (3, 6, true, [18, 15, 12, 9]) ∧
    (train (lossEnv 30) [⟨str "loss", true, 1⟩, ⟨str "low", true, 1⟩, ⟨str "nan", true, 1⟩] 9 ⟨0, [], 0, 0, []⟩).map
      (fun r => (r.1.epoch, r.1.update, r.2, valuesAt r.1.logs [str "loss"])) = some (0, 0, true, [30]) ∧
    (train (lossEnv 18) [⟨str "low", true, 1⟩, ⟨str "loss", true, 1⟩] 9 ⟨0, [], 0, 0, []⟩).isNone = true := by
  refine ⟨?_, ?_, ?_⟩ <;> decide +kernel

example : stats [(3 : ℚ), 1, 5] = some (.dict [(str "min", .leaf 1), (str "avg", .leaf 3), (str "max", .leaf 5)]) ∧
    monitorDeltas [] [] [(str "default", [(3 : ℚ)])] = none := by
  constructor
  · norm_num [stats]
  · exact C66_monitor_deltas_fails _ _ _ (by simp)

example : readFile (saveLogs [(str "rolling_training", .dict [(str "Loss", .values [3, 2, 1])]), (str "time", .values [7])])
    [str "rolling_training", str "Loss"] = some [3, 2, 1] := by decide +kernel

end Verif.Training
