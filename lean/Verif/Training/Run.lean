import Verif.Training.TrainerProps

/-!
# Training runs step by step

`Run` lists the events of a training run together with the state in which each of them happens; it is
used to say what hooks see when they are called.
-/

namespace Verif.Training

variable {W V : Type}

/-- One event of training: a batch (trainer.py:98-103), a call of a hook (trainer.py:150-152) or the
logging of the training scores (trainer.py:107-109). -/
inductive Step (env : Env W V) (hooks : List Hook) : St W V → Event V → St W V → Prop
  | batch (s : St W V) : Step env hooks s (.batch s.epoch (s.update + 1))
      ⟨env.step s.w, s.logs, s.epoch, s.update + 1, s.trace ++ [.batch s.epoch (s.update + 1)]⟩
  | call (s : St W V) (h : Hook) (w : W) (st : Bool) (v : Val V) (logs : Logs V) : h ∈ hooks →
      env.call h.name s.epoch s.update s.logs s.w = (w, if st then .stop v else .value v) →
      addLog h.name v s.logs = some logs →
      Step env hooks s (.call h.epochScale h.name s.epoch s.update st v)
        ⟨w, logs, s.epoch, s.update, s.trace ++ [.call h.epochScale h.name s.epoch s.update st v]⟩
  | rolling (s : St W V) (logs : Logs V) : addLog (str "rolling_training") (env.rolling s.w) s.logs = some logs →
      Step env hooks s (.rolling s.epoch (env.rolling s.w))
        ⟨s.w, logs, s.epoch, s.update, s.trace ++ [.rolling s.epoch (env.rolling s.w)]⟩

/-- A part of a training run: the events, each with the state before it.  Between two events a new epoch
may begin. -/
inductive Run (env : Env W V) (hooks : List Hook) : St W V → List (St W V × Event V) → St W V → Prop
  | nil (s : St W V) : Run env hooks s [] s
  | epoch (s : St W V) (L : List (St W V × Event V)) (s' : St W V) :
      Run env hooks { s with epoch := s.epoch + 1 } L s' → Run env hooks s L s'
  | cons (s : St W V) (ev : Event V) (s₁ : St W V) (L : List (St W V × Event V)) (s' : St W V) :
      Step env hooks s ev s₁ → Run env hooks s₁ L s' → Run env hooks s ((s, ev) :: L) s'

theorem Run.append {env : Env W V} {hooks : List Hook} {s s₁ s₂ : St W V} {L L' : List (St W V × Event V)}
    (h : Run env hooks s L s₁) (h' : Run env hooks s₁ L' s₂) : Run env hooks s (L ++ L') s₂ := by
  induction h with
  | nil s => exact h'
  | epoch s L s' _ ih => exact .epoch _ _ _ (ih h')
  | cons s ev s₁ L s' hs _ ih => exact .cons _ _ _ _ _ hs (ih h')

theorem callHook_run (env : Env W V) (hooks : List Hook) (h : Hook) (hm : h ∈ hooks) (s s' : St W V) (st : Bool)
    (hc : callHook env h s = some (s', st)) : ∃ L, Run env hooks s L s' ∧ s'.trace = s.trace ++ L.map Prod.snd := by
  unfold callHook at hc
  split at hc
  · exact absurd hc (by simp)
  · rename_i w v he
    obtain ⟨logs, hl, heq⟩ := Option.map_eq_some_iff.1 hc
    simp only [Prod.mk.injEq] at heq
    obtain ⟨rfl, rfl⟩ := heq
    exact ⟨[(s, _)], .cons _ _ _ _ _ (.call s h w false v logs hm (by simpa using he) hl) (.nil _), rfl⟩
  · rename_i w v he
    obtain ⟨logs, hl, heq⟩ := Option.map_eq_some_iff.1 hc
    simp only [Prod.mk.injEq] at heq
    obtain ⟨rfl, rfl⟩ := heq
    exact ⟨[(s, _)], .cons _ _ _ _ _ (.call s h w true v logs hm (by simpa using he) hl) (.nil _), rfl⟩

theorem Run.snoc {env : Env W V} {hooks : List Hook} {s s₁ s₂ : St W V} {L L' : List (St W V × Event V)}
    (h : Run env hooks s L s₁) (ht : s₁.trace = s.trace ++ L.map Prod.snd)
    (h' : Run env hooks s₁ L' s₂) (ht' : s₂.trace = s₁.trace ++ L'.map Prod.snd) :
    ∃ L, Run env hooks s L s₂ ∧ s₂.trace = s.trace ++ L.map Prod.snd :=
  ⟨L ++ L', h.append h', by rw [ht', ht, List.map_append, List.append_assoc]⟩

theorem emitHooks_run (env : Env W V) (all : List Hook) (sc : Bool) : ∀ (hooks : List Hook), (∀ h ∈ hooks, h ∈ all) →
    ∀ (s s' : St W V) (b b' : Bool), emitHooks env sc hooks s b = some (s', b') →
    ∃ L, Run env all s L s' ∧ s'.trace = s.trace ++ L.map Prod.snd := by
  intro hooks
  induction hooks with
  | nil =>
    intro _ s s' b b' h
    simp only [emitHooks, Option.some.injEq, Prod.mk.injEq] at h
    obtain ⟨rfl, rfl⟩ := h
    exact ⟨[], .nil _, by simp⟩
  | cons hk hs ih =>
    intro hall s s' b b' h
    have ih := ih (fun h hh => hall h (by simp [hh]))
    simp only [emitHooks] at h
    split at h
    · exact ih _ _ _ _ h
    · split at h
      · exact absurd h (by simp)
      · split at h
        · exact ih _ _ _ _ h
        · split at h
          · exact absurd h (by simp)
          · rename_i s₁ st hc
            obtain ⟨L, h1, h2⟩ := callHook_run env all hk (hall hk (by simp)) s s₁ st hc
            obtain ⟨L', h3, h4⟩ := ih _ _ _ _ h
            exact h1.snoc h2 h3 h4

theorem runBatches_run (env : Env W V) (hooks : List Hook) : ∀ (n : Nat) (s s' : St W V) (b : Bool),
    runBatches env hooks n s = some (s', b) → ∃ L, Run env hooks s L s' ∧ s'.trace = s.trace ++ L.map Prod.snd := by
  intro n
  induction n with
  | zero =>
    intro s s' b h
    simp only [runBatches, Option.some.injEq, Prod.mk.injEq] at h
    obtain ⟨rfl, rfl⟩ := h
    exact ⟨[], .nil _, by simp⟩
  | succ n ih =>
    intro s s' b h
    simp only [runBatches] at h
    have h0 : Run env hooks s [(s, .batch s.epoch (s.update + 1))]
      ⟨env.step s.w, s.logs, s.epoch, s.update + 1, s.trace ++ [.batch s.epoch (s.update + 1)]⟩ :=
      .cons _ _ _ _ _ (.batch s) (.nil _)
    split at h
    · exact absurd h (by simp)
    · rename_i s₂ he
      simp only [Option.some.injEq, Prod.mk.injEq] at h
      obtain ⟨rfl, rfl⟩ := h
      obtain ⟨L, h1, h2⟩ := emitHooks_run env hooks false hooks (fun _ h => h) _ _ _ _ he
      exact h0.snoc rfl h1 h2
    · rename_i s₂ he
      obtain ⟨L, h1, h2⟩ := emitHooks_run env hooks false hooks (fun _ h => h) _ _ _ _ he
      obtain ⟨L1, h3, h4⟩ := h0.snoc rfl h1 h2
      obtain ⟨L', h5, h6⟩ := ih _ _ _ h
      exact h3.snoc h4 h5 h6

theorem runEpoch_run (env : Env W V) (hooks : List Hook) (s s' : St W V) (b : Bool)
    (h : runEpoch env hooks s = some (s', b)) : ∃ L, Run env hooks s L s' ∧ s'.trace = s.trace ++ L.map Prod.snd := by
  unfold runEpoch at h
  split at h
  · exact absurd h (by simp)
  · rename_i s₁ stop hb
    obtain ⟨L, h1, h2⟩ := runBatches_run env hooks _ _ _ _ hb
    split at h
    · exact absurd h (by simp)
    · rename_i logs hl
      obtain ⟨L', h3, h4⟩ := emitHooks_run env hooks true hooks (fun _ h => h) _ _ _ _ h
      have h5 : Run env hooks s₁ [(s₁, .rolling s₁.epoch (env.rolling s₁.w))]
        ⟨s₁.w, logs, s₁.epoch, s₁.update, s₁.trace ++ [.rolling s₁.epoch (env.rolling s₁.w)]⟩ :=
        .cons _ _ _ _ _ (.rolling s₁ logs hl) (.nil _)
      obtain ⟨L1, h6, h7⟩ := Run.snoc (Run.epoch _ _ _ h1) h2 h5 rfl
      exact h6.snoc h7 h3 h4

theorem trainLoop_run (env : Env W V) (hooks : List Hook) : ∀ (fuel : Nat) (s s' : St W V) (b : Bool),
    trainLoop env hooks fuel s = some (s', b) → ∃ L, Run env hooks s L s' ∧ s'.trace = s.trace ++ L.map Prod.snd := by
  intro fuel
  induction fuel with
  | zero =>
    intro s s' b h
    simp only [trainLoop, Option.some.injEq, Prod.mk.injEq] at h
    obtain ⟨rfl, rfl⟩ := h
    exact ⟨[], .nil _, by simp⟩
  | succ fuel ih =>
    intro s s' b h
    simp only [trainLoop] at h
    split at h
    · exact absurd h (by simp)
    · rename_i s₂ he
      simp only [Option.some.injEq, Prod.mk.injEq] at h
      obtain ⟨rfl, rfl⟩ := h
      exact runEpoch_run env hooks _ _ _ he
    · rename_i s₂ he
      obtain ⟨L, h1, h2⟩ := runEpoch_run env hooks _ _ _ he
      obtain ⟨L', h3, h4⟩ := ih _ _ _ h
      exact h1.snoc h2 h3 h4

/-- Every training run is a `Run`, and the trace is its list of events. -/
theorem train_run (env : Env W V) (hooks : List Hook) (fuel : Nat) (s s' : St W V) (fin : Bool)
    (h : train env hooks fuel s = some (s', fin)) :
    ∃ L, Run env hooks s L s' ∧ s'.trace = s.trace ++ L.map Prod.snd := by
  unfold train at h
  split at h
  · exact absurd h (by simp)
  · rename_i s₁ he
    simp only [Option.some.injEq, Prod.mk.injEq] at h
    obtain ⟨rfl, rfl⟩ := h
    exact emitHooks_run env hooks false hooks (fun _ h => h) _ _ _ _ he
  · rename_i s₁ he
    obtain ⟨L, h1, h2⟩ := emitHooks_run env hooks false hooks (fun _ h => h) _ _ _ _ he
    split at h
    · exact absurd h (by simp)
    · rename_i s₂ he'
      simp only [Option.some.injEq, Prod.mk.injEq] at h
      obtain ⟨rfl, rfl⟩ := h
      obtain ⟨L', h3, h4⟩ := emitHooks_run env hooks true hooks (fun _ h => h) _ _ _ _ he'
      exact h1.snoc h2 h3 h4
    · rename_i s₂ he'
      obtain ⟨L', h3, h4⟩ := emitHooks_run env hooks true hooks (fun _ h => h) _ _ _ _ he'
      obtain ⟨L2, h5, h6⟩ := h1.snoc h2 h3 h4
      obtain ⟨L3, h7, h8⟩ := trainLoop_run env hooks _ _ _ _ h
      exact h5.snoc h6 h7 h8

theorem Step.logs {env : Env W V} {hooks : List Hook} {s s' : St W V} {ev : Event V} (h : Step env hooks s ev s')
    (path : List Name) : valuesAt s'.logs path = valuesAt s.logs path ++ valuesOf ev.leaves path := by
  cases h with
  | batch => simp [Event.leaves, valuesOf]
  | call h w st v logs _ _ hl => simp [Event.leaves, addLog_spec _ _ _ _ hl path]
  | rolling logs hl => simp [Event.leaves, addLog_spec _ _ _ _ hl path]

/-- An event of a run splits it. -/
theorem Run.split {env : Env W V} {hooks : List Hook} {s s' : St W V} {L : List (St W V × Event V)}
    (h : Run env hooks s L s') : ∀ (pre post : List (St W V × Event V)) (x : St W V × Event V), L = pre ++ x :: post →
    ∃ s₁, Run env hooks s pre x.1 ∧ Step env hooks x.1 x.2 s₁ ∧ Run env hooks s₁ post s' := by
  induction h with
  | nil s => intro pre post x h; simp at h
  | epoch s L s' _ ih =>
    intro pre post x h
    obtain ⟨s₁, h1, h2, h3⟩ := ih pre post x h
    exact ⟨s₁, .epoch _ _ _ h1, h2, h3⟩
  | cons s ev s₁ L s' hs hr ih =>
    intro pre post x h
    cases pre with
    | nil =>
      simp only [List.nil_append, List.cons.injEq] at h
      obtain ⟨rfl, rfl⟩ := h
      exact ⟨s₁, .nil _, hs, hr⟩
    | cons y pre =>
      simp only [List.cons_append, List.cons.injEq] at h
      obtain ⟨rfl, rfl⟩ := h
      obtain ⟨s₂, h1, h2, h3⟩ := ih pre post x rfl
      exact ⟨s₂, .cons _ _ _ _ _ hs h1, h2, h3⟩

theorem Run.logs {env : Env W V} {hooks : List Hook} {s s' : St W V} {L : List (St W V × Event V)}
    (h : Run env hooks s L s') (path : List Name) :
    valuesAt s'.logs path = valuesAt s.logs path ++ valuesOf ((L.map Prod.snd).flatMap Event.leaves) path := by
  induction h with
  | nil s => simp [valuesOf]
  | epoch s L s' _ ih => exact ih
  | cons s ev s₁ L s' hs _ ih =>
    rw [ih, hs.logs, List.map_cons, List.flatMap_cons, valuesOf_append, List.append_assoc]

end Verif.Training
