import Verif.Training.StockRun

/-!
# C66: hooks that only watch

A hook that only watches (a monitor, the progress bar) leaves training as it is: the same training without the hook does the same.
-/

namespace Verif.Training

variable {W V : Type}

/-- Logs that are the same except for the entry `nm`. -/
def LogsOff (nm : Name) (l₁ l₂ : Logs V) : Prop := ∀ k, k ≠ nm → Dict.get? l₁ k = Dict.get? l₂ k

/-- The event is a call of the hook `nm`. -/
def Event.isCallOf (nm : Name) : Event V → Bool
  | .call _ n _ _ _ _ => decide (n = nm)
  | _ => false

/-- `h` only watches.  `Sim` relates worlds that differ at most in what belongs to `h` (its memory, what it has printed).
`Pre e u k` and `Post e u k` are conditions on the memory of `h` which hold in epoch `e` after update `u`, with `k` batches left in the
epoch, before and after the update hooks are called. -/
structure Watcher (env : Env W V) (h : Hook) (Sim : W → W → Prop) (Pre Post : Nat → Nat → Nat → W → Prop) : Prop where
  /-- The rest of the program does not look at what belongs to `h`: -/
  step : ∀ w₁ w₂, Sim w₁ w₂ → Sim (env.step w₁) (env.step w₂)
  batches : ∀ w₁ w₂, Sim w₁ w₂ → env.batches w₁ = env.batches w₂
  rolling : ∀ w₁ w₂, Sim w₁ w₂ → env.rolling w₁ = env.rolling w₂
  other : ∀ nm e u l₁ l₂ w₁ w₂, nm ≠ h.name → Sim w₁ w₂ → LogsOff h.name l₁ l₂ →
    Sim (env.call nm e u l₁ w₁).1 (env.call nm e u l₂ w₂).1 ∧ (env.call nm e u l₁ w₁).2 = (env.call nm e u l₂ w₂).2
  /-- The hook touches only what belongs to it: -/
  own : ∀ e u l w₁ w₂, Sim w₁ w₂ → Sim (env.call h.name e u l w₁).1 w₂
  /-- It neither stops nor fails when its memory is as it should be: -/
  fine : ∀ e u k l w, h.epochScale = false → h.interval ∣ u → Pre e u k w →
    (∃ v, (env.call h.name e u l w).2 = .value v) ∧ Post e u k (env.call h.name e u l w).1
  fineEpoch : ∀ e u k l w, h.epochScale = true → Post e u k w →
    (∃ v, (env.call h.name e u l w).2 = .value v) ∧ Post e u k (env.call h.name e u l w).1
  skip : ∀ e u k w, h.epochScale = true ∨ ¬ h.interval ∣ u → Pre e u k w → Post e u k w
  /-- and its memory stays so: -/
  preOther : ∀ nm e u k l w, nm ≠ h.name → Pre e u k w → Pre e u k (env.call nm e u l w).1
  postOther : ∀ nm e u k l w, nm ≠ h.name → Post e u k w → Post e u k (env.call nm e u l w).1
  nextBatch : ∀ e u k w, Post e u (k + 1) w → Pre e (u + 1) k (env.step w)
  nextEpoch : ∀ e u w, Post e u 0 w → Post (e + 1) u (env.batches w) w

/-- The hook never logs anything. -/
def Silent (env : Env W V) (h : Hook) : Prop := ∀ e u l w v, (env.call h.name e u l w).2 = .value v → v = .none

/-- States of a training with the hook and of one without it. -/
structure SimSt (nm : Name) (Sim : W → W → Prop) (s₁ s₂ : St W V) : Prop where
  w : Sim s₁.w s₂.w
  logs : LogsOff nm s₁.logs s₂.logs
  epoch : s₁.epoch = s₂.epoch
  update : s₁.update = s₂.update
  trace : s₂.trace = s₁.trace.filter (fun ev => !ev.isCallOf nm)

/-- Both trainings come to related ends; only the first may fail, and not if the hook is silent (`strict`). -/
def SimOut (nm : Name) (Sim : W → W → Prop) (strict : Prop) (P : St W V → Bool → Prop) : Option (St W V × Bool) → Option (St W V × Bool) → Prop
  | some (s₁, b₁), some (s₂, b₂) => SimSt nm Sim s₁ s₂ ∧ b₁ = b₂ ∧ P s₁ b₁
  | none, none => True
  | none, some _ => ¬ strict
  | some _, none => False

theorem addLog_off (nm name : Name) (hne : name ≠ nm) (v : Val V) (l₁ l₂ : Logs V) (h : LogsOff nm l₁ l₂) :
    (addLog name v l₁ = none ∧ addLog name v l₂ = none) ∨
    ∃ l₁' l₂', addLog name v l₁ = some l₁' ∧ addLog name v l₂ = some l₂' ∧ LogsOff nm l₁' l₂' := by
  have hset : ∀ x : Log V, LogsOff nm (Dict.set l₁ name x) (Dict.set l₂ name x) := by
    intro x k hk
    rw [Dict.get?_set, Dict.get?_set, h k hk]
  have hname := h name hne
  cases v with
  | none => exact .inr ⟨l₁, l₂, by rw [addLog], by rw [addLog], h⟩
  | leaf v =>
    rw [addLog, addLog, hname]
    cases Dict.get? l₂ name with
    | none => exact .inr ⟨_, _, rfl, rfl, hset _⟩
    | some x =>
      cases x with
      | values vs => exact .inr ⟨_, _, rfl, rfl, hset _⟩
      | dict sub => exact .inl ⟨rfl, rfl⟩
  | dict es =>
    rw [addLog, addLog, hname]
    cases Dict.get? l₂ name with
    | none =>
      dsimp only
      cases addEntries es ([] : Logs V) with
      | none => exact .inl ⟨rfl, rfl⟩
      | some sub => exact .inr ⟨_, _, rfl, rfl, hset _⟩
    | some x =>
      cases x with
      | values vs =>
        dsimp only
        by_cases hall : (es.all (fun e => e.2.isNone)) = true
        · rw [if_pos hall, if_pos hall]; exact .inr ⟨_, _, rfl, rfl, h⟩
        · rw [if_neg hall, if_neg hall]; exact .inl ⟨rfl, rfl⟩
      | dict sub =>
        dsimp only
        cases addEntries es sub with
        | none => exact .inl ⟨rfl, rfl⟩
        | some sub => exact .inr ⟨_, _, rfl, rfl, hset _⟩

theorem addLog_own (nm : Name) (v : Val V) (l l' : Logs V) (h : addLog nm v l = some l') : LogsOff nm l' l := by
  intro k hk
  have hset : ∀ x : Log V, Dict.get? (Dict.set l nm x) k = Dict.get? l k := fun x => Dict.get?_set_ne _ _ _ _ (fun h => hk h.symm)
  cases v with
  | none => rw [addLog, Option.some.injEq] at h; rw [h]
  | leaf v =>
    rw [addLog] at h
    cases hg : Dict.get? l nm with
    | none => rw [hg] at h; simp only [Option.some.injEq] at h; rw [← h, hset]
    | some x =>
      rw [hg] at h
      cases x with
      | values vs => simp only [Option.some.injEq] at h; rw [← h, hset]
      | dict sub => simp at h
  | dict es =>
    rw [addLog] at h
    cases hg : Dict.get? l nm with
    | none =>
      rw [hg] at h
      obtain ⟨sub, -, rfl⟩ := Option.map_eq_some_iff.1 h
      exact hset _
    | some x =>
      rw [hg] at h
      cases x with
      | values vs =>
        dsimp only at h
        split at h
        · simp only [Option.some.injEq] at h; rw [h]
        · simp at h
      | dict sub =>
        obtain ⟨sub, -, rfl⟩ := Option.map_eq_some_iff.1 h
        exact hset _

theorem LogsOff.trans {nm : Name} {a b c : Logs V} (h : LogsOff nm a b) (h' : LogsOff nm b c) : LogsOff nm a c :=
  fun k hk => (h k hk).trans (h' k hk)

theorem emitHooks_append (env : Env W V) (sc : Bool) : ∀ (A B : List Hook) (s : St W V) (b : Bool),
    emitHooks env sc (A ++ B) s b = (emitHooks env sc A s b).bind (fun r => emitHooks env sc B r.1 r.2) := by
  intro A
  induction A with
  | nil => intro B s b; rfl
  | cons h A ih =>
    intro B s b
    rw [List.cons_append, emitHooks, emitHooks]
    split
    · exact ih B s b
    · split
      · rfl
      · split
        · exact ih B s b
        · cases callHook env h s with
          | none => rfl
          | some r => exact ih B _ _

section

variable {env : Env W V} {h : Hook} {Sim : W → W → Prop} {Pre Post : Nat → Nat → Nat → W → Prop}

/-- Emitting the other hooks. -/
theorem Watcher.others (q : Watcher env h Sim Pre Post) (strict : Prop) (sc : Bool) (C : Nat → Nat → Nat → W → Prop)
    (hC : ∀ nm e u k l w, nm ≠ h.name → C e u k w → C e u k (env.call nm e u l w).1) (k e u : Nat) :
    ∀ (hs : List Hook), (∀ x ∈ hs, x.name ≠ h.name) → ∀ (s₁ s₂ : St W V) (b : Bool), SimSt h.name Sim s₁ s₂ → s₁.epoch = e → s₁.update = u →
    C e u k s₁.w →
    SimOut h.name Sim strict (fun s _ => s.epoch = e ∧ s.update = u ∧ C e u k s.w) (emitHooks env sc hs s₁ b) (emitHooks env sc hs s₂ b) := by
  intro hs
  induction hs with
  | nil => intro _ s₁ s₂ b hsim he hu hc; exact ⟨hsim, rfl, he, hu, hc⟩
  | cons x hs ih =>
    intro hne s₁ s₂ b hsim he hu hc
    have ih := ih (fun y hy => hne y (by simp [hy]))
    rw [emitHooks, emitHooks]
    have hcount : s₂.count sc = s₁.count sc := by unfold St.count; rw [hsim.epoch, hsim.update]
    rw [hcount]
    split
    · exact ih s₁ s₂ b hsim he hu hc
    · split
      · trivial
      · split
        · exact ih s₁ s₂ b hsim he hu hc
        · have hx := hne x (by simp)
          obtain ⟨o1, o2⟩ := q.other x.name s₁.epoch s₁.update s₁.logs s₂.logs s₁.w s₂.w hx hsim.w hsim.logs
          have hc' := hC x.name e u k s₁.logs s₁.w hx hc
          unfold callHook
          rw [← hsim.epoch, ← hsim.update]
          rw [← he, ← hu] at hc'
          rcases r1 : env.call x.name s₁.epoch s₁.update s₁.logs s₁.w with ⟨w₁, res⟩
          rcases r2 : env.call x.name s₁.epoch s₁.update s₂.logs s₂.w with ⟨w₂, res₂⟩
          rw [r1, r2] at o1 o2
          rw [r1] at hc'
          dsimp only at o1 o2 hc'
          subst o2
          have htr : ∀ ev : Event V, ev.isCallOf h.name = false →
              s₂.trace ++ [ev] = (s₁.trace ++ [ev]).filter (fun ev => !ev.isCallOf h.name) := by
            intro ev hev
            rw [hsim.trace, List.filter_append]
            simp [hev]
          cases res with
          | error => trivial
          | value v =>
            dsimp only
            rcases addLog_off h.name x.name hx v s₁.logs s₂.logs hsim.logs with ⟨e1, e2⟩ | ⟨l1, l2, e1, e2, e3⟩
            · rw [e1, e2]; trivial
            · rw [e1, e2]
              simp only [Option.map_some, Bool.or_false]
              exact ih ⟨w₁, l1, s₁.epoch, s₁.update, s₁.trace ++ [.call x.epochScale x.name s₁.epoch s₁.update false v]⟩
                ⟨w₂, l2, s₁.epoch, s₁.update, s₂.trace ++ [.call x.epochScale x.name s₁.epoch s₁.update false v]⟩ b
                ⟨o1, e3, rfl, rfl, htr _ (by simp [Event.isCallOf, hx])⟩ he hu (he ▸ hu ▸ hc')
          | stop v =>
            dsimp only
            rcases addLog_off h.name x.name hx v s₁.logs s₂.logs hsim.logs with ⟨e1, e2⟩ | ⟨l1, l2, e1, e2, e3⟩
            · rw [e1, e2]; trivial
            · rw [e1, e2]
              simp only [Option.map_some]
              exact ih ⟨w₁, l1, s₁.epoch, s₁.update, s₁.trace ++ [.call x.epochScale x.name s₁.epoch s₁.update true v]⟩
                ⟨w₂, l2, s₁.epoch, s₁.update, s₂.trace ++ [.call x.epochScale x.name s₁.epoch s₁.update true v]⟩ _
                ⟨o1, e3, rfl, rfl, htr _ (by simp [Event.isCallOf, hx])⟩ he hu (he ▸ hu ▸ hc')

theorem SimOut.bind {nm : Name} {strict : Prop} {P Q : St W V → Bool → Prop} {o₁ o₂ : Option (St W V × Bool)}
    {f g : St W V × Bool → Option (St W V × Bool)} (h : SimOut nm Sim strict P o₁ o₂)
    (hf : ∀ s₁ s₂ b, SimSt nm Sim s₁ s₂ → P s₁ b → SimOut nm Sim strict Q (f (s₁, b)) (g (s₂, b))) :
    SimOut nm Sim strict Q (o₁.bind f) (o₂.bind g) := by
  match o₁, o₂, h with
  | none, none, _ => trivial
  | none, some r, h =>
    simp only [Option.bind_none, Option.bind_some]
    cases g r with
    | none => trivial
    | some _ => exact h
  | some (s₁, b₁), some (s₂, b₂), ⟨h1, h2, h3⟩ => subst h2; exact hf s₁ s₂ b₁ h1 h3

/-- Calling the hook itself. -/
theorem Watcher.self (q : Watcher env h Sim Pre Post) (strict : Prop) (hst : strict → Silent env h ∧ h.interval ≠ 0) (sc : Bool) (k e u : Nat)
    (C D : Nat → Nat → Nat → W → Prop)
    (hcall : h.epochScale = sc → h.interval ∣ (if sc then e else u) → ∀ l w, C e u k w → (∃ v, (env.call h.name e u l w).2 = .value v) ∧ D e u k (env.call h.name e u l w).1)
    (hskip : (h.epochScale ≠ sc ∨ ¬ h.interval ∣ (if sc then e else u)) → ∀ w, C e u k w → D e u k w)
    (s₁ s₂ : St W V) (b : Bool) (hsim : SimSt h.name Sim s₁ s₂) (he : s₁.epoch = e) (hu : s₁.update = u) (hc : C e u k s₁.w) :
    SimOut h.name Sim strict (fun s _ => s.epoch = e ∧ s.update = u ∧ D e u k s.w) (emitHooks env sc [h] s₁ b) (some (s₂, b)) := by
  have hcount : s₁.count sc = if sc then e else u := by unfold St.count; rw [he, hu]
  generalize (if sc then e else u) = cnt at *
  rw [emitHooks, hcount]
  split
  · rename_i hne
    exact ⟨hsim, rfl, he, hu, hskip (.inl hne) _ hc⟩
  · rename_i hsc
    rw [not_not] at hsc
    split
    · rename_i h0
      exact fun hs => (hst hs).2 h0
    · split
      · rename_i hmod
        refine ⟨hsim, rfl, he, hu, hskip (.inr fun hd => hmod (Nat.mod_eq_zero_of_dvd hd)) _ hc⟩
      · rename_i hmod
        rw [not_not] at hmod
        obtain ⟨⟨v, hv⟩, hd⟩ := hcall hsc (Nat.dvd_of_mod_eq_zero hmod) s₁.logs s₁.w hc
        have ho := q.own e u s₁.logs s₁.w s₂.w hsim.w
        unfold callHook
        rw [he, hu]
        rcases r1 : env.call h.name e u s₁.logs s₁.w with ⟨w₁, res⟩
        rw [r1] at hv hd ho
        dsimp only at hv hd ho
        subst hv
        dsimp only
        cases hl : addLog h.name v s₁.logs with
        | none =>
          rintro hs
          have := (hst hs).1 e u s₁.logs s₁.w v (by rw [r1])
          rw [this, addLog] at hl
          simp at hl
        | some l =>
          simp only [Option.map_some, emitHooks, Bool.or_false]
          refine ⟨⟨ho, (addLog_own _ _ _ _ hl).trans hsim.logs, he ▸ hsim.epoch, hu ▸ hsim.update, ?_⟩, rfl, rfl, rfl, hd⟩
          rw [hsim.trace, List.filter_append]
          simp [Event.isCallOf]

/-- Emitting hooks on a timescale. -/
theorem Watcher.emit (q : Watcher env h Sim Pre Post) (strict : Prop) (hst : strict → Silent env h ∧ h.interval ≠ 0) (A B : List Hook)
    (hA : ∀ x ∈ A, x.name ≠ h.name) (hB : ∀ x ∈ B, x.name ≠ h.name) (sc : Bool) (k e u : Nat) (C : Nat → Nat → Nat → W → Prop)
    (hC : C = if sc then Post else Pre)
    (s₁ s₂ : St W V) (b : Bool) (hsim : SimSt h.name Sim s₁ s₂) (he : s₁.epoch = e) (hu : s₁.update = u) (hc : C e u k s₁.w) :
    SimOut h.name Sim strict (fun s _ => s.epoch = e ∧ s.update = u ∧ Post e u k s.w) (emitHooks env sc (A ++ h :: B) s₁ b)
      (emitHooks env sc (A ++ B) s₂ b) := by
  have hCo : ∀ nm e u k l w, nm ≠ h.name → C e u k w → C e u k (env.call nm e u l w).1 := by
    subst hC
    cases sc with
    | true => exact q.postOther
    | false => exact q.preOther
  rw [emitHooks_append, emitHooks_append]
  refine SimOut.bind (q.others strict sc C hCo k e u A hA s₁ s₂ b hsim he hu hc) ?_
  rintro t₁ t₂ b' hsim' ⟨he', hu', hc'⟩
  dsimp only
  rw [show h :: B = [h] ++ B from rfl, emitHooks_append]
  have key := q.self strict hst sc k e u C Post
    (by
      subst hC
      cases sc with
      | true => exact fun h1 h2 l w hp => q.fineEpoch e u k l w h1 hp
      | false => exact fun h1 h2 l w hp => q.fine e u k l w h1 h2 hp)
    (by
      subst hC
      cases sc with
      | true => exact fun _ w hp => hp
      | false => exact fun h1 w hp => q.skip e u k w (h1.imp (fun h => by simpa using h) id) hp)
    t₁ t₂ b' hsim' he' hu' hc'
  have := SimOut.bind (g := fun r => emitHooks env sc B r.1 r.2) (f := fun r => emitHooks env sc B r.1 r.2) key
    (Q := fun s _ => s.epoch = e ∧ s.update = u ∧ Post e u k s.w)
    (by
      rintro r₁ r₂ b'' hs ⟨g1, g2, g3⟩
      exact q.others strict sc Post q.postOther k e u B hB r₁ r₂ b'' hs g1 g2 g3)
  exact this

theorem SimOut.mono {nm : Name} {strict : Prop} {P Q : St W V → Bool → Prop} {o₁ o₂ : Option (St W V × Bool)}
    (h : SimOut nm Sim strict P o₁ o₂) (hPQ : ∀ s b, o₁ = some (s, b) → P s b → Q s b) : SimOut nm Sim strict Q o₁ o₂ := by
  match o₁, o₂, h with
  | none, none, _ => trivial
  | none, some _, h => exact h
  | some (s₁, b₁), some (s₂, b₂), ⟨h1, h2, h3⟩ => exact ⟨h1, h2, hPQ _ _ rfl h3⟩

theorem emitHooks_true (env : Env W V) (sc : Bool) : ∀ (hs : List Hook) (s r : St W V) (b : Bool),
    emitHooks env sc hs s true = some (r, b) → b = true := by
  intro hs
  induction hs with
  | nil => intro s r b h; simp only [emitHooks, Option.some.injEq, Prod.mk.injEq] at h; exact h.2.symm
  | cons x hs ih =>
    intro s r b h
    rw [emitHooks] at h
    split at h
    · exact ih _ _ _ h
    · split at h
      · simp at h
      · split at h
        · exact ih _ _ _ h
        · split at h
          · simp at h
          · exact ih _ _ _ (by simpa using h)

theorem runBatches_bind (env : Env W V) (hooks : List Hook) (n : Nat) (s : St W V) : runBatches env hooks (n + 1) s =
    (emitHooks env false hooks ⟨env.step s.w, s.logs, s.epoch, s.update + 1, s.trace ++ [.batch s.epoch (s.update + 1)]⟩ false).bind
      (fun r => if r.2 then some (r.1, true) else runBatches env hooks n r.1) := by
  rw [runBatches]
  cases emitHooks env false hooks ⟨env.step s.w, s.logs, s.epoch, s.update + 1, s.trace ++ [.batch s.epoch (s.update + 1)]⟩ false with
  | none => rfl
  | some r => obtain ⟨r, b⟩ := r; cases b <;> rfl

theorem runEpoch_bind (env : Env W V) (hooks : List Hook) (s : St W V) : runEpoch env hooks s =
    (runBatches env hooks (env.batches s.w) { s with epoch := s.epoch + 1 }).bind (fun r =>
      (addLog (str "rolling_training") (env.rolling r.1.w) r.1.logs).bind (fun logs => emitHooks env true hooks
        ⟨r.1.w, logs, r.1.epoch, r.1.update, r.1.trace ++ [.rolling r.1.epoch (env.rolling r.1.w)]⟩ r.2)) := by
  rw [runEpoch]
  cases runBatches env hooks (env.batches s.w) { s with epoch := s.epoch + 1 } with
  | none => rfl
  | some r =>
    obtain ⟨r, b⟩ := r
    simp only [Option.bind_some]
    cases addLog (str "rolling_training") (env.rolling r.w) r.logs with
    | none => rfl
    | some logs => rfl

theorem trainLoop_bind (env : Env W V) (hooks : List Hook) (n : Nat) (s : St W V) : trainLoop env hooks (n + 1) s =
    (runEpoch env hooks s).bind (fun r => if r.2 then some (r.1, true) else trainLoop env hooks n r.1) := by
  rw [trainLoop]
  cases runEpoch env hooks s with
  | none => rfl
  | some r => obtain ⟨r, b⟩ := r; cases b <;> rfl

theorem train_bind (env : Env W V) (hooks : List Hook) (fuel : Nat) (s : St W V) : train env hooks fuel s =
    (emitHooks env false hooks s false).bind (fun r => if r.2 then some (r.1, true) else
      (emitHooks env true hooks r.1 false).bind (fun r => if r.2 then some (r.1, true) else trainLoop env hooks fuel r.1)) := by
  rw [train]
  cases emitHooks env false hooks s false with
  | none => rfl
  | some r =>
    obtain ⟨r, b⟩ := r
    cases b with
    | true => rfl
    | false =>
      simp only [Option.bind_some]
      cases emitHooks env true hooks r false with
      | none => rfl
      | some r' => obtain ⟨r', b'⟩ := r'; cases b' <;> rfl

theorem Watcher.runBatches (q : Watcher env h Sim Pre Post) (strict : Prop) (hst : strict → Silent env h ∧ h.interval ≠ 0) (A B : List Hook)
    (hA : ∀ x ∈ A, x.name ≠ h.name) (hB : ∀ x ∈ B, x.name ≠ h.name) (e : Nat) : ∀ (n : Nat) (s₁ s₂ : St W V), SimSt h.name Sim s₁ s₂ →
    s₁.epoch = e → Post e s₁.update n s₁.w →
    SimOut h.name Sim strict (fun s b => s.epoch = e ∧ ∃ k, (b = false → k = 0) ∧ Post e s.update k s.w)
      (runBatches env (A ++ h :: B) n s₁) (runBatches env (A ++ B) n s₂) := by
  intro n
  induction n with
  | zero => intro s₁ s₂ hsim he hp; exact ⟨hsim, rfl, he, 0, fun _ => rfl, hp⟩
  | succ n ih =>
    intro s₁ s₂ hsim he hp
    rw [runBatches_bind, runBatches_bind]
    refine SimOut.bind (q.emit strict hst A B hA hB false n e (s₁.update + 1) Pre rfl _ _ false
      ⟨q.step _ _ hsim.w, hsim.logs, hsim.epoch, by rw [hsim.update], ?_⟩ he rfl (q.nextBatch e s₁.update n s₁.w hp)) ?_
    · rw [hsim.trace, List.filter_append, hsim.epoch, hsim.update]
      simp [Event.isCallOf]
    · rintro t₁ t₂ b hs ⟨g1, g2, g3⟩
      cases b with
      | true =>
        refine ⟨hs, rfl, g1, n, fun h => by simp at h, ?_⟩
        rw [g2]; exact g3
      | false => exact ih t₁ t₂ hs g1 (by rw [g2]; exact g3)

theorem Watcher.runEpoch (q : Watcher env h Sim Pre Post) (strict : Prop) (hst : strict → Silent env h ∧ h.interval ≠ 0) (A B : List Hook)
    (hA : ∀ x ∈ A, x.name ≠ h.name) (hB : ∀ x ∈ B, x.name ≠ h.name) (hr : h.name ≠ str "rolling_training") (s₁ s₂ : St W V)
    (hsim : SimSt h.name Sim s₁ s₂) (hp : Post s₁.epoch s₁.update 0 s₁.w) :
    SimOut h.name Sim strict (fun s b => b = false → Post s.epoch s.update 0 s.w)
      (runEpoch env (A ++ h :: B) s₁) (runEpoch env (A ++ B) s₂) := by
  rw [runEpoch_bind, runEpoch_bind, ← q.batches _ _ hsim.w]
  refine SimOut.bind (q.runBatches strict hst A B hA hB (s₁.epoch + 1) (env.batches s₁.w) { s₁ with epoch := s₁.epoch + 1 }
    { s₂ with epoch := s₂.epoch + 1 } ⟨hsim.w, hsim.logs, by rw [hsim.epoch], hsim.update, hsim.trace⟩ rfl
    (q.nextEpoch _ _ _ hp)) ?_
  rintro t₁ t₂ b hs ⟨g1, k, hk, g2⟩
  dsimp only
  rw [← q.rolling _ _ hs.w]
  rcases addLog_off h.name (str "rolling_training") (fun h => hr h.symm) (env.rolling t₁.w) t₁.logs t₂.logs hs.logs with
    ⟨e1, e2⟩ | ⟨l1, l2, e1, e2, e3⟩
  · rw [e1, e2]; trivial
  · rw [e1, e2]
    simp only [Option.bind_some]
    refine SimOut.mono (q.emit strict hst A B hA hB true k t₁.epoch t₁.update Post rfl _ _ b
      ⟨hs.w, e3, hs.epoch, hs.update, ?_⟩ rfl rfl (by rw [g1]; exact g2)) ?_
    · rw [hs.trace, List.filter_append, hs.epoch]
      simp [Event.isCallOf]
    · rintro r b' heq ⟨f1, f2, f3⟩ hb'
      cases b with
      | true => rw [emitHooks_true _ _ _ _ _ _ heq] at hb'; simp at hb'
      | false => rw [f1, f2]; rw [hk rfl] at f3; exact f3

theorem Watcher.trainLoop (q : Watcher env h Sim Pre Post) (strict : Prop) (hst : strict → Silent env h ∧ h.interval ≠ 0) (A B : List Hook)
    (hA : ∀ x ∈ A, x.name ≠ h.name) (hB : ∀ x ∈ B, x.name ≠ h.name) (hr : h.name ≠ str "rolling_training") :
    ∀ (fuel : Nat) (s₁ s₂ : St W V), SimSt h.name Sim s₁ s₂ → Post s₁.epoch s₁.update 0 s₁.w →
    SimOut h.name Sim strict (fun _ _ => True) (trainLoop env (A ++ h :: B) fuel s₁) (trainLoop env (A ++ B) fuel s₂) := by
  intro fuel
  induction fuel with
  | zero => intro s₁ s₂ hsim _; exact ⟨hsim, rfl, trivial⟩
  | succ fuel ih =>
    intro s₁ s₂ hsim hp
    rw [trainLoop_bind, trainLoop_bind]
    refine SimOut.bind (q.runEpoch strict hst A B hA hB hr s₁ s₂ hsim hp) ?_
    intro t₁ t₂ b hs hb
    cases b with
    | true => exact ⟨hs, rfl, trivial⟩
    | false => exact ih t₁ t₂ hs (hb rfl)

theorem Watcher.train (q : Watcher env h Sim Pre Post) (strict : Prop) (hst : strict → Silent env h ∧ h.interval ≠ 0) (A B : List Hook)
    (hA : ∀ x ∈ A, x.name ≠ h.name) (hB : ∀ x ∈ B, x.name ≠ h.name) (hr : h.name ≠ str "rolling_training")
    (fuel : Nat) (s₁ s₂ : St W V) (hsim : SimSt h.name Sim s₁ s₂) (hp : Pre s₁.epoch s₁.update 0 s₁.w) :
    SimOut h.name Sim strict (fun _ _ => True) (train env (A ++ h :: B) fuel s₁) (train env (A ++ B) fuel s₂) := by
  rw [train_bind, train_bind]
  refine SimOut.bind (q.emit strict hst A B hA hB false 0 s₁.epoch s₁.update Pre rfl s₁ s₂ false hsim rfl rfl hp) ?_
  rintro t₁ t₂ b hs ⟨g1, g2, g3⟩
  cases b with
  | true => exact ⟨hs, rfl, trivial⟩
  | false =>
    refine SimOut.bind (q.emit strict hst A B hA hB true 0 s₁.epoch s₁.update Post rfl t₁ t₂ false hs g1 g2 g3) ?_
    rintro r₁ r₂ b hs' ⟨f1, f2, f3⟩
    cases b with
    | true => exact ⟨hs', rfl, trivial⟩
    | false => exact q.trainLoop strict hst A B hA hB hr fuel r₁ r₂ hs' (by rw [f1, f2]; exact f3)

end

end Verif.Training
