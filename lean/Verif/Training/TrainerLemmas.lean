import Verif.Training.Trainer

/-! # Lemmas about training -/

namespace Verif.Training

variable {W V : Type}

/-- A hook event agrees with what the hook does. -/
def Behaves (env : Env W V) : Event V → Prop
  | .call _ name e u st v => ∃ logs w, (env.call name e u logs w).2 = if st then .stop v else .value v
  | _ => True

/-- `s'` comes after `s` by the events `evs`. -/
structure Ext (env : Env W V) (s s' : St W V) (evs : List (Event V)) : Prop where
  trace : s'.trace = s.trace ++ evs
  logs : ∀ path, valuesAt s'.logs path = valuesAt s.logs path ++ valuesOf (evs.flatMap Event.leaves) path
  beh : ∀ ev ∈ evs, Behaves env ev

theorem Ext.refl (env : Env W V) (s : St W V) : Ext env s s [] :=
  ⟨by simp, by simp [valuesOf], by simp⟩

theorem Ext.trans {env : Env W V} {s s' s'' : St W V} {a b : List (Event V)} (h : Ext env s s' a) (h' : Ext env s' s'' b) :
    Ext env s s'' (a ++ b) where
  trace := by rw [h'.trace, h.trace, List.append_assoc]
  logs path := by rw [h'.logs, h.logs, List.flatMap_append, valuesOf_append, List.append_assoc]
  beh ev hev := by
    rcases List.mem_append.1 hev with h1 | h1
    · exact h.beh ev h1
    · exact h'.beh ev h1

theorem callHook_spec (env : Env W V) (h : Hook) (s s' : St W V) (st : Bool) (hc : callHook env h s = some (s', st)) :
    ∃ v, Ext env s s' [.call h.epochScale h.name s.epoch s.update st v] ∧ s'.epoch = s.epoch ∧ s'.update = s.update := by
  unfold callHook at hc
  split at hc
  · simp at hc
  · rename_i w v he
    obtain ⟨logs, hl, heq⟩ := Option.map_eq_some_iff.1 hc
    simp only [Prod.mk.injEq] at heq
    obtain ⟨rfl, rfl⟩ := heq
    refine ⟨v, ⟨rfl, fun path => ?_, ?_⟩, rfl, rfl⟩
    · simp [Event.leaves, addLog_spec _ _ _ _ hl path]
    · simp only [List.mem_singleton, forall_eq, Behaves]
      exact ⟨s.logs, s.w, by rw [he]; simp⟩
  · rename_i w v he
    obtain ⟨logs, hl, heq⟩ := Option.map_eq_some_iff.1 hc
    simp only [Prod.mk.injEq] at heq
    obtain ⟨rfl, rfl⟩ := heq
    refine ⟨v, ⟨rfl, fun path => ?_, ?_⟩, rfl, rfl⟩
    · simp [Event.leaves, addLog_spec _ _ _ _ hl path]
    · simp only [List.mem_singleton, forall_eq, Behaves]
      exact ⟨s.logs, s.w, by rw [he]; simp⟩

theorem due_nil (sc : Bool) (c : Nat) : due [] sc c = [] := rfl

theorem due_cons (h : Hook) (hs : List Hook) (sc : Bool) (c : Nat) :
    due (h :: hs) sc c = (if h.epochScale = sc ∧ h.interval ∣ c then [h.name] else []) ++ due hs sc c := by
  unfold due
  rw [List.filter_cons]
  by_cases h1 : h.epochScale = sc <;> by_cases h2 : h.interval ∣ c <;> simp [h1, h2]

theorem callsAt_cons (h : Hook) (hs : List Hook) (sc : Bool) (e u : Nat) :
    callsAt (h :: hs) sc e u = (if h.epochScale = sc ∧ h.interval ∣ (if sc then e else u) then [Act.call sc h.name e u] else [])
      ++ callsAt hs sc e u := by
  unfold callsAt
  rw [due_cons, List.map_append]
  congr 1
  generalize (if sc then e else u) = c
  split <;> rfl

/-- Events of a call at the current time. -/
def Now (s : St W V) (ev : Event V) : Prop := ∃ sc name st v, ev = .call sc name s.epoch s.update st v

theorem emitHooks_spec (env : Env W V) (sc : Bool) : ∀ (hooks : List Hook) (s s' : St W V) (b b' : Bool),
    emitHooks env sc hooks s b = some (s', b') →
    ∃ evs, Ext env s s' evs ∧ s'.epoch = s.epoch ∧ s'.update = s.update ∧
      evs.map Event.act = callsAt hooks sc s.epoch s.update ∧ b' = (b || evs.any Event.isStop) := by
  intro hooks
  induction hooks with
  | nil =>
    intro s s' b b' h
    simp only [emitHooks, Option.some.injEq, Prod.mk.injEq] at h
    obtain ⟨rfl, rfl⟩ := h
    exact ⟨[], Ext.refl env s, rfl, rfl, by simp [callsAt, due_nil], by simp⟩
  | cons hk hs ih =>
    intro s s' b b' h
    simp only [emitHooks] at h
    rw [callsAt_cons]
    split at h
    · rename_i h1
      obtain ⟨evs, h2, h3, h4, h5, h6⟩ := ih s s' b b' h
      exact ⟨evs, h2, h3, h4, by simp [h1, h5], h6⟩
    · rename_i h1
      simp only [ne_eq, Decidable.not_not] at h1
      split at h
      · simp at h
      · split at h
        · rename_i h1' h1''
          obtain ⟨evs, h2, h3, h4, h5, h6⟩ := ih s s' b b' h
          refine ⟨evs, h2, h3, h4, ?_, h6⟩
          have : ¬ (hk.interval ∣ (if sc then s.epoch else s.update)) := fun hd =>
            h1'' (Nat.mod_eq_zero_of_dvd hd)
          simp [this, h5]
        · rename_i h1' h1''
          have hd : hk.interval ∣ (if sc then s.epoch else s.update) :=
            Nat.dvd_of_mod_eq_zero (by simpa [St.count] using h1'')
          split at h
          · simp at h
          · rename_i s₁ st hc
            obtain ⟨v, g1, g2, g3⟩ := callHook_spec env hk s s₁ st hc
            obtain ⟨evs, h2, h3, h4, h5, h6⟩ := ih s₁ s' _ b' h
            refine ⟨_, g1.trans h2, h3.trans g2, h4.trans g3, ?_, ?_⟩
            · rw [g2, g3] at h5
              simp [h1, hd, h5, Event.act]
            · rw [h6]
              simp [Event.isStop, Bool.or_assoc]

theorem mem_callsAt (hooks : List Hook) (sc : Bool) (e u : Nat) (a : Act) (h : a ∈ callsAt hooks sc e u) :
    ∃ name ∈ due hooks sc (if sc then e else u), a = .call sc name e u := by
  unfold callsAt at h
  obtain ⟨n, hn, rfl⟩ := List.mem_map.1 h
  exact ⟨n, hn, rfl⟩

/-- The events of one emission are calls at the current time. -/
theorem now_of_acts (hooks : List Hook) (sc : Bool) (e u : Nat) (evs : List (Event V))
    (h : evs.map Event.act = callsAt hooks sc e u) : ∀ ev ∈ evs, ∃ name st v, ev = .call sc name e u st v := by
  intro ev hev
  have : ev.act ∈ callsAt hooks sc e u := h ▸ List.mem_map_of_mem hev
  obtain ⟨n, -, hn⟩ := mem_callsAt _ _ _ _ _ this
  cases ev with
  | batch => simp [Event.act] at hn
  | rolling => simp [Event.act] at hn
  | call sc' n' e' u' st v =>
    simp only [Event.act, Act.call.injEq] at hn
    obtain ⟨rfl, rfl, rfl, rfl⟩ := hn
    exact ⟨_, st, v, rfl⟩

/-- The events so far contain no stop request. -/
def Quiet (evs : List (Event V)) : Prop := ∀ ev ∈ evs, ev.isStop = false

/-- The events end with stop requests, all made at epoch `e` and update `u`, after the
last batch. -/
def Stopped (e u : Nat) (evs : List (Event V)) : Prop :=
  ∃ pre post, evs = pre ++ post ∧ Quiet pre ∧ (∀ ev ∈ post, ev.isBatch = false) ∧
    (∀ ev ∈ post, ev.isStop = true → ∃ sc name v, ev = .call sc name e u true v) ∧ post.any Event.isStop = true

theorem Quiet.append {a b : List (Event V)} (ha : Quiet a) (hb : Quiet b) : Quiet (a ++ b) := by
  intro ev hev
  rcases List.mem_append.1 hev with h | h
  · exact ha ev h
  · exact hb ev h

theorem quiet_of_any {a : List (Event V)} (h : a.any Event.isStop = false) : Quiet a := by
  intro ev hev
  simpa using List.any_eq_false.1 h ev hev

theorem Stopped.prepend {a b : List (Event V)} {e u : Nat} (ha : Quiet a) (hb : Stopped e u b) : Stopped e u (a ++ b) := by
  obtain ⟨pre, post, rfl, h1, h2, h3, h4⟩ := hb
  exact ⟨a ++ pre, post, by simp, ha.append h1, h2, h3, h4⟩

theorem Stopped.append {a b : List (Event V)} {e u : Nat} (ha : Stopped e u a) (hb : ∀ ev ∈ b, ev.isBatch = false)
    (hb' : ∀ ev ∈ b, ev.isStop = true → ∃ sc name v, ev = .call sc name e u true v) : Stopped e u (a ++ b) := by
  obtain ⟨pre, post, rfl, h1, h2, h3, h4⟩ := ha
  refine ⟨pre, post ++ b, by simp, h1, ?_, ?_, by simp [h4]⟩
  · intro ev hev
    rcases List.mem_append.1 hev with h | h
    · exact h2 ev h
    · exact hb ev h
  · intro ev hev
    rcases List.mem_append.1 hev with h | h
    · exact h3 ev h
    · exact hb' ev h

theorem emission_facts (hooks : List Hook) (sc : Bool) (e u : Nat) (evs : List (Event V))
    (h : evs.map Event.act = callsAt hooks sc e u) :
    (∀ ev ∈ evs, ev.isBatch = false) ∧ (∀ ev ∈ evs, ev.isStop = true → ∃ sc name v, ev = .call sc name e u true v) := by
  constructor
  · intro ev hev
    obtain ⟨n, st, v, rfl⟩ := now_of_acts _ _ _ _ _ h ev hev
    rfl
  · intro ev hev hs
    obtain ⟨n, st, v, rfl⟩ := now_of_acts _ _ _ _ _ h ev hev
    simp only [Event.isStop] at hs
    subst hs
    exact ⟨sc, n, v, rfl⟩

theorem emission_stopped (hooks : List Hook) (sc : Bool) (e u : Nat) (evs : List (Event V))
    (h : evs.map Event.act = callsAt hooks sc e u) (hs : evs.any Event.isStop = true) : Stopped e u evs := by
  obtain ⟨h1, h2⟩ := emission_facts _ _ _ _ _ h
  exact ⟨[], evs, rfl, by simp [Quiet], h1, h2, hs⟩

theorem runBatches_spec (env : Env W V) (hooks : List Hook) : ∀ (n : Nat) (s s' : St W V) (st : Bool),
    runBatches env hooks n s = some (s', st) →
    ∃ evs k, Ext env s s' evs ∧ evs.map Event.act = planBatches hooks s.epoch s.update k ∧ k ≤ n ∧
      s'.epoch = s.epoch ∧ s'.update = s.update + k ∧
      (st = false → k = n ∧ Quiet evs) ∧
      (st = true → Stopped s'.epoch s'.update evs ∧ evs.any Event.isUpdateStop = true) := by
  intro n
  induction n with
  | zero =>
    intro s s' st h
    simp only [runBatches, Option.some.injEq, Prod.mk.injEq] at h
    obtain ⟨rfl, rfl⟩ := h
    exact ⟨[], 0, Ext.refl env s, rfl, Nat.le_refl _, rfl, rfl, fun _ => ⟨rfl, by simp [Quiet]⟩, by simp⟩
  | succ n ih =>
    intro s s' st h
    simp only [runBatches] at h
    have hext : Ext env s ⟨env.step s.w, s.logs, s.epoch, s.update + 1, s.trace ++ [.batch s.epoch (s.update + 1)]⟩
        [.batch s.epoch (s.update + 1)] :=
      ⟨rfl, by simp [Event.leaves, valuesOf], by simp [Behaves]⟩
    have hq : Quiet [(.batch s.epoch (s.update + 1) : Event V)] := by simp [Quiet, Event.isStop]
    split at h
    · simp at h
    · rename_i s₂ he
      simp only [Option.some.injEq, Prod.mk.injEq] at h
      obtain ⟨rfl, rfl⟩ := h
      obtain ⟨evs, g1, g2, g3, g4, g5⟩ := emitHooks_spec env false hooks _ _ _ _ he
      refine ⟨_, 1, hext.trans g1, ?_, by omega, g2, g3, by simp, fun _ => ?_⟩
      · simp [planBatches, g4, Event.act]
      · simp only [Bool.false_or] at g5
        refine ⟨?_, ?_⟩
        · rw [g2, g3]
          exact (emission_stopped _ _ _ _ _ g4 g5.symm).prepend hq
        · obtain ⟨ev, hev, hst⟩ := List.any_eq_true.1 g5.symm
          rw [List.any_append, Bool.or_eq_true]
          right
          obtain ⟨nm, st, v, rfl⟩ := now_of_acts _ _ _ _ _ g4 ev hev
          exact List.any_eq_true.2 ⟨_, hev, hst⟩
    · rename_i s₂ he
      obtain ⟨evs, g1, g2, g3, g4, g5⟩ := emitHooks_spec env false hooks _ _ _ _ he
      simp only [Bool.false_or] at g5
      obtain ⟨evs', k, i1, i2, i3, i4, i5, i6, i7⟩ := ih s₂ s' st h
      have hq2 : Quiet ([(.batch s.epoch (s.update + 1) : Event V)] ++ evs) := hq.append (quiet_of_any g5.symm)
      refine ⟨_, k + 1, (hext.trans g1).trans i1, ?_, by omega, i4.trans g2, ?_, ?_, ?_⟩
      · rw [g2, g3] at i2
        simp [planBatches, g4, i2, Event.act]
      · rw [i5, g3]; simp only; omega
      · intro hst
        obtain ⟨rfl, j⟩ := i6 hst
        exact ⟨rfl, hq2.append j⟩
      · intro hst
        obtain ⟨j1, j2⟩ := i7 hst
        refine ⟨j1.prepend hq2, ?_⟩
        rw [List.any_append, j2, Bool.or_true]

theorem runEpoch_spec (env : Env W V) (hooks : List Hook) (s s' : St W V) (st : Bool)
    (h : runEpoch env hooks s = some (s', st)) :
    ∃ evs k, Ext env s s' evs ∧
      evs.map Event.act = planBatches hooks (s.epoch + 1) s.update k ++
        Act.rolling (s.epoch + 1) :: callsAt hooks true (s.epoch + 1) (s.update + k) ∧
      k ≤ env.batches s.w ∧ s'.epoch = s.epoch + 1 ∧ s'.update = s.update + k ∧
      (evs.any Event.isUpdateStop = false → k = env.batches s.w) ∧
      (st = false → Quiet evs ∧ k = env.batches s.w) ∧ (st = true → Stopped s'.epoch s'.update evs) := by
  unfold runEpoch at h
  split at h
  · simp at h
  · rename_i s₁ stop hb
    obtain ⟨evs, k, i1, i2, i3, i4, i5, i6, i7⟩ := runBatches_spec env hooks _ _ _ _ hb
    simp only at i2 i3 i4 i5
    split at h
    · simp at h
    · rename_i logs hl
      obtain ⟨evs', g1, g2, g3, g4, g5⟩ := emitHooks_spec env true hooks _ _ _ _ h
      simp only at g2 g3 g4
      have hext : Ext env s₁ ⟨s₁.w, logs, s₁.epoch, s₁.update, s₁.trace ++ [.rolling s₁.epoch (env.rolling s₁.w)]⟩
          [.rolling s₁.epoch (env.rolling s₁.w)] :=
        ⟨rfl, by intro path; simp [Event.leaves, addLog_spec _ _ _ _ hl path], by simp [Behaves]⟩
      have hq : Quiet [(.rolling s₁.epoch (env.rolling s₁.w) : Event V)] := by simp [Quiet, Event.isStop]
      have i1' : Ext env s s₁ evs := ⟨i1.trace, i1.logs, i1.beh⟩
      rw [i4, i5] at g4
      have hf := emission_facts _ _ _ _ _ g4
      refine ⟨evs ++ ([.rolling s₁.epoch (env.rolling s₁.w)] ++ evs'), k, i1'.trans (hext.trans g1), ?_, i3, g2.trans i4,
        g3.trans i5, ?_, ?_, ?_⟩
      · simp [i2, g4, Event.act, i4]
      · intro hu
        cases hstop : stop with
        | false => exact (i6 hstop).1
        | true =>
          have := (i7 hstop).2
          simp [this] at hu
      · intro hst
        rw [hst] at g5
        have g5' := g5.symm
        simp only [Bool.or_eq_false_iff] at g5'
        obtain ⟨j1, j2⟩ := i6 g5'.1
        exact ⟨j2.append (hq.append (quiet_of_any g5'.2)), j1⟩
      · intro hst
        cases hstop : stop with
        | true =>
          have := (i7 hstop).1
          rw [g2, g3]
          refine this.append ?_ ?_
          · intro ev hev
            rcases List.mem_append.1 hev with hev | hev
            · simp only [List.mem_singleton] at hev; subst hev; rfl
            · exact hf.1 ev hev
          · intro ev hev hs
            rcases List.mem_append.1 hev with hev | hev
            · simp only [List.mem_singleton] at hev; subst hev; simp [Event.isStop] at hs
            · rw [i4, i5]
              exact hf.2 ev hev hs
        | false =>
          rw [hst, hstop, Bool.false_or] at g5
          have := emission_stopped _ _ _ _ _ g4 g5.symm
          have h2 := (this.prepend hq).prepend (i6 hstop).2
          rw [g2, g3]
          rw [← i4, ← i5] at h2
          exact h2

theorem planEpochs_nil (hooks : List Hook) (e u : Nat) : planEpochs hooks e u [] = [] := rfl

/-- The counts of a run of epochs: `ks` are the numbers of batches processed. -/
theorem trainLoop_spec (env : Env W V) (hooks : List Hook) : ∀ (fuel : Nat) (s s' : St W V) (fin : Bool),
    trainLoop env hooks fuel s = some (s', fin) →
    ∃ evs ks, Ext env s s' evs ∧ evs.map Event.act = planEpochs hooks s.epoch s.update ks ∧
      s'.epoch = s.epoch + ks.length ∧ s'.update = s.update + ks.sum ∧ ks.length ≤ fuel ∧
      (∀ m, (∀ w, env.batches w = m) → (∀ k ∈ ks.dropLast, k = m) ∧ (∀ k ∈ ks, k ≤ m) ∧
        (evs.any Event.isUpdateStop = false → ∀ k ∈ ks, k = m)) ∧
      (fin = false → Quiet evs ∧ ks.length = fuel) ∧ (fin = true → Stopped s'.epoch s'.update evs) := by
  intro fuel
  induction fuel with
  | zero =>
    intro s s' fin h
    simp only [trainLoop, Option.some.injEq, Prod.mk.injEq] at h
    obtain ⟨rfl, rfl⟩ := h
    exact ⟨[], [], Ext.refl env s, rfl, rfl, rfl, Nat.le_refl _, by simp, by simp [Quiet], by simp⟩
  | succ fuel ih =>
    intro s s' fin h
    simp only [trainLoop] at h
    split at h
    · simp at h
    · rename_i s₁ he
      simp only [Option.some.injEq, Prod.mk.injEq] at h
      obtain ⟨rfl, rfl⟩ := h
      obtain ⟨evs, k, h1, h2, h3, h4, h5, h6, h7, h8⟩ := runEpoch_spec env hooks _ _ _ he
      refine ⟨evs, [k], h1, by simp [planEpochs, h2], by simp [h4], by simp [h5], by simp, ?_, by simp, fun _ => h8 rfl⟩
      intro m hm
      refine ⟨by simp, by simpa [hm] using h3, ?_⟩
      intro hu
      simpa [hm] using h6 hu
    · rename_i s₁ he
      obtain ⟨evs, k, h1, h2, h3, h4, h5, h6, h7, h8⟩ := runEpoch_spec env hooks _ _ _ he
      obtain ⟨evs', ks, i1, i2, i3, i4, i5, i6, i7, i8⟩ := ih _ _ _ h
      obtain ⟨hq, hk⟩ := h7 rfl
      refine ⟨_, k :: ks, h1.trans i1, ?_, ?_, ?_, by simp; omega, ?_, ?_, ?_⟩
      · rw [h4, h5] at i2
        simp [planEpochs, h2, i2]
      · simp [i3, h4]; omega
      · simp [i4, h5]; omega
      · intro m hm
        obtain ⟨j1, j2, j3⟩ := i6 m hm
        have hkm : k = m := by rw [hk, hm]
        refine ⟨?_, ?_, ?_⟩
        · intro x hx
          cases ks with
          | nil => simp at hx
          | cons y ys =>
            rcases List.mem_cons.1 (by simpa using hx : x ∈ k :: (y :: ys).dropLast) with rfl | hx
            · exact hkm
            · exact j1 x hx
        · intro x hx
          rcases List.mem_cons.1 hx with rfl | hx
          · omega
          · exact j2 x hx
        · intro hu x hx
          rw [List.any_append, Bool.or_eq_false_iff] at hu
          rcases List.mem_cons.1 hx with rfl | hx
          · exact hkm
          · exact j3 hu.2 x hx
      · intro hf
        obtain ⟨j1, j2⟩ := i7 hf
        exact ⟨hq.append j1, by simp [j2]⟩
      · intro hf
        exact (i8 hf).prepend hq

end Verif.Training
