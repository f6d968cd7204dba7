import Verif.Training.Watch

/-!
# C66: monitors and the progress bar
-/

namespace Verif.Training

variable {W V : Type}

/-- **C66** (hooks that only watch): if a training run with such a hook comes to its end, then the run without the hook does, after the
same epochs and updates and for the same reason; the worlds differ only in what belongs to the hook, the logs only in its entry, and the
events only in its calls. -/
theorem C66_watcher (env : Env W V) (h : Hook) (Sim : W → W → Prop) (Pre Post : Nat → Nat → Nat → W → Prop)
    (q : Watcher env h Sim Pre Post) (A B : List Hook) (hA : ∀ x ∈ A, x.name ≠ h.name) (hB : ∀ x ∈ B, x.name ≠ h.name)
    (hr : h.name ≠ str "rolling_training") (fuel : Nat) (s s' : St W V) (fin : Bool) (h0 : s.trace = []) (hrefl : Sim s.w s.w)
    (hp : Pre s.epoch s.update 0 s.w) (ht : train env (A ++ h :: B) fuel s = some (s', fin)) :
    ∃ s'', train env (A ++ B) fuel s = some (s'', fin) ∧ s''.epoch = s'.epoch ∧ s''.update = s'.update ∧ Sim s'.w s''.w ∧
      LogsOff h.name s'.logs s''.logs ∧ s''.trace = s'.trace.filter (fun ev => !ev.isCallOf h.name) := by
  have := q.train False (fun h => h.elim) A B hA hB hr fuel s s ⟨hrefl, fun _ _ => rfl, rfl, rfl, by rw [h0]; rfl⟩ hp
  rw [ht] at this
  cases h2 : train env (A ++ B) fuel s with
  | none => rw [h2] at this; exact this.elim
  | some r =>
    obtain ⟨s'', fin'⟩ := r
    rw [h2] at this
    obtain ⟨g1, g2, -⟩ := this
    subst g2
    exact ⟨s'', rfl, g1.epoch.symm, g1.update.symm, g1.w, g1.logs, g1.trace⟩

/-- **C66** (hooks that only watch and log nothing): adding or removing one does not change whether training fails either. -/
theorem C66_watcher_silent (env : Env W V) (h : Hook) (Sim : W → W → Prop) (Pre Post : Nat → Nat → Nat → W → Prop)
    (q : Watcher env h Sim Pre Post) (hs : Silent env h) (hi : h.interval ≠ 0) (A B : List Hook) (hA : ∀ x ∈ A, x.name ≠ h.name)
    (hB : ∀ x ∈ B, x.name ≠ h.name) (hr : h.name ≠ str "rolling_training") (fuel : Nat) (s : St W V) (h0 : s.trace = [])
    (hrefl : Sim s.w s.w) (hp : Pre s.epoch s.update 0 s.w) :
    train env (A ++ h :: B) fuel s = none ↔ train env (A ++ B) fuel s = none := by
  have := q.train True (fun _ => ⟨hs, hi⟩) A B hA hB hr fuel s s ⟨hrefl, fun _ _ => rfl, rfl, rfl, by rw [h0]; rfl⟩ hp
  cases h1 : train env (A ++ h :: B) fuel s with
  | none =>
    cases h2 : train env (A ++ B) fuel s with
    | none => simp
    | some r => rw [h1, h2] at this; exact absurd trivial this
  | some r =>
    cases h2 : train env (A ++ B) fuel s with
    | none => rw [h1, h2] at this; exact this.elim
    | some r => simp

/-- **C66** (monitors): a hook that only computes a value from what it sees, such as the monitors of gradients, deltas or inputs and
outputs, changes nothing in the network, the stepper and the other logs, if the other hooks do not use its log. -/
theorem C66_monitor (env : Env W V) (h : Hook) (observe : Nat → Nat → Logs V → W → Val V)
    (hk : env.call h.name = fun e u logs w => (w, .value (observe e u logs w)))
    (hother : ∀ nm e u l₁ l₂ w, nm ≠ h.name → LogsOff h.name l₁ l₂ → env.call nm e u l₁ w = env.call nm e u l₂ w)
    (A B : List Hook) (hA : ∀ x ∈ A, x.name ≠ h.name) (hB : ∀ x ∈ B, x.name ≠ h.name)
    (hr : h.name ≠ str "rolling_training") (fuel : Nat) (s s' : St W V) (fin : Bool) (h0 : s.trace = [])
    (ht : train env (A ++ h :: B) fuel s = some (s', fin)) :
    ∃ s'', train env (A ++ B) fuel s = some (s'', fin) ∧ s''.w = s'.w ∧ s''.epoch = s'.epoch ∧ s''.update = s'.update ∧
      LogsOff h.name s'.logs s''.logs ∧ s''.trace = s'.trace.filter (fun ev => !ev.isCallOf h.name) := by
  have q : Watcher env h (fun w₁ w₂ => w₁ = w₂) (fun _ _ _ _ => True) (fun _ _ _ _ => True) := {
    step := by rintro w₁ w₂ rfl; rfl
    batches := by rintro w₁ w₂ rfl; rfl
    rolling := by rintro w₁ w₂ rfl; rfl
    other := by
      rintro nm e u l₁ l₂ w₁ w₂ hn rfl hl
      rw [hother nm e u l₁ l₂ w₁ hn hl]
      exact ⟨rfl, rfl⟩
    own := by rintro e u l w₁ w₂ rfl; rw [hk]
    fine := fun e u k l w _ _ _ => ⟨by rw [hk]; exact ⟨_, rfl⟩, trivial⟩
    fineEpoch := fun e u k l w _ _ => ⟨by rw [hk]; exact ⟨_, rfl⟩, trivial⟩
    skip := fun _ _ _ _ _ _ => trivial
    preOther := fun _ _ _ _ _ _ _ _ => trivial
    postOther := fun _ _ _ _ _ _ _ _ => trivial
    nextBatch := fun _ _ _ _ _ => trivial
    nextEpoch := fun _ _ _ _ => trivial }
  obtain ⟨s'', g1, g2, g3, g4, g5, g6⟩ := C66_watcher env h _ _ _ q A B hA hB hr fuel s s' fin h0 rfl trivial ht
  exact ⟨s'', g1, g4.symm, g2, g3, g5, g6⟩

/-- The hook `rec` of the example in `TrainerProps` is such a monitor. -/
example : (∀ e u logs w, demoEnv.call (str "rec") e u logs w = (w, .value (.leaf e))) ∧
    (∀ nm e u l₁ l₂ w, demoEnv.call nm e u l₁ w = demoEnv.call nm e u l₂ w) ∧
    (train demoEnv demoHooks 5 ⟨0, [], 0, 0, []⟩).map (fun r => (r.1.w, r.1.update, r.2)) = some (4, 4, true) ∧
    (train demoEnv demoHooks.tail 5 ⟨0, [], 0, 0, []⟩).map (fun r => (r.1.w, r.1.update, r.2)) = some (4, 4, true) := by
  refine ⟨fun e u logs w => ?_, fun _ _ _ _ _ _ => rfl, ?_, ?_⟩
  · simp only [demoEnv]; rw [if_neg (by decide)]
  · decide +kernel
  · decide +kernel

/-! ## The progress bar -/

/-- The memory of the progress bar after the call at update `u` of epoch `e`, with `k` batches left. -/
def BarPost (m : Nat) (get : W → Option Bar) (e u k : Nat) (w : W) : Prop :=
  u + k = e * m ∧ k ≤ m ∧ (m = 1 → get w = none) ∧ (u % m ≠ 0 → ∃ i, get w = some (.running i))

/-- The memory of the progress bar before the call. -/
def BarPre (m : Nat) (get : W → Option Bar) (e u k : Nat) (w : W) : Prop :=
  u + k = e * m ∧ ((e = 0 ∧ get w = none) ∨ (e ≠ 0 ∧ k < m)) ∧ (m = 1 → get w = none) ∧
    (u % m ≠ 1 → e ≠ 0 → 1 < m → ∃ i, get w = some (.running i))

theorem bar_ceil (m e u k : Nat) (h : u + k = e * m) (hk : k < m) : (u + m - 1) / m = e := by
  have h1 : u + m - 1 = (m - 1 - k) + e * m := by omega
  rw [h1, Nat.add_mul_div_right _ _ (by omega), Nat.div_eq_of_lt (by omega), Nat.zero_add]

theorem Bar.send_running (i p m : Nat) : ∃ b, (Bar.running i).send p m = some b := by
  show ∃ b, (if p * 50 / m < 50 then some (Bar.running (p * 50 / m)) else some .done) = some b
  split
  · exact ⟨_, rfl⟩
  · exact ⟨_, rfl⟩

theorem Bar.send_running_lt (i p m : Nat) (hp : p < m) : ∃ j, (Bar.running i).send p m = some (.running j) := by
  unfold Bar.send
  rw [if_pos ((Nat.div_lt_iff_lt_mul (by omega)).2 (by nlinarith))]
  exact ⟨_, rfl⟩

theorem progress_fine (m : Nat) (hm : 0 < m) (get : W → Option Bar) (set : Option Bar → W → W) (hgs : ∀ b w, get (set b w) = b)
    (e u k : Nat) (l : Logs V) (w : W) (hp : BarPre m get e u k w) :
    (progressHook m get set e u l w).2 = .value .none ∧ BarPost m get e u k (progressHook m get set e u l w).1 := by
  obtain ⟨h1, h2, h3, h4⟩ := hp
  have hkm : k ≤ m := by
    rcases h2 with ⟨rfl, -⟩ | h2
    · omega
    · omega
  have hassert : ¬ (e ≠ 0 ∧ (u + m - 1) / m ≠ e) := by
    rintro ⟨he, hne⟩
    rcases h2 with ⟨rfl, -⟩ | h2
    · exact he rfl
    · exact hne (bar_ceil m e u k h1 h2.2)
  unfold progressHook
  rw [if_neg (by omega), if_neg hassert]
  by_cases hu1 : u % m = 1
  · rw [if_pos hu1]
    refine ⟨rfl, h1, hkm, ?_, fun _ => ⟨0, hgs _ _⟩⟩
    rintro rfl
    rw [Nat.mod_one] at hu1; omega
  · rw [if_neg hu1]
    by_cases hu0 : u % m = 0
    · rw [if_pos hu0]
      by_cases he : e = 0
      · have hn : get w = none := by
          rcases h2 with ⟨-, h2⟩ | h2
          · exact h2
          · exact absurd he h2.1
        rw [hn]
        exact ⟨rfl, h1, hkm, h3, fun hne => absurd hu0 hne⟩
      · by_cases hm1 : m = 1
        · rw [h3 hm1]
          exact ⟨rfl, h1, hkm, h3, fun hne => absurd hu0 hne⟩
        · obtain ⟨i, hi⟩ := h4 hu1 he (by omega)
          rw [hi]
          obtain ⟨b, hb⟩ := Bar.send_running i m m
          dsimp only
          rw [hb]
          exact ⟨rfl, h1, hkm, fun h => absurd h hm1, fun hne => absurd hu0 hne⟩
    · rw [if_neg hu0]
      have hm1 : 1 < m := by
        rcases Nat.lt_or_ge 1 m with h | h
        · exact h
        · have : m = 1 := by omega
          rw [this, Nat.mod_one] at hu0; exact absurd rfl hu0
      have he : e ≠ 0 := by
        rintro rfl
        have : u = 0 := by omega
        rw [this, Nat.zero_mod] at hu0; exact hu0 rfl
      obtain ⟨i, hi⟩ := h4 hu1 he hm1
      rw [hi]
      obtain ⟨j, hj⟩ := Bar.send_running_lt i (u % m) m (Nat.mod_lt _ hm)
      dsimp only
      rw [hj]
      exact ⟨rfl, h1, hkm, fun h => by omega, fun _ => ⟨j, hgs _ _⟩⟩

theorem progress_watcher (env : Env W V) (nm : Name) (m : Nat) (hm : 0 < m) (hb : ∀ w, env.batches w = m) (get : W → Option Bar)
    (set : Option Bar → W → W) (hgs : ∀ b w, get (set b w) = b) (hk : env.call nm = progressHook m get set) (hpriv : Private env nm get)
    (Sim : W → W → Prop) (hset : ∀ b w₁ w₂, Sim w₁ w₂ → Sim (set b w₁) w₂) (hstep : ∀ w₁ w₂, Sim w₁ w₂ → Sim (env.step w₁) (env.step w₂))
    (hroll : ∀ w₁ w₂, Sim w₁ w₂ → env.rolling w₁ = env.rolling w₂)
    (hother : ∀ nm' e u l₁ l₂ w₁ w₂, nm' ≠ nm → Sim w₁ w₂ → LogsOff nm l₁ l₂ →
      Sim (env.call nm' e u l₁ w₁).1 (env.call nm' e u l₂ w₂).1 ∧ (env.call nm' e u l₁ w₁).2 = (env.call nm' e u l₂ w₂).2) :
    Watcher env ⟨nm, false, 1⟩ Sim (BarPre m get) (BarPost m get) where
  step := hstep
  batches := fun w₁ w₂ _ => by rw [hb, hb]
  rolling := hroll
  other := hother
  own := by
    intro e u l w₁ w₂ hs
    rw [hk]
    unfold progressHook
    split
    · exact hs
    · split
      · exact hs
      · split
        · exact hset _ _ _ hs
        · split
          · split
            · exact hs
            · split
              · exact hs
              · exact hset _ _ _ hs
          · split
            · exact hs
            · split
              · exact hs
              · exact hset _ _ _ hs
  fine := by
    intro e u k l w _ _ hp
    obtain ⟨g1, g2⟩ := progress_fine m hm get set hgs e u k l w hp
    rw [hk]
    exact ⟨⟨_, g1⟩, g2⟩
  fineEpoch := fun _ _ _ _ _ h => by simp at h
  skip := by
    rintro e u k w (h | h) _
    · simp at h
    · simp at h
  preOther := by
    intro nm' e u k l w hn hp
    unfold BarPre at *
    rw [hpriv.call nm' e u l w hn]
    exact hp
  postOther := by
    intro nm' e u k l w hn hp
    unfold BarPost at *
    rw [hpriv.call nm' e u l w hn]
    exact hp
  nextBatch := by
    rintro e u k w ⟨h1, h2, h3, h4⟩
    unfold BarPre
    rw [hpriv.step]
    refine ⟨by omega, .inr ⟨?_, by omega⟩, h3, fun hu1 _ hm1 => h4 ?_⟩
    · rintro rfl; omega
    · intro h0
      apply hu1
      rw [Nat.add_mod, h0, Nat.zero_add, Nat.mod_mod, Nat.mod_eq_of_lt hm1]
  nextEpoch := by
    rintro e u w ⟨h1, h2, h3, h4⟩
    rw [hb]
    exact ⟨by rw [Nat.succ_mul]; omega, le_refl _, h3, h4⟩

/-- **C66** (`ProgressBar`, first training): for a fresh trainer and a fresh progress bar, with the same number of batches in every epoch,
the progress bar neither stops nor breaks training: the same training without it fails if and only if this one does, and otherwise
ends after the same epochs and updates, with the same logs and the same world except for the bar. -/
theorem C66_progress_bar (env : Env W V) (nm : Name) (m : Nat) (hm : 0 < m) (hb : ∀ w, env.batches w = m) (get : W → Option Bar)
    (set : Option Bar → W → W) (hgs : ∀ b w, get (set b w) = b) (hk : env.call nm = progressHook m get set) (hpriv : Private env nm get)
    (Sim : W → W → Prop) (hrefl : ∀ w, Sim w w) (hset : ∀ b w₁ w₂, Sim w₁ w₂ → Sim (set b w₁) w₂)
    (hstep : ∀ w₁ w₂, Sim w₁ w₂ → Sim (env.step w₁) (env.step w₂))
    (hroll : ∀ w₁ w₂, Sim w₁ w₂ → env.rolling w₁ = env.rolling w₂)
    (hother : ∀ nm' e u l₁ l₂ w₁ w₂, nm' ≠ nm → Sim w₁ w₂ → LogsOff nm l₁ l₂ →
      Sim (env.call nm' e u l₁ w₁).1 (env.call nm' e u l₂ w₂).1 ∧ (env.call nm' e u l₁ w₁).2 = (env.call nm' e u l₂ w₂).2)
    (A B : List Hook) (hA : ∀ x ∈ A, x.name ≠ nm) (hB : ∀ x ∈ B, x.name ≠ nm) (hr : nm ≠ str "rolling_training")
    (fuel : Nat) (s : St W V) (h0 : s.trace = []) (hfresh : s.epoch = 0 ∧ s.update = 0) (hbar : get s.w = none) :
    (train env (A ++ ⟨nm, false, 1⟩ :: B) fuel s = none ↔ train env (A ++ B) fuel s = none) ∧
    ∀ s' fin, train env (A ++ ⟨nm, false, 1⟩ :: B) fuel s = some (s', fin) →
      ∃ s'', train env (A ++ B) fuel s = some (s'', fin) ∧ s''.epoch = s'.epoch ∧ s''.update = s'.update ∧ Sim s'.w s''.w ∧
        LogsOff nm s'.logs s''.logs ∧ s''.trace = s'.trace.filter (fun ev => !ev.isCallOf nm) := by
  have q := progress_watcher env nm m hm hb get set hgs hk hpriv Sim hset hstep hroll hother
  have hpre : BarPre m get s.epoch s.update 0 s.w := by
    rw [hfresh.1, hfresh.2]
    exact ⟨by simp, .inl ⟨rfl, hbar⟩, fun _ => hbar, fun _ h => absurd rfl h⟩
  refine ⟨C66_watcher_silent env ⟨nm, false, 1⟩ Sim _ _ q ?_ (by simp) A B hA hB hr fuel s h0 (hrefl _) hpre, fun s' fin ht =>
    C66_watcher env ⟨nm, false, 1⟩ Sim _ _ q A B hA hB hr fuel s s' fin h0 (hrefl _) hpre ht⟩
  intro e u l w v hv
  dsimp only at hv
  rw [hk] at hv
  unfold progressHook at hv
  split at hv
  · simp at hv
  · split at hv
    · simp at hv
    · split at hv
      · simpa using hv.symm
      · split at hv
        · split at hv
          · simpa using hv.symm
          · split at hv
            · simp at hv
            · simpa using hv.symm
        · split at hv
          · simp at hv
          · split at hv
            · simp at hv
            · simpa using hv.symm

theorem emit_done (env : Env W V) (nm : Name) (m : Nat) (get : W → Option Bar) (set : Option Bar → W → W)
    (hk : env.call nm = progressHook m get set) (hpriv : Private env nm get) (hm : 1 < m) :
    ∀ (hooks : List Hook), (⟨nm, false, 1⟩ : Hook) ∈ hooks → ∀ (s : St W V) (b : Bool), s.update = s.epoch * m → get s.w = some .done →
    ∀ r b', emitHooks env false hooks s b = some (r, b') → b' = true := by
  intro hooks
  induction hooks with
  | nil => intro h; simp at h
  | cons x hs ih =>
    intro hmem s b hu hd r b' he
    rw [emitHooks] at he
    by_cases hx : x.name = nm
    · -- a hook of this name is called
      split at he
      · rename_i hne
        rcases List.mem_cons.1 hmem with h | h
        · rw [← h] at hne; exact absurd rfl hne
        · exact ih h s b hu hd r b' he
      · split at he
        · simp at he
        · split at he
          · rename_i hmod
            rcases List.mem_cons.1 hmem with h | h
            · rw [← h] at hmod; simp [Nat.mod_one] at hmod
            · exact ih h s b hu hd r b' he
          · have hc : env.call nm s.epoch s.update s.logs s.w = (s.w, .stop .none) := by
              rw [hk]
              unfold progressHook
              rw [if_neg (by omega), if_neg]
              · rw [if_neg (by rw [hu, Nat.mul_mod_left]; omega), if_pos (by rw [hu, Nat.mul_mod_left]), hd]
                rfl
              · rintro ⟨-, hne⟩
                apply hne
                exact bar_ceil m s.epoch s.update 0 (by omega) (by omega)
            unfold callHook at he
            rw [hx, hc] at he
            simp only [addLog, Option.map_some, Bool.or_true] at he
            exact emitHooks_true _ _ _ _ _ _ he
    · have hmem' : (⟨nm, false, 1⟩ : Hook) ∈ hs := by
        rcases List.mem_cons.1 hmem with h | h
        · rw [← h] at hx; exact absurd rfl hx
        · exact h
      split at he
      · exact ih hmem' s b hu hd r b' he
      · split at he
        · simp at he
        · split at he
          · exact ih hmem' s b hu hd r b' he
          · have hp := hpriv.call x.name s.epoch s.update s.logs s.w hx
            unfold callHook at he
            rcases r1 : env.call x.name s.epoch s.update s.logs s.w with ⟨w, res⟩
            rw [r1] at he hp
            dsimp only at hp
            cases res with
            | error => simp at he
            | value v =>
              dsimp only at he
              cases hl : addLog x.name v s.logs with
              | none => rw [hl] at he; simp at he
              | some l =>
                rw [hl] at he
                exact ih hmem' ⟨w, l, s.epoch, s.update, _⟩ _ hu (by rw [← hd]; exact hp) r b' he
            | stop v =>
              dsimp only at he
              cases hl : addLog x.name v s.logs with
              | none => rw [hl] at he; simp at he
              | some l =>
                rw [hl] at he
                exact ih hmem' ⟨w, l, s.epoch, s.update, _⟩ _ hu (by rw [← hd]; exact hp) r b' he

/-- **C66** (`ProgressBar`, second training): if the trainer has completed some epochs of at least two batches with a progress bar, then
calling `train` again does nothing: the first call of the hook resumes the finished bar, which raises `StopIteration`, and the trainer
takes that as the wish to stop.  No update is made, whatever the other hooks are. -/
theorem C66_progress_bar_second_training (env : Env W V) (hooks : List Hook) (nm : Name) (m : Nat) (hm : 1 < m) (get : W → Option Bar)
    (set : Option Bar → W → W) (hk : env.call nm = progressHook m get set) (hpriv : Private env nm get)
    (hmem : (⟨nm, false, 1⟩ : Hook) ∈ hooks) (fuel : Nat) (s s' : St W V) (fin : Bool) (hu : s.update = s.epoch * m)
    (hd : get s.w = some .done) (ht : train env hooks fuel s = some (s', fin)) :
    fin = true ∧ s'.epoch = s.epoch ∧ s'.update = s.update := by
  rw [train_bind] at ht
  cases he : emitHooks env false hooks s false with
  | none => rw [he] at ht; simp at ht
  | some r =>
    obtain ⟨r, b⟩ := r
    rw [he] at ht
    have hb := emit_done env nm m get set hk hpriv hm hooks hmem s false hu hd r b he
    subst hb
    simp only [Option.bind_some, if_true, Option.some.injEq, Prod.mk.injEq] at ht
    obtain ⟨rfl, rfl⟩ := ht
    obtain ⟨evs, -, h1, h2, -⟩ := emitHooks_spec env false hooks s r false true he
    exact ⟨rfl, h1, h2⟩

theorem mem_planBatches (hooks : List Hook) (sc : Bool) (nm : Name) (e e' u' : Nat) : ∀ (n u : Nat),
    Act.call sc nm e' u' ∈ planBatches hooks e u n → e' = e := by
  intro n
  induction n with
  | zero => intro u h; simp [planBatches] at h
  | succ n ih =>
    intro u h
    rw [planBatches, List.mem_cons, List.mem_append] at h
    rcases h with h | h | h
    · simp at h
    · unfold callsAt at h
      obtain ⟨_, -, h⟩ := List.mem_map.1 h
      simp only [Act.call.injEq] at h
      exact h.2.2.1.symm
    · exact ih _ h

theorem mem_planEpochs (hooks : List Hook) (sc : Bool) (nm : Name) (e' u' : Nat) : ∀ (ks : List Nat) (e u : Nat),
    Act.call sc nm e' u' ∈ planEpochs hooks e u ks → e < e' := by
  intro ks
  induction ks with
  | nil => intro e u h; simp [planEpochs] at h
  | cons k ks ih =>
    intro e u h
    rw [planEpochs, List.mem_append, List.mem_cons, List.mem_append] at h
    rcases h with h | h | h | h
    · rw [mem_planBatches _ _ _ _ _ _ _ _ h]; omega
    · simp at h
    · unfold callsAt at h
      obtain ⟨_, -, h⟩ := List.mem_map.1 h
      simp only [Act.call.injEq] at h
      omega
    · have := ih _ _ h
      omega

/-- **C66** (`ProgressBar`, training stopped within an epoch): if training was stopped within an epoch, it cannot be continued with a
progress bar: no later call of `train` gets beyond its first update, where the assertion of the hook fails (a result exists only if
some hook stops training before any update). -/
theorem C66_progress_bar_after_stop (env : Env W V) (hooks : List Hook) (nm : Name) (m : Nat) (hm : 0 < m) (get : W → Option Bar)
    (set : Option Bar → W → W) (hk : env.call nm = progressHook m get set) (hnd : (hooks.map Hook.name).Nodup)
    (hmem : (⟨nm, false, 1⟩ : Hook) ∈ hooks) (fuel : Nat) (s s' : St W V) (fin : Bool) (h0 : s.trace = []) (hu : s.update < s.epoch * m)
    (ht : train env hooks fuel s = some (s', fin)) : s'.update = s.update := by
  by_contra hne
  obtain ⟨h1, -, -, h2, -⟩ := C34_schedule env hooks fuel s s' fin h0 ht
  have hcall := h2 (s.update + 1)
  rw [if_pos (by omega)] at hcall
  have hdue := (mem_due hooks nm false 1 hmem hnd false (s.update + 1)).2 ⟨rfl, by simp⟩
  rw [← hcall] at hdue
  unfold updateCalls at hdue
  obtain ⟨a, ha, haa⟩ := List.mem_filterMap.1 hdue
  have hact : ∃ e, a = .call false nm e (s.update + 1) := by
    cases a with
    | batch _ _ => simp at haa
    | rolling _ => simp at haa
    | call sc n e u =>
      cases sc with
      | true => simp at haa
      | false =>
        dsimp only at haa
        split at haa
        · rename_i hu'
          simp only [Option.some.injEq] at haa
          exact ⟨e, by rw [haa, hu']⟩
        · simp at haa
  obtain ⟨e, rfl⟩ := hact
  have hlt : s.epoch < e := by
    rcases C34_trace env hooks fuel s s' fin h0 ht with ⟨⟨-, -, h3, -⟩, -⟩ | ⟨ks, h3, -⟩
    · exact absurd h3 hne
    · rw [h3, List.mem_append, List.mem_append] at ha
      have hno : ∀ sc, Act.call false nm e (s.update + 1) ∉ callsAt hooks sc s.epoch s.update := by
        intro sc hm'
        unfold callsAt at hm'
        obtain ⟨_, -, hm'⟩ := List.mem_map.1 hm'
        simp only [Act.call.injEq] at hm'
        omega
      rcases ha with h | h | h
      · exact absurd h (hno _)
      · exact absurd h (hno _)
      · exact mem_planEpochs _ _ _ _ _ _ _ _ h
  obtain ⟨ev, hev, heva⟩ := List.mem_map.1 ha
  cases ev with
  | batch _ _ => simp [Event.act] at heva
  | rolling _ _ => simp [Event.act] at heva
  | call sc n e' u' st v =>
    simp only [Event.act, Act.call.injEq] at heva
    obtain ⟨rfl, rfl, rfl, rfl⟩ := heva
    obtain ⟨pre, post, hsplit⟩ := List.append_of_mem hev
    obtain ⟨logs, w, hres, -⟩ := C66_logs_shown env hooks fuel s s' fin h0 ht pre post _ _ _ _ _ _ hsplit
    rw [hk] at hres
    unfold progressHook at hres
    rw [if_neg (by omega), if_pos] at hres
    · cases st <;> simp at hres
    · refine ⟨by omega, ?_⟩
      have : (s.update + 1 + m - 1) / m < s.epoch + 1 := by
        rw [Nat.div_lt_iff_lt_mul hm, Nat.succ_mul]
        omega
      omega

/-! ## A training run with these hooks -/

/-- A network with one number, the parts of the world that belong to hooks, and the step sizes used. -/
structure Demo where
  n : Nat
  bar : Option Bar
  rate : Nat
  saved : Saved Nat Nat
  used : List Nat

def demoLoss : Nat → Nat
  | 2 => 9
  | 4 => 5
  | 6 => 7
  | 8 => 5
  | _ => 6

def demoPath : List Name := [str "rolling_training"]

/-- Two batches per epoch, a training loss of 9, 5, 7, 5, 6. -/
def demo : Env Demo Nat where
  call name := if name = str "early" then earlyStopperHook .min 3 demoPath
    else if name = str "bar" then progressHook 2 Demo.bar (fun b w => { w with bar := b })
    else if name = str "rate" then modifyHook (fun e _ => some (100 - 10 * e)) (fun a w => { w with rate := a })
    else if name = str "best" then saveBestHook .min demoPath true Demo.saved (fun x w => { w with saved := x }) Demo.n
    else fun e _ _ w => (w, .value (.leaf e))
  step w := { w with n := w.n + 1, used := w.used ++ [w.rate] }
  batches _ := 2
  rolling w := .leaf (demoLoss w.n)

def demoList : List Hook := [⟨str "bar", false, 1⟩, ⟨str "rate", true, 2⟩, ⟨str "best", true, 1⟩, ⟨str "early", true, 1⟩, ⟨str "monitor", true, 1⟩]

def demoStart : St Demo Nat := ⟨⟨0, none, 50, ⟨1000, none, none⟩, []⟩, [], 0, 0, []⟩

/-- Training ends after epoch 5, because the best loss is that of epoch 2; that network is stored; the step sizes are those of
the counts 0, 2 and 4. -/
example : (train demo demoList 9 demoStart).map (fun r => (r.2, r.1.epoch, r.1.update, r.1.w.used)) =
      some (true, 5, 10, [100, 100, 100, 100, 80, 80, 80, 80, 60, 60]) ∧
    (train demo demoList 9 demoStart).map (fun r => (r.1.w.saved.best, r.1.w.saved.bestT, r.1.w.saved.params, r.1.w.bar)) =
      some (5, some 2, some 4, some .done) ∧
    (train demo demoList 9 demoStart).map (fun r => leafAt r.1.logs demoPath) = some (some [9, 5, 7, 5, 6]) := by
  refine ⟨?_, ?_, ?_⟩ <;> decide +kernel

/-- A second training with a progress bar makes no update, one without does. -/
example : ((train demo [⟨str "bar", false, 1⟩, ⟨str "monitor", true, 1⟩] 3 demoStart).bind (fun r =>
      (train demo [⟨str "bar", false, 1⟩, ⟨str "monitor", true, 1⟩] 3 { r.1 with trace := [] }).map (fun r => (r.1.update, r.2)))) = some (6, true) ∧
    ((train demo [⟨str "bar", false, 1⟩, ⟨str "monitor", true, 1⟩] 3 demoStart).bind (fun r =>
      (train demo [⟨str "monitor", true, 1⟩] 3 { r.1 with trace := [] }).map (fun r => (r.1.update, r.2)))) = some (12, false) := by
  refine ⟨?_, ?_⟩ <;> decide +kernel

example : demo.call (str "early") = earlyStopperHook .min 3 demoPath ∧
    demo.call (str "bar") = progressHook 2 Demo.bar (fun b w => { w with bar := b }) ∧
    (demoList.map Hook.name).Nodup ∧ Private demo (str "rate") Demo.rate := by
  refine ⟨rfl, rfl, by decide, fun _ => rfl, ?_⟩
  intro nm e u logs w hn
  unfold demo
  dsimp only
  rw [if_neg (show ¬ (nm = str "rate") from hn)]
  split
  · rfl
  · split
    · unfold progressHook
      split
      · rfl
      · split
        · rfl
        · split
          · rfl
          · split <;> split <;> first | rfl | (split <;> rfl)
    · split
      · unfold saveBestHook
        split
        · rfl
        · split <;> rfl
      · rfl

end Verif.Training
