import Verif.Training.TrainerLemmas
import Mathlib.Data.List.Nodup

/-! # Properties of training: C34, C35, C36 -/

namespace Verif.Training

variable {W V : Type}

theorem updateCalls_append (a b : List Act) (u : Nat) : updateCalls (a ++ b) u = updateCalls a u ++ updateCalls b u := by
  simp [updateCalls]

theorem epochCalls_append (a b : List Act) (u : Nat) : epochCalls (a ++ b) u = epochCalls a u ++ epochCalls b u := by
  simp [epochCalls]

theorem batchNumbers_append (a b : List Act) : batchNumbers (a ++ b) = batchNumbers a ++ batchNumbers b := by
  simp [batchNumbers]

theorem updateCalls_at (hooks : List Hook) (e u x : Nat) :
    updateCalls (callsAt hooks false e u) x = if u = x then due hooks false x else [] := by
  unfold callsAt
  simp only [Bool.false_eq_true, if_false]
  by_cases h : u = x
  · subst h
    generalize due hooks false u = d
    induction d with
    | nil => simp [updateCalls]
    | cons a d ih => simp [updateCalls] at ih ⊢ <;> exact ih
  · generalize due hooks false u = d
    simp [updateCalls, h]

theorem epochCalls_at (hooks : List Hook) (e u x : Nat) :
    epochCalls (callsAt hooks true e u) x = if e = x then due hooks true x else [] := by
  unfold callsAt
  simp only [if_true]
  by_cases h : e = x
  · subst h
    generalize due hooks true e = d
    induction d with
    | nil => simp [epochCalls]
    | cons a d ih => simp [epochCalls] at ih ⊢ <;> exact ih
  · generalize due hooks true e = d
    simp [epochCalls, h]

theorem updateCalls_at_epoch (hooks : List Hook) (e u x : Nat) : updateCalls (callsAt hooks true e u) x = [] := by
  simp [callsAt, updateCalls]

theorem epochCalls_at_update (hooks : List Hook) (e u x : Nat) : epochCalls (callsAt hooks false e u) x = [] := by
  simp [callsAt, epochCalls]

theorem batchNumbers_at (hooks : List Hook) (sc : Bool) (e u : Nat) : batchNumbers (callsAt hooks sc e u) = [] := by
  simp [callsAt, batchNumbers]

theorem updateCalls_planBatches (hooks : List Hook) (e x : Nat) : ∀ (k u : Nat),
    updateCalls (planBatches hooks e u k) x = if u < x ∧ x ≤ u + k then due hooks false x else [] := by
  intro k
  induction k with
  | zero => intro u; rw [if_neg (by omega)]; rfl
  | succ k ih =>
    intro u
    have : planBatches hooks e u (k + 1) = [Act.batch e (u + 1)] ++ (callsAt hooks false e (u + 1) ++ planBatches hooks e (u + 1) k) := rfl
    rw [this, updateCalls_append, updateCalls_append, updateCalls_at, ih]
    have h0 : updateCalls [Act.batch e (u + 1)] x = [] := rfl
    rw [h0, List.nil_append]
    by_cases h : u + 1 = x
    · rw [if_pos h, if_neg (by omega), if_pos (by omega)]; simp
    · rw [if_neg h, List.nil_append]
      by_cases h2 : u < x ∧ x ≤ u + (k + 1)
      · rw [if_pos (by omega), if_pos h2]
      · rw [if_neg (by omega), if_neg h2]

theorem epochCalls_planBatches (hooks : List Hook) (e x : Nat) : ∀ (k u : Nat),
    epochCalls (planBatches hooks e u k) x = [] := by
  intro k
  induction k with
  | zero => intro u; rfl
  | succ k ih =>
    intro u
    have : planBatches hooks e u (k + 1) = [Act.batch e (u + 1)] ++ (callsAt hooks false e (u + 1) ++ planBatches hooks e (u + 1) k) := rfl
    rw [this, epochCalls_append, epochCalls_append, epochCalls_at_update, ih]
    rfl

theorem batchNumbers_planBatches (hooks : List Hook) (e : Nat) : ∀ (k u : Nat),
    batchNumbers (planBatches hooks e u k) = List.range' (u + 1) k := by
  intro k
  induction k with
  | zero => intro u; rfl
  | succ k ih =>
    intro u
    have : planBatches hooks e u (k + 1) = [Act.batch e (u + 1)] ++ (callsAt hooks false e (u + 1) ++ planBatches hooks e (u + 1) k) := rfl
    rw [this, batchNumbers_append, batchNumbers_append, batchNumbers_at, ih, List.range'_succ]
    rfl

theorem plan_split (hooks : List Hook) (e u k : Nat) (ks : List Nat) :
    planEpochs hooks e u (k :: ks) = planBatches hooks (e + 1) u k ++
      ([Act.rolling (e + 1)] ++ (callsAt hooks true (e + 1) (u + k) ++ planEpochs hooks (e + 1) (u + k) ks)) := rfl

theorem updateCalls_planEpochs (hooks : List Hook) (x : Nat) : ∀ (ks : List Nat) (e u : Nat),
    updateCalls (planEpochs hooks e u ks) x = if u < x ∧ x ≤ u + ks.sum then due hooks false x else [] := by
  intro ks
  induction ks with
  | nil => intro e u; rw [if_neg (by simp)]; rfl
  | cons k ks ih =>
    intro e u
    rw [plan_split, updateCalls_append, updateCalls_append, updateCalls_append, updateCalls_planBatches,
      updateCalls_at_epoch, ih]
    have h0 : updateCalls [Act.rolling (e + 1)] x = [] := rfl
    rw [h0, List.nil_append, List.nil_append, List.sum_cons]
    by_cases h1 : u < x ∧ x ≤ u + k
    · rw [if_pos h1, if_neg (by omega), if_pos (by omega), List.append_nil]
    · rw [if_neg h1, List.nil_append]
      by_cases h2 : u < x ∧ x ≤ u + (k + ks.sum)
      · rw [if_pos (by omega), if_pos h2]
      · rw [if_neg (by omega), if_neg h2]

theorem epochCalls_planEpochs (hooks : List Hook) (x : Nat) : ∀ (ks : List Nat) (e u : Nat),
    epochCalls (planEpochs hooks e u ks) x = if e < x ∧ x ≤ e + ks.length then due hooks true x else [] := by
  intro ks
  induction ks with
  | nil => intro e u; rw [if_neg (by simp)]; rfl
  | cons k ks ih =>
    intro e u
    rw [plan_split, epochCalls_append, epochCalls_append, epochCalls_append, epochCalls_planBatches,
      epochCalls_at, ih]
    have h0 : epochCalls [Act.rolling (e + 1)] x = [] := rfl
    rw [h0, List.nil_append, List.nil_append, List.length_cons]
    by_cases h1 : e + 1 = x
    · rw [if_pos h1, if_neg (by omega), if_pos (by omega), List.append_nil]
    · rw [if_neg h1, List.nil_append]
      by_cases h2 : e < x ∧ x ≤ e + (ks.length + 1)
      · rw [if_pos (by omega), if_pos h2]
      · rw [if_neg (by omega), if_neg h2]

theorem batchNumbers_planEpochs (hooks : List Hook) : ∀ (ks : List Nat) (e u : Nat),
    batchNumbers (planEpochs hooks e u ks) = List.range' (u + 1) ks.sum := by
  intro ks
  induction ks with
  | nil => intro e u; rfl
  | cons k ks ih =>
    intro e u
    rw [plan_split, batchNumbers_append, batchNumbers_append, batchNumbers_append, batchNumbers_planBatches,
      batchNumbers_at, ih]
    have h0 : batchNumbers [Act.rolling (e + 1)] = [] := rfl
    rw [h0, List.nil_append, List.nil_append, List.sum_cons, ← List.range'_append_1]
    congr 2
    omega

/-- Everything known about a run of `train`. -/
theorem train_spec (env : Env W V) (hooks : List Hook) (fuel : Nat) (s s' : St W V) (fin : Bool)
    (h : train env hooks fuel s = some (s', fin)) :
    ∃ evs, Ext env s s' evs ∧
      ((fin = true ∧ evs.map Event.act = callsAt hooks false s.epoch s.update ∧ s'.epoch = s.epoch ∧
          s'.update = s.update ∧ evs.any Event.isUpdateStop = true) ∨
       (∃ ks, evs.map Event.act = callsAt hooks false s.epoch s.update ++
            (callsAt hooks true s.epoch s.update ++ planEpochs hooks s.epoch s.update ks) ∧
          s'.epoch = s.epoch + ks.length ∧ s'.update = s.update + ks.sum ∧ ks.length ≤ fuel ∧
          (∀ m, (∀ w, env.batches w = m) → (∀ k ∈ ks.dropLast, k = m) ∧ (∀ k ∈ ks, k ≤ m) ∧
            (evs.any Event.isUpdateStop = false → ∀ k ∈ ks, k = m)) ∧
          (fin = false → ks.length = fuel))) ∧
      (fin = false → Quiet evs) ∧ (fin = true → Stopped s'.epoch s'.update evs) := by
  unfold train at h
  split at h
  · simp at h
  · rename_i s₁ he
    simp only [Option.some.injEq, Prod.mk.injEq] at h
    obtain ⟨rfl, rfl⟩ := h
    obtain ⟨evs, g1, g2, g3, g4, g5⟩ := emitHooks_spec env false hooks _ _ _ _ he
    rw [Bool.false_or] at g5
    refine ⟨evs, g1, .inl ⟨rfl, g4, g2, g3, ?_⟩, by simp, fun _ => ?_⟩
    · obtain ⟨ev, hev, hst⟩ := List.any_eq_true.1 g5.symm
      obtain ⟨nm, st, v, rfl⟩ := now_of_acts _ _ _ _ _ g4 ev hev
      exact List.any_eq_true.2 ⟨_, hev, hst⟩
    · rw [g2, g3]
      exact emission_stopped _ _ _ _ _ g4 g5.symm
  · rename_i s₁ he
    obtain ⟨evs, g1, g2, g3, g4, g5⟩ := emitHooks_spec env false hooks _ _ _ _ he
    rw [Bool.false_or] at g5
    have hq := quiet_of_any g5.symm
    split at h
    · simp at h
    · rename_i s₂ he2
      simp only [Option.some.injEq, Prod.mk.injEq] at h
      obtain ⟨rfl, rfl⟩ := h
      obtain ⟨evs', i1, i2, i3, i4, i5⟩ := emitHooks_spec env true hooks _ _ _ _ he2
      rw [Bool.false_or] at i5
      rw [g2, g3] at i4
      refine ⟨_, g1.trans i1, .inr ⟨[], by simp [g4, i4, planEpochs], by simp [i2, g2], by simp [i3, g3], by simp, by simp, by simp⟩,
        by simp, fun _ => ?_⟩
      rw [i2, i3, g2, g3]
      exact (emission_stopped _ _ _ _ _ i4 i5.symm).prepend hq
    · rename_i s₂ he2
      obtain ⟨evs', i1, i2, i3, i4, i5⟩ := emitHooks_spec env true hooks _ _ _ _ he2
      rw [Bool.false_or] at i5
      rw [g2, g3] at i4
      have hq2 := hq.append (quiet_of_any i5.symm)
      obtain ⟨evs'', ks, j1, j2, j3, j4, j5, j6, j7, j8⟩ := trainLoop_spec env hooks _ _ _ _ h
      rw [i2, i3, g2, g3] at j2
      refine ⟨_, (g1.trans i1).trans j1, .inr ⟨ks, by simp [g4, i4, j2], by simp [j3, i2, g2], by simp [j4, i3, g3], j5, ?_,
        fun hf => (j7 hf).2⟩, fun hf => hq2.append (j7 hf).1, fun hf => (j8 hf).prepend hq2⟩
      intro m hm
      obtain ⟨k1, k2, k3⟩ := j6 m hm
      refine ⟨k1, k2, fun hu => k3 ?_⟩
      rw [List.any_append, Bool.or_eq_false_iff] at hu
      exact hu.2

/-- An update hook asked to stop before any update. -/
def StoppedAtOnce (s s' : St W V) (fin : Bool) : Prop :=
  fin = true ∧ s'.epoch = s.epoch ∧ s'.update = s.update ∧ s'.trace.any Event.isUpdateStop = true

/-- **C34** (order of events): a training run first calls the update hooks due at the
current update count and then the epoch hooks due at the current epoch count; then it
processes epochs, each consisting of some number of batches, every batch followed by the
update hooks due, and at its end the epoch hooks due, always in the order in which the
hooks were added.  (If an update hook asks to stop in the first emission, nothing else
happens.) -/
theorem C34_trace (env : Env W V) (hooks : List Hook) (fuel : Nat) (s s' : St W V) (fin : Bool) (h0 : s.trace = [])
    (h : train env hooks fuel s = some (s', fin)) :
    (StoppedAtOnce s s' fin ∧ s'.trace.map Event.act = callsAt hooks false s.epoch s.update) ∨
    (∃ ks, s'.trace.map Event.act = callsAt hooks false s.epoch s.update ++
          (callsAt hooks true s.epoch s.update ++ planEpochs hooks s.epoch s.update ks) ∧
        s'.epoch = s.epoch + ks.length ∧ s'.update = s.update + ks.sum ∧
        (∀ m, (∀ w, env.batches w = m) → (∀ k ∈ ks.dropLast, k = m) ∧ (∀ k ∈ ks, k ≤ m))) := by
  obtain ⟨evs, h1, h2, -, -⟩ := train_spec env hooks fuel s s' fin h
  have ht : s'.trace = evs := by rw [h1.trace, h0, List.nil_append]
  rcases h2 with ⟨hf, h3, h4, h5, h6⟩ | ⟨ks, h3, h4, h5, -, h6, -⟩
  · exact .inl ⟨⟨hf, h4, h5, ht ▸ h6⟩, ht ▸ h3⟩
  · exact .inr ⟨ks, ht ▸ h3, h4, h5, fun m hm => ⟨(h6 m hm).1, (h6 m hm).2.1⟩⟩

/-- **C34** (which hooks are called when): the batches are numbered without gap from the
count at the start to the final count; at every update count from the one at the start to
the final one exactly the update hooks whose interval divides it are called, once each, in
the order they were added, and the same holds for epochs and epoch hooks.  The only
exception: if an update hook stops training in the first emission, no epoch hook is called. -/
theorem C34_schedule (env : Env W V) (hooks : List Hook) (fuel : Nat) (s s' : St W V) (fin : Bool) (h0 : s.trace = [])
    (h : train env hooks fuel s = some (s', fin)) :
    s.update ≤ s'.update ∧ s.epoch ≤ s'.epoch ∧
    batchNumbers (s'.trace.map Event.act) = List.range' (s.update + 1) (s'.update - s.update) ∧
    (∀ u, updateCalls (s'.trace.map Event.act) u = if s.update ≤ u ∧ u ≤ s'.update then due hooks false u else []) ∧
    ((∀ e, epochCalls (s'.trace.map Event.act) e = if s.epoch ≤ e ∧ e ≤ s'.epoch then due hooks true e else []) ∨
      (StoppedAtOnce s s' fin ∧ ∀ e, epochCalls (s'.trace.map Event.act) e = [])) := by
  rcases C34_trace env hooks fuel s s' fin h0 h with ⟨h1, h2⟩ | ⟨ks, h1, h2, h3, -⟩
  · obtain ⟨hf, h3, h4, h5⟩ := h1
    rw [h2, h3, h4]
    refine ⟨Nat.le_refl _, Nat.le_refl _, ?_, ?_, .inr ⟨⟨hf, h3, h4, h5⟩, fun e => epochCalls_at_update _ _ _ _⟩⟩
    · rw [batchNumbers_at, Nat.sub_self]; rfl
    · intro u
      rw [updateCalls_at]
      by_cases hu : s.update = u
      · rw [if_pos hu, if_pos (by omega)]
      · rw [if_neg hu, if_neg (by omega)]
  · rw [h1, h2, h3]
    refine ⟨by omega, by omega, ?_, ?_, .inl ?_⟩
    · rw [batchNumbers_append, batchNumbers_append, batchNumbers_at, batchNumbers_at, batchNumbers_planEpochs]
      simp
    · intro u
      rw [updateCalls_append, updateCalls_append, updateCalls_at, updateCalls_at_epoch, updateCalls_planEpochs, List.nil_append]
      by_cases hu : s.update = u
      · rw [if_pos hu, if_neg (by omega), if_pos (by omega), List.append_nil]
      · rw [if_neg hu, List.nil_append]
        by_cases h2 : s.update < u ∧ u ≤ s.update + ks.sum
        · rw [if_pos h2, if_pos (by omega)]
        · rw [if_neg h2, if_neg (by omega)]
    · intro e
      rw [epochCalls_append, epochCalls_append, epochCalls_at, epochCalls_at_update, epochCalls_planEpochs, List.nil_append]
      by_cases hu : s.epoch = e
      · rw [if_pos hu, if_neg (by omega), if_pos (by omega), List.append_nil]
      · rw [if_neg hu, List.nil_append]
        by_cases h2 : s.epoch < e ∧ e ≤ s.epoch + ks.length
        · rw [if_pos h2, if_pos (by omega)]
        · rw [if_neg h2, if_neg (by omega)]

/-- **C34** (logs): after training, the log under every path consists of what it was before
followed by the values the hooks returned and the training scores, in the order of the
events. -/
theorem C34_logs (env : Env W V) (hooks : List Hook) (fuel : Nat) (s s' : St W V) (fin : Bool) (h0 : s.trace = [])
    (h : train env hooks fuel s = some (s', fin)) (path : List Name) :
    valuesAt s'.logs path = valuesAt s.logs path ++ valuesOf (s'.trace.flatMap Event.leaves) path := by
  obtain ⟨evs, h1, -⟩ := train_spec env hooks fuel s s' fin h
  have ht : s'.trace = evs := by rw [h1.trace, h0, List.nil_append]
  rw [ht]
  exact h1.logs path

/-- **C35**: training has ended if and only if some hook asked to stop; the requests were all
made at the final epoch and update counts, and no batch is processed after a request.
Together with `C34_schedule`, which says that all hooks due at the final counts have been
called, a request does not keep the other hooks from being called. -/
theorem C35_stop (env : Env W V) (hooks : List Hook) (fuel : Nat) (s s' : St W V) (fin : Bool) (h0 : s.trace = [])
    (h : train env hooks fuel s = some (s', fin)) :
    (fin = true ↔ ∃ ev ∈ s'.trace, ev.isStop = true) ∧
    (∀ ev ∈ s'.trace, ev.isStop = true → ∃ sc name v, ev = .call sc name s'.epoch s'.update true v) ∧
    (∀ pre ev post, s'.trace = pre ++ ev :: post → ev.isStop = true → ∀ ev' ∈ post, ev'.isBatch = false) := by
  obtain ⟨evs, h1, -, h2, h3⟩ := train_spec env hooks fuel s s' fin h
  have ht : s'.trace = evs := by rw [h1.trace, h0, List.nil_append]
  rw [ht]
  cases fin with
  | false =>
    have := h2 rfl
    refine ⟨⟨by simp, fun ⟨ev, hev, hs⟩ => by rw [this ev hev] at hs; simp at hs⟩, ?_, ?_⟩
    · intro ev hev hs
      rw [this ev hev] at hs; simp at hs
    · intro pre ev post he hs
      rw [this ev (by rw [he]; simp)] at hs; simp at hs
  | true =>
    obtain ⟨pre, post, rfl, g1, g2, g3, g4⟩ := h3 rfl
    refine ⟨⟨fun _ => ?_, fun _ => rfl⟩, ?_, ?_⟩
    · obtain ⟨ev, hev, hs⟩ := List.any_eq_true.1 g4
      exact ⟨ev, List.mem_append_right _ hev, hs⟩
    · intro ev hev hs
      rcases List.mem_append.1 hev with hev | hev
      · rw [g1 ev hev] at hs; simp at hs
      · exact g3 ev hev hs
    · intro pre' ev post' he hs ev' hev'
      apply g2
      rcases List.append_eq_append_iff.1 he with ⟨c, hc1, hc2⟩ | ⟨c, hc1, hc2⟩
      · rw [hc2]; simp [hev']
      · cases c with
        | nil => simp at hc2; rw [← hc2]; simp [hev']
        | cons x xs =>
          simp only [List.cons_append, List.cons.injEq] at hc2
          obtain ⟨rfl, rfl⟩ := hc2
          exfalso
          rw [g1 ev (by rw [hc1]; simp)] at hs
          simp at hs

/-- **C35** (before training): if a hook asks to stop at the counts training starts with, no
batch is processed. -/
theorem C35_stop_at_start (env : Env W V) (hooks : List Hook) (fuel : Nat) (s s' : St W V) (fin : Bool) (h0 : s.trace = [])
    (h : train env hooks fuel s = some (s', fin))
    (hstop : ∃ sc name e u v, (.call sc name e u true v : Event V) ∈ s'.trace ∧ e = s.epoch) :
    s'.update = s.update ∧ batchNumbers (s'.trace.map Event.act) = [] := by
  obtain ⟨sc, name, e, u, v, hm, rfl⟩ := hstop
  obtain ⟨-, h2, -⟩ := C35_stop env hooks fuel s s' fin h0 h
  obtain ⟨_, _, _, he⟩ := h2 _ hm rfl
  simp only [Event.call.injEq] at he
  obtain ⟨-, -, he, -⟩ := he
  have hb := (C34_schedule env hooks fuel s s' fin h0 h).2.2.1
  rcases C34_trace env hooks fuel s s' fin h0 h with ⟨⟨-, -, h3, -⟩, -⟩ | ⟨ks, -, h3, h4, -⟩
  · rw [hb, h3]; simp
  · have : ks = [] := List.length_eq_zero_iff.1 (by omega)
    subst this
    simp only [List.sum_nil, Nat.add_zero] at h4
    rw [hb, h4]; simp

/-- **C35** (at an update): training ended by a request of an update hook processes no further
batch of the epoch; training without such a request processes all batches of every epoch. -/
theorem C35_complete_epochs (env : Env W V) (hooks : List Hook) (fuel : Nat) (s s' : St W V) (fin : Bool) (h0 : s.trace = [])
    (h : train env hooks fuel s = some (s', fin)) (m : Nat) (hm : ∀ w, env.batches w = m)
    (hu : ∀ ev ∈ s'.trace, ev.isUpdateStop = false) :
    s'.update = s.update + (s'.epoch - s.epoch) * m := by
  obtain ⟨evs, h1, h2, -, -⟩ := train_spec env hooks fuel s s' fin h
  have ht : s'.trace = evs := by rw [h1.trace, h0, List.nil_append]
  have hu' : evs.any Event.isUpdateStop = false := by
    rw [List.any_eq_false]
    intro ev hev
    rw [hu ev (ht ▸ hev)]
    simp
  rcases h2 with ⟨-, -, -, -, h6⟩ | ⟨ks, -, h4, h5, -, h6, -⟩
  · rw [hu'] at h6; simp at h6
  · have hk := (h6 m hm).2.2 hu'
    have hsum : ks.sum = ks.length * m := by
      clear h4 h5 h6
      induction ks with
      | nil => simp
      | cons k ks ih =>
        have := ih (fun x hx => hk x (List.mem_cons_of_mem _ hx))
        rw [List.sum_cons, this, hk k List.mem_cons_self, List.length_cons, Nat.add_mul]
        omega
    rw [h5, h4, hsum]
    congr 2
    omega

/-- `StopAfterEpoch(n)` (hooks.py:536-541) is the hook `nm`: it asks to stop exactly if the epoch
count is at least `n`; no other hook ever does. -/
def OnlyStopsAfterEpoch (env : Env W V) (nm : Name) (n : Nat) : Prop :=
  ∀ name e u logs w, (∃ v, (env.call name e u logs w).2 = .stop v) ↔ (name = nm ∧ n ≤ e)

/-- **C36**: with `StopAfterEpoch(n)` called every epoch and no other hook that stops, a fresh
trainer runs exactly `n` epochs and `n` times the number of batches updates, and it does end. -/
theorem C36_stop_after_epoch (env : Env W V) (hooks : List Hook) (fuel n m : Nat) (nm : Name) (s s' : St W V) (fin : Bool)
    (h0 : s.trace = []) (he : s.epoch = 0) (hu : s.update = 0)
    (hm : ∀ w, env.batches w = m)
    (hin : (⟨nm, true, 1⟩ : Hook) ∈ hooks) (hnames : (hooks.map Hook.name).Nodup)
    (hbeh : OnlyStopsAfterEpoch env nm n)
    (h : train env hooks fuel s = some (s', fin)) (hfuel : n ≤ fuel) :
    fin = true ∧ s'.epoch = n ∧ s'.update = n * m ∧
      batchNumbers (s'.trace.map Event.act) = List.range' 1 (n * m) := by
  have hex := train_spec env hooks fuel s s' fin h
  obtain ⟨evs, h1, h2, hquiet, hstopped⟩ := hex
  have ht : s'.trace = evs := by rw [h1.trace, h0, List.nil_append]
  -- what a call event says
  have hcall : ∀ sc name e u st v, (.call sc name e u st v : Event V) ∈ s'.trace → (st = true ↔ (name = nm ∧ n ≤ e)) := by
    intro sc name e u st v hmem
    obtain ⟨logs, w, hw⟩ := h1.beh _ (ht ▸ hmem)
    rw [← hbeh name e u logs w]
    cases st with
    | true => simp [hw]
    | false => simp [hw]
  -- the hook is never called as an update hook
  have hdue : ∀ u, nm ∉ due hooks false u := by
    intro u hmem
    unfold due at hmem
    obtain ⟨hk, hk1, hk2⟩ := List.mem_map.1 hmem
    simp only [List.mem_filter, Bool.and_eq_true, decide_eq_true_eq] at hk1
    have := List.inj_on_of_nodup_map hnames hk1.1 hin hk2
    rw [this] at hk1
    simp at hk1
  have hdue2 : ∀ e, nm ∈ due hooks true e := by
    intro e
    unfold due
    exact List.mem_map.2 ⟨⟨nm, true, 1⟩, List.mem_filter.2 ⟨hin, by simp⟩, rfl⟩
  have hmemU : ∀ name e u st v, (.call false name e u st v : Event V) ∈ s'.trace → name ∈ updateCalls (s'.trace.map Event.act) u := by
    intro name e u st v hmem
    unfold updateCalls
    exact List.mem_filterMap.2 ⟨.call false name e u, List.mem_map.2 ⟨_, hmem, rfl⟩, by simp⟩
  obtain ⟨c1, c2, c3, c4, c5⟩ := C34_schedule env hooks fuel s s' fin h0 h
  have hnoU : ∀ ev ∈ s'.trace, ev.isUpdateStop = false := by
    intro ev hev
    cases ev with
    | batch => rfl
    | rolling => rfl
    | call sc name e u st v =>
      cases sc with
      | true => rfl
      | false =>
        cases st with
        | false => rfl
        | true =>
          exfalso
          have := ((hcall _ _ _ _ _ _ hev).1 rfl).1
          subst this
          have := hmemU _ _ _ _ _ hev
          rw [c4] at this
          split at this
          · exact hdue _ this
          · simp at this
  have hep : ∀ e, epochCalls (s'.trace.map Event.act) e = if s.epoch ≤ e ∧ e ≤ s'.epoch then due hooks true e else [] := by
    rcases c5 with c5 | ⟨⟨-, -, -, c6⟩, -⟩
    · exact c5
    · obtain ⟨ev, hev, hs⟩ := List.any_eq_true.1 c6
      rw [hnoU ev hev] at hs
      simp at hs
  obtain ⟨d1, d2, -⟩ := C35_stop env hooks fuel s s' fin h0 h
  -- every completed epoch at or after n carries a stop request
  have hreach : ∀ e, n ≤ e → e ≤ s'.epoch → ∃ u v, (.call true nm e u true v : Event V) ∈ s'.trace := by
    intro e hne hle
    have hmem : nm ∈ epochCalls (s'.trace.map Event.act) e := by
      rw [hep, if_pos ⟨by omega, hle⟩]; exact hdue2 e
    unfold epochCalls at hmem
    obtain ⟨a, ha, ha2⟩ := List.mem_filterMap.1 hmem
    obtain ⟨ev, hev, rfl⟩ := List.mem_map.1 ha
    cases ev with
    | batch => simp [Event.act] at ha2
    | rolling => simp [Event.act] at ha2
    | call sc name e' u st v =>
      cases sc with
      | false => simp [Event.act] at ha2
      | true =>
        simp only [Event.act] at ha2
        split at ha2
        · rename_i hee
          simp only [Option.some.injEq] at ha2
          subst ha2 hee
          have := (hcall _ _ _ _ _ _ hev).2 ⟨rfl, hne⟩
          subst this
          exact ⟨u, v, hev⟩
        · simp at ha2
  have hfin : fin = true := by
    cases hf : fin with
    | true => rfl
    | false =>
      exfalso
      rcases h2 with ⟨hf', -⟩ | ⟨ks, -, e1, -, -, -, e2⟩
      · rw [hf] at hf'; simp at hf'
      · have := e2 hf
        obtain ⟨u, v, hmem⟩ := hreach n (Nat.le_refl _) (by omega)
        have := d1.2 ⟨_, hmem, rfl⟩
        rw [hf] at this
        simp at this
  have hge : n ≤ s'.epoch := by
    obtain ⟨ev, hev, hs⟩ := d1.1 hfin
    obtain ⟨sc, name, v, rfl⟩ := d2 ev hev hs
    exact ((hcall _ _ _ _ _ _ hev).1 rfl).2
  have heq : s'.epoch = n := by
    obtain ⟨u, v, hmem⟩ := hreach n (Nat.le_refl _) hge
    obtain ⟨_, _, _, hcv⟩ := d2 _ hmem rfl
    simp only [Event.call.injEq] at hcv
    exact hcv.2.2.1.symm
  have hupd := C35_complete_epochs env hooks fuel s s' fin h0 h m hm hnoU
  rw [he, hu, heq] at hupd
  simp only [Nat.sub_zero, Nat.zero_add] at hupd
  refine ⟨hfin, heq, hupd, ?_⟩
  rw [c3, hu, hupd]
  simp

/-! ### A concrete run

Two epochs of two batches; an update hook every three updates and a recording epoch hook
besides `StopAfterEpoch(2)`. -/

/-- Two batches per epoch; the hook `stop` is `StopAfterEpoch(2)`, `rec` returns the epoch. -/
def demoEnv : Env Nat Nat where
  call name e _ _ w := if name = str "stop" then (w, if 2 ≤ e then .stop .none else .value .none) else (w, .value (.leaf e))
  step w := w + 1
  batches _ := 2
  rolling w := .leaf w

def demoHooks : List Hook := [⟨str "rec", true, 2⟩, ⟨str "stop", true, 1⟩, ⟨str "upd", false, 3⟩]

example : OnlyStopsAfterEpoch demoEnv (str "stop") 2 := by
  intro name e u logs w
  by_cases h : name = str "stop" <;> by_cases h2 : 2 ≤ e <;> simp [demoEnv, h, h2]

example : ((train demoEnv demoHooks 5 ⟨0, [], 0, 0, []⟩).map (fun r =>
    (r.1.epoch, r.1.update, r.2, valuesAt r.1.logs [str "rec"], valuesAt r.1.logs [str "rolling_training"]))) =
      some (2, 4, true, [0, 2], [2, 4]) := by decide +kernel

example : ((train demoEnv demoHooks 5 ⟨0, [], 0, 0, []⟩).map (fun r => r.1.trace.map Event.act)) =
    some [.call false (str "upd") 0 0, .call true (str "rec") 0 0, .call true (str "stop") 0 0,
      .batch 1 1, .batch 1 2, .rolling 1, .call true (str "stop") 1 2,
      .batch 2 3, .call false (str "upd") 2 3, .batch 2 4, .rolling 2, .call true (str "rec") 2 4,
      .call true (str "stop") 2 4] := by decide +kernel

end Verif.Training
