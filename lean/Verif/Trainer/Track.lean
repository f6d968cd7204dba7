import Verif.Trainer.Lemmas

/-! # Proofs for C82: a training with hooks follows the training without -/

namespace Verif.Trainer

open Verif.Structure Verif.Layout Verif.Buffers Verif.Memory Verif.Session
open Verif.Determined (Same CanTrain SameMods Algorithm Determines)
open Verif.Training (Env Hook HookImpl Val Log Logs Res Crit Saved Event St Step)

/-- What is known about the training. -/
structure Known (layers : List LayerInfo) (L : Layout) (data : LayerInfo) (rest : List LayerInfo) (P : ℕ → ℕ → List MLayer)
    (report : ℕ → ℕ → Mem → Option ℝ) (alg : Algorithm) (Z : Setting alg.Memory) : Prop where
  net : Z.net = netOf layers L
  input : Z.input = data.name
  sited : Sited layers L data rest P
  sitedQ : Sited layers L data rest Z.Q
  reports : Reports P report
  reportsQ : Reports Z.Q report
  det : Determines layers L data P
  losses : ∀ T B m, report T B m = Dict.get? (Z.losses T B m) (str "total_loss")
  keys : ∀ T B m, Dict.keys (Z.losses T B m) = Z.names
  names : Z.names.Nodup ∧ str "total_loss" ∈ Z.names
  stepper : ∀ lr μ, Z.stepper lr μ = alg.run (netOf layers L) P lr μ
  good : ∀ e, ∀ b ∈ Z.epochs e, b.Good data
  full : ∀ e, Z.epochs e ≠ []
  monitors : ∀ nm dt sc, Dict.get? Z.hooks nm = some (.monitor dt sc) → ∀ e u, ∀ b ∈ dt e u, b.Good data

section
variable {layers : List LayerInfo} {L : Layout} {data : LayerInfo} {rest : List LayerInfo} {P : ℕ → ℕ → List MLayer}
variable {report : ℕ → ℕ → Mem → Option ℝ} {alg : Algorithm} {Z : Setting alg.Memory}

/-- The training without hooks. -/
noncomputable abbrev Setting.plain (Z : Setting alg.Memory) (report : ℕ → ℕ → Mem → Option ℝ) (rates : ℕ → ℝ × ℝ)
    (s : Constrained.Run alg.Memory) (k : ℕ) : Option (Constrained.Run alg.Memory × List ℝ) :=
  Constrained.train Z.net Z.input Z.Q report (fun k => Z.stepper (rates k).1 (rates k).2) (batchNr Z.epochs) (fun _ => []) s k

/-- A state is where the training without hooks is after as many updates. -/
structure Here (layers : List LayerInfo) (L : Layout) (Z : Setting alg.Memory) (u₀ : ℕ) (r : ℕ → Constrained.Run alg.Memory) (loss : ℕ → ℝ)
    (y : St (World alg.Memory) ℝ) : Prop where
  failed : y.w.failed = false
  count : y.update = u₀ + y.w.nr Z.epochs
  pos : y.w.done ≤ (Z.epochs y.w.epoch).length
  began : 0 < y.w.nr Z.epochs → 0 < y.w.done
  same : Same layers (r (y.w.nr Z.epochs)) y.w.run
  can : CanTrain layers Z.net (alg.Ok (paramCount layers L)) y.w.run
  scores : y.w.scores.map (fun x => (x.1, Dict.get? x.2 (str "total_loss"))) =
    (List.range' (batchesBefore Z.epochs y.w.epoch) y.w.done).map fun j => ((batchNr Z.epochs j).B, some (loss j))

theorem Here.congr {u₀ : ℕ} {r r' : ℕ → Constrained.Run alg.Memory} {loss loss' : ℕ → ℝ} {y : St (World alg.Memory) ℝ}
    (h : Here layers L Z u₀ r loss y) (h1 : r' (y.w.nr Z.epochs) = r (y.w.nr Z.epochs)) (h2 : ∀ j < y.w.nr Z.epochs, loss' j = loss j) :
    Here layers L Z u₀ r' loss' y := by
  refine ⟨h.failed, h.count, h.pos, h.began, h1 ▸ h.same, h.can, ?_⟩
  rw [h.scores]
  refine List.map_congr_left fun j hj => ?_
  obtain ⟨i, hi, rfl⟩ := List.mem_range'.1 hj
  rw [h2]
  unfold World.nr
  omega

/-- A hook leaves the training where it is. -/
theorem call_here (K : Known layers L data rest P report alg Z) {u₀ : ℕ} {r : ℕ → Constrained.Run alg.Memory} {loss : ℕ → ℝ}
    {y y' : St (World alg.Memory) ℝ} (h : Here layers L Z u₀ r loss y) (nm : Name) (e u : ℕ) (logs : Logs ℝ)
    (hw : y'.w = (Z.call nm e u logs y.w).1) (hu : y'.update = y.update) :
    Here layers L Z u₀ r loss y' ∧ y'.w.nr Z.epochs = y.w.nr Z.epochs ∧
      y'.w.run.st.read (str "parameters") = y.w.run.st.read (str "parameters") := by
  have triv : ∀ w : World alg.Memory, y'.w = w → w.failed = y.w.failed → w.epoch = y.w.epoch → w.done = y.w.done →
      w.scores = y.w.scores → w.run = y.w.run → Here layers L Z u₀ r loss y' ∧ y'.w.nr Z.epochs = y.w.nr Z.epochs ∧
      y'.w.run.st.read (str "parameters") = y.w.run.st.read (str "parameters") := by
    rintro w rfl h1 h2 h3 h4 h5
    have hn : y'.w.nr Z.epochs = y.w.nr Z.epochs := by unfold World.nr; rw [h2, h3]
    refine ⟨⟨h1.trans h.failed, by rw [hu, hn, h.count], by rw [h2, h3]; exact h.pos, by rw [hn, h3]; exact h.began, by rw [hn, h5]; exact h.same,
      h5 ▸ h.can, by rw [h4, h2, h3]; exact h.scores⟩, hn, by rw [h5]⟩
  unfold Setting.call at hw
  cases hg : Dict.get? Z.hooks nm with
  | none => rw [hg] at hw; exact triv _ hw rfl rfl rfl rfl rfl
  | some x =>
    rw [hg] at hw
    cases x with
    | watch look => exact triv _ hw rfl rfl rfl rfl rfl
    | modifyLr sch =>
      simp only [Training.modifyHook] at hw
      split at hw <;> exact triv _ hw rfl rfl rfl rfl rfl
    | modifyMomentum sch =>
      simp only [Training.modifyHook] at hw
      split at hw <;> exact triv _ hw rfl rfl rfl rfl rfl
    | saveBest c path sc =>
      simp only [Training.saveBestHook] at hw
      split at hw
      · exact triv _ hw rfl rfl rfl rfl rfl
      · split at hw <;> exact triv _ hw rfl rfl rfl rfl rfl
    | monitor dt sc =>
      simp only [Setting.monitor] at hw
      split at hw
      · exact triv _ hw rfl rfl rfl rfl rfl
      split at hw
      · rename_i v st hv hst
        have hgood := K.monitors nm dt sc hg e u
        obtain ⟨T, B, sz, k, vs, i⟩ := (Determined.CanTrain.fine K.sited.laid (K.net ▸ h.can)).inv
        obtain ⟨st', _, _, _, _, _, e1, -, e2⟩ := evaluate_spec K.sitedQ (dt e u) hgood i
        rw [K.net, K.input, e1] at hst
        cases hst
        have hn : y'.w.nr Z.epochs = y.w.nr Z.epochs := by unfold World.nr; rw [hw]
        have hp : y'.w.run.st.read (str "parameters") = y.w.run.st.read (str "parameters") := by rw [hw]; exact e2
        refine ⟨⟨?_, by rw [hu, hn, h.count], ?_, ?_, ?_, ?_, ?_⟩, hn, hp⟩
        · rw [hw]; exact h.failed
        · rw [hw]; exact h.pos
        · rw [hn, hw]; exact h.began
        · rw [hn]
          refine ⟨h.same.parameters.trans hp.symm, ?_, ?_, ?_⟩ <;> rw [hw]
          · exact h.same.mem
          · exact h.same.grads
          · exact h.same.weights
        · rw [hw]
          exact ⟨Constrained.evaluate_reachable _ h.can.state (K.net ▸ e1), h.can.mem, h.can.grads, h.can.weights⟩
        · rw [hw]; exact h.scores
      · exact triv _ hw rfl rfl rfl rfl rfl

/-- One batch, with and without hooks. -/
theorem batch_round (K : Known layers L data rest P report alg Z) {u₀ : ℕ} {r : ℕ → Constrained.Run alg.Memory} {loss : ℕ → ℝ}
    {y : St (World alg.Memory) ℝ} (h : Here layers L Z u₀ r loss y)
    (hc : CanTrain layers Z.net (alg.Ok (paramCount layers L)) (r (y.w.nr Z.epochs))) :
    ∃ t t' x d, Constrained.round Z.net Z.input Z.Q report (Z.stepper y.w.lr y.w.momentum) (batchNr Z.epochs (y.w.nr Z.epochs)) []
        (r (y.w.nr Z.epochs)) = some (t, x) ∧ Same layers t t' ∧ CanTrain layers Z.net (alg.Ok (paramCount layers L)) t ∧
      CanTrain layers Z.net (alg.Ok (paramCount layers L)) t' ∧ Dict.get? d (str "total_loss") = some x ∧
      Z.step y.w = some { y.w with
        run := t', epoch := (Z.position y.w).1, done := (Z.position y.w).2.1 + 1,
        scores := (Z.position y.w).2.2 ++ [((batchNr Z.epochs (y.w.nr Z.epochs)).B, d)] } := by
  obtain ⟨p1, p2⟩ := position_spec (Z := Z) K.full h.pos
  have hb : (Z.epochs (Z.position y.w).1)[(Z.position y.w).2.1]? = some (batchNr Z.epochs (y.w.nr Z.epochs)) := by
    rw [List.getElem?_eq_getElem p2, ← p1, batchNr_eq K.full (List.getElem?_eq_getElem p2)]
  have hgood := K.good _ _ (List.mem_of_getElem? hb)
  generalize batchNr Z.epochs (y.w.nr Z.epochs) = b at hb hgood ⊢
  obtain ⟨rule, lossf, hf, hfun⟩ := Determined.algorithm_follows K.sited K.det hgood K.reports alg y.w.lr y.w.momentum
  obtain ⟨t, t', x, e1, e2, f1, f2, hs⟩ := Determined.round_same K.sited K.sitedQ K.sitedQ K.reports hf hfun hgood (evals := []) (evals' := [])
    (by simp) (by simp) (Determined.CanTrain.fine K.sited.laid (K.net ▸ hc)) (Determined.CanTrain.fine K.sited.laid (K.net ▸ h.can)) h.same
  rw [← K.stepper, ← K.net, ← K.input] at e1 e2
  have hreach : ∀ s u : Constrained.Run alg.Memory, Reachable Z.net s.st →
      Constrained.round Z.net Z.input Z.Q report (Z.stepper y.w.lr y.w.momentum) b [] s = some (u, x) → Reachable Z.net u.st := by
    intro s u h1 h2
    have h3 : Constrained.train Z.net Z.input Z.Q report (fun _ => Z.stepper y.w.lr y.w.momentum) (fun _ => b) (fun _ => []) s 1 =
        some (u, [x]) := by
      simp only [Constrained.train, Option.bind_some, h2, Option.map_some, List.nil_append]
    refine Determined.train_reachable (fun _ => ?_) h1 1 h3
    rw [K.stepper, K.net]
    exact Determined.algorithm_proper _ _ _ _ alg
  obtain ⟨d, d1, d2⟩ := step_of_round K.losses hb e2
  exact ⟨t, t', x, d, e1, hs, ⟨hreach _ _ hc.state e1, f1.mem, f1.grads, f1.weights⟩, ⟨hreach _ _ h.can.state e2, f2.mem, f2.grads, f2.weights⟩,
    d1, d2⟩

/-- The events so far, and the training without hooks. -/
structure Tracks (layers : List LayerInfo) (L : Layout) (Z : Setting alg.Memory) (report : ℕ → ℕ → Mem → Option ℝ) (s : St (World alg.Memory) ℝ)
    (rates : ℕ → ℝ × ℝ) (r : ℕ → Constrained.Run alg.Memory) (loss : ℕ → ℝ) (evs : List (St (World alg.Memory) ℝ × Event ℝ))
    (x : St (World alg.Memory) ℝ) : Prop where
  here : Here layers L Z s.update r loss x
  past : ∀ p ∈ evs, Here layers L Z s.update r loss p.1 ∧ p.1.w.nr Z.epochs ≤ x.w.nr Z.epochs
  batch : ∀ p ∈ evs, p.2.isBatch = true → p.1.w.nr Z.epochs < x.w.nr Z.epochs ∧ rates (p.1.w.nr Z.epochs) = (p.1.w.lr, p.1.w.momentum)
  each : ∀ k < x.w.nr Z.epochs, ∃ p ∈ evs, p.2.isBatch = true ∧ p.1.w.nr Z.epochs = k
  plain : ∀ k ≤ x.w.nr Z.epochs, Z.plain report rates s.w.run k = some (r k, (List.range k).map loss) ∧
    CanTrain layers Z.net (alg.Ok (paramCount layers L)) (r k)

theorem tracks_nil {s : St (World alg.Memory) ℝ} (hs : Fresh s.w)
    (hc : CanTrain layers Z.net (alg.Ok (paramCount layers L)) s.w.run) :
    Tracks layers L Z report s (fun _ => (0, 0)) (fun _ => s.w.run) (fun _ => 0) [] s := by
  have hn : s.w.nr Z.epochs = 0 := by
    unfold World.nr
    rw [hs.data.1, hs.data.2]
    rfl
  refine ⟨⟨hs.failed, by rw [hn]; rfl, by rw [hs.data.2]; omega, by rw [hn]; omega, ⟨rfl, rfl, fun _ _ _ _ => rfl, fun _ _ _ _ => rfl⟩, hc, ?_⟩,
    by simp, by simp, by rw [hn]; omega, fun k hk => ?_⟩
  · rw [hs.scores, hs.data.2]
    rfl
  · rw [hn, Nat.le_zero] at hk
    subst hk
    exact ⟨rfl, hc⟩

theorem tracks_call (K : Known layers L data rest P report alg Z) {s x y : St (World alg.Memory) ℝ} {rates : ℕ → ℝ × ℝ}
    {r : ℕ → Constrained.Run alg.Memory} {loss : ℕ → ℝ} {evs : List (St (World alg.Memory) ℝ × Event ℝ)}
    (h : Tracks layers L Z report s rates r loss evs x) {ev : Event ℝ} (hev : ev.isBatch = false)
    (hy : Here layers L Z s.update r loss y) (hn : y.w.nr Z.epochs = x.w.nr Z.epochs) :
    Tracks layers L Z report s rates r loss (evs ++ [(x, ev)]) y := by
  refine ⟨hy, fun p hp => ?_, fun p hp hb => ?_, fun k hk => ?_, by rw [hn]; exact h.plain⟩
  · rw [hn]
    rcases List.mem_append.1 hp with hp | hp
    · exact h.past p hp
    · rw [List.mem_singleton.1 hp]
      exact ⟨h.here, le_rfl⟩
  · rw [hn]
    rcases List.mem_append.1 hp with hp | hp
    · exact h.batch p hp hb
    · rw [List.mem_singleton.1 hp, hev] at hb
      exact absurd hb (by simp)
  · rw [hn] at hk
    obtain ⟨p, hp, h1⟩ := h.each k hk
    exact ⟨p, List.mem_append_left _ hp, h1⟩

theorem tracks_batch (K : Known layers L data rest P report alg Z) {s x y : St (World alg.Memory) ℝ} {rates : ℕ → ℝ × ℝ}
    {r : ℕ → Constrained.Run alg.Memory} {loss : ℕ → ℝ} {evs : List (St (World alg.Memory) ℝ × Event ℝ)}
    (h : Tracks layers L Z report s rates r loss evs x) {ev : Event ℝ} (hev : ev.isBatch = true)
    (hw : y.w = Z.env.step x.w) (hu : y.update = x.update + 1) :
    ∃ rates r loss, Tracks layers L Z report s rates r loss (evs ++ [(x, ev)]) y := by
  obtain ⟨t, t', v, d, e1, hs, c1, c2, hd, e2⟩ := batch_round K h.here (h.plain _ le_rfl).2
  have hy : y.w = { x.w with
        run := t', epoch := (Z.position x.w).1, done := (Z.position x.w).2.1 + 1,
        scores := (Z.position x.w).2.2 ++ [((batchNr Z.epochs (x.w.nr Z.epochs)).B, d)] } := by
    rw [hw]
    show (Z.step x.w).getD _ = _
    rw [e2]
    rfl
  obtain ⟨p1, p2⟩ := position_spec (Z := Z) K.full h.here.pos
  have hn : y.w.nr Z.epochs = x.w.nr Z.epochs + 1 := by
    rw [← p1, hy]
    rfl
  generalize hk : x.w.nr Z.epochs = k at *
  let rates' := Function.update rates k (x.w.lr, x.w.momentum)
  let r' := Function.update r (k + 1) t
  let loss' := Function.update loss k v
  have hr : ∀ j ≤ k, r' j = r j := fun j hj => Function.update_of_ne (by omega) _ _
  have hl : ∀ j < k, loss' j = loss j := fun j hj => Function.update_of_ne (by omega) _ _
  have hq : ∀ j < k, rates' j = rates j := fun j hj => Function.update_of_ne (by omega) _ _
  have hplain : ∀ j ≤ k, Z.plain report rates' s.w.run j = Z.plain report rates s.w.run j := fun j hj =>
    train_congr j fun i hi => by simp only [hq i (by omega)]
  have hold : ∀ z, Here layers L Z s.update r loss z → z.w.nr Z.epochs ≤ k → Here layers L Z s.update r' loss' z := fun z hz hle =>
    hz.congr (hr _ hle) fun j hj => hl j (by omega)
  have hx' := hold x h.here hk.le
  refine ⟨rates', r', loss', ⟨?_, by rw [hu, h.here.count, hn, hk]; omega, ?_, fun _ => ?_, ?_, ?_, ?_⟩, fun p hp => ?_, fun p hp hb => ?_,
    fun j hj => ?_, fun j hj => ?_⟩
  · rw [hy]
    exact h.here.failed
  · rw [hy]
    exact p2
  · rw [hy]
    exact Nat.succ_pos _
  · rw [hn, hy]
    simp only [r', Function.update_self]
    exact hs
  · rw [hy]
    exact c2
  · rw [hy]
    show ((Z.position x.w).2.2 ++ [((batchNr Z.epochs k).B, d)]).map _ = (List.range' (batchesBefore Z.epochs (Z.position x.w).1) ((Z.position x.w).2.1 + 1)).map _
    rw [List.map_append, List.range'_concat, List.map_append, Nat.one_mul, p1, List.map_singleton, List.map_singleton]
    congr 1
    · unfold Setting.position
      split
      · exact hx'.scores
      · rfl
    · simp only [hd, loss', Function.update_self]
  · rw [hn]
    rcases List.mem_append.1 hp with hp | hp
    · obtain ⟨h1, h2⟩ := h.past p hp
      rw [hk] at h2
      exact ⟨hold _ h1 h2, by omega⟩
    · rw [List.mem_singleton.1 hp]
      exact ⟨hx', by show x.w.nr Z.epochs ≤ _; omega⟩
  · rw [hn]
    rcases List.mem_append.1 hp with hp | hp
    · obtain ⟨h1, h2⟩ := h.batch p hp hb
      rw [hk] at h1
      exact ⟨by omega, by rw [hq _ h1, h2]⟩
    · rw [List.mem_singleton.1 hp]
      show x.w.nr Z.epochs < _ ∧ rates' (x.w.nr Z.epochs) = _
      rw [hk]
      exact ⟨by omega, Function.update_self _ _ _⟩
  · rw [hn] at hj
    rcases Nat.lt_succ_iff_lt_or_eq.1 hj with hj | rfl
    · obtain ⟨p, hp, h1⟩ := h.each j (by rw [hk]; exact hj)
      exact ⟨p, List.mem_append_left _ hp, h1⟩
    · exact ⟨(x, ev), by simp, hev, hk⟩
  · rw [hn] at hj
    rcases Nat.le_succ_iff.1 hj with hj | rfl
    · rw [hplain j hj, hr j hj, (h.plain j (by rw [hk]; exact hj)).1]
      refine ⟨?_, (h.plain j (by rw [hk]; exact hj)).2⟩
      rw [List.map_congr_left fun i hi => (hl i (by have := List.mem_range.1 hi; omega)).symm]
    · refine ⟨?_, by simp only [r', Function.update_self]; exact c1⟩
      have h1 := (h.plain k hk.ge).1
      rw [← hplain k le_rfl] at h1
      unfold Setting.plain at h1 ⊢
      simp only [Constrained.train, h1, Option.bind_some]
      simp only [rates', Function.update_self]
      rw [e1, Option.map_some]
      simp only [r', loss', Function.update_self, List.range_succ, List.map_append, List.map_singleton]
      rw [List.map_congr_left fun i hi => (hl i (by have := List.mem_range.1 hi; omega)).symm]

/-- Every run follows a training without hooks. -/
theorem run_tracks (K : Known layers L data rest P report alg Z) {hooks : List Hook} {s s' : St (World alg.Memory) ℝ}
    {evs : List (St (World alg.Memory) ℝ × Event ℝ)} (hs : Fresh s.w)
    (hc : CanTrain layers Z.net (alg.Ok (paramCount layers L)) s.w.run) (h : Training.Run Z.env hooks s evs s') :
    ∃ rates r loss, Tracks layers L Z report s rates r loss evs s' := by
  refine Run.back (C := fun evs x => ∃ rates r loss, Tracks layers L Z report s rates r loss evs x) ⟨_, _, _, tracks_nil hs hc⟩ ?_ ?_ h
  · rintro evs x ⟨rates, r, loss, h1⟩
    exact ⟨rates, r, loss, ⟨h1.here.failed, h1.here.count, h1.here.pos, h1.here.began, h1.here.same, h1.here.can, h1.here.scores⟩, h1.past, h1.batch,
      h1.each, h1.plain⟩
  · rintro evs x ev y ⟨rates, r, loss, h1⟩ hst
    cases hst with
    | batch => exact tracks_batch K h1 rfl rfl rfl
    | call hk w st v logs hm hcall hl =>
      obtain ⟨h2, h3, -⟩ := call_here K h1.here hk.name x.epoch x.update x.logs (y' := ⟨w, logs, x.epoch, x.update, _⟩)
        (by rw [show Z.call hk.name x.epoch x.update x.logs x.w = _ from hcall]) rfl
      exact ⟨rates, r, loss, tracks_call K h1 rfl h2 h3⟩
    | rolling logs hl =>
      exact ⟨rates, r, loss, tracks_call K h1 rfl ⟨h1.here.failed, h1.here.count, h1.here.pos, h1.here.began, h1.here.same, h1.here.can,
        h1.here.scores⟩ rfl⟩

end

end Verif.Trainer
