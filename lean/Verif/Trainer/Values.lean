import Verif.Trainer.Track

/-! # Proofs for C82: what is logged -/

namespace Verif.Trainer

open Verif.Structure Verif.Layout Verif.Buffers Verif.Memory Verif.Session
open Verif.Determined (Same CanTrain SameMods Algorithm Determines)
open Verif.Training (Env Hook HookImpl Val Log Logs Res Crit Saved Event St Step)

theorem leaves_dict (nm k : Name) (d : Dict Name ℝ) (hd : (Dict.keys d).Nodup) :
    Training.valuesOf (Training.leaves nm (.dict (d.map fun x => (x.1, .leaf x.2)))) [nm, k] = (Dict.get? d k).toList := by
  rw [Training.leaves, Training.valuesOf_cons_map, if_pos rfl]
  induction d with
  | nil => rfl
  | cons x d ih =>
    rw [List.map_cons, Training.leavesList, Training.valuesOf_append]
    have hd' : (x.1 :: Dict.keys d).Nodup := hd
    rw [List.nodup_cons] at hd'
    rw [ih hd'.2]
    obtain ⟨n, v⟩ := x
    simp only [Training.leaves, Training.valuesOf]
    by_cases hn : n = k
    · subst hn
      have : Dict.get? d n = none := (Dict.get?_eq_none_iff _ _).2 hd'.1
      simp [this, Dict.get?]
    · simp [hn, Dict.get?]

theorem average_eq {scores : List (ℕ × Dict Name ℝ)} {nm : Name} {xs : List (ℕ × ℝ)}
    (h : scores.map (fun x => (x.1, Dict.get? x.2 nm)) = xs.map fun x => (x.1, some x.2)) : average scores nm = meanLoss xs := by
  unfold average meanLoss
  have : scores.map (fun x => ((x.1 : ℝ), (Dict.get? x.2 nm).getD 0)) = xs.map fun x => ((x.1 : ℝ), x.2) := by
    have := congrArg (List.map fun x : ℕ × Option ℝ => ((x.1 : ℝ), x.2.getD 0)) h
    simpa [List.map_map, Function.comp_def] using this
  rw [this, Evaluate.weightedAverage_eq]

section
variable {layers : List LayerInfo} {L : Layout} {data : LayerInfo} {rest : List LayerInfo} {P : ℕ → ℕ → List MLayer}
variable {report : ℕ → ℕ → Mem → Option ℝ} {alg : Algorithm} {Z : Setting alg.Memory}

/-- The training loss of an epoch. -/
theorem rolling_loss (K : Known layers L data rest P report alg Z) {u₀ : ℕ} {r : ℕ → Constrained.Run alg.Memory} {loss : ℕ → ℝ}
    {y : St (World alg.Memory) ℝ} (h : Here layers L Z u₀ r loss y) :
    Training.valuesOf (Training.leaves (str "rolling_training") (Z.rolling y.w)) [str "rolling_training", str "total_loss"] =
      [meanLoss ((List.range' (batchesBefore Z.epochs y.w.epoch) y.w.done).map fun j => ((batchNr Z.epochs j).B, loss j))] := by
  have h1 : Z.rolling y.w = .dict ((Z.names.map fun n => (n, average y.w.scores n)).map fun x => (x.1, .leaf x.2)) := by
    unfold Setting.rolling
    rw [List.map_map]
    rfl
  have hk : Dict.keys (Z.names.map fun n => (n, average y.w.scores n)) = Z.names := by
    unfold Dict.keys
    rw [List.map_map]
    exact List.map_id _
  rw [h1, leaves_dict _ _ _ (by rw [hk]; exact K.names.1)]
  rw [Dict.get?_of_mem (v := average y.w.scores (str "total_loss")) (by rw [hk]; exact K.names.1) (List.mem_map.2 ⟨_, K.names.2, rfl⟩),
    Option.toList_some]
  congr 1
  refine average_eq ?_
  rw [h.scores, List.map_map]
  rfl

/-- What the forward passes of an evaluation report. -/
theorem passes_loss {Q : ℕ → ℕ → List MLayer} (hQ : Sited layers L data rest Q) (hrep : Reports Q report) {θ : List ℝ} :
    ∀ (bs : List Batch), (∀ b ∈ bs, b.Good data) → ∀ {st : State ℝ} {T B sz k : ℕ} {vs : List (Name × View)},
      Inv (netOf layers L) st T B sz k vs → st.read (str "parameters") = some θ →
      ∃ sts, Evaluate.passes (netOf layers L) data.name Q bs st = some sts ∧ bs.length = sts.length ∧
        ∀ x ∈ bs.zip sts, report x.1.T x.1.B (memOf x.2) = lossOf (netOf layers L) data.name Q report x.1 θ
  | [], _, _, _, _, _, _, _, _, _ => ⟨[], rfl, rfl, by simp⟩
  | b :: bs, hbs, st, _, _, _, _, _, i, hθ => by
    obtain ⟨st₁, h1, hr, r1⟩ := provide_ready hQ.laid hQ.data_mem i (hbs b List.mem_cons_self)
    obtain ⟨st₂, h2, l2, r2⟩ := forwardPass_loss hQ (hbs b List.mem_cons_self) (hrep _ _) hr (r1.trans hθ)
    obtain ⟨_, _, _, i1, -⟩ := hr
    obtain ⟨st₂', h2', i2, -, -⟩ := forwardPass_spec hQ i1 b.rnd
    rw [h2] at h2'
    cases h2'
    obtain ⟨sts, h3, h4, h5⟩ := passes_loss hQ hrep bs (fun b hb => hbs b (List.mem_cons_of_mem _ hb)) i2 r2
    refine ⟨st₂ :: sts, by simp only [Evaluate.passes, h1, h2, h3, Option.bind_some, Option.map_some], by simp [h4], fun x hx => ?_⟩
    rw [List.zip_cons_cons] at hx
    rcases List.mem_cons.1 hx with rfl | hx
    · exact l2
    · exact h5 x hx

theorem evaluateLoss_eq {Q : ℕ → ℕ → List MLayer} (hQ : Sited layers L data rest Q) (hrep : Reports Q report)
    {θ : Fin (paramCount layers L) → ℝ} {bs : List Batch} (hbs : ∀ b ∈ bs, b.Good data) {st : State ℝ} {T B sz k : ℕ} {vs : List (Name × View)}
    (i : Inv (netOf layers L) st T B sz k vs) (hθ : st.read (str "parameters") = some (List.ofFn θ)) :
    Evaluate.evaluateLoss (netOf layers L) data.name Q report bs st =
      some (meanLoss (bs.map fun b => (b.B, lossV layers L data.name Q report b θ))) := by
  obtain ⟨sts, h1, h2, h3⟩ := passes_loss hQ hrep bs hbs i hθ
  unfold Evaluate.evaluateLoss
  rw [h1, Option.bind_some]
  rw [Sequence.mapM_some (g := fun x => ((x.1.B : ℝ), lossV layers L data.name Q report x.1 θ)) fun x hx => by
    rw [h3 x hx, lossV_eq hQ (hbs x.1 (List.of_mem_zip hx).1) hrep]
    rfl]
  rw [Option.map_some]
  congr 1
  have : (bs.zip sts).map (fun x => ((x.1.B : ℝ), lossV layers L data.name Q report x.1 θ)) =
      bs.map fun b => ((b.B : ℝ), lossV layers L data.name Q report b θ) := by
    have := congrArg (List.map fun b : Batch => ((b.B : ℝ), lossV layers L data.name Q report b θ)) (List.map_fst_zip (l₁ := bs) (l₂ := sts) h2.le)
    rwa [List.map_map] at this
  rw [this, Evaluate.weightedAverage_eq]
  unfold meanLoss
  rw [List.map_map, List.map_map]
  rfl

theorem mapM_exists {α β : Type} {f : α → Option β} : ∀ {l : List α}, (∀ x ∈ l, ∃ y, f x = some y) → ∃ ys, l.mapM f = some ys
  | [], _ => ⟨[], rfl⟩
  | x :: l, h => by
    obtain ⟨y, hy⟩ := h x (by simp)
    obtain ⟨ys, hys⟩ := mapM_exists fun x hx => h x (List.mem_cons_of_mem _ hx)
    exact ⟨y :: ys, by rw [List.mapM_cons, hy, hys]; rfl⟩

theorem mapM_keys {β : Type} {f : Name → Option β} : ∀ {l : List Name} {ys : List (Name × β)},
    (l.mapM fun n => (f n).map fun v => (n, v)) = some ys → Dict.keys ys = l ∧ ∀ n v, (n, v) ∈ ys → f n = some v
  | [], ys, h => by
    cases h
    exact ⟨rfl, by simp⟩
  | x :: l, ys, h => by
    rw [List.mapM_cons] at h
    cases hx : f x with
    | none => rw [hx] at h; cases h
    | some y =>
      cases hl : (l.mapM fun n => (f n).map fun v => (n, v)) with
      | none => rw [hx, hl] at h; cases h
      | some zs =>
        rw [hx, hl] at h
        cases h
        obtain ⟨h1, h2⟩ := mapM_keys hl
        refine ⟨by rw [← h1]; rfl, fun n v hm => ?_⟩
        rcases List.mem_cons.1 hm with e | hm
        · cases e
          exact hx
        · exact h2 n v hm

theorem foldl_set_get? (k : Name) : ∀ (ss : List (Name × ℝ)) (d : Dict Name ℝ), (∀ x ∈ ss, x.1 ≠ k) → (Dict.keys d).Nodup →
    Dict.get? (ss.foldl (fun d x => Dict.set d x.1 x.2) d) k = Dict.get? d k ∧
      (Dict.keys (ss.foldl (fun d x => Dict.set d x.1 x.2) d)).Nodup
  | [], d, _, h => ⟨rfl, h⟩
  | x :: ss, d, hs, h => by
    obtain ⟨h1, h2⟩ := foldl_set_get? k ss (Dict.set d x.1 x.2) (fun x hx => hs x (List.mem_cons_of_mem _ hx)) (Dict.nodup_keys_set _ _ _ h)
    refine ⟨?_, h2⟩
    rw [List.foldl_cons, h1, Dict.get?_set_ne _ _ _ _ (hs x (by simp))]

/-- What a monitor reports. -/
theorem monitor_loss (K : Known layers L data rest P report alg Z) {w : World alg.Memory}
    (hc : CanTrain layers Z.net (alg.Ok (paramCount layers L)) w.run) {θ : Fin (paramCount layers L) → ℝ}
    (hθ : w.run.st.read (str "parameters") = some (List.ofFn θ)) {dt : ℕ → ℕ → List Batch} {sc : List Scoring} {e u : ℕ} {logs : Logs ℝ}
    (hb : ∀ b ∈ dt e u, b.Good data) (hsc : ∀ s ∈ sc, s.name ≠ str "total_loss") {w' : World alg.Memory} {v : Val ℝ} {stop : Bool}
    (h : Z.monitor dt sc e u logs w = (w', if stop then .stop v else .value v)) (nm : Name) :
    Training.valuesOf (Training.leaves nm v) [nm, str "total_loss"] =
      [meanLoss ((dt e u).map fun b => (b.B, lossV layers L data.name Z.Q report b θ))] := by
  obtain ⟨T, B, sz, k, vs, i⟩ := (Determined.CanTrain.fine K.sited.laid (K.net ▸ hc)).inv
  unfold Setting.monitor at h
  split at h
  · cases stop <;> simp at h
  split at h
  swap
  · cases stop <;> simp at h
  rename_i v' st hv _
  have hvv : v' = v := by cases stop <;> simp at h; exact h.2
  subst hvv
  simp only [Setting.evaluation, Option.bind_eq_some_iff, Option.map_eq_some_iff] at hv
  obtain ⟨ls, h1, ss, h2, rfl⟩ := hv
  obtain ⟨k1, k2⟩ := mapM_keys (f := fun n => Evaluate.evaluateLoss Z.net Z.input Z.Q (fun T B m => Dict.get? (Z.losses T B m) n) (dt e u) w.run.st) h1
  have hss : ∀ x ∈ ss, x.1 ≠ str "total_loss" := by
    intro x hx
    clear h
    induction sc generalizing ss with
    | nil => cases h2; simp at hx
    | cons s sc ih =>
      rw [List.mapM_cons] at h2
      simp only [Option.bind_eq_bind, Option.bind_eq_some_iff, Option.map_eq_some_iff] at h2
      obtain ⟨y, ⟨v, -, rfl⟩, zs, h3, h4⟩ := h2
      cases h4
      rcases List.mem_cons.1 hx with rfl | hx
      · exact hsc s (by simp)
      · exact ih (fun s hs => hsc s (List.mem_cons_of_mem _ hs)) zs h3 hx
  obtain ⟨g1, g2⟩ := foldl_set_get? (str "total_loss") ss ls hss (by rw [k1]; exact K.names.1)
  rw [leaves_dict _ _ _ g2, g1]
  obtain ⟨x, hx⟩ : ∃ x, (str "total_loss", x) ∈ ls := by
    have := K.names.2
    rw [← k1] at this
    obtain ⟨⟨n, x⟩, hx, rfl⟩ := List.mem_map.1 this
    exact ⟨x, hx⟩
  rw [Dict.get?_of_mem (by rw [k1]; exact K.names.1) hx, Option.toList_some]
  have h3 := k2 _ _ hx
  rw [show (fun T B m => Dict.get? (Z.losses T B m) (str "total_loss")) = report from by funext T B m; exact (K.losses T B m).symm, K.net, K.input,
    evaluateLoss_eq K.sitedQ K.reportsQ hb i hθ, Option.some.injEq] at h3
  rw [h3]

/-- A monitor without scorers does not raise. -/
theorem monitor_runs (K : Known layers L data rest P report alg Z) {w : World alg.Memory}
    (hc : CanTrain layers Z.net (alg.Ok (paramCount layers L)) w.run) {dt : ℕ → ℕ → List Batch} {e u : ℕ} (logs : Logs ℝ)
    (hd : dt e u ≠ []) (hb : ∀ b ∈ dt e u, b.Good data) :
    ∃ w' ls, Z.monitor dt [] e u logs w = (w', .value (.dict (ls.map fun x => (x.1, .leaf x.2)))) ∧ Dict.keys ls = Z.names := by
  obtain ⟨T, B, sz, k, vs, i⟩ := (Determined.CanTrain.fine K.sited.laid (K.net ▸ hc)).inv
  obtain ⟨θ, hθ⟩ := (Determined.CanTrain.fine K.sited.laid (K.net ▸ hc)).params K.sited.laid
  obtain ⟨sts, h1, -, -⟩ := passes_loss K.sitedQ K.reportsQ (dt e u) hb i hθ
  obtain ⟨st', _, _, _, _, _, h2, -, -⟩ := evaluate_spec K.sitedQ (dt e u) hb i
  obtain ⟨ls, h3⟩ : ∃ ls, (Z.names.mapM fun n => (Evaluate.evaluateLoss Z.net Z.input Z.Q (fun T B m => Dict.get? (Z.losses T B m) n)
      (dt e u) w.run.st).map fun v => (n, v)) = some ls := by
    refine mapM_exists fun n hn => ?_
    have : ∀ T B m, ∃ x, Dict.get? (Z.losses T B m) n = some x := by
      intro T B m
      have := K.keys T B m
      cases hg : Dict.get? (Z.losses T B m) n with
      | some x => exact ⟨x, rfl⟩
      | none => exact absurd (this ▸ hn) ((Dict.get?_eq_none_iff _ _).1 hg)
    choose f hf using this
    unfold Evaluate.evaluateLoss
    rw [K.net, K.input, h1, Option.bind_some]
    rw [Sequence.mapM_some (g := fun x => ((x.1.B : ℝ), f x.1.T x.1.B (memOf x.2))) fun x hx => by simp only [hf, Option.map_some]]
    exact ⟨_, rfl⟩
  unfold Setting.monitor Setting.evaluation
  rw [if_neg hd, h3]
  simp only [List.mapM_nil, Option.bind_some, K.net, K.input, h2]
  exact ⟨_, ls, rfl, (mapM_keys h3).1⟩

end

end Verif.Trainer
