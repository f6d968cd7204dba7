import Verif.Trainer.Values
import Verif.Trainer.Plan

/-!
# C82: training with hooks
-/

namespace Verif.Trainer

open Verif.Architecture hiding demoArch
open Verif.Structure Verif.Layout Verif.Buffers Verif.Instantiate Verif.EndToEnd
open Verif.Memory hiding demoL
open Verif.Setup (Kwargs libEnv infos toInfo inp_some)
open Verif.Shapes (Supported)
open Verif.Session
open Verif.Determined (Same CanTrain Algorithm)
open Verif.Training (Env Hook Val Logs Crit Saved Event St)

/-! ### Proofs -/

theorem keys_foldl_set {ν ν' : Type} : ∀ (l : List (Name × ν)) (l' : List (Name × ν')) (d : Dict Name ν) (d' : Dict Name ν'),
    l.map Prod.fst = l'.map Prod.fst → Dict.keys d = Dict.keys d' →
    Dict.keys (l.foldl (fun d x => Dict.set d x.1 x.2) d) = Dict.keys (l'.foldl (fun d x => Dict.set d x.1 x.2) d')
  | [], [], _, _, _, h => h
  | [], _ :: _, _, _, h, _ => by simp at h
  | _ :: _, [], _, _, h, _ => by simp at h
  | x :: l, x' :: l', d, d', h, hk => by
    rw [List.map_cons, List.map_cons, List.cons.injEq] at h
    refine keys_foldl_set l l' _ _ h.2 ?_
    rw [Dict.keys_set, Dict.keys_set, hk, h.1]

theorem keys_lossValues {l l' : List (Name × ℝ)} (h : l.map Prod.fst = l'.map Prod.fst) :
    Dict.keys (Scoring.lossValues l) = Dict.keys (Scoring.lossValues l') := by
  have hlen : l.length = l'.length := by simpa using congrArg List.length h
  have key : Dict.keys ((l.foldl (fun d l => Dict.set d l.1 l.2) ([] : Dict Name ℝ)).set (str "total_loss") (l.foldl (fun s l => s + l.2) 0)) =
      Dict.keys ((l'.foldl (fun d l => Dict.set d l.1 l.2) ([] : Dict Name ℝ)).set (str "total_loss") (l'.foldl (fun s l => s + l.2) 0)) := by
    rw [Dict.keys_set, Dict.keys_set, keys_foldl_set l l' [] [] h rfl]
  match l, l', hlen, key with
  | [], [], _, _ => rfl
  | [_], [_], _, _ => rfl
  | _ :: _ :: _, _ :: _ :: _, _, key => exact key

theorem keys_getLossValues (a : Arch) (layers : Dict Name (LayerObj Kwargs)) (f g : Name → ℝ) :
    Dict.keys (Setup.getLossValues a layers f) = Dict.keys (Setup.getLossValues a layers g) :=
  keys_lossValues (by simp [Function.comp_def])

section
variable {kwargs : Name → Kwargs} {a : Arch} {ord : Orders} {layers : Dict Name (LayerObj Kwargs)} {L : Layout}

theorem names_ok (m : Made kwargs a ord layers L) :
    (Dict.keys (Setup.getLossValues (K := ℝ) a layers fun _ => 0)).Nodup ∧
      str "total_loss" ∈ Dict.keys (Setup.getLossValues (K := ℝ) a layers fun _ => 0) := by
  obtain ⟨names, h1, -, h2, h3⟩ := Setup.C23_network (K := ℝ) kwargs a m.keys ord m.orders layers m.made (fun _ => 0)
  rw [h3]
  split
  · simp [Dict.keys]
  · unfold Dict.keys
    rw [List.map_append, List.map_map]
    refine ⟨?_, by simp⟩
    rw [show names.map ((fun x => x.1) ∘ fun n => ((n, 0) : Name × ℝ)) = names from List.map_id _]
    refine List.nodup_append.2 ⟨h1, by simp, ?_⟩
    intro x hx y hy
    simp only [List.map_cons, List.map_nil, List.mem_singleton] at hy
    rintro rfl
    exact h2 (hy ▸ hx)

/-- What the theorems use. -/
theorem known (m : Made kwargs a ord layers L) {data : LayerInfo} {rest : List LayerInfo} (F : Memory.Fits (infos layers) L data rest)
    (hdt : HasType a data.name (str "Input"))
    {ps : Mode → ∀ T B, ∀ l ∈ rest, LibLayer (infos layers) data l T B}
    (hps : ∀ M T B l (hl : l ∈ rest) t, HasType a l.name t → Describes M t (kwargs l.name) (ps M T B l hl))
    {M M' : Mode} (hM : M.training = true ∨ ∀ n, ¬ HasType a n (str "Dropout")) (alg : Algorithm) {epochs : ℕ → List Batch}
    {hooks : Dict Name (LibHook alg.Memory)} (he : ∀ e, epochs e ≠ [] ∧ ∀ b ∈ epochs e, b.Good data)
    (hmon : ∀ nm dt sc, Dict.get? hooks nm = some (.monitor dt sc) → ∀ e u, ∀ b ∈ dt e u, b.Good data) :
    Known (infos layers) L data rest (fun T B => libNetwork F (ps M T B)) (reported a layers L) alg
      (trainingOf a layers L data.name (fun T B => libNetwork F (ps M T B)) (fun T B => libNetwork F (ps M' T B)) alg epochs hooks) where
  net := rfl
  input := rfl
  sited := sited m F (ps M)
  sitedQ := sited m F (ps M')
  reports := reports m F (ps M) hdt (hps M)
  reportsQ := reports m F (ps M') hdt (hps M')
  det := Determined.determines m F hM (ps M) (hps M)
  losses _ _ _ := rfl
  keys _ _ _ := keys_getLossValues _ _ _ _
  names := names_ok m
  stepper _ _ := rfl
  good e := (he e).2
  full e := (he e).1
  monitors := hmon

end

theorem best_of {α : Type} (c : Crit) (worst : ℝ) (l : List α) (f : α → ℕ) (g : α → ℝ) (p : α → List ℝ)
    (hex : ∃ x ∈ l, c.better (g x) worst = true) : ∃ (q : ℕ) (x : α), l[q]? = some x ∧ Training.FirstBest c (l.map g) q ∧
      Training.saveBestRun c worst (l.map fun x => (f x, g x, p x)) = ⟨g x, some (f x), some (p x)⟩ := by
  obtain ⟨x, hx, hb⟩ := hex
  obtain ⟨q, t, v, p, g1, g2, g3, g4, g5⟩ := Training.C38_best c worst (l.map fun x => (f x, g x, p x)) ⟨_, List.mem_map.2 ⟨x, hx, rfl⟩, hb⟩
  rw [List.getElem?_map, Option.map_eq_some_iff] at g1
  obtain ⟨z, hz, hzz⟩ := g1
  cases hzz
  refine ⟨q, z, hz, by rwa [List.map_map] at g2, ?_⟩
  generalize Training.saveBestRun c worst (l.map fun x => (f x, g x, p x)) = sv at g3 g4 g5 ⊢
  obtain ⟨b1, b2, b3⟩ := sv
  cases g3
  cases g4
  cases g5
  rfl

theorem none_of {α : Type} (c : Crit) (worst : ℝ) (l : List α) (f : α → ℕ) (g : α → ℝ) (p : α → List ℝ)
    (hno : ∀ x ∈ l, c.better (g x) worst = false) :
    Training.saveBestRun c worst (l.map fun x => (f x, g x, p x)) = ⟨worst, none, none⟩ := by
  unfold Training.saveBestRun
  induction l with
  | nil => rfl
  | cons x l ih =>
    rw [List.map_cons, List.foldl_cons]
    have : Training.saveBest c (⟨worst, none, none⟩ : Saved ℝ (List ℝ)) (f x) (g x) (p x) = ⟨worst, none, none⟩ := by
      simp [Training.saveBest, hno x (by simp)]
    rw [this]
    exact ih fun y hy => hno y (by simp [hy])

section
variable {layers : List LayerInfo} {L : Layout} {data : LayerInfo} {rest : List LayerInfo} {P : ℕ → ℕ → List MLayer}
variable {report : ℕ → ℕ → Mem → Option ℝ} {alg : Algorithm} {Z : Setting alg.Memory}

theorem Here.nr {u₀ : ℕ} {r : ℕ → Constrained.Run alg.Memory} {loss : ℕ → ℝ} {y : St (World alg.Memory) ℝ} (h : Here layers L Z u₀ r loss y) :
    y.update - u₀ = y.w.nr Z.epochs := by
  have := h.count
  omega

/-- The parameters of the training without hooks. -/
theorem Tracks.params (K : Known layers L data rest P report alg Z) {s x : St (World alg.Memory) ℝ} {rates : ℕ → ℝ × ℝ}
    {r : ℕ → Constrained.Run alg.Memory} {loss : ℕ → ℝ} {evs : List (St (World alg.Memory) ℝ × Event ℝ)}
    (h : Tracks layers L Z report s rates r loss evs x) :
    ∃ θ : ℕ → Fin (paramCount layers L) → ℝ, ∀ k ≤ x.w.nr Z.epochs, (r k).st.read (str "parameters") = some (List.ofFn (θ k)) := by
  have : ∀ k, ∃ θ : Fin (paramCount layers L) → ℝ, k ≤ x.w.nr Z.epochs → (r k).st.read (str "parameters") = some (List.ofFn θ) := by
    intro k
    by_cases hk : k ≤ x.w.nr Z.epochs
    · obtain ⟨θ, hθ⟩ := (Determined.CanTrain.fine K.sited.laid (K.net ▸ (h.plain k hk).2)).params K.sited.laid
      exact ⟨θ, fun _ => hθ⟩
    · exact ⟨0, fun h => absurd h hk⟩
  choose θ hθ using this
  exact ⟨θ, hθ⟩

/-- What a monitor logs in a run. -/
theorem monitor_event (K : Known layers L data rest P report alg Z) {s s' : St (World alg.Memory) ℝ} {rates : ℕ → ℝ × ℝ}
    {r : ℕ → Constrained.Run alg.Memory} {loss : ℕ → ℝ} {evs : List (St (World alg.Memory) ℝ × Event ℝ)} {hooks : List Hook}
    (hr : Training.Run Z.env hooks s evs s') (h : Tracks layers L Z report s rates r loss evs s')
    {θ : ℕ → Fin (paramCount layers L) → ℝ} (hθ : ∀ k ≤ s'.w.nr Z.epochs, (r k).st.read (str "parameters") = some (List.ofFn (θ k)))
    {y : St (World alg.Memory) ℝ} {sc : Bool} {nm : Name} {e u : ℕ} {st : Bool} {v : Val ℝ} (hm : (y, .call sc nm e u st v) ∈ evs)
    {dt : ℕ → ℕ → List Batch} {scorers : List Scoring} (hg : Dict.get? Z.hooks nm = some (.monitor dt scorers))
    (hsc : ∀ x ∈ scorers, x.name ≠ str "total_loss") :
    Training.valuesOf (Training.leaves nm v) [nm, str "total_loss"] =
      [meanLoss ((dt e u).map fun b => (b.B, lossV layers L data.name Z.Q report b (θ (u - s.update))))] := by
  obtain ⟨pre, post, he⟩ := List.append_of_mem hm
  obtain ⟨s₁, -, hs, -⟩ := hr.split pre post _ he
  have hh : Here layers L Z s.update r loss y := (h.past _ hm).1
  have hle : y.w.nr Z.epochs ≤ s'.w.nr Z.epochs := (h.past _ hm).2
  have hs : Training.Step Z.env hooks y (.call sc nm e u st v) s₁ := hs
  obtain ⟨rfl, rfl, w, hc⟩ := step_result hs
  have hc : Z.call nm y.epoch y.update y.logs y.w = _ := hc
  unfold Setting.call at hc
  rw [hg] at hc
  have hnr : y.update - s.update = y.w.nr Z.epochs := hh.nr
  rw [hnr]
  exact monitor_loss K hh.can (hh.same.parameters.symm.trans (hθ _ hle)) (K.monitors nm dt scorers hg _ _) hsc hc nm

theorem saved_private {nm : Name} : Training.Private Z.env nm fun w => w.saved nm := by
  constructor
  · intro w
    show ((Z.step w).getD _).saved nm = _
    cases hs : Z.step w with
    | none => rfl
    | some w' =>
      simp only [Setting.step, Option.bind_eq_some_iff, Option.map_eq_some_iff] at hs
      obtain ⟨b, -, st, -, q, -, t, -, rfl⟩ := hs
      rfl
  · intro nm' e u logs w hne
    show (Z.call nm' e u logs w).1.saved nm = _
    unfold Setting.call
    cases Dict.get? Z.hooks nm' with
    | none => rfl
    | some x =>
      cases x with
      | monitor dt sc =>
        simp only [Setting.monitor]
        split
        · rfl
        · split <;> rfl
      | saveBest c path sc =>
        simp only [Training.saveBestHook]
        split
        · rfl
        · split
          · rfl
          · exact Function.update_of_ne (Ne.symm hne) _ _
      | modifyLr sch =>
        simp only [Training.modifyHook]
        split <;> rfl
      | modifyMomentum sch =>
        simp only [Training.modifyHook]
        split <;> rfl
      | watch look => rfl

/-- What `SaveBestNetwork` looks at. -/
theorem save_points (K : Known layers L data rest P report alg Z) {s s' : St (World alg.Memory) ℝ} {rates : ℕ → ℝ × ℝ}
    {r : ℕ → Constrained.Run alg.Memory} {loss : ℕ → ℝ} {evs : List (St (World alg.Memory) ℝ × Event ℝ)} {hooks : List Hook}
    (hr : Training.Run Z.env hooks s evs s') (h : Tracks layers L Z report s rates r loss evs s')
    {θ : ℕ → Fin (paramCount layers L) → ℝ} (hθ : ∀ k ≤ s'.w.nr Z.epochs, (r k).st.read (str "parameters") = some (List.ofFn (θ k)))
    {mon save : Name} {sc : Bool} (hf : Follows sc mon save ((evs.map Prod.snd).map Event.act))
    (hsv : ∀ h ∈ hooks, h.name = save → h.epochScale = sc)
    {dt : ℕ → ℕ → List Batch} {scorers : List Scoring} (hg : Dict.get? Z.hooks mon = some (.monitor dt scorers))
    (hsc : ∀ x ∈ scorers, x.name ≠ str "total_loss") : ∀ (pre post : List (St (World alg.Memory) ℝ × Event ℝ)), evs = pre ++ post →
    Training.savePoints s.logs save [mon, str "total_loss"] parameters (pre.map Prod.snd) post =
      (checks save (post.map Prod.snd)).map fun x => ((if sc then x.1 else x.2),
        meanLoss ((dt x.1 x.2).map fun b => (b.B, lossV layers L data.name Z.Q report b (θ (x.2 - s.update)))), List.ofFn (θ (x.2 - s.update))) := by
  intro pre post
  induction post generalizing pre with
  | nil => intro _; rfl
  | cons y post ih =>
    intro he
    obtain ⟨y, ev⟩ := y
    have hih := ih (pre ++ [(y, ev)]) (by rw [he]; simp)
    rw [List.map_append, List.map_singleton] at hih
    rw [Training.savePoints, hih]
    cases ev with
    | batch => rfl
    | rolling => rfl
    | call sc' nm e u st v =>
      simp only [Training.savePoint, checks, List.map_cons, List.filterMap_cons]
      by_cases hn : nm = save
      swap
      · simp only [if_neg hn, List.nil_append]
      subst hn
      simp only [if_true, List.map_cons]
      obtain ⟨pre', x, st', v', mid, e1, e2, e3, e4, e5, e6⟩ := run_follows hr hf he
      have hx : (x, Event.call sc mon e u st' v') ∈ evs := by rw [he, e1]; simp
      have hv := monitor_event K hr h hθ hx hg hsc
      have hlog : (Training.loggedBefore s.logs (pre.map Prod.snd) [mon, str "total_loss"]).getLast? =
          some (meanLoss ((dt e u).map fun b => (b.B, lossV layers L data.name Z.Q report b (θ (u - s.update))))) := by
        unfold Training.loggedBefore
        rw [e1, List.map_append, List.map_cons, List.flatMap_append, List.flatMap_cons, Training.valuesOf_append, Training.valuesOf_append, e6,
          List.append_nil]
        show (_ ++ (_ ++ Training.valuesOf (Training.leaves mon v') _)).getLast? = _
        rw [hv, ← List.append_assoc, List.getLast?_append]
        rfl
      obtain ⟨hh, hle⟩ := h.past (y, _) (by rw [he]; simp : (y, Event.call sc' nm e u st v) ∈ evs)
      have hsc' : sc' = sc := by
        obtain ⟨s₁, -, hs, -⟩ := hr.split pre post _ he
        obtain ⟨-, -, hk, hm, h1, h2⟩ := step_call hs (ev := Event.call sc' nm e u st v) rfl
        rw [← h2]
        exact hsv hk hm h1
      have hp : parameters y.w = List.ofFn (θ (u - s.update)) := by
        unfold parameters
        rw [← e5, hh.nr, ← hh.same.parameters, hθ _ hle]
        rfl
      rw [hlog, hp, hsc']
      rfl

end

/-! ### The property

The network is as in C81.  The hooks are those of the library (`LibHook`), in any number and order; every one of them may be due
at any interval, after updates or epochs.  A training that raises is not covered: a hook may raise (C66 says when), but the steps never do.
-/

section
variable (kwargs : Name → Kwargs) (a : Arch) (hk : (Dict.keys a).Nodup) (ord : Orders) (ho : ord.Ok)
  (layers : Dict Name (LayerObj Kwargs)) (h : Instantiates (libEnv kwargs) ord a (.ok layers))
  (hne : ∃ n l, Dict.get? layers n = some l ∧ l.shapes.outs ≠ []) (L : Layout) (hL : createLayout (infos layers) = .ok L)
  (tr : Trainable a) (num : Numeric a kwargs)
  (sup : ∀ n l t, Dict.get? layers n = some l → HasType a n t → Supported t l.kwargs l.inShapes)
include hk ho h hne hL tr num sup

/-- **C82, training.**  `Trainer.train` with hooks does the same to the network as the loop over the batches without hooks, when in that
loop each update uses the learning rate and the momentum that the stepper has at this moment: at every event, the parameters, what the
stepper remembers and the modifiers are those of the loop after as many updates.

What is logged as `rolling_training` is the average of the losses of the loop on the batches of the epoch (up to the last update, when a
hook stopped the epoch before its end).  What a monitor logs is the average of the losses of a new network with the parameters of the loop
on the batches of the monitor. -/
theorem C82_training :
    ∃ data rest, HasType a data.name (str "Input") ∧ ∃ F : Memory.Fits (infos layers) L data rest,
      ∃ ps : Mode → ∀ T B, ∀ l ∈ rest, LibLayer (infos layers) data l T B,
      (∀ M T B l (hl : l ∈ rest) t, HasType a l.name t → Describes M t (kwargs l.name) (ps M T B l hl)) ∧
      ∀ (M M' : Mode), M.training = true ∨ (∀ n, ¬ HasType a n (str "Dropout")) →
        ∀ (alg : Algorithm) (epochs : ℕ → List Batch) (hooks : Dict Name (LibHook alg.Memory)) (order : List Hook) (fuel : ℕ)
          (s s' : St (World alg.Memory) ℝ) (fin : Bool) (n : ℕ) (θ₀ : Fin n → ℝ),
        (∀ e, epochs e ≠ [] ∧ ∀ b ∈ epochs e, b.Good data) →
        (∀ nm dt sc, Dict.get? hooks nm = some (.monitor dt sc) → ∀ e u, ∀ b ∈ dt e u, b.Good data) →
        Fresh s.w → s.trace = [] → CanTrain (infos layers) (netOf (infos layers) L) (alg.Ok n) s.w.run →
        s.w.run.st.read (str "parameters") = some (List.ofFn θ₀) →
        Training.train (trainingOf a layers L data.name (fun T B => libNetwork F (ps M T B)) (fun T B => libNetwork F (ps M' T B)) alg
          epochs hooks).env order fuel s = some (s', fin) →
        s'.w.failed = false ∧
        ∃ (evs : List (St (World alg.Memory) ℝ × Event ℝ)) (rates : ℕ → ℝ × ℝ) (r : ℕ → Constrained.Run alg.Memory) (θ : ℕ → Fin n → ℝ)
          (loss : ℕ → ℝ) (valid : Batch → (Fin n → ℝ) → ℝ),
          Training.Run (trainingOf a layers L data.name (fun T B => libNetwork F (ps M T B)) (fun T B => libNetwork F (ps M' T B)) alg
            epochs hooks).env order s evs s' ∧ s'.trace = evs.map Prod.snd ∧
          (∀ k ≤ s'.update - s.update,
            Constrained.train (netOf (infos layers) L) data.name (fun T B => libNetwork F (ps M' T B)) (reported a layers L)
              (fun k => alg.run (netOf (infos layers) L) (fun T B => libNetwork F (ps M T B)) (rates k).1 (rates k).2) (batchNr epochs)
              (fun _ => []) s.w.run k = some (r k, (List.range k).map loss) ∧
            (r k).st.read (str "parameters") = some (List.ofFn (θ k))) ∧
          (∀ y, y = s' ∨ (∃ ev, (y, ev) ∈ evs) → s.update ≤ y.update ∧ y.update ≤ s'.update ∧
            Same (infos layers) (r (y.update - s.update)) y.w.run) ∧
          (∀ y e u, (y, .batch e u) ∈ evs → u = y.update + 1 ∧ rates (y.update - s.update) = (y.w.lr, y.w.momentum)) ∧
          (∀ k < s'.update - s.update, ∃ y e, (y, .batch e (s.update + k + 1)) ∈ evs) ∧
          (∀ y e v, (y, .rolling e v) ∈ evs → ∃ i d, y.update = s.update + (batchesBefore epochs i + d) ∧ d ≤ (epochs i).length ∧
            (s.update < y.update → 0 < d) ∧
            Training.valuesOf (Training.leaves (str "rolling_training") v) [str "rolling_training", str "total_loss"] =
              [meanLoss ((List.range' (batchesBefore epochs i) d).map fun j => ((batchNr epochs j).B, loss j))]) ∧
          (∀ b : Batch, b.Good data → ∀ ϑ : Fin n → ℝ, lossOf (netOf (infos layers) L) data.name (fun T B => libNetwork F (ps M' T B))
            (reported a layers L) b (List.ofFn ϑ) = some (valid b ϑ)) ∧
          (∀ y sc nm e u st v dt scorers, (y, .call sc nm e u st v) ∈ evs → Dict.get? hooks nm = some (.monitor dt scorers) →
            (∀ x ∈ scorers, x.name ≠ str "total_loss") →
            Training.valuesOf (Training.leaves nm v) [nm, str "total_loss"] =
              [meanLoss ((dt e u).map fun b => (b.B, valid b (θ (u - s.update))))]) := by
  have m : Made kwargs a ord layers L := ⟨hk, ho, h, hne, hL⟩
  obtain ⟨data, rest, hdt, F, ps, hps⟩ := functions m tr num sup
  refine ⟨data, rest, hdt, F, ps, hps, ?_⟩
  intro M M' hM alg epochs hooks order fuel s s' fin n θ₀ he hmon hs h0 hc hθ₀ htr
  obtain rfl := Determined.Reachable.count F.laid hc.state hθ₀
  have K := known (M := M) (M' := M') m F hdt hps hM alg he hmon
  obtain ⟨evs, h1, h2⟩ := Training.train_run _ _ _ _ _ _ htr
  rw [h0, List.nil_append] at h2
  obtain ⟨rates, r, loss, T⟩ := run_tracks K hs hc h1
  obtain ⟨θ, hθ⟩ := T.params K
  have hN : s'.update - s.update = s'.w.nr epochs := T.here.nr
  refine ⟨T.here.failed, evs, rates, r, θ, loss, lossV (infos layers) L data.name (fun T B => libNetwork F (ps M' T B)) (reported a layers L), h1, h2,
    ?_, ?_, ?_, ?_, ?_, ?_, ?_⟩
  · intro k hk
    rw [hN] at hk
    exact ⟨(T.plain k hk).1, hθ k hk⟩
  · have key : ∀ y, Here (infos layers) L (trainingOf a layers L data.name (fun T B => libNetwork F (ps M T B))
        (fun T B => libNetwork F (ps M' T B)) alg epochs hooks) s.update r loss y → y.w.nr epochs ≤ s'.w.nr epochs →
        s.update ≤ y.update ∧ y.update ≤ s'.update ∧ Same (infos layers) (r (y.update - s.update)) y.w.run := by
      intro y hy hle
      have h3 : y.update = s.update + y.w.nr epochs := hy.count
      have h4 : s'.update = s.update + s'.w.nr epochs := T.here.count
      refine ⟨by omega, by omega, ?_⟩
      rw [hy.nr]
      exact hy.same
    rintro y (rfl | ⟨ev, hev⟩)
    · exact key _ T.here le_rfl
    · exact key _ (T.past _ hev).1 (T.past _ hev).2
  · intro y e u hy
    obtain ⟨pre, post, hpp⟩ := List.append_of_mem hy
    obtain ⟨s₁, -, hst, -⟩ := h1.split pre post _ hpp
    refine ⟨?_, ?_⟩
    · exact step_batch hst
    · rw [(T.past _ hy).1.nr]
      exact (T.batch _ hy rfl).2
  · intro k hk
    rw [hN] at hk
    obtain ⟨⟨y, ev⟩, hy, hb, hyk⟩ := T.each k hk
    cases ev with
    | call => cases hb
    | rolling => cases hb
    | batch e u =>
      refine ⟨y, e, ?_⟩
      have h3 : y.update = s.update + k := by rw [← hyk]; exact (T.past _ hy).1.count
      obtain ⟨pre, post, hpp⟩ := List.append_of_mem hy
      obtain ⟨s₁, -, hst, -⟩ := h1.split pre post _ hpp
      have : u = y.update + 1 := step_batch hst
      rw [← h3, ← this]
      exact hy
  · intro y e v hy
    obtain ⟨pre, post, hpp⟩ := List.append_of_mem hy
    obtain ⟨s₁, -, hst, -⟩ := h1.split pre post _ hpp
    have hv := step_rolling hst
    have hh := (T.past _ hy).1
    refine ⟨y.w.epoch, y.w.done, hh.count, hh.pos, fun hlt => hh.began ?_, ?_⟩
    · have h3 : y.update = s.update + y.w.nr epochs := hh.count
      show 0 < y.w.nr epochs
      omega
    · rw [hv]
      exact rolling_loss K hh
  · exact fun b hb ϑ => lossV_eq K.sitedQ hb K.reportsQ ϑ
  · intro y sc nm e u st v dt scorers hy hg hsc
    exact monitor_event K h1 T hθ hy hg hsc

omit hk ho h hne hL tr num sup in
/-- `C82_best` for given functions of the layers. -/
theorem best_kept (m : Made kwargs a ord layers L) {data : LayerInfo} {rest : List LayerInfo} (hdt : HasType a data.name (str "Input"))
    (F : Memory.Fits (infos layers) L data rest) (ps : Mode → ∀ T B, ∀ l ∈ rest, LibLayer (infos layers) data l T B)
    (hps : ∀ M T B l (hl : l ∈ rest) t, HasType a l.name t → Describes M t (kwargs l.name) (ps M T B l hl)) :
      ∀ (M M' : Mode), M.training = true ∨ (∀ n, ¬ HasType a n (str "Dropout")) →
        ∀ (alg : Algorithm) (epochs : ℕ → List Batch) (hooks : Dict Name (LibHook alg.Memory)) (order : List Hook) (fuel : ℕ)
          (s s' : St (World alg.Memory) ℝ) (fin : Bool) (n : ℕ) (θ₀ : Fin n → ℝ),
        (∀ e, epochs e ≠ [] ∧ ∀ b ∈ epochs e, b.Good data) →
        (∀ nm dt sc, Dict.get? hooks nm = some (.monitor dt sc) → ∀ e u, ∀ b ∈ dt e u, b.Good data) →
        Fresh s.w → s.trace = [] → CanTrain (infos layers) (netOf (infos layers) L) (alg.Ok n) s.w.run →
        s.w.run.st.read (str "parameters") = some (List.ofFn θ₀) →
        Training.train (trainingOf a layers L data.name (fun T B => libNetwork F (ps M T B)) (fun T B => libNetwork F (ps M' T B)) alg
          epochs hooks).env order fuel s = some (s', fin) →
        ∀ (mon save : Name) (sc : Bool) (i j : ℕ) (A B C : List Hook) (dt : ℕ → ℕ → List Batch) (scorers : List Scoring) (c : Crit) (worst : ℝ),
        order = A ++ ⟨mon, sc, i⟩ :: (B ++ ⟨save, sc, j⟩ :: C) → (order.map Hook.name).Nodup → i ∣ j →
        Dict.get? hooks mon = some (.monitor dt scorers) → (∀ x ∈ scorers, x.name ≠ str "total_loss") →
        Dict.get? hooks save = some (.saveBest c [mon, str "total_loss"] sc) → s.w.saved save = ⟨worst, none, none⟩ →
        ∃ (rates : ℕ → ℝ × ℝ) (r : ℕ → Constrained.Run alg.Memory) (θ : ℕ → Fin n → ℝ) (loss : ℕ → ℝ) (value : ℕ × ℕ → ℝ),
          (∀ k ≤ s'.update - s.update,
            Constrained.train (netOf (infos layers) L) data.name (fun T B => libNetwork F (ps M' T B)) (reported a layers L)
              (fun k => alg.run (netOf (infos layers) L) (fun T B => libNetwork F (ps M T B)) (rates k).1 (rates k).2) (batchNr epochs)
              (fun _ => []) s.w.run k = some (r k, (List.range k).map loss) ∧
            (r k).st.read (str "parameters") = some (List.ofFn (θ k))) ∧
          (∀ e u, ∃ valid : Batch → ℝ, (∀ b ∈ dt e u, lossOf (netOf (infos layers) L) data.name (fun T B => libNetwork F (ps M' T B))
            (reported a layers L) b (List.ofFn (θ (u - s.update))) = some (valid b)) ∧ value (e, u) = meanLoss ((dt e u).map fun b => (b.B, valid b))) ∧
          ((∃ x ∈ checks save s'.trace, c.better (value x) worst = true) →
            ∃ q x, (checks save s'.trace)[q]? = some x ∧ Training.FirstBest c ((checks save s'.trace).map value) q ∧
              s'.w.saved save = ⟨value x, some (if sc then x.1 else x.2), some (List.ofFn (θ (x.2 - s.update)))⟩) ∧
          ((∀ x ∈ checks save s'.trace, c.better (value x) worst = false) → s'.w.saved save = ⟨worst, none, none⟩) := by
  intro M M' hM alg epochs hooks order fuel s s' fin n θ₀ he hmon hs h0 hc hθ₀ htr mon save sc i j A B C dt scorers c worst ho' hnd hij hgm hsc hgs hw
  obtain rfl := Determined.Reachable.count F.laid hc.state hθ₀
  have K := known (M := M) (M' := M') m F hdt hps hM alg he hmon
  have hsv : ∀ h ∈ order, h.name = save → h.epochScale = sc := by
    intro h hm hn
    have hm' : (⟨save, sc, j⟩ : Hook) ∈ order := by rw [ho']; simp
    have := List.inj_on_of_nodup_map hnd hm hm' hn
    rw [this]
  obtain ⟨evs, h1, h2, h3⟩ := Training.C66_save_best _ order fuel s s' fin h0 htr save c [mon, str "total_loss"] sc (fun w => w.saved save)
    (remember save) parameters (by
      show Setting.call _ save = _
      unfold Setting.call
      rw [show Dict.get? (trainingOf a layers L data.name (fun T B => libNetwork F (ps M T B)) (fun T B => libNetwork F (ps M' T B)) alg
        epochs hooks).hooks save = _ from hgs]) (fun x w => Function.update_self _ _ _) saved_private hsv worst hw
  obtain ⟨rates, r, loss, T⟩ := run_tracks K hs hc h1
  obtain ⟨θ, hθ⟩ := T.params K
  have hN : s'.update - s.update = s'.w.nr epochs := T.here.nr
  refine ⟨rates, r, θ, loss, fun x => meanLoss ((dt x.1 x.2).map fun b => (b.B, lossV (infos layers) L data.name (fun T B => libNetwork F (ps M' T B))
    (reported a layers L) b (θ (x.2 - s.update)))), ?_, ?_, ?_⟩
  · intro k hk
    rw [hN] at hk
    exact ⟨(T.plain k hk).1, hθ k hk⟩
  · exact fun e u => ⟨fun b => lossV (infos layers) L data.name (fun T B => libNetwork F (ps M' T B)) (reported a layers L) b (θ (u - s.update)),
      fun b hb => lossV_eq K.sitedQ (hmon _ _ _ hgm e u b hb) K.reportsQ _, rfl⟩
  have hf := train_follows ho' hnd hij h0 htr
  rw [h2] at hf
  have hpts := save_points K h1 T hθ hf hsv hgm hsc [] evs rfl
  rw [List.map_nil, ← h2] at hpts
  rw [hpts] at h3
  refine ⟨?_, fun hno => h3.trans (none_of c worst _ _ _ _ hno)⟩
  · rintro ⟨x, hx, hb⟩
    obtain ⟨q, z, g1, g2, g3⟩ := best_of c worst (checks save s'.trace) (fun x => if sc then x.1 else x.2)
      (fun x => meanLoss ((dt x.1 x.2).map fun b => (b.B, lossV (infos layers) L data.name (fun T B => libNetwork F (ps M' T B))
        (reported a layers L) b (θ (x.2 - s.update))))) (fun x => List.ofFn (θ (x.2 - s.update))) ⟨x, hx, hb⟩
    exact ⟨q, z, g1, g2, h3.trans g3⟩

/-- **C82, the best network.**  A monitor for the loss on some data, and `SaveBestNetwork` with the log of this monitor, on the same
timescale and so that the monitor is always called before it.  After every training `SaveBestNetwork` holds the parameters of the moment at
which the loss on these data was best, among all moments at which it was called (the first of them, if there are more): the loss that a new
network with the parameters of the loop has.  It is assumed that at some moment the loss was better than the initial bound (infinity);
otherwise it holds nothing. -/
theorem C82_best :
    ∃ data rest, HasType a data.name (str "Input") ∧ ∃ F : Memory.Fits (infos layers) L data rest,
      ∃ ps : Mode → ∀ T B, ∀ l ∈ rest, LibLayer (infos layers) data l T B,
      (∀ M T B l (hl : l ∈ rest) t, HasType a l.name t → Describes M t (kwargs l.name) (ps M T B l hl)) ∧
      ∀ (M M' : Mode), M.training = true ∨ (∀ n, ¬ HasType a n (str "Dropout")) →
        ∀ (alg : Algorithm) (epochs : ℕ → List Batch) (hooks : Dict Name (LibHook alg.Memory)) (order : List Hook) (fuel : ℕ)
          (s s' : St (World alg.Memory) ℝ) (fin : Bool) (n : ℕ) (θ₀ : Fin n → ℝ),
        (∀ e, epochs e ≠ [] ∧ ∀ b ∈ epochs e, b.Good data) →
        (∀ nm dt sc, Dict.get? hooks nm = some (.monitor dt sc) → ∀ e u, ∀ b ∈ dt e u, b.Good data) →
        Fresh s.w → s.trace = [] → CanTrain (infos layers) (netOf (infos layers) L) (alg.Ok n) s.w.run →
        s.w.run.st.read (str "parameters") = some (List.ofFn θ₀) →
        Training.train (trainingOf a layers L data.name (fun T B => libNetwork F (ps M T B)) (fun T B => libNetwork F (ps M' T B)) alg
          epochs hooks).env order fuel s = some (s', fin) →
        ∀ (mon save : Name) (sc : Bool) (i j : ℕ) (A B C : List Hook) (dt : ℕ → ℕ → List Batch) (scorers : List Scoring) (c : Crit) (worst : ℝ),
        order = A ++ ⟨mon, sc, i⟩ :: (B ++ ⟨save, sc, j⟩ :: C) → (order.map Hook.name).Nodup → i ∣ j →
        Dict.get? hooks mon = some (.monitor dt scorers) → (∀ x ∈ scorers, x.name ≠ str "total_loss") →
        Dict.get? hooks save = some (.saveBest c [mon, str "total_loss"] sc) → s.w.saved save = ⟨worst, none, none⟩ →
        ∃ (rates : ℕ → ℝ × ℝ) (r : ℕ → Constrained.Run alg.Memory) (θ : ℕ → Fin n → ℝ) (loss : ℕ → ℝ) (value : ℕ × ℕ → ℝ),
          (∀ k ≤ s'.update - s.update,
            Constrained.train (netOf (infos layers) L) data.name (fun T B => libNetwork F (ps M' T B)) (reported a layers L)
              (fun k => alg.run (netOf (infos layers) L) (fun T B => libNetwork F (ps M T B)) (rates k).1 (rates k).2) (batchNr epochs)
              (fun _ => []) s.w.run k = some (r k, (List.range k).map loss) ∧
            (r k).st.read (str "parameters") = some (List.ofFn (θ k))) ∧
          (∀ e u, ∃ valid : Batch → ℝ, (∀ b ∈ dt e u, lossOf (netOf (infos layers) L) data.name (fun T B => libNetwork F (ps M' T B))
            (reported a layers L) b (List.ofFn (θ (u - s.update))) = some (valid b)) ∧ value (e, u) = meanLoss ((dt e u).map fun b => (b.B, valid b))) ∧
          ((∃ x ∈ checks save s'.trace, c.better (value x) worst = true) →
            ∃ q x, (checks save s'.trace)[q]? = some x ∧ Training.FirstBest c ((checks save s'.trace).map value) q ∧
              s'.w.saved save = ⟨value x, some (if sc then x.1 else x.2), some (List.ofFn (θ (x.2 - s.update)))⟩) ∧
          ((∀ x ∈ checks save s'.trace, c.better (value x) worst = false) → s'.w.saved save = ⟨worst, none, none⟩) := by
  have m : Made kwargs a ord layers L := ⟨hk, ho, h, hne, hL⟩
  obtain ⟨data, rest, hdt, F, ps, hps⟩ := functions m tr num sup
  exact ⟨data, rest, hdt, F, ps, hps, best_kept kwargs a ord layers L m hdt F ps hps⟩

end

end Verif.Trainer
