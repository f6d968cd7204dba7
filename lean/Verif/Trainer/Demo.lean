import Verif.Trainer.Schedule
import Verif.Determined.Demo

/-!
# The assumptions of C82 are met
-/

namespace Verif.Trainer

open Verif.Architecture hiding demoArch
open Verif.Structure Verif.Layout Verif.Buffers Verif.Instantiate Verif.EndToEnd
open Verif.Memory hiding demoL
open Verif.Setup (Kwargs libEnv infos toInfo inp_some)
open Verif.Session
open Verif.Determined
open Verif.Training (Env Hook Val Logs Crit Saved Event St Act)

/-- A monitor of the loss on some data, the best network according to it, a learning rate that is halved every three updates, and early
stopping after epoch 7. -/
noncomputable def demoHooks (v : Batch) : Dict Name (LibHook (List ℝ)) :=
  [(str "validation", .monitor (fun _ _ => [v]) []),
   (str "best", .saveBest .min [str "validation", str "total_loss"] true),
   (str "rate", .modifyLr fun _ u => some (1 / 2 ^ u)),
   (str "stop", .watch fun e _ _ _ => if 7 ≤ e then .stop .none else .value .none)]

/-- When they are called. -/
def demoOrder : List Hook :=
  [⟨str "validation", true, 1⟩, ⟨str "best", true, 1⟩, ⟨str "rate", false, 3⟩, ⟨str "stop", true, 1⟩]

theorem demo_hooks (v : Batch) : ∀ x ∈ demoOrder, 0 < x.interval ∧ x.name ≠ str "rolling_training" ∧
    ∃ y, Dict.get? (demoHooks v) x.name = some y ∧ Harmless (demoHooks v) demoOrder y := by
  intro x hx
  simp only [demoOrder, List.mem_cons, List.not_mem_nil, or_false] at hx
  rcases hx with rfl | rfl | rfl | rfl
  · exact ⟨by decide, by decide, _, rfl, rfl, by simp⟩
  · exact ⟨by decide, by decide, _, rfl, str "validation", rfl, by decide, _, rfl⟩
  · exact ⟨by decide, by decide, _, rfl, fun e u => by simp⟩
  · refine ⟨by decide, by decide, _, rfl, fun e u logs w _ => ?_⟩
    dsimp only
    split
    · exact .inr rfl
    · exact .inl rfl

theorem demo_monitors {v : Batch} {data : LayerInfo} (hv : v.Good data) (nm : Name) (dt : ℕ → ℕ → List Batch) (sc : List Scoring)
    (h : Dict.get? (demoHooks v) nm = some (.monitor dt sc)) (e u : ℕ) : ∀ b ∈ dt e u, b.Good data := by
  have hm := Dict.mem_of_get? h
  simp only [demoHooks, List.mem_cons, Prod.mk.injEq, List.not_mem_nil, or_false, LibHook.monitor.injEq, reduceCtorEq, and_false] at hm
  obtain ⟨-, rfl, -⟩ := hm
  simpa using hv

/-- For any data, a new network with any parameters and a new trainer with these hooks: the training does not raise, the loss on the
validation data is computed at least once, and the best network is kept. -/
theorem demo_run (M M' : Mode) (hM : M.training = true) (lr μ : ℝ) (θ₀ : Fin 35 → ℝ) (fuel : ℕ) {data : LayerInfo} {rest : List LayerInfo}
    (hdt : HasType dropArch data.name (str "Input")) (F : Memory.Fits (infos dropLayers) dropL data rest)
    (ps : Mode → ∀ T B, ∀ l ∈ rest, LibLayer (infos dropLayers) data l T B)
    (hps : ∀ M T B l (hl : l ∈ rest) t, HasType dropArch l.name t → Describes M t (dropKwargs l.name) (ps M T B l hl))
    (epochs : ℕ → List Batch) (v : Batch) (he : ∀ e, epochs e ≠ [] ∧ ∀ b ∈ epochs e, b.Good data) (hv : v.Good data) :
    ∃ (s s' : St (World (List ℝ)) ℝ) (fin : Bool) (worst : ℝ), s.w.run.st.read (str "parameters") = some (List.ofFn θ₀) ∧
      Fresh s.w ∧ s.trace = [] ∧ CanTrain (infos dropLayers) (netOf (infos dropLayers) dropL) (Algorithm.Ok 35 (.nesterov true)) s.w.run ∧
      Training.train (trainingOf dropArch dropLayers dropL data.name (fun T B => libNetwork F (ps M T B)) (fun T B => libNetwork F (ps M' T B))
        (.nesterov true) epochs (demoHooks v)).env demoOrder fuel s = some (s', fin) ∧
      (0, 0) ∈ checks (str "best") s'.trace ∧ s.w.saved (str "best") = ⟨worst, none, none⟩ ∧
      ∃ (best : ℝ) (t : ℕ) (θ : List ℝ), s'.w.saved (str "best") = ⟨best, some t, some θ⟩ := by
  obtain ⟨st, hst, hθ⟩ := drop_new θ₀
  have good : ∀ g, Constrained.Mods.Good [] g (infos dropLayers) := fun g => ⟨by simp [Dict.keys], by simp⟩
  have m : Made dropKwargs dropArch (demoOrders true) dropLayers dropL :=
    ⟨by decide +kernel, demoOrders_ok true, drop_instantiates, drop_outs, drop_layout⟩
  have K := known (M := M) (M' := M') m F hdt hps (.inl hM) (.nesterov true) he (demo_monitors hv)
  have e35 : 35 = paramCount (infos dropLayers) dropL := Reachable.count F.laid hst hθ
  obtain ⟨x, hx⟩ : ∃ x, lossOf (netOf (infos dropLayers) dropL) data.name (fun T B => libNetwork F (ps M' T B))
      (reported dropArch dropLayers dropL) v (List.ofFn θ₀) = some x := by
    rw [show List.ofFn θ₀ = List.ofFn fun i => θ₀ (i.cast e35.symm) from List.ofFn_congr e35 θ₀]
    exact ⟨_, lossV_eq K.sitedQ hv K.reportsQ _⟩
  obtain ⟨w₀, hw₀⟩ : ∃ w₀ : World (List ℝ), w₀ = ⟨⟨st, List.replicate 35 (0 : ℝ), [], []⟩, lr, μ, 0, 0, [],
    fun _ => ⟨meanLoss [(v.B, x)] + 1, none, none⟩, false⟩ := ⟨_, rfl⟩
  have hf : Fresh w₀ := by subst hw₀; exact ⟨rfl, ⟨rfl, rfl⟩, rfl⟩
  have hc : CanTrain (infos dropLayers) (netOf (infos dropLayers) dropL) (Algorithm.Ok 35 (.nesterov true)) w₀.run := by
    subst hw₀
    exact ⟨hst, List.length_replicate, good _, good _⟩
  have hp : w₀.run.st.read (str "parameters") = some (List.ofFn θ₀) := by subst hw₀; exact hθ
  obtain ⟨s', fin, htr⟩ := train_sane K (s := ⟨w₀, [], 0, 0, []⟩) hf (e35 ▸ hc) (order := demoOrder) (by
    intro nm hm
    obtain ⟨x, hx, rfl⟩ := List.mem_map.1 hm
    exact (demo_hooks v x hx).2) (fun x hx => (demo_hooks v x hx).1) rfl rfl rfl fuel
  refine ⟨⟨w₀, [], 0, 0, []⟩, s', fin, meanLoss [(v.B, x)] + 1, hp, hf, rfl, hc, htr, ?_⟩
  have h00 : (0, 0) ∈ checks (str "best") s'.trace := by
    have key : Act.call true (str "best") 0 0 ∈ s'.trace.map Event.act := by
      rcases Training.C34_trace _ demoOrder fuel _ s' fin rfl htr with ⟨⟨-, -, -, hst⟩, hact⟩ | ⟨ks, hact, -⟩
      · exfalso
        obtain ⟨ev, hev, hstop⟩ := List.any_eq_true.1 hst
        have hev' := List.mem_map_of_mem (f := Event.act) hev
        rw [hact] at hev'
        have hev' : ev.act ∈ [Act.call false (str "rate") 0 0] := hev'
        obtain ⟨evs, hr, ht⟩ := Training.train_run _ _ _ _ _ _ htr
        rw [ht, List.nil_append] at hev
        obtain ⟨⟨y, ev'⟩, hy, rfl⟩ := List.mem_map.1 hev
        obtain ⟨pre, post, hpp⟩ := List.append_of_mem hy
        obtain ⟨s₁, -, hst, -⟩ := hr.split pre post _ hpp
        cases ev' with
        | batch => cases hstop
        | rolling => cases hstop
        | call sc nm e u b val =>
          have hst : Training.Step _ _ y (.call sc nm e u b val) s₁ := hst
          obtain ⟨rfl, rfl, w, hcall⟩ := step_result hst
          rw [List.mem_singleton] at hev'
          simp only [Event.act, Act.call.injEq] at hev'
          obtain ⟨rfl, rfl, -, -⟩ := hev'
          have hb : b = true := hstop
          subst hb
          have hcall := congrArg (fun x => x.2) hcall
          simp only [if_true] at hcall
          have : Training.Res.value (V := ℝ) .none = .stop val := hcall
          cases this
      · rw [hact]
        refine List.mem_append_right _ (List.mem_append_left _ ?_)
        show _ ∈ Training.callsAt demoOrder true 0 0
        decide
    obtain ⟨ev, hev, hact⟩ := List.mem_map.1 key
    refine List.mem_filterMap.2 ⟨ev, hev, ?_⟩
    cases ev with
    | batch => cases hact
    | rolling => cases hact
    | call sc nm e u b val =>
      simp only [Event.act, Act.call.injEq] at hact
      obtain ⟨-, rfl, rfl, rfl⟩ := hact
      simp
  refine ⟨h00, by subst hw₀; rfl, ?_⟩
  obtain ⟨rates, r, θ, loss, value, h1, h2, h3, -⟩ := best_kept dropKwargs dropArch (demoOrders true) dropLayers dropL m hdt F ps hps M M' (.inl hM) (.nesterov true) epochs (demoHooks v) demoOrder fuel ⟨w₀, [], 0, 0, []⟩ s' fin
    35 θ₀ he (demo_monitors hv) hf rfl hc hp htr (str "validation") (str "best") true 1 1 [] [] [⟨str "rate", false, 3⟩, ⟨str "stop", true, 1⟩]
    (fun _ _ => [v]) [] .min (meanLoss [(v.B, x)] + 1) rfl (by decide) (by decide) rfl (by simp) rfl (by subst hw₀; rfl)
  obtain ⟨q, z, -, -, h6⟩ := h3 ⟨(0, 0), h00, by
    obtain ⟨g1, g2⟩ := h1 0 (Nat.zero_le _)
    obtain ⟨valid, k1, k2⟩ := h2 0 0
    have : r 0 = w₀.run := by
      simp only [Constrained.train, Option.some.injEq, Prod.mk.injEq] at g1
      exact g1.1.symm
    rw [this, hp, Option.some.injEq] at g2
    have k1 := k1 v (List.mem_singleton.2 rfl)
    simp only [Nat.sub_zero] at k1
    rw [← g2, hx, Option.some.injEq] at k1
    rw [k2]
    simp only [List.map_cons, List.map_nil, ← k1, Crit.better, decide_eq_true_eq]
    exact lt_add_one _⟩
  exact ⟨_, _, _, h6⟩

/-- The hypotheses of C82_best are met. -/
example (M M' : Mode) (hM : M.training = true) (lr μ : ℝ) (θ₀ : Fin 35 → ℝ) (fuel : ℕ) :
    ∃ data rest, HasType dropArch data.name (str "Input") ∧ ∃ F : Memory.Fits (infos dropLayers) dropL data rest,
      ∃ ps : Mode → ∀ T B, ∀ l ∈ rest, LibLayer (infos dropLayers) data l T B,
      ∀ (epochs : ℕ → List Batch) (v : Batch), (∀ e, epochs e ≠ [] ∧ ∀ b ∈ epochs e, b.Good data) → v.Good data →
        ∃ (s s' : St (World (List ℝ)) ℝ) (fin : Bool), s.w.run.st.read (str "parameters") = some (List.ofFn θ₀) ∧
          Training.train (trainingOf dropArch dropLayers dropL data.name (fun T B => libNetwork F (ps M T B)) (fun T B => libNetwork F (ps M' T B))
            (.nesterov true) epochs (demoHooks v)).env demoOrder fuel s = some (s', fin) ∧
          (0, 0) ∈ checks (str "best") s'.trace ∧ ∃ θ : List ℝ, (s'.w.saved (str "best")).params = some θ := by
  obtain ⟨data, rest, hdt, F, ps, hps, h⟩ := C82_best dropKwargs dropArch (by decide +kernel) (demoOrders true) (demoOrders_ok true)
    dropLayers drop_instantiates drop_outs dropL drop_layout drop_trainable drop_numeric drop_supported
  refine ⟨data, rest, hdt, F, ps, fun epochs v he hv => ?_⟩
  obtain ⟨s, s', fin, worst, hp, -, -, -, htr, h00, -, _, _, θ, hθ⟩ := demo_run M M' hM lr μ θ₀ fuel hdt F ps hps epochs v he hv
  exact ⟨s, s', fin, hp, htr, h00, θ, by rw [hθ]⟩

/-- The learning rate is set by one hook. -/
example (v : Batch) : (⟨str "rate", false, 3⟩ : Hook) ∈ demoOrder ∧ (demoOrder.map Hook.name).Nodup ∧
    Dict.get? (demoHooks v) (str "rate") = some (.modifyLr fun _ u => some (1 / 2 ^ u)) ∧
    (∀ nm' sch, Dict.get? (demoHooks v) nm' = some (.modifyLr sch) → nm' = str "rate") ∧
    (∀ nm' sch, Dict.get? (demoHooks v) nm' ≠ some (.modifyMomentum sch)) := by
  refine ⟨by decide, by decide, rfl, fun nm sch h => ?_, fun nm sch h => ?_⟩
  · have hm := Dict.mem_of_get? h
    simp only [demoHooks, List.mem_cons, Prod.mk.injEq, List.not_mem_nil, or_false, reduceCtorEq, and_false, false_or] at hm
    exact hm.1
  · have hm := Dict.mem_of_get? h
    simp [demoHooks] at hm

end Verif.Trainer
