import Verif.Constrained.Props

/-! # C80: a network with modifiers meets the assumptions -/

namespace Verif.Constrained

open Verif.Architecture hiding demoArch
open Verif.Structure Verif.Layout Verif.Buffers Verif.Instantiate Verif.EndToEnd
open Verif.Memory hiding demoL
open Verif.Setup (Kwargs libEnv infos toInfo inp_some)
open Verif.Session hiding sgdRun momentumRun nesterovRun backwardPass round train Stepper

/-- Weight modifiers of four kinds. -/
noncomputable def demoWeights : Mods :=
  [((str "Rnn", str "R"), [.maskValues (List.replicate 9 1), .clipValues (-1) 1]),
   ((str "Rnn", str "W"), [.clipValues (-1) 1, .maskValues (1 :: List.replicate 11 0)]),
   ((str "Out", str "W"), [.constrainL2Norm 1 100]),
   ((str "Out", str "bias"), [.freezeValues none])]

/-- Decay of all parameters. -/
noncomputable def demoDecay (f : ℝ) : Mods :=
  [((str "Rnn", str "R"), [.l2Decay f]), ((str "Rnn", str "W"), [.l2Decay f]), ((str "Rnn", str "bias"), [.l2Decay f]),
   ((str "Out", str "W"), [.l2Decay f]), ((str "Out", str "bias"), [.l2Decay f])]

/-- Gradient modifiers of several kinds. -/
noncomputable def demoGrads : Mods :=
  [((str "Rnn", str "R"), [.l2Decay 1, .l1Decay 2, .clipValues (-1) 1]), ((str "Out", str "bias"), [.maskValues [1, 0]])]

/-- Entries for a parameter of the network. -/
theorem demo_view {n : Name × Name} {shape : List ℕ} {ms : List Modifier} {g : Bool}
    (h : ∃ l ∈ infos demoLayers, ∃ v ∈ l.paramShapes, n = (l.name, v.1) ∧ shapeS v.2 = shape)
    (hm : ∀ m ∈ ms, m.Fits shape ∧ (m.isGradient = true → g = true)) :
    ∃ l ∈ infos demoLayers, ∃ v ∈ l.paramShapes, n = (l.name, v.1) ∧
      ∀ m ∈ ms, m.Fits (shapeS v.2) ∧ (m.isGradient = true → g = true) := by
  obtain ⟨l, hl, v, hv, e, rfl⟩ := h
  exact ⟨l, hl, v, hv, e, hm⟩

theorem good_nil {g : Bool} : ∀ e ∈ ([] : Mods), ∃ l ∈ infos demoLayers, ∃ v ∈ l.paramShapes, e.1 = (l.name, v.1) ∧
    ∀ m ∈ e.2, m.Fits (shapeS v.2) ∧ (m.isGradient = true → g = true) := by simp

theorem demo_weights_good : demoWeights.Good false (infos demoLayers) := by
  refine ⟨by simp only [demoWeights, Dict.keys, List.map_cons, List.map_nil]; decide, ?_⟩
  refine List.forall_mem_cons.2 ⟨demo_view (shape := [3, 3]) ?_ ?_, List.forall_mem_cons.2 ⟨demo_view (shape := [3, 4]) ?_ ?_,
    List.forall_mem_cons.2 ⟨demo_view (shape := [2, 7]) ?_ ?_, List.forall_mem_cons.2 ⟨demo_view (shape := [2]) ?_ ?_, good_nil⟩⟩⟩⟩ <;>
    first | (dsimp only; decide +kernel) | simp [Modifier.Fits, Modifier.isGradient]

theorem demo_decay_good (f : ℝ) : (demoDecay f).Good true (infos demoLayers) := by
  refine ⟨by simp only [demoDecay, Dict.keys, List.map_cons, List.map_nil]; decide, ?_⟩
  refine List.forall_mem_cons.2 ⟨demo_view (shape := [3, 3]) ?_ ?_, List.forall_mem_cons.2 ⟨demo_view (shape := [3, 4]) ?_ ?_,
    List.forall_mem_cons.2 ⟨demo_view (shape := [3]) ?_ ?_, List.forall_mem_cons.2 ⟨demo_view (shape := [2, 7]) ?_ ?_,
    List.forall_mem_cons.2 ⟨demo_view (shape := [2]) ?_ ?_, good_nil⟩⟩⟩⟩⟩ <;>
    first | (dsimp only; decide +kernel) | simp [Modifier.Fits]

theorem demo_grads_good : demoGrads.Good true (infos demoLayers) := by
  refine ⟨by simp only [demoGrads, Dict.keys, List.map_cons, List.map_nil]; decide, ?_⟩
  refine List.forall_mem_cons.2 ⟨demo_view (shape := [3, 3]) ?_ ?_, List.forall_mem_cons.2 ⟨demo_view (shape := [2]) ?_ ?_, good_nil⟩⟩ <;>
    first | (dsimp only; decide +kernel) | simp [Modifier.Fits]

/-- The names of all parameters of the network. -/
theorem demo_params : ∀ l ∈ infos demoLayers, ∀ e ∈ l.paramShapes, (l.name, e.1) ∈
    [(str "Rnn", str "R"), (str "Rnn", str "W"), (str "Rnn", str "bias"), (str "Out", str "W"), (str "Out", str "bias")] := by
  decide +kernel

/-- All parameters decay. -/
theorem demo_decay_all (f : ℝ) : ∀ l ∈ infos demoLayers, ∀ e ∈ l.paramShapes, (demoDecay f).at l.name e.1 = [.l2Decay f] := by
  intro l hl e he
  have key : ∀ k : Name × Name, k ∈ [(str "Rnn", str "R"), (str "Rnn", str "W"), (str "Rnn", str "bias"), (str "Out", str "W"),
      (str "Out", str "bias")] → (Dict.get? (demoDecay f) k).getD [] = [.l2Decay f] := by
    simp only [List.forall_mem_cons, List.not_mem_nil, false_imp_iff, implies_true, and_true]
    refine ⟨?_, ?_, ?_, ?_, ?_⟩ <;> simp [demoDecay, Dict.get?]
  exact key _ (demo_params l hl e he)

/-- Training with the modifiers is what C80 says. -/
example (M M' : Mode) : ∃ data rest, HasType demoArch data.name (str "Input") ∧ ∃ F : Memory.Fits (infos demoLayers) demoL data rest,
    ∃ ps : Mode → ∀ T B, ∀ l ∈ rest, LibLayer (infos demoLayers) data l T B,
    ∃ grad : Batch → (Fin 40 → ℝ) → Fin 40 → ℝ,
      ∀ (st : State ℝ) (θ₀ : Fin 40 → ℝ), Reachable (netOf (infos demoLayers) demoL) st → st.read (str "parameters") = some (List.ofFn θ₀) →
        ∀ (batches : ℕ → Batch) (evals : ℕ → List Batch), (∀ k, (batches k).Good data ∧ 0 < (batches k).T) →
          (∀ k, ∀ b ∈ evals k, b.Good data) → ∀ lr : ℕ → ℝ,
          ∃ (r : ℕ → Run Unit) (θ γ : ℕ → Fin 40 → ℝ), θ 0 = θ₀ ∧ ∀ k,
            (∃ log, train (netOf (infos demoLayers) demoL) data.name (fun T B => libNetwork F (ps M' T B)) (reported demoArch demoLayers demoL)
              (fun k => sgdRun (netOf (infos demoLayers) demoL) (fun T B => libNetwork F (ps M T B)) (lr k)) batches evals
              ⟨st, (), demoGrads, demoWeights⟩ k = some (r k, log)) ∧
            (r k).st.read (str "parameters") = some (List.ofFn (θ k)) ∧
            Modified gradCall (infos demoLayers) demoL (r k).grads (List.ofFn (θ k)) (List.ofFn (grad (batches k) (θ k)))
              (r (k + 1)).grads (List.ofFn (γ k)) := by
  obtain ⟨data, rest, hdt, F, ps, -, h⟩ := C80_training demoKwargs demoArch (by decide +kernel) (demoOrders true) (demoOrders_ok true)
    demoLayers demo_instantiates demo_outs demoL demo_layout demo_trainable demo_numeric demo_supported demo_smooth demo_no_clockwork
  obtain ⟨loss, grad, h⟩ := h M M' 40
  refine ⟨data, rest, hdt, F, ps, grad, fun st θ₀ hst hθ batches evals hb he lr => ?_⟩
  obtain ⟨⟨r, θ, γ, h1, h2, h3⟩, -⟩ := (h st θ₀ hst hθ).2 batches evals hb he demoWeights demoGrads demo_weights_good demo_grads_good lr lr true
  exact ⟨r, θ, γ, h2, fun k => ⟨⟨_, (h3 k).1⟩, (h3 k).2.1, (h3 k).2.2.1⟩⟩

/-- The weights from the input to the recurrent layer end with a mask, the recurrent ones with bounds, those of the output layer have a
norm constraint, and its biases are frozen. -/
example : demoWeights.at (str "Rnn") (str "W") = [.clipValues (-1) 1] ++ [.maskValues (1 :: List.replicate 11 0)] ∧
    demoWeights.at (str "Rnn") (str "R") = [.maskValues (List.replicate 9 1)] ++ [.clipValues (-1) 1] ∧
    demoWeights.at (str "Out") (str "W") = [] ++ [.constrainL2Norm 1 100] ∧
    demoWeights.at (str "Out") (str "bias") = [.freezeValues none] := by
  have h1 : str "R" ≠ str "W" := by decide
  have h2 : str "Rnn" ≠ str "Out" := by decide
  have h3 : str "W" ≠ str "bias" := by decide
  simp [Mods.at, demoWeights, Dict.get?, h1, h2, h3]

end Verif.Constrained
