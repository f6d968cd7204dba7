import Verif.Reload.Props
import Verif.Trainer.Demo

/-!
# The assumptions of C83 are met
-/

namespace Verif.Reload

open Verif.Architecture hiding demoArch
open Verif.Structure Verif.Layout Verif.Buffers Verif.Instantiate Verif.EndToEnd
open Verif.Memory hiding demoL
open Verif.Setup (Kwargs libEnv infos toInfo inp_some)
open Verif.Session
open Verif.Determined

/-- Zeros for all parameters of all layers. -/
def zeros (layers : List LayerInfo) : List (Name × List ℝ) :=
  layers.flatMap fun l => l.paramShapes.map fun x => (path l.name (str "parameters") x.1, List.replicate x.2.featureSize 0)

theorem zeros_initial (layers : List LayerInfo) : Initial layers (zeros layers) := by
  intro d hd
  obtain ⟨l, hl, hd⟩ := List.mem_flatMap.1 hd
  obtain ⟨x, hx, rfl⟩ := List.mem_map.1 hd
  exact ⟨l, hl, x.1, x.2, hx, rfl, List.length_replicate⟩

/-- In the example network `initialize` assigns something. -/
example : (zeros (infos dropLayers)).length = 6 ∧ ((zeros (infos dropLayers)).map fun d => d.2.length).sum = 35 := by
  constructor <;> (simp only [zeros, List.map_flatMap, List.map_map, Function.comp_def, List.length_replicate]; decide +kernel)

/-- A network with any 35 parameters is saved, loaded with other random numbers for the initialization, and has these parameters. -/
example (θ₀ : Fin 35 → ℝ) : ∃ st st' : State ℝ, saved st = some (List.ofFn θ₀) ∧
    fromHdf5 (netOf (infos dropLayers) dropL) (zeros (infos dropLayers)) (List.ofFn θ₀) = some st' ∧ SameParameters (infos dropLayers) st st' := by
  obtain ⟨data, rest, hdt, F, ps, hps, h⟩ := C83_outputs dropKwargs dropArch (by decide +kernel) (demoOrders true) (demoOrders_ok true)
    dropLayers drop_instantiates drop_outs dropL drop_layout drop_trainable drop_numeric drop_supported
  obtain ⟨st, hst, hθ⟩ := drop_new θ₀
  obtain ⟨θ, st', h1, h2, -, h3, -⟩ := h st _ hst (zeros_initial _)
  obtain rfl := Option.some.inj (h1.symm.trans hθ)
  exact ⟨st, st', hθ, h2, h3⟩

theorem drop_backwards : SameArch dropArch dropArch.reverse := by
  refine ⟨dropArch.reverse, dropArch.reverse_perm.symm, List.forall₂_same.2 fun e he => ⟨rfl, rfl, ?_⟩⟩
  have hm : ∀ e ∈ dropArch.reverse, e.2.outgoing ≠ .missing ∧ e.2.outgoing ≠ .other := by decide +kernel
  have := hm e he
  cases ho : e.2.outgoing with
  | missing => exact absurd ho this.1
  | other => exact absurd ho this.2
  | list l => exact .list (.refl _)
  | dict d => exact .dict (.refl _) (List.forall₂_same.2 fun x _ => ⟨rfl, .refl _⟩)

/-- The layers come out the same when the file lists the layers of the architecture backwards. -/
example (r : Except Instantiate.Err (Dict Name (LayerObj Kwargs))) :
    Instantiates (libEnv dropKwargs) (demoOrders false) dropArch.reverse r ↔ r = .ok dropLayers :=
  C83_layers dropKwargs dropArch (by decide +kernel) (demoOrders true) (demoOrders_ok true) dropLayers drop_instantiates dropArch.reverse
    drop_backwards (demoOrders false) (demoOrders_ok false) r

/-- Training with Nesterov momentum goes on in the loaded network as in the original. -/
example (M M' : Mode) (hM : M.training = true) (lr μ : ℕ → ℝ) (θ₀ : Fin 35 → ℝ) :
    ∃ data rest, HasType dropArch data.name (str "Input") ∧ ∃ F : Memory.Fits (infos dropLayers) dropL data rest,
      ∃ ps : Mode → ∀ T B, ∀ l ∈ rest, LibLayer (infos dropLayers) data l T B,
      ∀ batches : ℕ → Batch, (∀ k, (batches k).Good data) → ∃ st st' : State ℝ, saved st = some (List.ofFn θ₀) ∧
        fromHdf5 (netOf (infos dropLayers) dropL) (zeros (infos dropLayers)) (List.ofFn θ₀) = some st' ∧ ∀ k, SameOutcome (infos dropLayers)
          (Constrained.train (netOf (infos dropLayers) dropL) data.name (fun T B => libNetwork F (ps M' T B)) (reported dropArch dropLayers dropL)
            (fun k => (Algorithm.nesterov true).run (netOf (infos dropLayers) dropL) (fun T B => libNetwork F (ps M T B)) (lr k) (μ k)) batches
            (fun _ => []) ⟨st, List.replicate 35 (0 : ℝ), [], []⟩ k)
          (Constrained.train (netOf (infos dropLayers) dropL) data.name (fun T B => libNetwork F (ps M' T B)) (reported dropArch dropLayers dropL)
            (fun k => (Algorithm.nesterov true).run (netOf (infos dropLayers) dropL) (fun T B => libNetwork F (ps M T B)) (lr k) (μ k)) batches
            (fun _ => []) ⟨st', List.replicate 35 (0 : ℝ), [], []⟩ k) := by
  obtain ⟨data, rest, hdt, F, ps, hps, h⟩ := C83_training dropKwargs dropArch (by decide +kernel) (demoOrders true) (demoOrders_ok true)
    dropLayers drop_instantiates drop_outs dropL drop_layout drop_trainable drop_numeric drop_supported
  refine ⟨data, rest, hdt, F, ps, fun batches hb => ?_⟩
  obtain ⟨st, hst, hθ⟩ := drop_new θ₀
  have good : ∀ g, Constrained.Mods.Good [] g (infos dropLayers) := fun g => ⟨by simp [Dict.keys], by simp⟩
  obtain ⟨st', h1, h2⟩ := h M M' M' (.inl hM) (.nesterov true) lr μ batches (fun _ => []) (fun _ => []) hb (by simp) (by simp) 35 θ₀
    ⟨st, List.replicate 35 (0 : ℝ), [], []⟩ _ hθ ⟨hst, List.length_replicate, good _, good _⟩ (zeros_initial _)
  exact ⟨st, st', hθ, h1, h2 [] [] (good _) (good _) (by intro l hl; simp) (by intro l hl; simp)⟩

/-- The best network of a training, loaded again, has the best loss on the validation data. -/
example (M M' : Mode) (hM : M.training = true) (lr μ : ℝ) (θ₀ : Fin 35 → ℝ) (fuel : ℕ) :
    ∃ data rest, HasType dropArch data.name (str "Input") ∧ ∃ F : Memory.Fits (infos dropLayers) dropL data rest,
      ∃ ps : Mode → ∀ T B, ∀ l ∈ rest, LibLayer (infos dropLayers) data l T B,
      ∀ (epochs : ℕ → List Batch) (v : Batch), (∀ e, epochs e ≠ [] ∧ ∀ b ∈ epochs e, b.Good data) → v.Good data →
        ∃ (s s' : Training.St (Trainer.World (List ℝ)) ℝ) (fin : Bool) (best : ℝ) (t : ℕ) (ϑ : List ℝ) (st' : State ℝ),
          Training.train (Trainer.trainingOf dropArch dropLayers dropL data.name (fun T B => libNetwork F (ps M T B))
            (fun T B => libNetwork F (ps M' T B)) (.nesterov true) epochs (Trainer.demoHooks v)).env Trainer.demoOrder fuel s = some (s', fin) ∧
          s'.w.saved (str "best") = ⟨best, some t, some ϑ⟩ ∧
          fromHdf5 (netOf (infos dropLayers) dropL) (zeros (infos dropLayers)) ϑ = some st' ∧
          Evaluate.evaluateLoss (netOf (infos dropLayers) dropL) data.name (fun T B => libNetwork F (ps M' T B)) (reported dropArch dropLayers dropL)
            [v] st' = some best := by
  obtain ⟨data, rest, hdt, F, ps, hps, h⟩ := C83_best dropKwargs dropArch (by decide +kernel) (demoOrders true) (demoOrders_ok true)
    dropLayers drop_instantiates drop_outs dropL drop_layout drop_trainable drop_numeric drop_supported
  refine ⟨data, rest, hdt, F, ps, fun epochs v he hv => ?_⟩
  obtain ⟨s, s', fin, worst, hp, hf, h0, hc, htr, -, hw, best, t, ϑ, hsv⟩ := Trainer.demo_run M M' hM lr μ θ₀ fuel hdt F ps hps epochs v he hv
  obtain ⟨x, -, -, h2⟩ := h M M' (.inl hM) (.nesterov true) epochs (Trainer.demoHooks v) Trainer.demoOrder fuel s s' fin 35 θ₀ he
    (Trainer.demo_monitors hv) hf h0 hc hp htr (str "validation") (str "best") true 1 1 [] []
    [⟨str "rate", false, 3⟩, ⟨str "stop", true, 1⟩] (fun _ _ => [v]) [] .min worst rfl (by decide) (by decide) rfl (by simp) rfl hw best (some t) ϑ hsv
  obtain ⟨st', h3, h4⟩ := h2 _ (zeros_initial _)
  exact ⟨s, s', fin, best, t, ϑ, st', htr, hsv, h3, h4⟩

end Verif.Reload
