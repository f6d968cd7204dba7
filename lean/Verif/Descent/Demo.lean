import Verif.Descent.Props
import Verif.Determined.Demo

/-!
# The assumptions of C84 are met
-/

namespace Verif.Descent

open Verif.Architecture hiding demoArch
open Verif.Structure Verif.Layout Verif.Buffers Verif.Instantiate Verif.EndToEnd
open Verif.Memory hiding demoL
open Verif.Setup (Kwargs libEnv infos toInfo inp_some)
open Verif.Shapes (Supported)
open Verif.Session Verif.Determined

theorem demo_free : FreePeriods (infos demoLayers) := by
  have : ∀ l ∈ infos demoLayers, ∀ o ∈ l.outgoing, o.kind = .parameters → o.buffer ≠ str "timing" := by decide +kernel
  exact this

theorem drop_free : FreePeriods (infos dropLayers) := by
  have : ∀ l ∈ infos dropLayers, ∀ o ∈ l.outgoing, o.kind = .parameters → o.buffer ≠ str "timing" := by decide +kernel
  exact this

/-- The second network has periods. -/
example : ∃ l ∈ infos dropLayers, str "timing" ∈ l.paramShapes.map Prod.fst := by decide +kernel

/-- The first network, with a recurrent layer, is differentiable everywhere: small steps always decrease the loss. -/
example (M : Mode) (hM : M.training = true) (st : State ℝ) (θ : Fin 40 → ℝ) (hst : Reachable (netOf (infos demoLayers) demoL) st)
    (hθ : st.read (str "parameters") = some (List.ofFn θ)) :
    ∃ data rest, HasType demoArch data.name (str "Input") ∧ ∃ F : Memory.Fits (infos demoLayers) demoL data rest,
      ∃ ps : ∀ T B, ∀ l ∈ rest, LibLayer (infos demoLayers) data l T B,
      ∀ b : Batch, b.Good data → 0 < b.T → ∃ (loss : (Fin 40 → ℝ) → ℝ) (g : Fin 40 → ℝ), ∃ ε > 0, ∀ lr, 0 < lr → lr < ε →
        ∃ (st' : State ℝ) (θ' : Fin 40 → ℝ) (recorded : ℝ),
          Session.round (netOf (infos demoLayers) demoL) data.name (fun T B => libNetwork F (ps T B)) (reported demoArch demoLayers demoL)
            (Session.sgdRun (netOf (infos demoLayers) demoL) (fun T B => libNetwork F (ps T B)) lr) b [] (st, ()) = some ((st', ()), recorded) ∧
          loss θ' ≤ recorded - lr / 2 * ∑ i, g i ^ 2 := by
  obtain ⟨data, rest, hdt, F, ps, hps, h⟩ := C84_descent demoKwargs demoArch (by decide +kernel) (demoOrders true) (demoOrders_ok true)
    demoLayers demo_instantiates demo_outs demoL demo_layout demo_trainable demo_numeric demo_supported demo_free
  refine ⟨data, rest, hdt, F, ps M, fun b hb hT => ?_⟩
  obtain ⟨loss, st₁, st₂, st₃, g, -, -, -, -, -, hd⟩ := h M (Or.inl hM) 40 st b θ hst hb hθ
  have m : Made demoKwargs demoArch (demoOrders true) demoLayers demoL :=
    ⟨by decide +kernel, demoOrders_ok true, demo_instantiates, demo_outs, demo_layout⟩
  obtain ⟨ε, hε, hd⟩ := hd fun l hl => by
    obtain ⟨lo, hlo, -⟩ := m.mem_infos (F.ordered.mem hl)
    obtain ⟨t, -, ht, -⟩ := m.cls hlo
    exact smooth_regular demo_smooth hT _ ht (hps M b.T b.B l hl t ht) _
  refine ⟨loss, g, ε, hε, fun lr h1 h2 => ?_⟩
  obtain ⟨st', θ', recorded, e1, -, e2⟩ := hd lr h1 h2
  exact ⟨st', θ', recorded, e1, e2⟩

/-- No parameter of the first network is a period. -/
example (i : ℕ) : ¬ IsPeriod (infos demoLayers) demoL i := by
  rintro ⟨l, hl, s, hs, -⟩
  have : ∀ l ∈ infos demoLayers, str "timing" ∉ l.paramShapes.map Prod.fst := by decide +kernel
  exact this l hl (List.mem_map.2 ⟨_, hs, rfl⟩)

/-- The periods of the second network stay as they are. -/
example (M : Mode) (hM : M.training = true) (θ : Fin 35 → ℝ) : ∃ st : State ℝ, Reachable (netOf (infos dropLayers) dropL) st ∧
    st.read (str "parameters") = some (List.ofFn θ) ∧
    ∃ data rest, HasType dropArch data.name (str "Input") ∧ ∃ F : Memory.Fits (infos dropLayers) dropL data rest,
      ∃ ps : ∀ T B, ∀ l ∈ rest, LibLayer (infos dropLayers) data l T B,
      ∀ batches : ℕ → Batch, (∀ k, (batches k).Good data) → ∀ k, ∀ l ∈ infos dropLayers, str "timing" ∈ l.paramShapes.map Prod.fst →
        ∃ st' log ts, train (netOf (infos dropLayers) dropL) data.name (fun T B => libNetwork F (ps T B)) (reported dropArch dropLayers dropL)
            (fun _ => sgdRun (netOf (infos dropLayers) dropL) (fun T B => libNetwork F (ps T B)) 1) batches (fun _ => []) (st, ()) k =
              some ((st', ()), log) ∧
          st.read (path l.name (str "parameters") (str "timing")) = some ts ∧
          st'.read (path l.name (str "parameters") (str "timing")) = some ts := by
  obtain ⟨st, hst, hθ⟩ := drop_new θ
  obtain ⟨data, rest, hdt, F, ps, hps, h⟩ := C84_periods dropKwargs dropArch (by decide +kernel) (demoOrders true) (demoOrders_ok true)
    dropLayers drop_instantiates drop_outs dropL drop_layout drop_trainable drop_numeric drop_supported drop_free
  exact ⟨st, hst, hθ, data, rest, hdt, F, ps M, fun batches hb k l hl hx =>
    (h M M (Or.inl hM) 35 st θ hst hθ batches (fun _ => []) hb (by simp) (fun _ => 1) (fun _ => 0) false k l hl hx).1⟩

end Verif.Descent
