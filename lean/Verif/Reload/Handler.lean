import Verif.Reload.Props

/-!
# C81: the handler is changed during a training
-/

namespace Verif.Reload

open Verif.Architecture hiding demoArch
open Verif.Structure Verif.Layout Verif.Buffers Verif.Instantiate Verif.EndToEnd
open Verif.Memory hiding demoL
open Verif.Setup (Kwargs libEnv infos toInfo inp_some)
open Verif.Shapes (Supported)
open Verif.Session hiding sgdRun momentumRun nesterovRun round train Stepper
open Verif.Determined (Algorithm CanTrain Same SameMods SameOutcome after_forward)

section
variable (kwargs : Name → Kwargs) (a : Arch) (hk : (Dict.keys a).Nodup) (ord : Orders) (ho : ord.Ok)
  (layers : Dict Name (LayerObj Kwargs)) (h : Instantiates (libEnv kwargs) ord a (.ok layers))
  (hne : ∃ n l, Dict.get? layers n = some l ∧ l.shapes.outs ≠ []) (L : Layout) (hL : createLayout (infos layers) = .ok L)
  (tr : Trainable a) (num : Numeric a kwargs)
  (sup : ∀ n l t, Dict.get? layers n = some l → HasType a n t → Supported t l.kwargs l.inShapes)
include hk ho h hne hL tr num sup

/-- **C81, `set_handler`.**  After any number of updates `set_handler` (network.py:359-377) is called with a handler that computes the same.
It succeeds, the parameters are as before, and the training goes on as it would have gone on without it.  (What the stepper and the
modifiers remember is used as it is; that is not possible if the new handler has another type of arrays.) -/
theorem C81_set_handler :
    ∃ data rest, HasType a data.name (str "Input") ∧ ∃ F : Memory.Fits (infos layers) L data rest,
      ∃ ps : Mode → ∀ T B, ∀ l ∈ rest, LibLayer (infos layers) data l T B,
      (∀ M T B l (hl : l ∈ rest) t, HasType a l.name t → Describes M t (kwargs l.name) (ps M T B l hl)) ∧
      ∀ (M M₁ M₂ : Mode), M.training = true ∨ (∀ n, ¬ HasType a n (str "Dropout")) →
        ∀ (alg : Algorithm) (lr μ : ℕ → ℝ) (batches : ℕ → Batch) (evals₁ evals₂ : ℕ → List Batch), (∀ k, (batches k).Good data) →
        (∀ k, ∀ b ∈ evals₁ k, b.Good data) → (∀ k, ∀ b ∈ evals₂ k, b.Good data) →
        ∀ (n : ℕ) (θ : Fin n → ℝ) (s : Constrained.Run alg.Memory), s.st.read (str "parameters") = some (List.ofFn θ) →
        CanTrain (infos layers) (netOf (infos layers) L) (alg.Ok n) s → ∀ k, ∃ r log,
          Constrained.train (netOf (infos layers) L) data.name (fun T B => libNetwork F (ps M₁ T B)) (reported a layers L)
            (fun k => alg.run (netOf (infos layers) L) (fun T B => libNetwork F (ps M T B)) (lr k) (μ k)) batches evals₁ s k = some (r, log) ∧
          ∃ st', setHandler (netOf (infos layers) L) r.st = some st' ∧ SameParameters (infos layers) r.st st' ∧
          ∀ j, ∃ r₁ r₂ log',
            Constrained.train (netOf (infos layers) L) data.name (fun T B => libNetwork F (ps M₁ T B)) (reported a layers L)
              (fun k => alg.run (netOf (infos layers) L) (fun T B => libNetwork F (ps M T B)) (lr k) (μ k)) batches evals₁ s (k + j) =
                some (r₁, log ++ log') ∧
            Constrained.train (netOf (infos layers) L) data.name (fun T B => libNetwork F (ps M₂ T B)) (reported a layers L)
              (fun i => alg.run (netOf (infos layers) L) (fun T B => libNetwork F (ps M T B)) (lr (k + i)) (μ (k + i)))
              (fun i => batches (k + i)) evals₂ ⟨st', r.mem, r.grads, r.weights⟩ j = some (r₂, log') ∧
            Same (infos layers) r₁ r₂ := by
  obtain ⟨data, rest, hdt, F, ps, hps, H⟩ := Determined.C81_resume kwargs a hk ord ho layers h hne L hL tr num sup
  refine ⟨data, rest, hdt, F, ps, hps, fun M M₁ M₂ hM alg lr μ batches evals₁ evals₂ hb he₁ he₂ n θ s hθ c k => ?_⟩
  obtain ⟨r, log, h1, h2, h3⟩ := H M M₁ M₂ hM alg lr μ batches evals₁ evals₂ hb he₁ he₂ n θ s hθ c k
  have hwl := netOf_wellLaid F.laid.wf F.laid.shaped F.laid.layout
  obtain ⟨T, B, sz, q, vs, i⟩ := h2.state.inv hwl
  obtain ⟨st', q', vs', g1, -, g2⟩ := setHandler_inv hwl i
  have hr' := setHandler_reachable h2.state g1
  obtain ⟨e, he⟩ := params_entry (layers := infos layers) (L := L)
  obtain ⟨v, hv⟩ := cells_view F.laid i he
  have hread : ∃ ϑ, r.st.read (str "parameters") = some ϑ := ⟨_, by simp only [State.read, i.view, hv, Option.map_some]; rfl⟩
  obtain ⟨ϑ, hϑ⟩ := hread
  exact ⟨r, log, h1, st', g1, sameParameters F.laid h2.state hr' hϑ (g2.trans hϑ),
    h3 ⟨st', r.mem, r.grads, r.weights⟩ ⟨hr', h2.mem, h2.grads, h2.weights⟩ ⟨g2.symm, rfl, fun _ _ _ _ => rfl, fun _ _ _ _ => rfl⟩⟩

end

end Verif.Reload
