import Verif.Parts.Props

/-!
# C84 for networks without kinks: the gradients are the derivative of the loss at all parameters

In contrast to C76 and C77, LSTM layers are included.
-/

namespace Verif.Parts

open Verif.Architecture hiding demoArch
open Verif.Structure Verif.Layout Verif.Buffers Verif.Instantiate Verif.EndToEnd
open Verif.Memory hiding demoL
open Verif.Setup (Kwargs libEnv infos toInfo inp_some)
open Verif.Shapes (Supported)
open Verif.Session Verif.Determined Verif.Descent

section
variable (kwargs : Name → Kwargs) (a : Arch) (hk : (Dict.keys a).Nodup) (ord : Orders) (ho : ord.Ok)
  (layers : Dict Name (LayerObj Kwargs)) (h : Instantiates (libEnv kwargs) ord a (.ok layers))
  (hne : ∃ n l, Dict.get? layers n = some l ∧ l.shapes.outs ≠ []) (L : Layout) (hL : createLayout (infos layers) = .ok L)
  (tr : Trainable a) (num : Numeric a kwargs)
  (sup : ∀ n l t, Dict.get? layers n = some l → HasType a n t → Supported t l.kwargs l.inShapes)
include hk ho h hne hL tr num sup

/-- **C84, everywhere.**  In networks without kinks, with or without LSTM layers, the gradients that both passes compute are the derivative
of the reported loss at all parameters in which no period is zero: the loss changes at the rate `∑ i, g i * v i` along every differentiable
curve of parameters with velocity `v` that does not move the periods of clockwork layers, and without clockwork layers the loss is
differentiable as a function of all parameters. -/
theorem C84_everywhere (nk : NoKinks a kwargs) :
    ∃ data rest, HasType a data.name (str "Input") ∧ ∃ F : Memory.Fits (infos layers) L data rest,
      ∃ ps : Mode → ∀ T B, ∀ l ∈ rest, LibLayer (infos layers) data l T B,
      (∀ M T B l (hl : l ∈ rest) t, HasType a l.name t → Describes M t (kwargs l.name) (ps M T B l hl)) ∧
      ∀ (M : Mode) (n : ℕ) (st : State ℝ) (b : Batch) (θ : Fin n → ℝ), Reachable (netOf (infos layers) L) st → b.Good data → 0 < b.T →
        st.read (str "parameters") = some (List.ofFn θ) → (∀ i : Fin n, IsPeriod (infos layers) L i → θ i ≠ 0) →
        ∃ (loss : (Fin n → ℝ) → ℝ) (g : Fin n → ℝ),
          (∀ θ', lossOf (netOf (infos layers) L) data.name (fun T B => libNetwork F (ps M T B)) (reported a layers L) b
            (List.ofFn θ') = some (loss θ')) ∧
          Gives (netOf (infos layers) L) data.name (fun T B => libNetwork F (ps M T B)) (reported a layers L) st b (loss θ) (List.ofFn g) ∧
          (∀ (γ : ℝ → Fin n → ℝ) (v : Fin n → ℝ), γ 0 = θ → (∀ i, HasDerivAt (fun t => γ t i) (v i) 0) →
            (∀ i : Fin n, IsPeriod (infos layers) L i → ∀ t, γ t i = θ i) → HasDerivAt (fun t => loss (γ t)) (∑ i, g i * v i) 0) ∧
          ((∀ i : Fin n, ¬ IsPeriod (infos layers) L i) →
            HasFDerivAt loss (∑ i, g i • ContinuousLinearMap.proj (R := ℝ) (φ := fun _ : Fin n => ℝ) i) θ) := by
  have m : Made kwargs a ord layers L := ⟨hk, ho, h, hne, hL⟩
  obtain ⟨data, rest, hdt, F, ps, hps⟩ := functions m tr num sup
  refine ⟨data, rest, hdt, F, ps, hps, fun M n st b θ hst hb hT hθ h0 => ?_⟩
  have hD : ∀ n, ¬ HasType a n (str "Dropout") := fun n hn => absurd (nk.types _ _ hn) (by decide)
  have hS := sited m F (ps M)
  have hrep := reports m F (ps M) hdt (hps M)
  have hdet := determines m F (Or.inr hD) (ps M) (hps M)
  obtain ⟨T, B, _, _, _, i⟩ := hst.inv (netOf_wellLaid F.laid.wf F.laid.shaped F.laid.layout)
  obtain rfl := Reachable.count F.laid hst hθ
  obtain ⟨st₁, h1, hr, r1⟩ := provide_ready hS.laid hS.data_mem i hb
  obtain ⟨st₂, st₃, _, _, _, h2, h3, -, r3, g3, l3⟩ := computes_det hS hdet hb hrep st₁ θ hr (r1.trans hθ)
  obtain ⟨s, hs, hR⟩ := regular_loaded F (ps M) hS hb i hθ (regularAt_of_noKinks nk m F (ps M) (hps M) hb hT i hθ h0)
  have key := loss_curve F (ps M) hS hdet hb hrep hs hR
  refine ⟨_, _, lossV_eq hS hb hrep, ⟨st₁, st₂, st₃, h1, h2, h3, by rw [hrep, l3], g3⟩, key,
    fun hno => hasFDerivAt_of_curves fun γ v h0 hv => ?_⟩
  refine (key γ v h0 hv fun i hi => absurd hi (hno i)).congr_deriv ?_
  simp

end

end Verif.Parts
