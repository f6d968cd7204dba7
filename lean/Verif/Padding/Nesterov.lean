import Verif.Padding.Demo
import Verif.Parts.Nesterov

/-!
# C87 for `NesterovStepper`
-/

namespace Verif.Padding

open Verif.Architecture hiding demoArch
open Verif.Structure Verif.Layout Verif.Buffers Verif.Instantiate Verif.EndToEnd
open Verif.Memory hiding demoL
open Verif.Setup (Kwargs libEnv infos toInfo inp_some getLossValues)
open Verif.Shapes (Supported)
open Verif.Session Verif.Determined Verif.Sequence Verif.Descent Verif.Parts Verif.Iterate
open Verif.Evaluate (seqs chain_data)

section
variable (kwargs : Name → Kwargs) (a : Arch) (hk : (Dict.keys a).Nodup) (ord : Orders) (ho : ord.Ok)
  (layers : Dict Name (LayerObj Kwargs)) (h : Instantiates (libEnv kwargs) ord a (.ok layers))
  (hne : ∃ n l, Dict.get? layers n = some l ∧ l.shapes.outs ≠ []) (L : Layout) (hL : createLayout (infos layers) = .ok L)
  (tr : Trainable a) (num : Numeric a kwargs)
  (sup : ∀ n l t, Dict.get? layers n = some l → HasType a n t → Supported t l.kwargs l.inShapes)
include hk ho h hne hL tr num sup

/-- **C87, training, with `NesterovStepper`.**  With and without the steps that are masked out these trainings lead to the same parameters and
record the same losses, as long as the layers are differentiable at the parameters that the stepper looks ahead to (which they are if they
have no kinks). -/
theorem C87_training_nesterov (hfree : FreePeriods (infos layers)) (hD : ∀ n, ¬ HasType a n (str "Dropout")) :
    ∃ data rest, HasType a data.name (str "Input") ∧ ∃ F : Memory.Fits (infos layers) L data rest,
      ∃ ps : Mode → ∀ T B, ∀ l ∈ rest, LibLayer (infos layers) data l T B,
      (∀ M T B l (hl : l ∈ rest) t, HasType a l.name t → Describes M t (kwargs l.name) (ps M T B l hl)) ∧
      ∀ (M : Mode) (n : ℕ) (st : State ℝ) (θ₀ : Fin n → ℝ), Reachable (netOf (infos layers) L) st →
        st.read (str "parameters") = some (List.ofFn θ₀) → (∀ i : Fin n, IsPeriod (infos layers) L i → θ₀ i ≠ 0) →
        ∀ (x : Name) (batches batches' : ℕ → Batch), MaskedBy a (infos layers) data x → (∀ k, Shortened data x (batches k) (batches' k)) →
        DataAlone (infos layers) L data → ∀ (lr μ : ℕ → ℝ) (scale : Bool) (k : ℕ),
        ((NoKinks a kwargs ∧ ∀ j < k, 0 < (batches' j).T) ∨ (∀ j < k, ∀ st' v log,
            train (netOf (infos layers) L) data.name (fun T B => libNetwork F (ps M T B)) (reported a layers L)
            (fun k => nesterovRun (netOf (infos layers) L) (fun T B => libNetwork F (ps M T B)) scale (lr k) (μ k)) batches (fun _ => [])
              (st, List.replicate n 0) j = some ((st', v), log) → ∀ st'', Ahead (μ j) v st' st'' →
              RegularAt F (ps M) st'' (batches j) ∧ RegularAt F (ps M) st'' (batches' j))) →
          ∃ st₁ st₂ v log θ, train (netOf (infos layers) L) data.name (fun T B => libNetwork F (ps M T B)) (reported a layers L)
              (fun k => nesterovRun (netOf (infos layers) L) (fun T B => libNetwork F (ps M T B)) scale (lr k) (μ k)) batches (fun _ => [])
                (st, List.replicate n 0) k = some ((st₁, v), log) ∧
            train (netOf (infos layers) L) data.name (fun T B => libNetwork F (ps M T B)) (reported a layers L)
              (fun k => nesterovRun (netOf (infos layers) L) (fun T B => libNetwork F (ps M T B)) scale (lr k) (μ k)) batches' (fun _ => [])
                (st, List.replicate n 0) k = some ((st₂, v), log) ∧
            st₁.read (str "parameters") = some θ ∧ st₂.read (str "parameters") = some θ := by
  have m : Made kwargs a ord layers L := ⟨hk, ho, h, hne, hL⟩
  obtain ⟨data, rest, hdt, F, ps, hps⟩ := functions m tr num sup
  refine ⟨data, rest, hdt, F, ps, hps, fun M n st θ₀ hst hθ h0 x batches batches' hmask C hal lr μ scale k hR => ?_⟩
  obtain ⟨T, B, _, _, _, i⟩ := hst.inv (netOf_wellLaid F.laid.wf F.laid.shaped F.laid.layout)
  obtain rfl := Reachable.count F.laid hst hθ
  have hpos : (∀ j < k, 0 < (batches' j).T) → ∀ j < k, ∀ b ∈ [batches j, batches' j], 0 < b.T := fun hT j hj => by
    have := (C j).steps
    have := hT j hj
    simp only [List.forall_mem_cons, List.not_mem_nil, false_imp_iff, implies_true, and_true]
    omega
  exact train_same_nesterov m F hdt hfree (ps M) (hps M) hD i hθ h0 batches batches' (fun _ => [])
    (fun j => by simpa using ⟨(C j).good.1, (C j).good.2⟩)
    (fun j _ _ _ _ _ _ i1 θ h2 h3 => ⟨short_loss m F hdt (ps M) (hps M) hD hmask (C j) (.inr hal) θ h3, fun hR =>
      short_gradient m F hdt hfree (ps M) (hps M) hD hmask (C j) (.inr hal) i1 h2 h3 ⟨hR _ (by simp), hR _ (by simp)⟩⟩) lr μ scale k
    (hR.imp (fun ⟨nk, hT⟩ => ⟨nk, hpos hT⟩) fun hR j hj st' v log e st'' ha => by simpa using hR j hj st' v log e st'' ha)

end

/-- All assumptions are met: trainings with data that are padded to different lengths. -/
example (f g : ℕ → ℕ → ℕ → ℕ → ℝ) (len : ℕ → ℕ → ℕ) (T stop n : ℕ → ℕ) (hT : ∀ j, stop j ≤ T j) (h0 : ∀ j, 0 < stop j)
    (hlen : ∀ j, ∀ q ≤ n j, len j q ≤ stop j) (M : Mode) (lr μ : ℕ → ℝ) (k : ℕ) :
    ∃ (P : ℕ → ℕ → List MLayer) (st st₁ st₂ : State ℝ) (v₀ v log θ : List ℝ),
      train (netOf (infos padLayers) padL) padInput.name P (reported padArch padLayers padL)
        (fun k => nesterovRun (netOf (infos padLayers) padL) P true (lr k) (μ k)) (fun j => padBatch (f j) (g j) (len j) (T j) (n j))
          (fun _ => []) (st, v₀) k = some ((st₁, v), log) ∧
      train (netOf (infos padLayers) padL) padInput.name P (reported padArch padLayers padL)
        (fun k => nesterovRun (netOf (infos padLayers) padL) P true (lr k) (μ k)) (fun j => padBatch (f j) (g j) (len j) (stop j) (n j))
          (fun _ => []) (st, v₀) k = some ((st₂, v), log) ∧
      st₁.read (str "parameters") = some θ ∧ st₂.read (str "parameters") = some θ := by
  obtain ⟨data, rest, hdt, F, ps, -, h⟩ := C87_training_nesterov padKwargs padArch (by decide +kernel) (demoOrders true) (demoOrders_ok true)
    padLayers pad_instantiates pad_outs padL pad_layout pad_trainable pad_numeric pad_supported pad_free fun n => (pad_types_not n).2.2
  obtain ⟨q, hq, hnew⟩ := pad_with
  obtain ⟨st, hst, hθ⟩ := hnew fun i => (i : ℝ)
  obtain rfl := pad_data F hdt
  obtain ⟨st₁, st₂, v, log, θ, g1, g2, g3, g4⟩ := h M q st _ hst hθ (fun i hi => absurd hi (pad_noPeriods i)) (str "mask")
    (fun j => padBatch (f j) (g j) (len j) (T j) (n j)) (fun j => padBatch (f j) (g j) (len j) (stop j) (n j)) pad_masked
    (fun j => pad_shortened _ _ _ _ _ _ (hT j) (hlen j)) pad_alone lr μ true k (Or.inl ⟨pad_noKinks, fun j _ => h0 j⟩)
  exact ⟨_, st, st₁, st₂, _, v, log, θ, g1, g2, g3, g4⟩

/-- The same for C85: trainings with batches whose sequences are in another order. -/
example (f g : ℕ → ℕ → ℕ → ℕ → ℝ) (T p q : ℕ) (hT : 0 < T) (hp : 0 < p) (hq : 0 < q) (M : Mode) (lr μ : ℕ → ℝ) (k : ℕ) :
    ∃ (P : ℕ → ℕ → List MLayer) (st st₁ st₂ : State ℝ) (v₀ v log θ : List ℝ),
      train (netOf (infos chainLayers) chainL) chainData.name P (reported chainArch chainLayers chainL)
        (fun k => nesterovRun (netOf (infos chainLayers) chainL) P false (lr k) (μ k)) (fun j => seqs (f j) (g j) T 0 (p + q))
          (fun _ => []) (st, v₀) k = some ((st₁, v), log) ∧
      train (netOf (infos chainLayers) chainL) chainData.name P (reported chainArch chainLayers chainL)
        (fun k => nesterovRun (netOf (infos chainLayers) chainL) P false (lr k) (μ k))
          (fun j => seqs (later p q (f j)) (later p q (g j)) T 0 (q + p)) (fun _ => []) (st, v₀) k = some ((st₂, v), log) ∧
      st₁.read (str "parameters") = some θ ∧ st₂.read (str "parameters") = some θ := by
  obtain ⟨data, rest, hdt, F, ps, -, h⟩ := C85_order_nesterov chainKwargs chainArch (by decide +kernel) (demoOrders true) (demoOrders_ok true)
    chainLayers chain_instantiates chain_outs chainL chain_layout chain_trainable chain_numeric chain_supported chain_free
    fun n => (chain_types_not n).2.2
  obtain ⟨n, hn, hnew⟩ := chain_with
  obtain ⟨st, hst, hθ⟩ := hnew fun i => (i : ℝ)
  obtain rfl := chain_data F hdt
  obtain ⟨st₁, st₂, v, log, θ, h1, h2, h3, h4⟩ := h M n st _ hst hθ (fun i hi => absurd hi (chain_noPeriods i)) _ _ _ _
    (fun j => demo_same (f j) (g j) T p q hp hq) lr μ false k (Or.inl ⟨chain_noKinks, fun _ _ => hT⟩)
  exact ⟨_, st, st₁, st₂, _, v, log, θ, h1, h2, h3, h4⟩

end Verif.Padding
