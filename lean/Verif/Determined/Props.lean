import Verif.Determined.Rounds
import Verif.Session.Props
import Verif.Constrained.Props

/-!
# C81: gradients and trainings are determined by parameters and data
-/

namespace Verif.Determined

open Verif.Architecture hiding demoArch
open Verif.Structure Verif.Layout Verif.Buffers Verif.Instantiate Verif.EndToEnd Verif.Constrained
open Verif.Memory hiding demoL
open Verif.Setup (Kwargs libEnv infos toInfo inp_some)
open Verif.Shapes (Supported)
open Verif.Session hiding sgdRun momentumRun nesterovRun backwardPass round train Stepper

/-! ### Proofs -/

section
variable {kwargs : Name → Kwargs} {a : Arch} {ord : Orders} {layers : Dict Name (LayerObj Kwargs)} {L : Layout}

theorem inTraining {data l : LayerInfo} {T B : ℕ} {M : Mode} {t : Name} {kw : Kwargs} {q : LibLayer (infos layers) data l T B}
    (hM : M.training = true ∨ t ≠ str "Dropout") (h : Describes M t kw q) : InTraining q := by
  cases q <;> try trivial
  obtain ⟨h1, h2, -⟩ := h
  exact h2.trans (hM.resolve_right fun h => h h1)

theorem determines (m : Made kwargs a ord layers L) {data : LayerInfo} {rest : List LayerInfo} (F : Memory.Fits (infos layers) L data rest)
    {M : Mode} (hM : M.training = true ∨ ∀ n, ¬ HasType a n (str "Dropout"))
    (ps : ∀ T B, ∀ l ∈ rest, LibLayer (infos layers) data l T B)
    (hps : ∀ T B, ∀ l (hl : l ∈ rest) t, HasType a l.name t → Describes M t (kwargs l.name) (ps T B l hl)) :
    Determines (infos layers) L data fun T B => libNetwork F (ps T B) := by
  intro b θ s s' hb hs hs'
  refine loaded_backward F hb (m.short _) (fun l hl => (ps b.T b.B l hl).placed) (fun l hl => settled _ ?_) hs hs'
  obtain ⟨lo, hlo, -⟩ := m.mem_infos (F.ordered.mem hl)
  obtain ⟨t, -, ht, -⟩ := m.cls hlo
  exact inTraining (hM.imp_right fun h e => h _ (e ▸ ht)) (hps b.T b.B l hl t ht)

/-- After the forward pass, the buffer holds what the layers computed. -/
theorem after_forward {data : LayerInfo} {rest : List LayerInfo} {ls : List LayerInfo} {P : ℕ → ℕ → List MLayer}
    (h : Sited ls L data rest P) {b : Batch} {st st' : State ℝ} (hb : b.Good data) (hr : Ready ls L data b st) {θ : List ℝ}
    (hθ : st.read (str "parameters") = some θ) (hf : forwardPass (netOf ls L) P b.rnd st = some st') :
    ∃ s, Loaded (netOf ls L) data.name b θ s ∧ seen (netOf ls L) b.T b.B b.rnd (memOf st') = forward (P b.T b.B) s := by
  have hl := before_loaded h.laid h.data_mem hb hr hθ
  obtain ⟨sz, k, vs, i, -⟩ := hr
  obtain ⟨st₁, h1, i1, m1, r1⟩ := forwardPass_spec h i b.rnd
  rw [hf] at h1
  cases h1
  refine ⟨_, hl, ?_⟩
  funext c
  unfold seen
  split
  · exact m1 c (by assumption)
  · rename_i hc
    rw [forward_outside h _ (by omega), hl.outside c (by omega)]

theorem Reachable.count {ls : List LayerInfo} (hL : Laid ls L) {n : ℕ} {st : State ℝ} {θ : Fin n → ℝ} (h : Reachable (netOf ls L) st)
    (hθ : st.read (str "parameters") = some (List.ofFn θ)) : n = paramCount ls L := by
  obtain ⟨T, B, _, _, _, i⟩ := h.inv (netOf_wellLaid hL.wf hL.shaped hL.layout)
  obtain ⟨e, he⟩ := params_entry (layers := ls) (L := L)
  rw [read_inv hL i he, Option.some.injEq] at hθ
  have := congrArg List.length hθ
  rw [List.length_map, List.length_ofFn, paramCount_eq hL] at this
  exact this.symm

theorem CanTrain.fine {ls : List LayerInfo} (hL : Laid ls L) {S : Type} {ok : S → Prop} {r : Run S}
    (h : CanTrain ls (netOf ls L) ok r) : Fine ls L ok r :=
  ⟨h.state.inv (netOf_wellLaid hL.wf hL.shaped hL.layout), h.mem, h.grads, h.weights⟩

/-- Each stepper follows some rule that leaves no choice. -/
theorem algorithm_follows {ls : List LayerInfo} {data : LayerInfo} {rest : List LayerInfo} {P : ℕ → ℕ → List MLayer} {b : Batch}
    {report : ℕ → ℕ → Mem → Option ℝ}
    (h : Sited ls L data rest P) (hdet : Determines ls L data P) (hb : b.Good data) (hrep : Reports P report) (alg : Algorithm)
    (lr μ : ℝ) : ∃ rule loss, Follows ls L data P b (alg.run (netOf ls L) P lr μ) (alg.Ok (paramCount ls L)) rule loss ∧
      Functional ls L (alg.Ok (paramCount ls L)) rule := by
  have hc := computes_det h hdet hb hrep
  cases alg with
  | sgd => exact ⟨_, _, sgd_follows h hc lr, sgd_functional h.laid _ lr⟩
  | momentum scale => exact ⟨_, _, momentum_follows h hc scale lr μ, momentum_functional h.laid _ _ μ⟩
  | nesterov scale => exact ⟨_, _, nesterov_follows h hb hc scale lr μ, nesterov_functional h.laid _ _ μ⟩

theorem algorithm_proper (net : Net) (P : ℕ → ℕ → List MLayer) (lr μ : ℝ) (alg : Algorithm) : Proper net (alg.run net P lr μ) := by
  cases alg with
  | sgd => exact sgd_proper net P lr
  | momentum scale => exact momentum_proper net P scale lr μ
  | nesterov scale => exact nesterov_proper net P scale lr μ

theorem train_reachable {S : Type} {net : Net} {input : Name} {Q : ℕ → ℕ → List MLayer} {report : ℕ → ℕ → Mem → Option ℝ}
    {run : ℕ → Constrained.Stepper S} (hrun : ∀ k, Proper net (run k)) {batches : ℕ → Batch} {evals : ℕ → List Batch} {s : Run S}
    (hs : Reachable net s.st) (n : ℕ) {r : Run S} {log : List ℝ}
    (h : train net input Q report run batches evals s n = some (r, log)) : Reachable net r.st := by
  induction n generalizing r log with
  | zero =>
    cases h
    exact hs
  | succ n ih =>
    simp only [train, Option.bind_eq_some_iff, Option.map_eq_some_iff] at h
    obtain ⟨⟨u, lu⟩, h1, ⟨w, x⟩, h2, h3⟩ := h
    obtain ⟨rfl, -⟩ := Prod.mk.inj h3
    simp only [Constrained.round, Option.bind_eq_some_iff, Option.map_eq_some_iff] at h2
    obtain ⟨st₁, g1, ⟨st₂, v, G⟩, g2, l, -, q, g3, st₃, g4, g5⟩ := h2
    obtain ⟨rfl, -⟩ := Prod.mk.inj g5
    exact evaluate_reachable _ (applyAll_reachable _ _ _ (hrun n _ _ _ (provide_reachable (ih h1) g1) g2) (mods' := q.1) (st' := q.2) g3) g4

end

/-! ### The property

The network is as in C77; but the activation functions and layers need not be differentiable, and there may be clockwork layers.  The
training mode only matters if there are Dropout layers: in a forward pass for evaluation these do not write their masks, which the
backward pass reads. -/

section
variable (kwargs : Name → Kwargs) (a : Arch) (hk : (Dict.keys a).Nodup) (ord : Orders) (ho : ord.Ok)
  (layers : Dict Name (LayerObj Kwargs)) (h : Instantiates (libEnv kwargs) ord a (.ok layers))
  (hne : ∃ n l, Dict.get? layers n = some l ∧ l.shapes.outs ≠ []) (L : Layout) (hL : createLayout (infos layers) = .ok L)
  (tr : Trainable a) (num : Numeric a kwargs)
  (sup : ∀ n l t, Dict.get? layers n = some l → HasType a n t → Supported t l.kwargs l.inShapes)
include hk ho h hne hL tr num sup

/-- **C81, gradients.**  Whatever was done with the network before: after data were provided and both passes were done, the array
`gradients` holds the gradients that a new network with the same parameters computes from the same batch, the reported loss is that
of the new network, and the parameters are as before.

At parameters where all layers are differentiable (`Regular`, at the values that the layers read and wrote), the gradients are the
partial derivatives of the loss, except for the entries that belong to the periods of clockwork layers. -/
theorem C81_gradients :
    ∃ data rest, HasType a data.name (str "Input") ∧ ∃ F : Memory.Fits (infos layers) L data rest,
      ∃ ps : Mode → ∀ T B, ∀ l ∈ rest, LibLayer (infos layers) data l T B,
      (∀ M T B l (hl : l ∈ rest) t, HasType a l.name t → Describes M t (kwargs l.name) (ps M T B l hl)) ∧
      ∀ (M : Mode), M.training = true ∨ (∀ n, ¬ HasType a n (str "Dropout")) →
        ∀ (n : ℕ) (st : State ℝ) (b : Batch) (θ : Fin n → ℝ), Reachable (netOf (infos layers) L) st → b.Good data →
        st.read (str "parameters") = some (List.ofFn θ) →
        ∃ (loss : (Fin n → ℝ) → ℝ) (st₁ st₂ st₃ : State ℝ) (g : Fin n → ℝ),
          (∀ θ', lossOf (netOf (infos layers) L) data.name (fun T B => libNetwork F (ps M T B)) (reported a layers L) b
            (List.ofFn θ') = some (loss θ')) ∧
          provide (netOf (infos layers) L) data.name b st = some st₁ ∧
          forwardPass (netOf (infos layers) L) (fun T B => libNetwork F (ps M T B)) b.rnd st₁ = some st₂ ∧
          Session.backwardPass (netOf (infos layers) L) (fun T B => libNetwork F (ps M T B)) b.rnd st₂ = some st₃ ∧
          st₃.read (str "gradients") = some (List.ofFn g) ∧
          gradOf (netOf (infos layers) L) data.name (fun T B => libNetwork F (ps M T B)) b (List.ofFn θ) = some (List.ofFn g) ∧
          reported a layers L b.T b.B (memOf st₃) = some (loss θ) ∧
          st₃.read (str "parameters") = some (List.ofFn θ) ∧
          ((∀ l (hl : l ∈ rest), (ps M b.T b.B l hl).Regular (valueOut (netOf (infos layers) L) b.T b.B l.name
              (seen (netOf (infos layers) L) b.T b.B b.rnd (memOf st₂)))) →
            ∀ i : Fin n, (∀ p, (cells (netOf (infos layers) L) b.T b.B (str "parameters"))[(i : ℕ)]? = some p →
                ∀ l ∈ infos layers, p ∉ cells (netOf (infos layers) L) b.T b.B (path l.name (str "parameters") (str "timing"))) →
              HasDerivAt (fun x => loss (Function.update θ i x)) (g i) (θ i)) := by
  have m : Made kwargs a ord layers L := ⟨hk, ho, h, hne, hL⟩
  obtain ⟨data, rest, hdt, F, ps, hps⟩ := functions m tr num sup
  refine ⟨data, rest, hdt, F, ps, hps, fun M hM n st b θ hst hb hθ => ?_⟩
  have hS := sited m F (ps M)
  have hrep := reports m F (ps M) hdt (hps M)
  have hdet := determines m F hM (ps M) (hps M)
  obtain ⟨T, B, _, _, _, i⟩ := hst.inv (netOf_wellLaid F.laid.wf F.laid.shaped F.laid.layout)
  obtain rfl := Reachable.count F.laid hst hθ
  obtain ⟨st₁, h1, hr, r1⟩ := provide_ready hS.laid hS.data_mem i hb
  obtain ⟨st₂, st₃, _, _, _, h2, h3, -, r3, g3, l3⟩ := computes_det hS hdet hb hrep st₁ θ hr (r1.trans hθ)
  obtain ⟨s, hs, hseen⟩ := after_forward hS hb hr (r1.trans hθ) h2
  refine ⟨_, st₁, st₂, st₃, _, lossV_eq hS hb hrep, h1, h2, h3, g3, gradD_eq hS hdet hb θ, ?_, r3, fun hR i hi => ?_⟩
  · rw [← l3]
    exact hrep _ _ _
  · obtain ⟨p, hp⟩ : ∃ p, (cells (netOf (infos layers) L) b.T b.B (str "parameters"))[(i : ℕ)]? = some p :=
      ⟨_, List.getElem?_eq_getElem (by rw [paramCount_eq F.laid]; exact i.2)⟩
    obtain ⟨g, hg⟩ : ∃ p, (cells (netOf (infos layers) L) b.T b.B (str "gradients"))[(i : ℕ)]? = some p :=
      ⟨_, List.getElem?_eq_getElem (by rw [gradCount_eq F.laid]; exact i.2)⟩
    rw [hseen] at hR
    exact grad_at hS hdet hb hrep hs i hp hg (C74_gradients F (ps M b.T b.B) s hR i p g hp hg (hi p hp))

/-- **C81, training.**  `Trainer.train` with the steppers of the library and any weight and gradient modifiers that can be installed, on
a network that may contain layers that are not differentiable: in each update, the gradients that a new network computes from the
parameters and the batch are changed by the gradient modifiers, the stepper uses what results, and the weight modifiers change the
parameters afterwards.  Everything goes well, whatever was done with the network before. -/
theorem C81_training :
    ∃ data rest, HasType a data.name (str "Input") ∧ ∃ F : Memory.Fits (infos layers) L data rest,
      ∃ ps : Mode → ∀ T B, ∀ l ∈ rest, LibLayer (infos layers) data l T B,
      (∀ M T B l (hl : l ∈ rest) t, HasType a l.name t → Describes M t (kwargs l.name) (ps M T B l hl)) ∧
      ∀ (M M' : Mode), M.training = true ∨ (∀ n, ¬ HasType a n (str "Dropout")) → ∀ n : ℕ, ∃ (loss : Batch → (Fin n → ℝ) → ℝ) (grad : Batch → (Fin n → ℝ) → Fin n → ℝ),
        ∀ (st : State ℝ) (θ₀ : Fin n → ℝ), Reachable (netOf (infos layers) L) st → st.read (str "parameters") = some (List.ofFn θ₀) →
          (∀ b : Batch, b.Good data → ∀ θ : Fin n → ℝ,
            lossOf (netOf (infos layers) L) data.name (fun T B => libNetwork F (ps M T B)) (reported a layers L) b
              (List.ofFn θ) = some (loss b θ) ∧
            gradOf (netOf (infos layers) L) data.name (fun T B => libNetwork F (ps M T B)) b (List.ofFn θ) = some (List.ofFn (grad b θ))) ∧
          ∀ (batches : ℕ → Batch) (evals : ℕ → List Batch), (∀ k, (batches k).Good data) →
            (∀ k, ∀ b ∈ evals k, b.Good data) → ∀ wm gm : Mods, wm.Good false (infos layers) → gm.Good true (infos layers) →
            ∀ (lr μ : ℕ → ℝ) (scale : Bool),
            (∃ (r : ℕ → Run Unit) (θ γ : ℕ → Fin n → ℝ), r 0 = ⟨st, (), gm, wm⟩ ∧ θ 0 = θ₀ ∧ ∀ k,
              train (netOf (infos layers) L) data.name (fun T B => libNetwork F (ps M' T B)) (reported a layers L)
                (fun k => sgdRun (netOf (infos layers) L) (fun T B => libNetwork F (ps M T B)) (lr k)) batches evals ⟨st, (), gm, wm⟩ k =
                  some (r k, (List.range k).map fun j => loss (batches j) (θ j)) ∧
              (r k).st.read (str "parameters") = some (List.ofFn (θ k)) ∧
              Modified gradCall (infos layers) L (r k).grads (List.ofFn (θ k)) (List.ofFn (grad (batches k) (θ k))) (r (k + 1)).grads
                (List.ofFn (γ k)) ∧
              Modified weightCall (infos layers) L (r k).weights (List.ofFn (θ k - lr k • γ k)) (List.ofFn (θ k - lr k • γ k))
                (r (k + 1)).weights (List.ofFn (θ (k + 1)))) ∧
            (∃ (r : ℕ → Run (List ℝ)) (θ γ v : ℕ → Fin n → ℝ), r 0 = ⟨st, List.replicate n 0, gm, wm⟩ ∧ θ 0 = θ₀ ∧ v 0 = 0 ∧ ∀ k,
              train (netOf (infos layers) L) data.name (fun T B => libNetwork F (ps M' T B)) (reported a layers L)
                (fun k => momentumRun (netOf (infos layers) L) (fun T B => libNetwork F (ps M T B)) scale (lr k) (μ k)) batches evals
                ⟨st, List.replicate n 0, gm, wm⟩ k = some (r k, (List.range k).map fun j => loss (batches j) (θ j)) ∧
              (r k).st.read (str "parameters") = some (List.ofFn (θ k)) ∧ (r k).mem = List.ofFn (v k) ∧
              Modified gradCall (infos layers) L (r k).grads (List.ofFn (θ k)) (List.ofFn (grad (batches k) (θ k))) (r (k + 1)).grads
                (List.ofFn (γ k)) ∧
              v (k + 1) = μ k • v k - rateOf scale (lr k) (μ k) • γ k ∧
              Modified weightCall (infos layers) L (r k).weights (List.ofFn (θ k + v (k + 1))) (List.ofFn (θ k + v (k + 1)))
                (r (k + 1)).weights (List.ofFn (θ (k + 1)))) ∧
            (∃ (r : ℕ → Run (List ℝ)) (θ γ v : ℕ → Fin n → ℝ), r 0 = ⟨st, List.replicate n 0, gm, wm⟩ ∧ θ 0 = θ₀ ∧ v 0 = 0 ∧ ∀ k,
              train (netOf (infos layers) L) data.name (fun T B => libNetwork F (ps M' T B)) (reported a layers L)
                (fun k => nesterovRun (netOf (infos layers) L) (fun T B => libNetwork F (ps M T B)) scale (lr k) (μ k)) batches evals
                ⟨st, List.replicate n 0, gm, wm⟩ k = some (r k, (List.range k).map fun j => loss (batches j) (θ j + μ j • v j)) ∧
              (r k).st.read (str "parameters") = some (List.ofFn (θ k)) ∧ (r k).mem = List.ofFn (v k) ∧
              Modified gradCall (infos layers) L (r k).grads (List.ofFn (θ k + μ k • v k))
                (List.ofFn (grad (batches k) (θ k + μ k • v k))) (r (k + 1)).grads (List.ofFn (γ k)) ∧
              v (k + 1) = μ k • v k - rateOf scale (lr k) (μ k) • γ k ∧
              Modified weightCall (infos layers) L (r k).weights (List.ofFn (θ k + v (k + 1))) (List.ofFn (θ k + v (k + 1)))
                (r (k + 1)).weights (List.ofFn (θ (k + 1)))) := by
  have m : Made kwargs a ord layers L := ⟨hk, ho, h, hne, hL⟩
  obtain ⟨data, rest, hdt, F, ps, hps⟩ := functions m tr num sup
  refine ⟨data, rest, hdt, F, ps, hps, fun M M' hM n => ?_⟩
  by_cases hn : n = paramCount (infos layers) L
  swap
  · refine ⟨fun _ _ => 0, fun _ _ _ => 0, fun st θ₀ hst hθ => absurd ?_ hn⟩
    obtain ⟨T, B, _, _, _, i⟩ := hst.inv (netOf_wellLaid F.laid.wf F.laid.shaped F.laid.layout)
    obtain ⟨e, he⟩ := params_entry (layers := infos layers) (L := L)
    rw [read_inv F.laid i he, Option.some.injEq] at hθ
    have := congrArg List.length hθ
    rw [List.length_map, List.length_ofFn, paramCount_eq F.laid] at this
    exact this.symm
  subst hn
  have hS := sited m F (ps M)
  have hQ := sited m F (ps M')
  have hrep := reports m F (ps M) hdt (hps M)
  have hdet := determines m F hM (ps M) (hps M)
  refine ⟨lossV (infos layers) L data.name (fun T B => libNetwork F (ps M T B)) (reported a layers L),
    gradD (infos layers) L data.name (fun T B => libNetwork F (ps M T B)), fun st θ₀ hst hθ => ⟨?_, ?_⟩⟩
  · exact fun b hb θ => ⟨lossV_eq hS hb hrep θ, gradD_eq hS hdet hb θ⟩
  intro batches evals hb he wm gm hwm hgm lr μ scale
  obtain ⟨T, B, _, _, _, i⟩ := hst.inv (netOf_wellLaid F.laid.wf F.laid.shaped F.laid.layout)
  have hzero : List.ofFn (0 : Fin (paramCount (infos layers) L) → ℝ) = List.replicate (paramCount (infos layers) L) 0 := by
    simp [List.ofFn_const, Pi.zero_def]
  refine ⟨?_, ?_, ?_⟩
  · obtain ⟨r, θ, γ, θ₁, h1, h2, h3⟩ := train_spec (s := ⟨st, (), gm, wm⟩) hS hQ hrep
      (fun k => sgd_follows hS (computes_det hS hdet (hb k) hrep) (lr k)) hb he i hθ trivial hgm hwm
    refine ⟨r, θ, γ, h1, h2, fun k => ?_⟩
    obtain ⟨a1, a2, ⟨a3, a4⟩, a5⟩ := h3 k
    exact ⟨a1, a2, a3, a4 ▸ a5⟩
  · obtain ⟨r, θ, γ, θ₁, h1, h2, h3⟩ := train_spec (s := ⟨st, List.replicate (paramCount (infos layers) L) 0, gm, wm⟩) hS hQ hrep
      (fun k => momentum_follows hS (computes_det hS hdet (hb k) hrep) scale (lr k) (μ k)) hb he i hθ (by simp) hgm hwm
    let v : ℕ → Fin (paramCount (infos layers) L) → ℝ := fun k => Nat.rec 0 (fun k v => μ k • v - rateOf scale (lr k) (μ k) • γ k) k
    have hv : ∀ k, (r k).mem = List.ofFn (v k) := by
      intro k
      induction k with
      | zero =>
        rw [h1]
        exact hzero.symm
      | succ k ih =>
        obtain ⟨-, -, ⟨-, a4⟩, -⟩ := h3 k
        exact (a4 _ ih).1
    refine ⟨r, θ, γ, v, h1, h2, rfl, fun k => ?_⟩
    obtain ⟨a1, a2, ⟨a3, a4⟩, a5⟩ := h3 k
    exact ⟨a1, a2, hv k, a3, rfl, (a4 _ (hv k)).2 ▸ a5⟩
  · obtain ⟨r, θ, γ, θ₁, h1, h2, h3⟩ := train_spec (s := ⟨st, List.replicate (paramCount (infos layers) L) 0, gm, wm⟩) hS hQ hrep
      (fun k => nesterov_follows hS (hb k) (computes_det hS hdet (hb k) hrep) scale (lr k) (μ k)) hb he i hθ (by simp) hgm hwm
    let v : ℕ → Fin (paramCount (infos layers) L) → ℝ := fun k => Nat.rec 0 (fun k v => μ k • v - rateOf scale (lr k) (μ k) • γ k) k
    have hv : ∀ k, (r k).mem = List.ofFn (v k) := by
      intro k
      induction k with
      | zero =>
        rw [h1]
        exact hzero.symm
      | succ k ih =>
        obtain ⟨-, -, a4, -⟩ := h3 k
        exact (a4 _ ih).2.1
    refine ⟨r, θ, γ, v, h1, h2, rfl, fun k => ?_⟩
    obtain ⟨a1, a2, a4, a5⟩ := h3 k
    obtain ⟨a3, -, a6⟩ := a4 _ (hv k)
    refine ⟨?_, a2, hv k, a3, rfl, a6 ▸ a5⟩
    rw [a1]
    congr 2
    refine List.map_congr_left fun j _ => ?_
    congr 1
    funext x
    rw [hv j]
    simp

/-- **C81, history.**  Two trainings of the network, with the same parameters, the same memory of the stepper and the same modifiers
at the beginning, on the same batches, with the same learning rates and momenta: both succeed, record the same losses and lead to
the same parameters, the same memory of the stepper and the same modifiers, whatever was done before, and whatever the hooks
evaluate between the updates. -/
theorem C81_history :
    ∃ data rest, HasType a data.name (str "Input") ∧ ∃ F : Memory.Fits (infos layers) L data rest,
      ∃ ps : Mode → ∀ T B, ∀ l ∈ rest, LibLayer (infos layers) data l T B,
      (∀ M T B l (hl : l ∈ rest) t, HasType a l.name t → Describes M t (kwargs l.name) (ps M T B l hl)) ∧
      ∀ (M M₁ M₂ : Mode), M.training = true ∨ (∀ n, ¬ HasType a n (str "Dropout")) →
        ∀ (alg : Algorithm) (lr μ : ℕ → ℝ) (batches : ℕ → Batch) (evals₁ evals₂ : ℕ → List Batch), (∀ k, (batches k).Good data) →
        (∀ k, ∀ b ∈ evals₁ k, b.Good data) → (∀ k, ∀ b ∈ evals₂ k, b.Good data) →
        ∀ (n : ℕ) (θ : Fin n → ℝ) (s₁ s₂ : Run alg.Memory), s₁.st.read (str "parameters") = some (List.ofFn θ) →
        CanTrain (infos layers) (netOf (infos layers) L) (alg.Ok n) s₁ → CanTrain (infos layers) (netOf (infos layers) L) (alg.Ok n) s₂ →
        Same (infos layers) s₁ s₂ → ∀ k, SameOutcome (infos layers)
          (train (netOf (infos layers) L) data.name (fun T B => libNetwork F (ps M₁ T B)) (reported a layers L)
            (fun k => alg.run (netOf (infos layers) L) (fun T B => libNetwork F (ps M T B)) (lr k) (μ k)) batches evals₁ s₁ k)
          (train (netOf (infos layers) L) data.name (fun T B => libNetwork F (ps M₂ T B)) (reported a layers L)
            (fun k => alg.run (netOf (infos layers) L) (fun T B => libNetwork F (ps M T B)) (lr k) (μ k)) batches evals₂ s₂ k) := by
  have m : Made kwargs a ord layers L := ⟨hk, ho, h, hne, hL⟩
  obtain ⟨data, rest, hdt, F, ps, hps⟩ := functions m tr num sup
  refine ⟨data, rest, hdt, F, ps, hps, fun M M₁ M₂ hM alg lr μ batches evals₁ evals₂ hb he₁ he₂ n θ s₁ s₂ hθ c₁ c₂ hs k => ?_⟩
  have hS := sited m F (ps M)
  have hrep := reports m F (ps M) hdt (hps M)
  have hdet := determines m F hM (ps M) (hps M)
  obtain rfl := Reachable.count F.laid c₁.state hθ
  have := fun k => algorithm_follows hS hdet (hb k) hrep alg (lr k) (μ k)
  choose rule loss hf hfun using this
  obtain ⟨t, t', log, h1, h2, -, -, h3⟩ := train_same hS (sited m F (ps M₁)) (sited m F (ps M₂)) hrep hf hfun hb he₁ he₂ (c₁.fine F.laid)
    (c₂.fine F.laid) hs k
  exact ⟨t, t', log, h1, h2, h3⟩

/-- **C81, resuming.**  A training of `k` updates is interrupted, and continued in a network that has the same parameters (such as a new
one to which the parameters were assigned), with the same memory of the stepper and the same modifiers: the losses recorded from then
on, and the final parameters, memory and modifiers, are those of the uninterrupted training. -/
theorem C81_resume :
    ∃ data rest, HasType a data.name (str "Input") ∧ ∃ F : Memory.Fits (infos layers) L data rest,
      ∃ ps : Mode → ∀ T B, ∀ l ∈ rest, LibLayer (infos layers) data l T B,
      (∀ M T B l (hl : l ∈ rest) t, HasType a l.name t → Describes M t (kwargs l.name) (ps M T B l hl)) ∧
      ∀ (M M₁ M₂ : Mode), M.training = true ∨ (∀ n, ¬ HasType a n (str "Dropout")) →
        ∀ (alg : Algorithm) (lr μ : ℕ → ℝ) (batches : ℕ → Batch) (evals₁ evals₂ : ℕ → List Batch), (∀ k, (batches k).Good data) →
        (∀ k, ∀ b ∈ evals₁ k, b.Good data) → (∀ k, ∀ b ∈ evals₂ k, b.Good data) →
        ∀ (n : ℕ) (θ : Fin n → ℝ) (s : Run alg.Memory), s.st.read (str "parameters") = some (List.ofFn θ) →
        CanTrain (infos layers) (netOf (infos layers) L) (alg.Ok n) s → ∀ k, ∃ r log,
          train (netOf (infos layers) L) data.name (fun T B => libNetwork F (ps M₁ T B)) (reported a layers L)
            (fun k => alg.run (netOf (infos layers) L) (fun T B => libNetwork F (ps M T B)) (lr k) (μ k)) batches evals₁ s k = some (r, log) ∧
          CanTrain (infos layers) (netOf (infos layers) L) (alg.Ok n) r ∧
          ∀ s' : Run alg.Memory, CanTrain (infos layers) (netOf (infos layers) L) (alg.Ok n) s' → Same (infos layers) r s' →
          ∀ j, ∃ r₁ r₂ log',
            train (netOf (infos layers) L) data.name (fun T B => libNetwork F (ps M₁ T B)) (reported a layers L)
              (fun k => alg.run (netOf (infos layers) L) (fun T B => libNetwork F (ps M T B)) (lr k) (μ k)) batches evals₁ s (k + j) =
                some (r₁, log ++ log') ∧
            train (netOf (infos layers) L) data.name (fun T B => libNetwork F (ps M₂ T B)) (reported a layers L)
              (fun i => alg.run (netOf (infos layers) L) (fun T B => libNetwork F (ps M T B)) (lr (k + i)) (μ (k + i)))
              (fun i => batches (k + i)) evals₂ s' j = some (r₂, log') ∧
            Same (infos layers) r₁ r₂ := by
  have m : Made kwargs a ord layers L := ⟨hk, ho, h, hne, hL⟩
  obtain ⟨data, rest, hdt, F, ps, hps⟩ := functions m tr num sup
  refine ⟨data, rest, hdt, F, ps, hps, fun M M₁ M₂ hM alg lr μ batches evals₁ evals₂ hb he₁ he₂ n θ s hθ c k => ?_⟩
  have hS := sited m F (ps M)
  have hrep := reports m F (ps M) hdt (hps M)
  have hdet := determines m F hM (ps M) (hps M)
  obtain rfl := Reachable.count F.laid c.state hθ
  have := fun k => algorithm_follows hS hdet (hb k) hrep alg (lr k) (μ k)
  choose rule loss hf hfun using this
  obtain ⟨r, r', log, h1, -, f, -, -⟩ := train_same hS (sited m F (ps M₁)) (sited m F (ps M₁)) hrep hf hfun hb he₁ he₁ (c.fine F.laid)
    (c.fine F.laid) ⟨rfl, rfl, fun _ _ _ _ => rfl, fun _ _ _ _ => rfl⟩ k
  refine ⟨r, log, h1, ⟨train_reachable (fun k => algorithm_proper _ _ _ _ alg) c.state k h1, f.mem, f.grads, f.weights⟩, fun s' c' hs j => ?_⟩
  obtain ⟨t, t', log', h2, h3, -, -, h4⟩ := train_same hS (sited m F (ps M₁)) (sited m F (ps M₂)) hrep (fun i => hf (k + i))
    (fun i => hfun (k + i)) (fun i => hb (k + i)) (fun i => he₁ (k + i)) he₂ f (c'.fine F.laid) hs j
  exact ⟨t, t', log', train_add h1 j h2, h3, h4⟩

end

end Verif.Determined
