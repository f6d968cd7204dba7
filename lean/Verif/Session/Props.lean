import Verif.Session.Steps
import Verif.EndToEnd.Formulas
import Verif.Setup.Context
import Verif.Layout.MirrorProps

/-!
# Property C77: training is gradient descent on the reported loss

From an accepted architecture to what `Trainer.train` does to the parameters.
-/

namespace Verif.Session

open Verif.Architecture hiding demoArch
open Verif.Structure Verif.Layout Verif.Buffers Verif.Instantiate Verif.EndToEnd
open Verif.Memory hiding demoL
open Verif.Setup (Kwargs libEnv infos toInfo inp_some)
open Verif.Shapes (Supported)

/-! ### Proofs -/

section
variable {kwargs : Name → Kwargs} {a : Arch} {ord : Orders} {layers : Dict Name (LayerObj Kwargs)} {L : Layout}

theorem _root_.Verif.EndToEnd.Made.low (m : Made kwargs a ord layers L) {l : LayerInfo} (hl : l ∈ infos layers) :
    (∀ c ∈ layerCats l, ∀ e ∈ c.2.2, e.2.contextSize ≤ 1) ∧
      ((∀ n, ¬ HasType a n (str "Clockwork") ∧ ¬ HasType a n (str "ClockworkLstm")) → str "timing" ∉ l.paramShapes.map Prod.fst) := by
  obtain ⟨lo, hlo, rfl⟩ := m.mem_infos hl
  obtain ⟨t, c, ht, hc, hf, -, d, hd, hb⟩ := m.cls hlo
  obtain ⟨h1, h2⟩ := Setup.library_low (fun k s hk => by rw [hf.context k s (inp_some hk).1]; omega) hc hd
  obtain ⟨b1, b2, b3, b4⟩ := Setup.build_low (ins := lo.inShapes)
    (fun k s hk => by rw [hf.context k s (inp_some hk).1]; omega) h1 hb
  have hin : ∀ e ∈ lo.inShapes, e.2.contextSize ≤ 1 := by
    intro e he
    have hnd := m.inst.wellFormed
    have : Dict.get? lo.inShapes e.1 = some e.2 := Dict.get?_of_mem (hnd.inNodup _ hl) he
    rw [hf.context _ _ this]
    omega
  refine ⟨?_, fun hno => b4 (h2 ?_ ?_)⟩
  · simp only [layerCats, List.forall_mem_cons, List.not_mem_nil, false_imp_iff, implies_true, and_true]
    exact ⟨hin, b1, b2, b3, hin, b1, b2⟩
  · intro e
    have : t = str "Clockwork" := List.append_cancel_right (e.trans (by decide : _ = str "Clockwork" ++ str "LayerImpl"))
    exact (hno _).1 (this ▸ ht)
  · intro e
    have : t = str "ClockworkLstm" := List.append_cancel_right (e.trans (by decide : _ = str "ClockworkLstm" ++ str "LayerImpl"))
    exact (hno _).2 (this ▸ ht)

theorem foldl_max_le {l : List ℕ} {k m : ℕ} (h : ∀ x ∈ l, x ≤ m) (hk : k ≤ m) : l.foldl max k ≤ m := by
  induction l generalizing k with
  | nil => exact hk
  | cons x l ih => exact ih (fun y hy => h y (List.mem_cons_of_mem _ hy)) (Nat.max_le.2 ⟨hk, h x List.mem_cons_self⟩)

theorem _root_.Verif.EndToEnd.Made.ctx_le (m : Made kwargs a ord layers L) : ∀ h ∈ (netOf (infos layers) L).hubs, h.ctx ≤ 1 := by
  intro h hh
  obtain ⟨g, hg, rfl⟩ := List.mem_map.1 hh
  obtain ⟨forced, conns, gs, hP⟩ := createLayout_ok m.layout
  rw [hP.sorted] at hg
  have hg' := (sortBy_perm hubLe gs).mem_iff.1 hg
  obtain ⟨-, -, -, hc, -⟩ := hP.created m.inst.wellFormed hg'
  obtain ⟨structs, hlook, -, hctx, -⟩ := create_full hc
  have : g.hub.contextSize ≤ 1 := by
    rw [hctx]
    refine foldl_max_le ?_ (by omega)
    intro x hx
    obtain ⟨s, hs, rfl⟩ := List.mem_map.1 hx
    obtain ⟨hlen, hget⟩ := lookupAll_ok hlook
    obtain ⟨i, hi, rfl⟩ := List.mem_iff_getElem.1 hs
    have hi' := hget i (by omega)
    rw [List.getElem?_eq_getElem hi] at hi'
    have hmem := Dict.mem_of_get? hi'
    simp only [networkArrays, layerArrays, List.mem_flatMap] at hmem
    obtain ⟨l, hl, c, hcat, he⟩ := hmem
    obtain ⟨e, he', hes⟩ := List.mem_map.1 he
    have := (m.low hl).1 c hcat e he'
    rw [← (Prod.mk.inj hes).2]
    split <;> exact this
  exact this

theorem _root_.Verif.EndToEnd.Made.short (m : Made kwargs a ord layers L) (T : ℕ) : Short (netOf (infos layers) L) T := by
  intro h hh
  have := m.ctx_le h hh
  omega

/-- The states of a network satisfy the invariant of its buffers. -/
theorem Reachable.inv {net : Net} (hw : WellLaid net) {st : State ℝ} (h : Reachable net st) :
    ∃ T B sz k vs, Inv net st T B sz k vs := by
  induction h with
  | new h =>
    obtain ⟨st, k, vs, h1, h2⟩ := create_inv (V := ℝ) hw
    rw [h] at h1
    cases h1
    exact ⟨_, _, _, k, vs, h2⟩
  | step op _ hs ih =>
    obtain ⟨T, B, sz, k, vs, i⟩ := ih
    obtain ⟨k', vs', i'⟩ := step_inv hw i hs
    exact ⟨_, _, _, k', vs', i'⟩
  | forward P rnd _ hs ih =>
    obtain ⟨T, B, sz, k, vs, i⟩ := ih
    obtain ⟨st', h1, h2, -⟩ := forwardPass_inv i P rnd
    rw [hs] at h1
    cases h1
    exact ⟨_, _, _, k, vs, h2⟩
  | @backward st st' P rnd _ hs ih =>
    obtain ⟨T, B, sz, k, vs, i⟩ := ih
    obtain ⟨st₁, h1, h2, -⟩ := clearBackward_inv i
    obtain ⟨st₂, h3, h4, -⟩ := onMemory_inv h2 rnd fun T B m => (P T B).reverse.foldl (fun m l => l.bwd m) m
    have : backwardPass net P rnd st = some st₂ := by unfold backwardPass; rw [h1]; exact h3
    rw [hs] at this
    cases this
    exact ⟨_, _, _, k, vs, h4⟩

theorem sited (m : Made kwargs a ord layers L) {data : LayerInfo} {rest : List LayerInfo} (F : Memory.Fits (infos layers) L data rest)
    (ps : ∀ T B, ∀ l ∈ rest, LibLayer (infos layers) data l T B) :
    Sited (infos layers) L data rest fun T B => libNetwork F (ps T B) :=
  ⟨F.laid, F.ordered, m.short, fun T B => network_site F _, fun T B => network_honest F _⟩

theorem right (m : Made kwargs a ord layers L) {data : LayerInfo} {rest : List LayerInfo} (F : Memory.Fits (infos layers) L data rest)
    {M : Mode} (ps : ∀ T B, ∀ l ∈ rest, LibLayer (infos layers) data l T B) (sm : Smooth a kwargs)
    (hno : ∀ n, ¬ HasType a n (str "Clockwork"))
    (hps : ∀ T B, ∀ l (hl : l ∈ rest) t, HasType a l.name t → Describes M t (kwargs l.name) (ps T B l hl)) :
    Right (infos layers) L fun T B => libNetwork F (ps T B) := by
  intro T B hT s i p g hp hg
  have hno' : ∀ n, ¬ HasType a n (str "Clockwork") ∧ ¬ HasType a n (str "ClockworkLstm") := fun n =>
    ⟨hno n, fun h => absurd (sm.types n _ h) (by decide)⟩
  have hR : AllRegular F (ps T B) s := by
    intro l hl
    obtain ⟨lo, hlo, -⟩ := m.mem_infos (F.ordered.mem hl)
    obtain ⟨t, -, ht, -⟩ := m.cls hlo
    exact smooth_regular sm hT _ ht (hps T B l hl t ht) _
  obtain ⟨k, hk, x, hx, hc⟩ := F.laid.root_cover (List.mem_of_getElem? hp)
  obtain ⟨sh, hsh⟩ := shape_of hx
  refine C72_gradients F.laid F.ordered (network_site F _) (network_honest F _) s
    (network_differentiates F _ s fun l hl => (ps T B l hl).regular_right L _ (hR l hl)) i p g hp hg
    (par_not_fixed F (ps T B) hk (x := x) (s := sh) ⟨hsh, hc⟩ ?_)
  rintro rfl
  exact (m.low hk).2 hno' hx

/-- The functions of the layers, for every mode and all sizes. -/
theorem functions (m : Made kwargs a ord layers L) (tr : Trainable a) (num : Numeric a kwargs)
    (sup : ∀ n l t, Dict.get? layers n = some l → HasType a n t → Supported t l.kwargs l.inShapes) :
    ∃ data rest, HasType a data.name (str "Input") ∧ ∃ _ : Memory.Fits (infos layers) L data rest,
      ∃ ps : Mode → ∀ T B, ∀ l ∈ rest, LibLayer (infos layers) data l T B,
        ∀ M T B l (hl : l ∈ rest) t, HasType a l.name t → Describes M t (kwargs l.name) (ps M T B l hl) := by
  obtain ⟨data, rest, hdt, F, hF⟩ := C75_network kwargs a m.keys ord m.orders layers m.made m.outs L m.layout tr num sup
  choose ps hps using hF
  exact ⟨data, rest, hdt, F, fun M T B => ps T B M, fun M T B => hps T B M⟩

theorem reports (m : Made kwargs a ord layers L) {data : LayerInfo} {rest : List LayerInfo} (F : Memory.Fits (infos layers) L data rest)
    {M : Mode} (ps : ∀ T B, ∀ l ∈ rest, LibLayer (infos layers) data l T B) (hdt : HasType a data.name (str "Input"))
    (hps : ∀ T B, ∀ l (hl : l ∈ rest) t, HasType a l.name t → Describes M t (kwargs l.name) (ps T B l hl)) :
    Reports (fun T B => libNetwork F (ps T B)) (reported a layers L) := fun T B mem =>
  reported_eq kwargs a m.keys ord m.orders layers m.made m.outs L m.layout hdt F (ps T B) (hps T B) mem

end

/-! ### The property

In the following theorems `a` is an architecture of library layers that is accepted and instantiated (with keyword arguments
`kwargs`), and `L` its layout.  `ps M T B` are the functions of its layers (`Describes`) for `T` time steps and `B` sequences. -/

section
variable (kwargs : Name → Kwargs) (a : Arch) (hk : (Dict.keys a).Nodup) (ord : Orders) (ho : ord.Ok)
  (layers : Dict Name (LayerObj Kwargs)) (h : Instantiates (libEnv kwargs) ord a (.ok layers))
  (hne : ∃ n l, Dict.get? layers n = some l ∧ l.shapes.outs ≠ []) (L : Layout) (hL : createLayout (infos layers) = .ok L)
  (tr : Trainable a) (num : Numeric a kwargs)
  (sup : ∀ n l t, Dict.get? layers n = some l → HasType a n t → Supported t l.kwargs l.inShapes)
include hk ho h hne hL tr num sup

/-- **C77, loss.**  Whatever was done with the network before: if it is given a batch, then the forward pass succeeds and reports the
loss that a new network with the same parameters would report.  The parameters stay as they are. -/
theorem C77_loss :
    ∃ data rest, HasType a data.name (str "Input") ∧ ∃ F : Memory.Fits (infos layers) L data rest,
      ∃ ps : Mode → ∀ T B, ∀ l ∈ rest, LibLayer (infos layers) data l T B,
      (∀ M T B l (hl : l ∈ rest) t, HasType a l.name t → Describes M t (kwargs l.name) (ps M T B l hl)) ∧
      ∀ (M : Mode) (st : State ℝ) (b : Batch) (θ : List ℝ), Reachable (netOf (infos layers) L) st → b.Good data →
        st.read (str "parameters") = some θ →
        ∃ st₁ st₂ loss, provide (netOf (infos layers) L) data.name b st = some st₁ ∧
          forwardPass (netOf (infos layers) L) (fun T B => libNetwork F (ps M T B)) b.rnd st₁ = some st₂ ∧
          reported a layers L b.T b.B (memOf st₂) = some loss ∧
          lossOf (netOf (infos layers) L) data.name (fun T B => libNetwork F (ps M T B)) (reported a layers L) b θ = some loss ∧
          st₂.read (str "parameters") = some θ := by
  have m : Made kwargs a ord layers L := ⟨hk, ho, h, hne, hL⟩
  obtain ⟨data, rest, hdt, F, ps, hps⟩ := functions m tr num sup
  refine ⟨data, rest, hdt, F, ps, hps, fun M st b θ hst hb hθ => ?_⟩
  have hS := sited m F (ps M)
  have hrep := reports m F (ps M) hdt (hps M)
  obtain ⟨_, _, _, _, _, i⟩ := hst.inv (netOf_wellLaid F.laid.wf F.laid.shaped F.laid.layout)
  obtain ⟨st₁, h1, hr, r1⟩ := provide_ready hS.laid hS.data_mem i hb
  obtain ⟨st₂, h2, l2, r2⟩ := forwardPass_loss hS hb (hrep _ _) hr (r1.trans hθ)
  exact ⟨st₁, st₂, _, h1, h2, hrep _ _ _, by rw [← l2]; exact hrep _ _ _, r2⟩

/-- **C77, gradients.**  Whatever was done with the network before: if it is given a batch, then after the forward and the backward
pass the array `gradients` holds the partial derivatives of the loss with respect to the parameters (the layers being
differentiable everywhere), and the parameters are as before. -/
theorem C77_gradients (sm : Smooth a kwargs) (hno : ∀ n, ¬ HasType a n (str "Clockwork")) :
    ∃ data rest, HasType a data.name (str "Input") ∧ ∃ F : Memory.Fits (infos layers) L data rest,
      ∃ ps : Mode → ∀ T B, ∀ l ∈ rest, LibLayer (infos layers) data l T B,
      (∀ M T B l (hl : l ∈ rest) t, HasType a l.name t → Describes M t (kwargs l.name) (ps M T B l hl)) ∧
      ∀ (M : Mode) (n : ℕ) (st : State ℝ) (b : Batch) (θ : Fin n → ℝ), Reachable (netOf (infos layers) L) st → b.Good data → 0 < b.T →
        st.read (str "parameters") = some (List.ofFn θ) →
        ∃ (loss : (Fin n → ℝ) → ℝ) (st₁ st₂ st₃ : State ℝ) (g : Fin n → ℝ),
          (∀ θ', lossOf (netOf (infos layers) L) data.name (fun T B => libNetwork F (ps M T B)) (reported a layers L) b
            (List.ofFn θ') = some (loss θ')) ∧
          provide (netOf (infos layers) L) data.name b st = some st₁ ∧
          forwardPass (netOf (infos layers) L) (fun T B => libNetwork F (ps M T B)) b.rnd st₁ = some st₂ ∧
          backwardPass (netOf (infos layers) L) (fun T B => libNetwork F (ps M T B)) b.rnd st₂ = some st₃ ∧
          st₃.read (str "gradients") = some (List.ofFn g) ∧
          (∀ i, HasDerivAt (fun x => loss (Function.update θ i x)) (g i) (θ i)) ∧
          st₃.read (str "parameters") = some (List.ofFn θ) := by
  have m : Made kwargs a ord layers L := ⟨hk, ho, h, hne, hL⟩
  obtain ⟨data, rest, hdt, F, ps, hps⟩ := functions m tr num sup
  refine ⟨data, rest, hdt, F, ps, hps, fun M n st b θ hst hb hT hθ => ?_⟩
  have hS := sited m F (ps M)
  have hrep := reports m F (ps M) hdt (hps M)
  have hD := right m F (ps M) sm hno (hps M)
  obtain ⟨T, B, _, _, _, i⟩ := hst.inv (netOf_wellLaid F.laid.wf F.laid.shaped F.laid.layout)
  obtain rfl : n = paramCount (infos layers) L := by
    obtain ⟨e, he⟩ := params_entry (layers := infos layers) (L := L)
    rw [read_inv F.laid i he, Option.some.injEq] at hθ
    have := congrArg List.length hθ
    rw [List.length_map, List.length_ofFn, paramCount_eq F.laid] at this
    exact this.symm
  obtain ⟨st₁, h1, hr, r1⟩ := provide_ready hS.laid hS.data_mem i hb
  obtain ⟨st₂, st₃, _, _, _, h2, h3, -, r3, g3, -⟩ := computes_grad hS hb hT hrep hD st₁ θ hr (r1.trans hθ)
  exact ⟨_, st₁, st₂, st₃, _, lossV_eq hS hb hrep, h1, h2, h3, g3, gradV_right hS hb hT hrep hD θ, r3⟩

/-- **C77, training.**  `Trainer.train` with the steppers of the library, on any batches, from any state of the network: the loss of
each batch is a function of the parameters with partial derivatives `grad`; with `SgdStepper` the parameters follow gradient
descent, with `MomentumStepper` and `NesterovStepper` gradient descent with (Nesterov) momentum; learning rate and momentum may
change from update to update.  The recorded losses are those of the parameters where the gradients were taken.  Evaluations by
hooks between the updates, on any data, make no difference. -/
theorem C77_training (sm : Smooth a kwargs) (hno : ∀ n, ¬ HasType a n (str "Clockwork")) :
    ∃ data rest, HasType a data.name (str "Input") ∧ ∃ F : Memory.Fits (infos layers) L data rest,
      ∃ ps : Mode → ∀ T B, ∀ l ∈ rest, LibLayer (infos layers) data l T B,
      (∀ M T B l (hl : l ∈ rest) t, HasType a l.name t → Describes M t (kwargs l.name) (ps M T B l hl)) ∧
      ∀ (M M' : Mode) (n : ℕ), ∃ (loss : Batch → (Fin n → ℝ) → ℝ) (grad : Batch → (Fin n → ℝ) → Fin n → ℝ),
        ∀ (st : State ℝ) (θ₀ : Fin n → ℝ), Reachable (netOf (infos layers) L) st → st.read (str "parameters") = some (List.ofFn θ₀) →
          (∀ b : Batch, b.Good data → 0 < b.T → ∀ θ : Fin n → ℝ,
            lossOf (netOf (infos layers) L) data.name (fun T B => libNetwork F (ps M T B)) (reported a layers L) b
              (List.ofFn θ) = some (loss b θ) ∧
            ∀ i, HasDerivAt (fun x => loss b (Function.update θ i x)) (grad b θ i) (θ i)) ∧
          ∀ (batches : ℕ → Batch) (evals : ℕ → List Batch), (∀ k, (batches k).Good data ∧ 0 < (batches k).T) →
            (∀ k, ∀ b ∈ evals k, b.Good data) → ∀ (lr μ : ℕ → ℝ) (scale : Bool),
            (∀ θ : ℕ → Fin n → ℝ, θ 0 = θ₀ → (∀ k, θ (k + 1) = θ k - lr k • grad (batches k) (θ k)) →
              ∀ k, ∃ st', train (netOf (infos layers) L) data.name (fun T B => libNetwork F (ps M' T B)) (reported a layers L)
                  (fun k => sgdRun (netOf (infos layers) L) (fun T B => libNetwork F (ps M T B)) (lr k)) batches evals (st, ()) k =
                    some ((st', ()), (List.range k).map fun j => loss (batches j) (θ j)) ∧
                st'.read (str "parameters") = some (List.ofFn (θ k))) ∧
            (∀ θ v : ℕ → Fin n → ℝ, θ 0 = θ₀ → v 0 = 0 →
              (∀ k, v (k + 1) = μ k • v k - rateOf scale (lr k) (μ k) • grad (batches k) (θ k)) →
              (∀ k, θ (k + 1) = θ k + v (k + 1)) →
              ∀ k, ∃ st', train (netOf (infos layers) L) data.name (fun T B => libNetwork F (ps M' T B)) (reported a layers L)
                  (fun k => momentumRun (netOf (infos layers) L) (fun T B => libNetwork F (ps M T B)) scale (lr k) (μ k)) batches evals
                  (st, List.replicate n 0) k =
                    some ((st', List.ofFn (v k)), (List.range k).map fun j => loss (batches j) (θ j)) ∧
                st'.read (str "parameters") = some (List.ofFn (θ k))) ∧
            (∀ θ v : ℕ → Fin n → ℝ, θ 0 = θ₀ → v 0 = 0 →
              (∀ k, v (k + 1) = μ k • v k - rateOf scale (lr k) (μ k) • grad (batches k) (θ k + μ k • v k)) →
              (∀ k, θ (k + 1) = θ k + v (k + 1)) →
              ∀ k, ∃ st', train (netOf (infos layers) L) data.name (fun T B => libNetwork F (ps M' T B)) (reported a layers L)
                  (fun k => nesterovRun (netOf (infos layers) L) (fun T B => libNetwork F (ps M T B)) scale (lr k) (μ k)) batches evals
                  (st, List.replicate n 0) k =
                    some ((st', List.ofFn (v k)), (List.range k).map fun j => loss (batches j) (θ j + μ j • v j)) ∧
                st'.read (str "parameters") = some (List.ofFn (θ k))) := by
  have m : Made kwargs a ord layers L := ⟨hk, ho, h, hne, hL⟩
  obtain ⟨data, rest, hdt, F, ps, hps⟩ := functions m tr num sup
  refine ⟨data, rest, hdt, F, ps, hps, fun M M' n => ?_⟩
  by_cases hn : n = paramCount (infos layers) L
  swap
  · refine ⟨fun _ _ => 0, fun _ _ _ => 0, fun st θ₀ hst hθ => absurd ?_ hn⟩
    obtain ⟨T, B, _, _, _, i⟩ := hst.inv (netOf_wellLaid F.laid.wf F.laid.shaped F.laid.layout)
    obtain ⟨e, he⟩ := params_entry (layers := infos layers) (L := L)
    rw [read_inv F.laid i he, Option.some.injEq] at hθ
    have := congrArg List.length hθ
    rw [List.length_map, List.length_ofFn, paramCount_eq F.laid] at this
    exact this.symm
  subst hn
  have hS := sited m F (ps M)
  have hQ := sited m F (ps M')
  have hrep := reports m F (ps M) hdt (hps M)
  have hD := right m F (ps M) sm hno (hps M)
  refine ⟨lossV (infos layers) L data.name (fun T B => libNetwork F (ps M T B)) (reported a layers L),
    gradV (infos layers) L data.name (fun T B => libNetwork F (ps M T B)) (reported a layers L), fun st θ₀ hst hθ => ⟨?_, ?_⟩⟩
  · exact fun b hb hT θ => ⟨lossV_eq hS hb hrep θ, gradV_right hS hb hT hrep hD θ⟩
  intro batches evals hb he lr μ scale
  obtain ⟨T, B, _, _, _, i⟩ := hst.inv (netOf_wellLaid F.laid.wf F.laid.shaped F.laid.layout)
  have hzero : List.ofFn (0 : Fin (paramCount (infos layers) L) → ℝ) = List.replicate (paramCount (infos layers) L) 0 := by
    simp [List.ofFn_const, Pi.zero_def]
  refine ⟨?_, ?_, ?_⟩
  · intro θ h0 hrec k
    obtain ⟨st', _, _, _, _, _, h1, -, h2⟩ := train_spec hS hQ hrep (fun k => (hb k).1) he (θ := θ) (v := fun _ => ())
      (fun k st hr hr' => by
        rw [hrec k]
        exact sgdRun_spec hS (computes_grad hS (hb k).1 (hb k).2 hrep hD) hr hr' (lr k)) i (by rw [h0]; exact hθ) k
    exact ⟨st', h1, h2⟩
  · intro θ v h0 hv0 hv hrec k
    obtain ⟨st', _, _, _, _, _, h1, -, h2⟩ := train_spec hS hQ hrep (fun k => (hb k).1) he (θ := θ) (v := fun k => List.ofFn (v k))
      (fun k st hr hr' => by
        rw [hrec k]
        exact momentumRun_spec hS (computes_grad hS (hb k).1 (hb k).2 hrep hD) hr hr' scale (lr k) (μ k) (hv k)) i (by rw [h0]; exact hθ) k
    rw [hv0, hzero] at h1
    exact ⟨st', h1, h2⟩
  · intro θ v h0 hv0 hv hrec k
    obtain ⟨st', _, _, _, _, _, h1, -, h2⟩ := train_spec hS hQ hrep (fun k => (hb k).1) he (θ := θ) (v := fun k => List.ofFn (v k))
      (fun k st hr hr' => by
        rw [hrec k]
        exact nesterovRun_spec hS (hb k).1 (computes_grad hS (hb k).1 (hb k).2 hrep hD) hr hr' scale (lr k) (μ k) (hv k)) i (by rw [h0]; exact hθ) k
    rw [hv0, hzero] at h1
    exact ⟨st', h1, h2⟩

end

/-! ### A network with a recurrent layer meets the assumptions -/

/-- The Input layer of the network. -/
def demoData : LayerInfo := toInfo ((Dict.get? demoLayers (str "Input")).get (by decide +kernel))

theorem demo_no_clockwork (n : Name) : ¬ HasType demoArch n (str "Clockwork") := by
  rw [demo_types]
  simp only [List.mem_cons, Prod.mk.injEq, List.not_mem_nil, or_false]
  rintro (⟨-, h⟩ | ⟨-, h⟩ | ⟨-, h⟩ | ⟨-, h⟩ | ⟨-, h⟩) <;> exact absurd h (by decide)

/-- It is a layer of the network, and there are good batches of any length. -/
example (T B : ℕ) : demoData ∈ infos demoLayers ∧ HasType demoArch demoData.name (str "Input") ∧
    (Batch.mk T B [(str "default", List.replicate (T * B * 4) 1), (str "targets", List.replicate (T * B * 2) 0)] 0).Good demoData := by
  refine ⟨by decide +kernel, (demo_types _ _).2 (by decide +kernel), ?_, ?_, ?_⟩
  · simp only [List.map]; decide +kernel
  · simp only [List.map]; decide +kernel
  · simp only [List.forall_mem_cons, List.not_mem_nil, false_imp_iff, implies_true, and_true]
    refine ⟨⟨⟨[.T, .B, .n 4], 0, false⟩, by decide +kernel, ?_⟩, ⟨⟨[.T, .B, .n 2], 0, false⟩, by decide +kernel, ?_⟩⟩ <;>
      simp [structShape, mul_assoc, Struct.bufferType, Struct.featureShape, Tok.size, typeOf]

/-- A new network has forty parameters. -/
example : ∃ (st : State ℝ) (θ : Fin 40 → ℝ), Reachable (netOf (infos demoLayers) demoL) st ∧
    st.read (str "parameters") = some (List.ofFn θ) := by
  obtain ⟨data, rest, -, F, -⟩ := C77_loss demoKwargs demoArch (by decide +kernel) (demoOrders true) (demoOrders_ok true) demoLayers
    demo_instantiates demo_outs demoL demo_layout demo_trainable demo_numeric demo_supported
  obtain ⟨st, _, _, h1, i⟩ := create_inv (V := ℝ) (netOf_wellLaid F.laid.wf F.laid.shaped F.laid.layout)
  obtain ⟨e, he⟩ := params_entry (layers := infos demoLayers) (L := demoL)
  refine ⟨st, fun i => (memOf st) ((cells (netOf (infos demoLayers) demoL) 0 0 (str "parameters")).getD i 0), .new h1, ?_⟩
  rw [read_inv F.laid i he]
  have h40 : (cells (netOf (infos demoLayers) demoL) 0 0 (str "parameters")).length = 40 := by decide +kernel
  refine congrArg some (List.ext_getElem (by rw [List.length_map, List.length_ofFn, h40]) fun j j1 j2 => ?_)
  rw [List.getElem_map, List.getElem_ofFn]
  simp only
  rw [List.getD_eq_getElem?_getD, List.getElem?_eq_getElem (by simpa using j1)]
  rfl

/-- Training it is gradient descent. -/
example (M M' : Mode) (lr : ℕ → ℝ) :
    ∃ data rest, HasType demoArch data.name (str "Input") ∧ ∃ F : Memory.Fits (infos demoLayers) demoL data rest,
      ∃ ps : Mode → ∀ T B, ∀ l ∈ rest, LibLayer (infos demoLayers) data l T B,
      ∃ (loss : Batch → (Fin 40 → ℝ) → ℝ) (grad : Batch → (Fin 40 → ℝ) → Fin 40 → ℝ),
        ∀ (st : State ℝ) (θ₀ : Fin 40 → ℝ), Reachable (netOf (infos demoLayers) demoL) st →
          st.read (str "parameters") = some (List.ofFn θ₀) →
          (∀ b : Batch, b.Good data → 0 < b.T → ∀ (θ : Fin 40 → ℝ) i,
            HasDerivAt (fun x => loss b (Function.update θ i x)) (grad b θ i) (θ i)) ∧
          ∀ (batches : ℕ → Batch) (evals : ℕ → List Batch), (∀ k, (batches k).Good data ∧ 0 < (batches k).T) →
            (∀ k, ∀ b ∈ evals k, b.Good data) → ∃ θ : ℕ → Fin 40 → ℝ, θ 0 = θ₀ ∧
              (∀ k, θ (k + 1) = θ k - lr k • grad (batches k) (θ k)) ∧
              ∀ k, ∃ st', train (netOf (infos demoLayers) demoL) data.name (fun T B => libNetwork F (ps M' T B))
                  (reported demoArch demoLayers demoL)
                  (fun k => sgdRun (netOf (infos demoLayers) demoL) (fun T B => libNetwork F (ps M T B)) (lr k)) batches evals (st, ()) k =
                    some ((st', ()), (List.range k).map fun j => loss (batches j) (θ j)) ∧
                st'.read (str "parameters") = some (List.ofFn (θ k)) := by
  obtain ⟨data, rest, hdt, F, ps, -, h⟩ := C77_training demoKwargs demoArch (by decide +kernel) (demoOrders true) (demoOrders_ok true)
    demoLayers demo_instantiates demo_outs demoL demo_layout demo_trainable demo_numeric demo_supported demo_smooth demo_no_clockwork
  obtain ⟨loss, grad, h⟩ := h M M' 40
  refine ⟨data, rest, hdt, F, ps, loss, grad, fun st θ₀ hst hθ => ⟨fun b hb hT θ => ((h st θ₀ hst hθ).1 b hb hT θ).2, ?_⟩⟩
  intro batches evals hb he
  exact ⟨fun k => Nat.rec θ₀ (fun k θ => θ - lr k • grad (batches k) θ) k, rfl, fun _ => rfl,
    ((h st θ₀ hst hθ).2 batches evals hb he lr lr false).1 _ rfl fun _ => rfl⟩

end Verif.Session
