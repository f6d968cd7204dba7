import Verif.Locality.Props

/-!
# C92: parameters that do not influence a loss have gradient zero
-/

namespace Verif.Locality

open Verif.Architecture hiding demoArch
open Verif.Structure Verif.Layout Verif.Buffers Verif.Instantiate Verif.EndToEnd
open Verif.Memory hiding demoL Feeds
open Verif.Setup (Kwargs libEnv infos toInfo inp_some toOutgoing)
open Verif.Shapes (Supported)
open Verif.Session hiding sgdRun momentumRun nesterovRun round train Stepper

/-! ### Proofs -/

/-- Only Loss layers report losses. -/
theorem isLoss_type {layers : List LayerInfo} {data l : LayerInfo} {T B : ℕ} {M : Mode} {t : Name} {kw : Kwargs}
    (q : LibLayer layers data l T B) (h : Describes M t kw q) (hq : q.placed.V.isLoss = true) : t = str "Loss" := by
  cases q with
  | loss importance x has loose => exact h.1
  | _ => exact absurd hq (by simp [LibLayer.placed]; try rfl)

section
variable {kwargs : Name → Kwargs} {a : Arch} {ord : Orders} {layers : Dict Name (LayerObj Kwargs)} {L : Layout}
  {b : Batch} {θ θ' : List ℝ} {s s' : Mem} {data : LayerInfo} {rest : List LayerInfo}

/-- The loss depends on the parameters of the layers from which a Loss layer can be reached. -/
theorem loss_local (m : Made kwargs a ord layers L) (F : Memory.Fits (infos layers) L data rest) (hb : b.Good data) {M : Mode}
    (ps : ∀ l ∈ rest, LibLayer (infos layers) data l b.T b.B)
    (hps : ∀ l (hl : l ∈ rest) t, HasType a l.name t → Describes M t (kwargs l.name) (ps l hl))
    (h : Loaded (netOf (infos layers) L) data.name b θ s) (h' : Loaded (netOf (infos layers) L) data.name b θ' s')
    (hag : ∀ n, HasType a n (str "Loss") → Agree (infos layers) L b.T b.B (fun k => Upstream a k.name n) s s') :
    totalLoss (libNetwork F ps) (forward (libNetwork F ps) s) = totalLoss (libNetwork F ps) (forward (libNetwork F ps) s') := by
  have h'' : Loaded (netOf (infos layers) L) data.name (withData b b.data) θ' s' := h'
  have hdm : data ∈ infos layers := by rw [F.ordered.all]; simp
  conv_lhs => unfold totalLoss
  conv_rhs => unfold totalLoss
  congr 1
  refine List.map_congr_left fun n hn => Finset.sum_congr rfl fun c hc => ?_
  obtain ⟨l, hl, rfl⟩ := mem_network.1 hn
  have hsite := layer_site F ps hl
  obtain ⟨x, t, hx, -⟩ := hsite.outs c (hsite.losses c hc).1
  have hloss : (ps l hl).placed.V.isLoss = true := by
    by_contra hno
    have h0 : ((ps l hl).placed.layer F hl).losses = ∅ := if_neg hno
    rw [h0] at hc
    simp at hc
  obtain ⟨y, lo, hlo, e⟩ := (Setup.mem_infos m.inst).1 (F.ordered.mem hl)
  obtain ⟨t', -, ht, -⟩ := m.cls hlo
  have hname : l.name = y := by rw [e]; exact m.inst.name y lo hlo
  rw [← hname] at ht
  have hty := isLoss_type _ (hps l hl t' ht) hloss
  subst hty
  refine local_determined F (m.short _) ps h h'' (before_upstream m l.name) (hag l.name ht)
    (fun k _ hSk o hok hkind hend c hma => same_data F hb hok hkind (fun _ => Iff.rfl) h h'' hma) hl .refl hx.1 hx.2

/-- Moving an entry of a parameter of a layer from which no Loss layer can be reached does not change the loss. -/
theorem loss_unmoved (m : Made kwargs a ord layers L) (F : Memory.Fits (infos layers) L data rest) (hb : b.Good data) {M : Mode}
    (ps : ∀ l ∈ rest, LibLayer (infos layers) data l b.T b.B)
    (hps : ∀ l (hl : l ∈ rest) t, HasType a l.name t → Describes M t (kwargs l.name) (ps l hl))
    (hs : Loaded (netOf (infos layers) L) data.name b θ s) {l : LayerInfo} (hl : l ∈ infos layers)
    (hup : ∀ n, HasType a n (str "Loss") → ¬ Upstream a l.name n) {x : Name} {sh : Struct} (hx : (x, sh) ∈ l.paramShapes) {j : ℕ}
    (hj : j < sh.featureSize) {p : ℕ}
    (hp : (cells (netOf (infos layers) L) b.T b.B (str "parameters"))[Constrained.startOf L l.name x + j]? = some p) (y : ℝ) :
    totalLoss (libNetwork F ps) (forward (libNetwork F ps) (Function.update s p y)) =
      totalLoss (libNetwork F ps) (forward (libNetwork F ps) s) := by
  have hdm : data ∈ infos layers := by rw [F.ordered.all]; simp
  have hpar := Constrained.cells_part F.laid (c := .par) (Or.inl rfl) hl hx b.T b.B
  have e : Src.par.str = str "parameters" := rfl
  rw [e] at hpar
  have hhome : Home (infos layers) L b.T b.B l .par x sh p := by
    refine ⟨hx, ?_⟩
    show p ∈ cells _ _ _ (path l.name Src.par.str x)
    rw [e, hpar.1]
    refine List.mem_iff_getElem?.2 ⟨j, ?_⟩
    rw [List.getElem?_take_of_lt hj, List.getElem?_drop]
    exact hp
  refine (loss_local m F hb ps hps hs (hs.update F.laid hdm hb hp y) fun n hn k hk' hSk y' t c hc => ?_).symm
  rw [Function.update_of_ne]
  rintro rfl
  obtain ⟨rfl, -⟩ := Home.inj F.laid hk' hl hc hhome
  exact hup n hn hSk

end

section
variable (kwargs : Name → Kwargs) (a : Arch) (hk : (Dict.keys a).Nodup) (ord : Orders) (ho : ord.Ok)
  (layers : Dict Name (LayerObj Kwargs)) (h : Instantiates (libEnv kwargs) ord a (.ok layers))
  (hne : ∃ n l, Dict.get? layers n = some l ∧ l.shapes.outs ≠ []) (L : Layout) (hL : createLayout (infos layers) = .ok L)
  (tr : Trainable a) (num : Numeric a kwargs)
  (sup : ∀ n l t, Dict.get? layers n = some l → HasType a n t → Supported t l.kwargs l.inShapes)
include hk ho h hne hL tr num sup

/-- **C92, gradients.**  For layers that are differentiable everywhere (as in C77): whatever was done with the network before, after the forward and
the backward pass on a batch the gradients of a layer from which no chain of connections leads to a Loss layer are zero. -/
theorem C92_gradients (sm : Smooth a kwargs) (hno : ∀ n, ¬ HasType a n (str "Clockwork")) :
    ∃ data rest, HasType a data.name (str "Input") ∧ ∃ F : Memory.Fits (infos layers) L data rest,
      ∃ ps : Mode → ∀ T B, ∀ l ∈ rest, LibLayer (infos layers) data l T B,
      (∀ M T B l (hl : l ∈ rest) t, HasType a l.name t → Describes M t (kwargs l.name) (ps M T B l hl)) ∧
      ∀ (M : Mode) (st : State ℝ) (b : Batch), Reachable (netOf (infos layers) L) st → b.Good data → 0 < b.T → ∃ st₁ st₂ st₃ : State ℝ,
          provide (netOf (infos layers) L) data.name b st = some st₁ ∧
          forwardPass (netOf (infos layers) L) (fun T B => libNetwork F (ps M T B)) b.rnd st₁ = some st₂ ∧
          backwardPass (netOf (infos layers) L) (fun T B => libNetwork F (ps M T B)) b.rnd st₂ = some st₃ ∧
          ∀ l ∈ infos layers, (∀ n, HasType a n (str "Loss") → ¬ Upstream a l.name n) → ∀ x s, (x, s) ∈ l.paramShapes →
            ∃ xs, st₃.read (path l.name (str "gradients") x) = some xs ∧ ∀ v ∈ xs, v = 0 := by
  have m : Made kwargs a ord layers L := ⟨hk, ho, h, hne, hL⟩
  obtain ⟨data, rest, hdt, F, ps, hps⟩ := functions m tr num sup
  refine ⟨data, rest, hdt, F, ps, hps, fun M st b hst hb hT => ?_⟩
  have hS := sited m F (ps M)
  have hD := right m F (ps M) sm hno (hps M)
  have hwl := netOf_wellLaid F.laid.wf F.laid.shaped F.laid.layout
  obtain ⟨T, B, _, _, _, i⟩ := hst.inv hwl
  obtain ⟨e, he⟩ := params_entry (layers := infos layers) (L := L)
  obtain ⟨θ, hθ⟩ : ∃ θ, st.read (str "parameters") = some θ := ⟨_, read_inv F.laid i he⟩
  obtain ⟨st₁, h1, hr, r1⟩ := provide_ready hS.laid hS.data_mem i hb
  obtain ⟨st₂, st₃, s, sz, k, vs, h2, h3, i3, hs, -, hg, -⟩ := passes_spec hS hb hr (r1.trans hθ)
  refine ⟨st₁, st₂, st₃, h1, h2, h3, fun l hl hup x sh hx => ?_⟩
  refine ⟨_, Constrained.read_part F.laid i3 (c := .grad) (Or.inr rfl) hl hx hg, fun v hv => ?_⟩
  have hpar := Constrained.cells_part F.laid (c := .par) (Or.inl rfl) hl hx b.T b.B
  have hgr := Constrained.cells_part F.laid (c := .grad) (Or.inr rfl) hl hx b.T b.B
  unfold Constrained.part at hv
  obtain ⟨j, hj, rfl⟩ := List.mem_iff_getElem.1 hv
  rw [List.length_take, List.length_drop, List.length_map] at hj
  rw [List.getElem_take, List.getElem_drop, List.getElem_map]
  set q := Constrained.startOf L l.name x + j with hq
  have hjs : j < sh.featureSize := by omega
  have hqp : q < (cells (netOf (infos layers) L) b.T b.B (str "parameters")).length := by
    have := hpar.2
    have e : Src.par.str = str "parameters" := rfl
    rw [e] at this
    omega
  have hqg : q < (cells (netOf (infos layers) L) b.T b.B (str "gradients")).length := by
    have := hgr.2
    have e : Src.grad.str = str "gradients" := rfl
    rw [e] at this
    omega
  have key := hD b.T b.B hT s q _ _ (List.getElem?_eq_getElem hqp) (List.getElem?_eq_getElem hqg)
  simp only [loss_unmoved m F hb (ps M b.T b.B) (hps M b.T b.B) hs hl hup hx hjs (List.getElem?_eq_getElem hqp)] at key
  exact key.unique (hasDerivAt_const _ _)

end

end Verif.Locality
