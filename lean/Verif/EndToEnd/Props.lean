import Verif.EndToEnd.Order
import Verif.Shapes.Props

/-!
# Property C75: from the architecture to the gradients

Everything together: an architecture of library layers that is accepted, instantiated and laid out computes the derivatives
of its total loss in the memory that the layout describes.
-/

namespace Verif.EndToEnd

open Verif.Structure Verif.Layout Verif.Architecture Verif.Layers Verif.Memory Verif.Shapes Verif.Instantiate
open Verif.Buffers (netOf)
open Verif.Setup (Kwargs KVal inp inp_some Decl DeclClass library libEnv infos toInfo)

/-! ### Proofs -/

theorem act_of {kw : Kwargs} (h : ∀ v, Dict.get? kw (str "activation") = some v →
    ∃ a ∈ [str "sigmoid", str "tanh", str "rel", str "el", str "linear"], v = .string a) (dflt : Act) :
    ∃ a, actOf kw dflt = some a := by
  unfold actOf
  cases hv : Dict.get? kw (str "activation") with
  | none => exact ⟨_, rfl⟩
  | some v =>
    obtain ⟨a, ha, rfl⟩ := h v hv
    simp only [List.mem_cons, List.not_mem_nil, or_false] at ha
    rcases ha with rfl | rfl | rfl | rfl | rfl <;> exact ⟨_, rfl⟩

theorem num_of {kw : Kwargs} {k : Name} (h : ∀ v, Dict.get? kw k = some v → (∃ n, v = .int n) ∨ ∃ q, v = .num q) (dflt : ℝ) :
    ∃ q, numArg kw k dflt = some q := by
  unfold numArg
  cases hv : Dict.get? kw k with
  | none => exact ⟨_, rfl⟩
  | some v =>
    rcases h v hv with ⟨n, rfl⟩ | ⟨q, rfl⟩
    · exact ⟨_, rfl⟩
    · exact ⟨_, rfl⟩

section
variable {kwargs : Name → Kwargs} {a : Arch} {ord : Orders} {layers : Dict Name (LayerObj Kwargs)} {L : Layout}

theorem Made.onlyData (m : Made kwargs a ord layers L) (tr : Trainable a) {data : LayerInfo} (hd : data ∈ infos layers)
    (hdt : HasType a data.name (str "Input")) {x : Name} (hx : x = str "targets" ∨ x = str "mask") (l : LayerInfo) :
    OnlyData (infos layers) data l x := by
  intro k hk o ho _ he
  obtain ⟨c, hc⟩ := m.conn hk ho
  have ht := tr.data c hc.conn (by rw [← hc.input, he]; exact hx)
  rw [hc.start] at ht
  have hn := tr.oneInput _ _ ht hdt
  have hkd : k = data := by
    obtain ⟨l1, h1, e1⟩ := m.mem_infos hk
    obtain ⟨l2, h2, e2⟩ := m.mem_infos hd
    rw [hn, h2] at h1
    cases h1
    rw [e1, e2]
  refine ⟨hkd, ?_⟩
  cases hkind : o.kind with
  | outputs => rfl
  | parameters =>
    obtain ⟨l1, h1, e1⟩ := m.mem_infos hk
    exact absurd (by rw [e1]; exact m.input_params h1 ht) (hc.params hkind)
  | internals => exact absurd ((prefix_iff o c hc.ref).2.1 hkind) (tr.noInternals c hc.conn)

theorem Made.loosePredictions (m : Made kwargs a ord layers L) (tr : Trainable a) {i : LayerInfo} (hi : i ∈ infos layers)
    (hn : ¬ HasType a i.name (str "Input")) : Loose i "predictions" := by
  intro o ho hk e
  obtain ⟨c, hc⟩ := m.conn hi ho
  refine hn ?_
  rw [← hc.start]
  exact tr.predictions c hc.conn (((prefix_iff o c hc.ref).2.2 hk).trans e)

theorem Made.looseLoss (m : Made kwargs a ord layers L) (tr : Trainable a) {i : LayerInfo} (hi : i ∈ infos layers)
    (ht : HasType a i.name (str "Loss")) : Loose i "loss" := by
  intro o ho _ _
  obtain ⟨c, hc⟩ := m.conn hi ho
  exact tr.losses c hc.conn (by rw [hc.start]; exact ht)

theorem Made.own (m : Made kwargs a ord layers L) (tr : Trainable a) {i : LayerInfo} (hi : i ∈ infos layers)
    (ht : HasType a i.name (str "FullyConnected") ∨ HasType a i.name (str "Convolution2D")) : OwnParams i := by
  intro o ho hk
  obtain ⟨c, hc⟩ := m.conn hi ho
  exact tr.parameters c hc.conn (by rw [hc.start]; exact ht) ((prefix_iff o c hc.ref).1 hk)

/-- Every layer other than the Input layer has the function that its type and settings say. -/
theorem Made.layer (m : Made kwargs a ord layers L) (tr : Trainable a) (num : Numeric a kwargs) {data : LayerInfo}
    (hd : data ∈ infos layers) (hdt : HasType a data.name (str "Input")) {i : LayerInfo} (hi : i ∈ infos layers)
    (hin : ¬ HasType a i.name (str "Input")) {t : Name} (ht : HasType a i.name t)
    (sup : ∀ l, Dict.get? layers i.name = some l → Supported t l.kwargs l.inShapes) (T B : ℕ) (M : Mode) :
    ∃ q : LibLayer (infos layers) data i T B, Describes M t (kwargs i.name) q := by
  obtain ⟨l, hl, ei⟩ := m.mem_infos hi
  obtain ⟨t', c, ht', h, hf, -, d, hdc, hb⟩ := m.cls hl
  obtain rfl := m.type_unique ht ht'
  have hs := sup l hl
  rw [m.kwargs_eq hl] at hs hdc
  have isl : IsLayer i l.inShapes l.shapes := by rw [ei]; exact ⟨rfl, rfl, rfl, rfl⟩
  have hv : ∀ k s, inp l.inShapes k = some s → s.validate = .ok () := fun k s h => (inp_some h).2
  have hc : ∀ k s, inp l.inShapes k = some s → s.contextSize = 0 := fun k s h => hf.context k s (inp_some h).1
  have htb : (∀ e ∈ c.expectedInputs, e.2 = Setup.anyTB) → Tb l.inShapes := by
    intro hall k s hk
    obtain ⟨f, fs, b, e⟩ := hf.allTB hall k s hk
    have := m.in_clean hl k s (inp_some hk).1
    rw [e] at this
    obtain rfl : b = false := this
    exact ⟨f, fs, e⟩
  obtain ⟨ar, har⟩ := act_of hs.activation .rel
  obtain ⟨at', hat⟩ := act_of hs.activation .tanh
  have odt := m.onlyData tr hd hdt (.inl rfl) i
  have odm := m.onlyData tr hd hdt (.inr rfl) i
  have lp := m.loosePredictions tr hi hin
  have hm := Dict.mem_of_get? h
  simp only [library, List.mem_cons, Prod.mk.injEq, List.not_mem_nil, or_false] at hm
  rcases hm with ⟨e, rfl⟩ | ⟨e, rfl⟩ | ⟨e, rfl⟩ | ⟨e, rfl⟩ | ⟨e, rfl⟩ | ⟨e, rfl⟩ | ⟨e, rfl⟩ | ⟨e, rfl⟩ | ⟨e, rfl⟩ | ⟨e, rfl⟩ |
    ⟨e, rfl⟩ | ⟨e, rfl⟩ | ⟨e, rfl⟩ | ⟨e, rfl⟩ | ⟨e, rfl⟩ | ⟨e, rfl⟩ | ⟨e, rfl⟩ | ⟨e, rfl⟩ | ⟨e, rfl⟩ | ⟨e, rfl⟩ | ⟨e, rfl⟩ |
    ⟨e, rfl⟩ | ⟨e, rfl⟩ | ⟨e, rfl⟩
  · obtain rfl := List.append_cancel_right (e.trans (by decide : _ = str "FullyConnected" ++ str "LayerImpl"))
    exact lib_fullyConnected isl (htb (by decide)) har (m.own tr hi (.inl ht)) hdc hb
  · obtain rfl := List.append_cancel_right (e.trans (by decide : _ = str "Elementwise" ++ str "LayerImpl"))
    exact lib_elementwise isl (htb (by decide)) har hdc hb
  · obtain rfl := List.append_cancel_right (e.trans (by decide : _ = str "NoOp" ++ str "LayerImpl"))
    exact lib_noOp isl (htb (by decide)) hdc hb
  · obtain rfl := List.append_cancel_right (e.trans (by decide : _ = str "DeltasScaling" ++ str "LayerImpl"))
    exact absurd ht (tr.noScaling _)
  · obtain rfl := List.append_cancel_right (e.trans (by decide : _ = str "Highway" ++ str "LayerImpl"))
    exact lib_highway isl (htb (by decide)) hdc hb
  · obtain rfl := List.append_cancel_right (e.trans (by decide : _ = str "Dropout" ++ str "LayerImpl"))
    obtain ⟨q, hq⟩ := num_of (num.dropProb _ ht) 0.5
    exact lib_dropout isl (htb (by decide)) hq hdc hb
  · obtain rfl := List.append_cancel_right (e.trans (by decide : _ = str "Mask" ++ str "LayerImpl"))
    exact lib_mask isl (htb (by decide)) odm hdc hb
  · obtain rfl := List.append_cancel_right (e.trans (by decide : _ = str "Merge" ++ str "LayerImpl"))
    exact lib_merge isl hv hc hdc hb
  · obtain rfl := List.append_cancel_right (e.trans (by decide : _ = str "Loss" ++ str "LayerImpl"))
    obtain ⟨q, hq⟩ := num_of (num.importance _ ht) 1
    exact lib_loss isl hq (m.looseLoss tr hi ht) hdc hb
  · obtain rfl := List.append_cancel_right (e.trans (by decide : _ = str "L1Decay" ++ str "LayerImpl"))
    exact lib_l1Decay isl (htb (by decide)) hdc hb
  · obtain rfl := List.append_cancel_right (e.trans (by decide : _ = str "L2Decay" ++ str "LayerImpl"))
    exact lib_l2Decay isl (htb (by decide)) hdc hb
  · obtain rfl := List.append_cancel_right (e.trans (by decide : _ = str "Input" ++ str "LayerImpl"))
    exact absurd ht hin
  · obtain rfl := List.append_cancel_right (e.trans (by decide : _ = str "Recurrent" ++ str "LayerImpl"))
    exact lib_recurrent isl (htb (by decide)) hat hdc hb
  · obtain rfl := List.append_cancel_right (e.trans (by decide : _ = str "Clockwork" ++ str "LayerImpl"))
    exact lib_clockwork isl (htb (by decide)) hat hdc hb
  · obtain rfl := List.append_cancel_right (e.trans (by decide : _ = str "Lstm" ++ str "LayerImpl"))
    exact lib_lstm isl (htb (by decide)) hat hdc hb
  · obtain rfl := List.append_cancel_right (e.trans (by decide : _ = str "ClockworkLstm" ++ str "LayerImpl"))
    exact lib_clockworkLstm isl (htb (by decide)) hat hdc hb
  · obtain rfl := List.append_cancel_right (e.trans (by decide : _ = str "BatchNorm" ++ str "LayerImpl"))
    exact absurd ht (tr.noBatchNorm _)
  · obtain rfl := List.append_cancel_right (e.trans (by decide : _ = str "SigmoidCE" ++ str "LayerImpl"))
    exact lib_sigmoidCE isl (htb (by decide)) odt lp hdc hb
  · obtain rfl := List.append_cancel_right (e.trans (by decide : _ = str "SoftmaxCE" ++ str "LayerImpl"))
    exact lib_softmaxCE isl (htb (by decide)) (fun k s h => hs.width (.inr rfl) k s (inp_some h).1) odt lp hdc hb
  · obtain rfl := List.append_cancel_right (e.trans (by decide : _ = str "SquaredDifference" ++ str "LayerImpl"))
    exact lib_squaredDifference isl (htb (by decide)) hdc hb
  · obtain rfl := List.append_cancel_right (e.trans (by decide : _ = str "SquaredError" ++ str "LayerImpl"))
    exact lib_squaredError isl (htb (by decide)) odt lp hdc hb
  · obtain rfl := List.append_cancel_right (e.trans (by decide : _ = str "BinomialCrossEntropy" ++ str "LayerImpl"))
    exact lib_binomialCE isl (htb (by decide)) odt hdc hb
  · obtain rfl := List.append_cancel_right (e.trans (by decide : _ = str "Convolution2D" ++ str "LayerImpl"))
    exact lib_convolution2D isl (htb (by decide)) hat (m.own tr hi (.inr ht)) hdc hb
  · obtain rfl := List.append_cancel_right (e.trans (by decide : _ = str "Pooling2D" ++ str "LayerImpl"))
    exact lib_pooling2D isl (htb (by decide)) hdc hb

end

theorem smooth_regular {layers : List LayerInfo} {data l : LayerInfo} {T B : ℕ} {a : Arch} {kwargs : Name → Kwargs} {M : Mode}
    (sm : Smooth a kwargs) (hT : 0 < T) (q : LibLayer layers data l T B) {t : Name} (ht : HasType a l.name t)
    (h : Describes M t (kwargs l.name) q) (v : Slot ⊕ ℕ → ℝ) : q.Regular v := by
  have hty := sm.types _ _ ht
  cases q with
  | fullyConnected act x y has hx hy own =>
    obtain ⟨rfl, h2⟩ := h
    have : act ≠ .rel := fun e => sm.given _ (.inl ht) (e ▸ h2)
    exact fun _ _ e => absurd e this
  | elementwise act x has hx =>
    obtain ⟨rfl, h2⟩ := h
    have : act ≠ .rel := fun e => sm.given _ (.inr ht) (e ▸ h2)
    exact fun _ e => absurd e this
  | noOp | highway | merge | mask | maskFull | squaredDifference | squaredError | l2Decay | loss | avgPooling2D => trivial
  | dropout => rw [h.1] at hty; exact absurd hty (by decide)
  | sigmoidCE => rw [show t = _ from h] at hty; exact absurd hty (by decide)
  | softmaxCE => rw [h.1] at hty; exact absurd hty (by decide)
  | binomialCE => rw [show t = _ from h] at hty; exact absurd hty (by decide)
  | l1Decay => rw [show t = _ from h] at hty; exact absurd hty (by decide)
  | recurrent act n x has hx =>
    obtain ⟨rfl, h2⟩ := h
    have : act ≠ .rel := fun e => sm.notRel _ (.inl ht) (e ▸ h2)
    exact ⟨hT, fun _ _ _ _ e => absurd e this⟩
  | clockwork act n x has hx =>
    obtain ⟨rfl, h2⟩ := h
    have : act ≠ .rel := fun e => sm.notRel _ (.inr (.inl ht)) (e ▸ h2)
    exact ⟨hT, fun _ _ _ _ e => absurd e this⟩
  | lstm => rw [h.1] at hty; exact absurd hty (by decide)
  | clockworkLstm => rw [h.1] at hty; exact absurd hty (by decide)
  | convolution2D act =>
    obtain ⟨rfl, h2, -⟩ := h
    have : act ≠ .rel := fun e => sm.notRel _ (.inr (.inr ht)) (e ▸ h2)
    exact fun _ _ _ _ _ _ _ _ e => absurd e this
  | maxPooling2D =>
    obtain ⟨rfl, h2, -⟩ := h
    have := h2.kind
    rw [sm.average _ ht] at this
    cases this

/-! ### Theorems -/

/-- **C75, the network.**  Take any architecture of library layers that is accepted, instantiated and laid out, has at least
one output, and is `Trainable`.  Then the Input layer comes first, the layers are laid out and ordered as the theorems about
training ask, and for all numbers of time steps and sequences every other layer computes the function that its type and its
keyword arguments in the architecture describe, with the arrays it declared. -/
theorem C75_network (kwargs : Name → Kwargs) (a : Arch) (hk : (Dict.keys a).Nodup) (ord : Orders) (ho : ord.Ok)
    (layers : Dict Name (LayerObj Kwargs)) (h : Instantiates (libEnv kwargs) ord a (.ok layers))
    (hne : ∃ n l, Dict.get? layers n = some l ∧ l.shapes.outs ≠ []) (L : Layout) (hL : createLayout (infos layers) = .ok L)
    (tr : Trainable a) (num : Numeric a kwargs)
    (sup : ∀ n l t, Dict.get? layers n = some l → HasType a n t → Supported t l.kwargs l.inShapes) :
    ∃ data rest, HasType a data.name (str "Input") ∧ ∃ _ : Memory.Fits (infos layers) L data rest,
      ∀ (T B : ℕ) (M : Mode), ∃ ps : ∀ l ∈ rest, LibLayer (infos layers) data l T B,
        ∀ l (hl : l ∈ rest) t, HasType a l.name t → Describes M t (kwargs l.name) (ps l hl) := by
  have m : Made kwargs a ord layers L := ⟨hk, ho, h, hne, hL⟩
  obtain ⟨data, rest, e, hdt, hrest⟩ := m.first tr
  refine ⟨data, rest, hdt, m.fits tr e, fun T B M => ?_⟩
  have hd : data ∈ infos layers := by rw [e]; simp
  have key : ∀ l ∈ rest, ∃ q : LibLayer (infos layers) data l T B, ∀ t, HasType a l.name t → Describes M t (kwargs l.name) q := by
    intro l hl
    have hl' : l ∈ infos layers := by rw [e]; exact List.mem_cons_of_mem _ hl
    obtain ⟨lo, hlo, -⟩ := m.mem_infos hl'
    obtain ⟨t, -, ht, -⟩ := m.cls hlo
    obtain ⟨q, hq⟩ := m.layer tr num hd hdt hl' (hrest l hl) ht (fun l' hl' => sup _ l' t hl' ht) T B M
    exact ⟨q, fun t' ht' => m.type_unique ht ht' ▸ hq⟩
  exact ⟨fun l hl => (key l hl).choose, fun l hl => (key l hl).choose_spec⟩

/-- **C75, gradients.**  In the network that such an architecture describes, for every memory at which no layer is at a kink
(`AllRegular`), the forward pass followed by the backward pass leaves in every entry of the gradient array the derivative of
the total loss with respect to the entry of the parameter array at the same position, except for the timings of clockwork
layers. -/
theorem C75_gradients (kwargs : Name → Kwargs) (a : Arch) (hk : (Dict.keys a).Nodup) (ord : Orders) (ho : ord.Ok)
    (layers : Dict Name (LayerObj Kwargs)) (h : Instantiates (libEnv kwargs) ord a (.ok layers))
    (hne : ∃ n l, Dict.get? layers n = some l ∧ l.shapes.outs ≠ []) (L : Layout) (hL : createLayout (infos layers) = .ok L)
    (tr : Trainable a) (num : Numeric a kwargs)
    (sup : ∀ n l t, Dict.get? layers n = some l → HasType a n t → Supported t l.kwargs l.inShapes) (T B : ℕ) (M : Mode) :
    ∃ data rest, ∃ F : Memory.Fits (infos layers) L data rest, ∃ ps : ∀ l ∈ rest, LibLayer (infos layers) data l T B,
      (∀ l (hl : l ∈ rest) t, HasType a l.name t → Describes M t (kwargs l.name) (ps l hl)) ∧
      ∀ s : Mem, AllRegular F ps s → ∀ i p g : ℕ, (cells (netOf (infos layers) L) T B (str "parameters"))[i]? = some p →
        (cells (netOf (infos layers) L) T B (str "gradients"))[i]? = some g →
        (∀ n ∈ Dict.keys a, p ∉ cells (netOf (infos layers) L) T B (path n (str "parameters") (str "timing"))) →
        HasDerivAt (fun x => totalLoss (libNetwork F ps) (forward (libNetwork F ps) (Function.update s p x)))
          (backward (backCells (netOf (infos layers) L) T B) (libNetwork F ps) (forward (libNetwork F ps) s) g) (s p) := by
  obtain ⟨data, rest, -, F, hF⟩ := C75_network kwargs a hk ord ho layers h hne L hL tr num sup
  obtain ⟨ps, hps⟩ := hF T B M
  have m : Made kwargs a ord layers L := ⟨hk, ho, h, hne, hL⟩
  refine ⟨data, rest, F, ps, hps, fun s hR i p g hp hg ht => C74_gradients F ps s hR i p g hp hg fun l hl => ?_⟩
  obtain ⟨lo, hlo, -⟩ := m.mem_infos hl
  exact ht _ ((m.mem_keys _).1 ((Dict.mem_keys_iff _ _).2 (by rw [hlo]; rfl)))

/-- **C75, smooth networks.**  If all layers are of types that are differentiable everywhere (`Smooth`), this is so for every
memory: whatever the parameters, the data, and what earlier passes left in the outputs and internals. -/
theorem C75_smooth (kwargs : Name → Kwargs) (a : Arch) (hk : (Dict.keys a).Nodup) (ord : Orders) (ho : ord.Ok)
    (layers : Dict Name (LayerObj Kwargs)) (h : Instantiates (libEnv kwargs) ord a (.ok layers))
    (hne : ∃ n l, Dict.get? layers n = some l ∧ l.shapes.outs ≠ []) (L : Layout) (hL : createLayout (infos layers) = .ok L)
    (tr : Trainable a) (num : Numeric a kwargs) (sm : Smooth a kwargs)
    (sup : ∀ n l t, Dict.get? layers n = some l → HasType a n t → Supported t l.kwargs l.inShapes) (T B : ℕ) (hT : 0 < T)
    (M : Mode) :
    ∃ data rest, ∃ F : Memory.Fits (infos layers) L data rest, ∃ ps : ∀ l ∈ rest, LibLayer (infos layers) data l T B,
      (∀ l (hl : l ∈ rest) t, HasType a l.name t → Describes M t (kwargs l.name) (ps l hl)) ∧
      ∀ (s : Mem) (i p g : ℕ), (cells (netOf (infos layers) L) T B (str "parameters"))[i]? = some p →
        (cells (netOf (infos layers) L) T B (str "gradients"))[i]? = some g →
        (∀ n ∈ Dict.keys a, p ∉ cells (netOf (infos layers) L) T B (path n (str "parameters") (str "timing"))) →
        HasDerivAt (fun x => totalLoss (libNetwork F ps) (forward (libNetwork F ps) (Function.update s p x)))
          (backward (backCells (netOf (infos layers) L) T B) (libNetwork F ps) (forward (libNetwork F ps) s) g) (s p) := by
  obtain ⟨data, rest, F, ps, hps, hg⟩ := C75_gradients kwargs a hk ord ho layers h hne L hL tr num sup T B M
  have m : Made kwargs a ord layers L := ⟨hk, ho, h, hne, hL⟩
  refine ⟨data, rest, F, ps, hps, fun s => hg s fun l hl => ?_⟩
  obtain ⟨lo, hlo, -⟩ := m.mem_infos (F.ordered.mem hl)
  obtain ⟨t, -, ht, -⟩ := m.cls hlo
  exact smooth_regular sm hT _ ht (hps l hl t ht) _

/-! ### The assumptions are met -/

/-- Keyword arguments of a small network: a recurrent layer of size 3, then one of size 2. -/
def demoKwargs (n : Name) : Kwargs :=
  if n = str "Input" then [(str "out_shapes", .shapes ⟨[(str "default", [.T, .B, .n 4]), (str "targets", [.T, .B, .n 2])],
    by decide, by decide⟩)]
  else if n = str "Rnn" then [(str "size", .int 3)]
  else if n = str "Out" then [(str "size", .int 2), (str "activation", .string (str "sigmoid"))]
  else if n = str "Loss" then [(str "importance", .int 2)]
  else []

/-- Its architecture: the recurrent layer and the external input are fed side by side to the output layer. -/
def demoArch : Arch :=
  [(str "Input", ⟨.string (str "Input"), .dict [(str "default", [str "Rnn", str "Out"]), (str "targets", [str "SE.targets"])]⟩),
   (str "Rnn", ⟨.string (str "Recurrent"), .list [str "Out"]⟩),
   (str "Out", ⟨.string (str "FullyConnected"), .list [str "SE"]⟩),
   (str "SE", ⟨.string (str "SquaredError"), .dict [(str "loss", [str "Loss"])]⟩),
   (str "Loss", ⟨.string (str "Loss"), .list []⟩)]

def demoLayers : Dict Name (LayerObj Kwargs) :=
  match instantiateFuel 8 (libEnv demoKwargs) (demoOrders true) demoArch with
  | some (.ok ls) => ls
  | _ => []

def demoL : Layout :=
  match createLayout (infos demoLayers) with
  | .ok L => L
  | .error _ => ⟨[], []⟩

/-- More steps do not change the result. -/
theorem instantiates_of {K : Type} (env : Env K) (ord : Orders) (a : Arch) (hk : (Dict.keys a).Nodup) (hv : validate a = .ok ()) (f : ℕ)
    (hf : (Dict.keys a).length < f) (r : Except Err (Dict Name (LayerObj K))) (h : instantiateFuel f env ord a = some r) :
    Instantiates env ord a r := by
  refine ⟨f, fun f' hf' => ?_⟩
  obtain ⟨cs, r, hcs, _, _, _, _, h'⟩ := canonicalOrder_eval a hk ((C06_validate_iff a hk).1 hv).outgoing
  rw [← h]
  simp only [instantiateFuel, hv, hcs, h' f' (Nat.lt_of_lt_of_le hf hf'), h' f hf]

theorem demo_instantiates : Instantiates (libEnv demoKwargs) (demoOrders true) demoArch (.ok demoLayers) := by
  refine instantiates_of _ _ _ (by decide +kernel) (by decide +kernel) 8 (by decide +kernel) _ ?_
  have : (instantiateFuel 8 (libEnv demoKwargs) (demoOrders true) demoArch).any (fun r => match r with
        | .ok _ => true | .error _ => false) = true := by decide +kernel
  unfold demoLayers
  cases hr : instantiateFuel 8 (libEnv demoKwargs) (demoOrders true) demoArch with
  | none => rw [hr] at this; simp at this
  | some r => cases r with
    | error e => rw [hr] at this; simp at this
    | ok l => rfl

theorem demo_layout : createLayout (infos demoLayers) = .ok demoL := by
  have : (match createLayout (infos demoLayers) with | .ok _ => true | .error _ => false) = true := by decide +kernel
  unfold demoL
  cases hr : createLayout (infos demoLayers) with
  | ok L => rfl
  | error e => rw [hr] at this; cases this

/-- All connections of the architecture. -/
def demoConns : List Connection :=
  [⟨str "Input", str "default", str "Rnn", str "default"⟩, ⟨str "Input", str "default", str "Out", str "default"⟩,
   ⟨str "Input", str "targets", str "SE", str "targets"⟩, ⟨str "Rnn", str "default", str "Out", str "default"⟩,
   ⟨str "Out", str "default", str "SE", str "default"⟩, ⟨str "SE", str "loss", str "Loss", str "default"⟩]

theorem demo_conns (c : Connection) : HasConnection demoArch c ↔ c ∈ demoConns := by
  obtain ⟨cs, r, hcs, hm, -⟩ := canonicalOrder_eval demoArch (by decide +kernel)
    ((C06_validate_iff demoArch (by decide +kernel)).1 (by decide +kernel)).outgoing
  rw [← hm]
  have : (match collectAll demoArch with
    | .ok cs => (cs.all fun c => decide (c ∈ demoConns)) && demoConns.all fun c => decide (c ∈ cs)
    | .error _ => false) = true := by decide +kernel
  rw [hcs] at this
  simp only [Bool.and_eq_true, List.all_eq_true, decide_eq_true_eq] at this
  exact ⟨this.1 c, this.2 c⟩

theorem demo_types (n t : Name) : HasType demoArch n t ↔ (n, t) ∈ [(str "Input", str "Input"), (str "Rnn", str "Recurrent"),
    (str "Out", str "FullyConnected"), (str "SE", str "SquaredError"), (str "Loss", str "Loss")] := by
  simp only [HasType, demoArch, List.mem_cons, Prod.mk.injEq, List.not_mem_nil, or_false]
  constructor
  · rintro ⟨d, ⟨rfl, rfl⟩ | ⟨rfl, rfl⟩ | ⟨rfl, rfl⟩ | ⟨rfl, rfl⟩ | ⟨rfl, rfl⟩, h⟩ <;> cases h <;> simp
  · rintro (⟨rfl, rfl⟩ | ⟨rfl, rfl⟩ | ⟨rfl, rfl⟩ | ⟨rfl, rfl⟩ | ⟨rfl, rfl⟩)
    · exact ⟨_, .inl ⟨rfl, rfl⟩, rfl⟩
    · exact ⟨_, .inr (.inl ⟨rfl, rfl⟩), rfl⟩
    · exact ⟨_, .inr (.inr (.inl ⟨rfl, rfl⟩)), rfl⟩
    · exact ⟨_, .inr (.inr (.inr (.inl ⟨rfl, rfl⟩))), rfl⟩
    · exact ⟨_, .inr (.inr (.inr (.inr ⟨rfl, rfl⟩))), rfl⟩

theorem demo_trainable : Trainable demoArch where
  oneInput := by
    intro n m h1 h2
    rw [demo_types] at h1 h2
    have e : ∀ x : Name × Name, x ∈ [(str "Input", str "Input"), (str "Rnn", str "Recurrent"),
      (str "Out", str "FullyConnected"), (str "SE", str "SquaredError"), (str "Loss", str "Loss")] → x.2 = str "Input" → x.1 = str "Input" := by
      decide +kernel
    exact (e (n, _) h1 rfl).trans (e (m, _) h2 rfl).symm
  noBatchNorm n := by
    rw [demo_types]
    simp only [List.mem_cons, Prod.mk.injEq, List.not_mem_nil, or_false]
    rintro (⟨-, h⟩ | ⟨-, h⟩ | ⟨-, h⟩ | ⟨-, h⟩ | ⟨-, h⟩) <;> exact absurd h (by decide)
  noScaling n := by
    rw [demo_types]
    simp only [List.mem_cons, Prod.mk.injEq, List.not_mem_nil, or_false]
    rintro (⟨-, h⟩ | ⟨-, h⟩ | ⟨-, h⟩ | ⟨-, h⟩ | ⟨-, h⟩) <;> exact absurd h (by decide)
  names := by decide +kernel
  noInternals := by simp only [demo_conns]; decide +kernel
  once := by
    have : ∀ c ∈ demoConns, ∀ c' ∈ demoConns, c.startLayer = c'.startLayer → c.outputName = c'.outputName →
      c.endLayer = c'.endLayer → c.inputName = c'.inputName := by decide +kernel
    exact fun c c' h h' => this c ((demo_conns c).1 h) c' ((demo_conns c').1 h')
  data := by simp only [demo_conns, demo_types]; decide +kernel
  predictions := by simp only [demo_conns, demo_types]; decide +kernel
  losses := by simp only [demo_conns, demo_types]; decide +kernel
  parameters := by simp only [demo_conns, demo_types]; decide +kernel

theorem demo_numeric : Numeric demoArch demoKwargs where
  dropProb n h := by
    rw [demo_types] at h
    simp only [List.mem_cons, Prod.mk.injEq, List.not_mem_nil, or_false] at h
    rcases h with ⟨-, h⟩ | ⟨-, h⟩ | ⟨-, h⟩ | ⟨-, h⟩ | ⟨-, h⟩ <;> exact absurd h (by decide)
  importance n h v hv := by
    rw [demo_types] at h
    simp only [List.mem_cons, Prod.mk.injEq, List.not_mem_nil, or_false] at h
    rcases h with ⟨-, h⟩ | ⟨-, h⟩ | ⟨-, h⟩ | ⟨-, h⟩ | ⟨rfl, -⟩
    · exact absurd h (by decide)
    · exact absurd h (by decide)
    · exact absurd h (by decide)
    · exact absurd h (by decide)
    · have e : Dict.get? (demoKwargs (str "Loss")) (str "importance") = some (.int 2) := rfl
      rw [e] at hv
      cases hv
      exact .inl ⟨2, rfl⟩

theorem demo_smooth : Smooth demoArch demoKwargs where
  types n t h := by
    rw [demo_types] at h
    simp only [List.mem_cons, Prod.mk.injEq, List.not_mem_nil, or_false] at h
    rcases h with ⟨-, rfl⟩ | ⟨-, rfl⟩ | ⟨-, rfl⟩ | ⟨-, rfl⟩ | ⟨-, rfl⟩ <;> decide +kernel
  given n h := by
    have : ∀ x : Name × Name, x ∈ [(str "Input", str "Input"), (str "Rnn", str "Recurrent"),
      (str "Out", str "FullyConnected"), (str "SE", str "SquaredError"), (str "Loss", str "Loss")] →
      x.2 = str "FullyConnected" ∨ x.2 = str "Elementwise" → actOf (demoKwargs x.1) .rel ≠ some .rel := by decide +kernel
    rcases h with h | h
    · exact this (n, _) ((demo_types _ _).1 h) (.inl rfl)
    · exact this (n, _) ((demo_types _ _).1 h) (.inr rfl)
  notRel n h := by
    have : ∀ x : Name × Name, x ∈ [(str "Input", str "Input"), (str "Rnn", str "Recurrent"),
      (str "Out", str "FullyConnected"), (str "SE", str "SquaredError"), (str "Loss", str "Loss")] →
      x.2 = str "Recurrent" ∨ x.2 = str "Clockwork" ∨ x.2 = str "Convolution2D" → actOf (demoKwargs x.1) .tanh ≠ some .rel := by
      decide +kernel
    rcases h with h | h | h
    · exact this (n, _) ((demo_types _ _).1 h) (.inl rfl)
    · exact this (n, _) ((demo_types _ _).1 h) (.inr (.inl rfl))
    · exact this (n, _) ((demo_types _ _).1 h) (.inr (.inr rfl))
  average n h := by
    rw [demo_types] at h
    simp only [List.mem_cons, Prod.mk.injEq, List.not_mem_nil, or_false] at h
    rcases h with ⟨-, h⟩ | ⟨-, h⟩ | ⟨-, h⟩ | ⟨-, h⟩ | ⟨-, h⟩ <;> exact absurd h (by decide)

theorem demo_supported (n : Name) (l : LayerObj Kwargs) (t : Name) (hl : Dict.get? demoLayers n = some l)
    (ht : HasType demoArch n t) : Supported t l.kwargs l.inShapes := by
  have hkw := (Made.mk (L := demoL) (by decide +kernel) (demoOrders_ok true) demo_instantiates
    ⟨str "Out", (Dict.get? demoLayers (str "Out")).get (by decide +kernel), by simp, by decide +kernel⟩ demo_layout).kwargs_eq hl
  rw [hkw]
  rw [demo_types] at ht
  simp only [List.mem_cons, Prod.mk.injEq, List.not_mem_nil, or_false] at ht
  refine ⟨?_, ?_, ?_⟩
  · intro v hv
    rcases ht with ⟨rfl, -⟩ | ⟨rfl, -⟩ | ⟨rfl, -⟩ | ⟨rfl, -⟩ | ⟨rfl, -⟩
    · exact absurd hv (by rw [show Dict.get? (demoKwargs (str "Input")) (str "activation") = none by decide +kernel]; simp)
    · exact absurd hv (by rw [show Dict.get? (demoKwargs (str "Rnn")) (str "activation") = none by decide +kernel]; simp)
    · refine ⟨str "sigmoid", by decide, ?_⟩
      have e : Dict.get? (demoKwargs (str "Out")) (str "activation") = some (.string (str "sigmoid")) := rfl
      rw [e] at hv
      exact (Option.some.inj hv).symm
    · exact absurd hv (by rw [show Dict.get? (demoKwargs (str "SE")) (str "activation") = none by decide +kernel]; simp)
    · exact absurd hv (by rw [show Dict.get? (demoKwargs (str "Loss")) (str "activation") = none by decide +kernel]; simp)
  · rintro rfl
    rcases ht with ⟨-, h⟩ | ⟨-, h⟩ | ⟨-, h⟩ | ⟨-, h⟩ | ⟨-, h⟩ <;> exact absurd h (by decide)
  · rintro (rfl | rfl)
    · rcases ht with ⟨-, h⟩ | ⟨-, h⟩ | ⟨-, h⟩ | ⟨-, h⟩ | ⟨-, h⟩ <;> exact absurd h (by decide)
    · rcases ht with ⟨-, h⟩ | ⟨-, h⟩ | ⟨-, h⟩ | ⟨-, h⟩ | ⟨-, h⟩ <;> exact absurd h (by decide)

theorem demo_outs : ∃ n l, Dict.get? demoLayers n = some l ∧ l.shapes.outs ≠ [] :=
  ⟨str "Out", (Dict.get? demoLayers (str "Out")).get (by decide +kernel), by simp, by decide +kernel⟩

/-- The network meets all assumptions: for all sizes the gradients are the derivatives. -/
example (T B : ℕ) (hT : 0 < T) (M : Mode) :
    ∃ data rest, ∃ F : Memory.Fits (infos demoLayers) demoL data rest, ∃ ps : ∀ l ∈ rest, LibLayer (infos demoLayers) data l T B,
      (∀ l (hl : l ∈ rest) t, HasType demoArch l.name t → Describes M t (demoKwargs l.name) (ps l hl)) ∧
      ∀ (s : Mem) (i p g : ℕ), (cells (netOf (infos demoLayers) demoL) T B (str "parameters"))[i]? = some p →
        (cells (netOf (infos demoLayers) demoL) T B (str "gradients"))[i]? = some g →
        (∀ n ∈ Dict.keys demoArch, p ∉ cells (netOf (infos demoLayers) demoL) T B (path n (str "parameters") (str "timing"))) →
        HasDerivAt (fun x => totalLoss (libNetwork F ps) (forward (libNetwork F ps) (Function.update s p x)))
          (backward (backCells (netOf (infos demoLayers) demoL) T B) (libNetwork F ps) (forward (libNetwork F ps) s) g) (s p) :=
  C75_smooth demoKwargs demoArch (by decide +kernel) (demoOrders true) (demoOrders_ok true) demoLayers demo_instantiates demo_outs
    demoL demo_layout demo_trainable demo_numeric demo_smooth demo_supported T B hT M

/-- There are 40 parameters, and none of them is a timing. -/
example : (cells (netOf (infos demoLayers) demoL) 2 3 (str "parameters")).length = 40 ∧
    (cells (netOf (infos demoLayers) demoL) 2 3 (str "gradients")).length = 40 ∧
    ∀ n ∈ Dict.keys demoArch, cells (netOf (infos demoLayers) demoL) 2 3 (path n (str "parameters") (str "timing")) = [] := by
  decide +kernel

end Verif.EndToEnd
