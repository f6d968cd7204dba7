import Verif.Padding.Props
import Verif.Parts.Demo

/-!
# The assumptions of C87 are met

A network with a mask: Input, Lstm, FullyConnected, SquaredError, Mask and Loss; with any number of sequences of any lengths.
-/

namespace Verif.Padding

open Verif.Architecture hiding demoArch
open Verif.Structure Verif.Layout Verif.Buffers Verif.Instantiate Verif.EndToEnd
open Verif.Memory hiding demoL
open Verif.Setup (Kwargs libEnv infos toInfo inp_some getLossValues)
open Verif.Shapes (Supported)
open Verif.Session Verif.Determined Verif.Sequence Verif.Descent Verif.Parts Verif.Iterate
open Verif.Evaluate (evaluateLoss evaluateScore scored Scorer Output Flat)
open Verif.Data (Arr Minibatches)

def padKwargs (n : Name) : Kwargs :=
  if n = str "Input" then [(str "out_shapes", .shapes ⟨[(str "default", [.T, .B, .n 4]), (str "targets", [.T, .B, .n 2]),
    (str "mask", [.T, .B, .n 1])], by decide, by decide⟩)]
  else if n = str "Rnn" then [(str "size", .int 3)]
  else if n = str "Out" then [(str "size", .int 2), (str "activation", .string (str "sigmoid"))]
  else if n = str "Loss" then [(str "importance", .int 2)]
  else []

def padArch : Arch :=
  [(str "Input", ⟨.string (str "Input"), .dict [(str "default", [str "Rnn"]), (str "targets", [str "SE.targets"]),
     (str "mask", [str "Masked.mask"])]⟩),
   (str "Rnn", ⟨.string (str "Lstm"), .list [str "Out"]⟩),
   (str "Out", ⟨.string (str "FullyConnected"), .list [str "SE"]⟩),
   (str "SE", ⟨.string (str "SquaredError"), .dict [(str "loss", [str "Masked"])]⟩),
   (str "Masked", ⟨.string (str "Mask"), .list [str "Loss"]⟩),
   (str "Loss", ⟨.string (str "Loss"), .list []⟩)]

def padLayers : Dict Name (LayerObj Kwargs) :=
  match instantiateFuel 8 (libEnv padKwargs) (demoOrders true) padArch with
  | some (.ok ls) => ls
  | _ => []

def padL : Layout :=
  match createLayout (infos padLayers) with
  | .ok L => L
  | .error _ => ⟨[], []⟩

theorem pad_instantiates : Instantiates (libEnv padKwargs) (demoOrders true) padArch (.ok padLayers) := by
  refine instantiates_of _ _ _ (by decide +kernel) (by decide +kernel) 8 (by decide +kernel) _ ?_
  have : (instantiateFuel 8 (libEnv padKwargs) (demoOrders true) padArch).any (fun r => match r with
        | .ok _ => true | .error _ => false) = true := by decide +kernel
  unfold padLayers
  cases hr : instantiateFuel 8 (libEnv padKwargs) (demoOrders true) padArch with
  | none => rw [hr] at this; simp at this
  | some r => cases r with
    | error e => rw [hr] at this; simp at this
    | ok l => rfl

theorem pad_layout : createLayout (infos padLayers) = .ok padL := by
  have : (match createLayout (infos padLayers) with | .ok _ => true | .error _ => false) = true := by decide +kernel
  unfold padL
  cases hr : createLayout (infos padLayers) with
  | ok L => rfl
  | error e => rw [hr] at this; cases this

/-- All connections of the architecture. -/
def padConns : List Connection :=
  [⟨str "Input", str "default", str "Rnn", str "default"⟩, ⟨str "Input", str "targets", str "SE", str "targets"⟩,
   ⟨str "Input", str "mask", str "Masked", str "mask"⟩, ⟨str "Rnn", str "default", str "Out", str "default"⟩,
   ⟨str "Out", str "default", str "SE", str "default"⟩, ⟨str "SE", str "loss", str "Masked", str "default"⟩,
   ⟨str "Masked", str "default", str "Loss", str "default"⟩]

theorem pad_conns (c : Connection) : HasConnection padArch c ↔ c ∈ padConns := by
  obtain ⟨cs, r, hcs, hm, -⟩ := canonicalOrder_eval padArch (by decide +kernel)
    ((C06_validate_iff padArch (by decide +kernel)).1 (by decide +kernel)).outgoing
  rw [← hm]
  have : (match collectAll padArch with
    | .ok cs => (cs.all fun c => decide (c ∈ padConns)) && padConns.all fun c => decide (c ∈ cs)
    | .error _ => false) = true := by decide +kernel
  rw [hcs] at this
  simp only [Bool.and_eq_true, List.all_eq_true, decide_eq_true_eq] at this
  exact ⟨this.1 c, this.2 c⟩

def padTypes : List (Name × Name) := [(str "Input", str "Input"), (str "Rnn", str "Lstm"), (str "Out", str "FullyConnected"),
  (str "SE", str "SquaredError"), (str "Masked", str "Mask"), (str "Loss", str "Loss")]

theorem pad_types (n t : Name) : HasType padArch n t ↔ (n, t) ∈ padTypes := by
  simp only [HasType, padArch, padTypes, List.mem_cons, Prod.mk.injEq, List.not_mem_nil, or_false]
  constructor
  · rintro ⟨d, ⟨rfl, rfl⟩ | ⟨rfl, rfl⟩ | ⟨rfl, rfl⟩ | ⟨rfl, rfl⟩ | ⟨rfl, rfl⟩ | ⟨rfl, rfl⟩, h⟩ <;> cases h <;> simp
  · rintro (⟨rfl, rfl⟩ | ⟨rfl, rfl⟩ | ⟨rfl, rfl⟩ | ⟨rfl, rfl⟩ | ⟨rfl, rfl⟩ | ⟨rfl, rfl⟩)
    · exact ⟨_, .inl ⟨rfl, rfl⟩, rfl⟩
    · exact ⟨_, .inr (.inl ⟨rfl, rfl⟩), rfl⟩
    · exact ⟨_, .inr (.inr (.inl ⟨rfl, rfl⟩)), rfl⟩
    · exact ⟨_, .inr (.inr (.inr (.inl ⟨rfl, rfl⟩))), rfl⟩
    · exact ⟨_, .inr (.inr (.inr (.inr (.inl ⟨rfl, rfl⟩)))), rfl⟩
    · exact ⟨_, .inr (.inr (.inr (.inr (.inr ⟨rfl, rfl⟩)))), rfl⟩

/-- Facts about the types are checked for all layers. -/
theorem pad_all {P : Name → Name → Prop} (h : ∀ e ∈ padTypes, P e.1 e.2) {n t : Name} (ht : HasType padArch n t) : P n t :=
  h (n, t) ((pad_types n t).1 ht)

theorem pad_types_not (n : Name) : ¬ HasType padArch n (str "Clockwork") ∧ ¬ HasType padArch n (str "ClockworkLstm") ∧
    ¬ HasType padArch n (str "Dropout") := by
  have : ∀ e ∈ padTypes, e.2 ≠ str "Clockwork" ∧ e.2 ≠ str "ClockworkLstm" ∧ e.2 ≠ str "Dropout" := by decide +kernel
  exact ⟨fun h => (this _ ((pad_types _ _).1 h)).1 rfl, fun h => (this _ ((pad_types _ _).1 h)).2.1 rfl, fun h => (this _ ((pad_types _ _).1 h)).2.2 rfl⟩

theorem pad_trainable : Trainable padArch where
  oneInput := by
    intro n m h1 h2
    rw [pad_types] at h1 h2
    have e : ∀ x ∈ padTypes, x.2 = str "Input" → x.1 = str "Input" := by decide +kernel
    exact (e (n, _) h1 rfl).trans (e (m, _) h2 rfl).symm
  noBatchNorm n h := by
    have e : ∀ x ∈ padTypes, x.2 ≠ str "BatchNorm" := by decide +kernel
    exact e _ ((pad_types _ _).1 h) rfl
  noScaling n h := by
    have e : ∀ x ∈ padTypes, x.2 ≠ str "DeltasScaling" := by decide +kernel
    exact e _ ((pad_types _ _).1 h) rfl
  names := by decide +kernel
  noInternals := by simp only [pad_conns]; decide +kernel
  once := by
    have : ∀ c ∈ padConns, ∀ c' ∈ padConns, c.startLayer = c'.startLayer → c.outputName = c'.outputName →
      c.endLayer = c'.endLayer → c.inputName = c'.inputName := by decide +kernel
    exact fun c c' h h' => this c ((pad_conns c).1 h) c' ((pad_conns c').1 h')
  data := by simp only [pad_conns, pad_types]; decide +kernel
  predictions := by simp only [pad_conns, pad_types]; decide +kernel
  losses := by simp only [pad_conns, pad_types]; decide +kernel
  parameters := by simp only [pad_conns, pad_types]; decide +kernel

theorem pad_numeric : Numeric padArch padKwargs where
  dropProb n h := ((pad_types_not n).2.2 h).elim
  importance n h v hv := by
    have e : ∀ x ∈ padTypes, x.2 = str "Loss" → x.1 = str "Loss" := by decide +kernel
    obtain rfl := e _ ((pad_types _ _).1 h) rfl
    have e : Dict.get? (padKwargs (str "Loss")) (str "importance") = some (.int 2) := rfl
    rw [e] at hv
    cases hv
    exact .inl ⟨2, rfl⟩

theorem pad_outs : ∃ n l, Dict.get? padLayers n = some l ∧ l.shapes.outs ≠ [] :=
  ⟨str "Out", (Dict.get? padLayers (str "Out")).get (by decide +kernel), by simp, by decide +kernel⟩

theorem pad_supported (n : Name) (l : LayerObj Kwargs) (t : Name) (hl : Dict.get? padLayers n = some l)
    (ht : HasType padArch n t) : Supported t l.kwargs l.inShapes := by
  have hkw := (Made.mk (L := padL) (by decide +kernel) (demoOrders_ok true) pad_instantiates pad_outs pad_layout).kwargs_eq hl
  rw [hkw]
  refine ⟨?_, ?_, ?_⟩
  · intro v hv
    have e : ∀ x ∈ padTypes, x.1 = str "Out" ∨ Dict.get? (padKwargs x.1) (str "activation") = none := by decide +kernel
    rcases e _ ((pad_types _ _).1 ht) with e | e
    · simp only at e
      subst e
      refine ⟨str "sigmoid", by decide, ?_⟩
      have e : Dict.get? (padKwargs (str "Out")) (str "activation") = some (.string (str "sigmoid")) := rfl
      rw [e] at hv
      exact (Option.some.inj hv).symm
    · simp only at e
      rw [e] at hv
      cases hv
  · rintro rfl
    have e : ∀ x ∈ padTypes, x.2 ≠ str "BinomialCrossEntropy" := by decide +kernel
    exact absurd rfl (e _ ((pad_types _ _).1 ht))
  · have e : ∀ x ∈ padTypes, x.2 ≠ str "Merge" ∧ x.2 ≠ str "SoftmaxCE" := by decide +kernel
    rintro (rfl | rfl)
    · exact absurd rfl (e _ ((pad_types _ _).1 ht)).1
    · exact absurd rfl (e _ ((pad_types _ _).1 ht)).2

/-- The layer of the external data. -/
def padInput : LayerInfo := toInfo ((Dict.get? padLayers (str "Input")).get (by decide +kernel))

theorem pad_data {data : LayerInfo} {rest : List LayerInfo} (F : Memory.Fits (infos padLayers) padL data rest)
    (hdt : HasType padArch data.name (str "Input")) : data = padInput := by
  have h1 : data ∈ infos padLayers := by rw [F.ordered.all]; simp
  have h2 : ∀ l ∈ infos padLayers, l.name = str "Input" → l = padInput := by decide +kernel
  have h3 : ∀ x ∈ padTypes, x.2 = str "Input" → x.1 = str "Input" := by decide +kernel
  exact h2 data h1 (h3 (data.name, _) ((pad_types _ _).1 hdt) rfl)

theorem pad_alone : DataAlone (infos padLayers) padL padInput := by
  have : ∀ x ∈ padInput.outShapes, ∀ e ∈ Dict.get? (netOf (infos padLayers) padL).layout (path padInput.name (str "outputs") x.1),
      ∀ h ∈ (netOf (infos padLayers) padL).hubs[e.hub]?, h.ctx = 0 := by decide +kernel
  exact fun x s e h hx he hh => this (x, s) hx e he h hh

/-- The mask is connected as it should be.  In the network of `Verif.Sequence.Demo`, which has no mask, it is not. -/
theorem pad_masked : MaskedBy padArch (infos padLayers) padInput (str "mask") := by
  intro l hl ht
  have e : ∀ x ∈ padTypes, x.2 = str "Loss" → x.1 = str "Loss" := by decide +kernel
  have hn := e _ ((pad_types _ _).1 ht) rfl
  have : ∀ k ∈ infos padLayers, ∀ o ∈ k.outgoing, o.endLayer = str "Loss" → (k.name, str "Mask") ∈ padTypes ∧
      ∀ k' ∈ infos padLayers, ∀ o' ∈ k'.outgoing, o'.endLayer = k.name → o'.endInput = str "mask" → k' = padInput ∧ o'.buffer = str "mask" := by
    decide +kernel
  refine Or.inr fun k hk o ho e => ?_
  obtain ⟨h1, h2⟩ := this k hk o ho (e.trans hn)
  exact ⟨(pad_types _ _).2 h1, h2⟩

example (x : Name) : ¬ MaskedBy chainArch (infos chainLayers) chainData x := by
  intro h
  have hex : ∃ l ∈ infos chainLayers, l.name = str "Loss" ∧ (∃ e ∈ l.inShapes, e.2.bufferType = 2) := by decide +kernel
  obtain ⟨l, hl, hn, e, he, h2⟩ := hex
  have hl' : HasType chainArch l.name (str "Loss") := by rw [chain_types, hn]; decide
  rcases h l hl hl' with h | h
  · exact h e he h2
  · have : ∃ k ∈ infos chainLayers, ∃ o ∈ k.outgoing, o.endLayer = str "Loss" ∧ k.name = str "SE" := by decide +kernel
    obtain ⟨k, hk, o, ho, e, hkn⟩ := this
    have := (h k hk o ho (e.trans hn.symm)).1
    rw [hkn, chain_types] at this
    exact absurd this (by decide)

theorem pad_noKinks : NoKinks padArch padKwargs where
  types n t h := by
    have : ∀ x ∈ padTypes, x.2 ∈ [str "Input", str "FullyConnected", str "Elementwise", str "NoOp",
        str "Highway", str "Merge", str "Mask", str "SquaredDifference", str "SquaredError", str "L2Decay", str "Loss", str "Recurrent",
        str "Clockwork", str "Lstm", str "ClockworkLstm", str "Convolution2D", str "Pooling2D"] := by decide +kernel
    exact this (n, t) ((pad_types _ _).1 h)
  given n h := by
    simp only [pad_types] at h
    have e : ∀ x ∈ padTypes, x.2 = str "FullyConnected" ∨ x.2 = str "Elementwise" → x.1 = str "Out" := by decide +kernel
    have : n = str "Out" := h.elim (fun h => e _ h (by simp)) fun h => e _ h (by simp)
    subst this
    decide +kernel
  notRel n h := by
    simp only [pad_types, padTypes, List.mem_cons, Prod.mk.injEq, List.not_mem_nil, or_false] at h
    have : n = str "Rnn" := by
      rcases h with h | h | h | h | h <;> rcases h with h | h | h | h | h | h <;>
        first | exact absurd h.2 (by decide) | exact h.1
    subst this
    decide +kernel
  average n h := by
    simp only [pad_types, padTypes, List.mem_cons, Prod.mk.injEq, List.not_mem_nil, or_false] at h
    rcases h with h | h | h | h | h | h <;> exact absurd h.2 (by decide)

theorem pad_free : FreePeriods (infos padLayers) := by
  have : ∀ l ∈ infos padLayers, ∀ o ∈ l.outgoing, o.kind = .parameters → o.buffer ≠ str "timing" := by decide +kernel
  exact this

theorem pad_noPeriods (i : ℕ) : ¬ IsPeriod (infos padLayers) padL i := by
  rintro ⟨l, hl, s, hs, -⟩
  have : ∀ l ∈ infos padLayers, str "timing" ∉ l.paramShapes.map Prod.fst := by decide +kernel
  exact this l hl (List.mem_map.2 ⟨_, hs, rfl⟩)

/-- A new network with given parameters. -/
theorem pad_with : ∃ (n : ℕ), 0 < n ∧ ∀ θ : Fin n → ℝ, ∃ st : State ℝ, Reachable (netOf (infos padLayers) padL) st ∧
    st.read (str "parameters") = some (List.ofFn θ) := by
  obtain ⟨data, rest, -, F, -⟩ := C77_loss padKwargs padArch (by decide +kernel) (demoOrders true) (demoOrders_ok true) padLayers
    pad_instantiates pad_outs padL pad_layout pad_trainable pad_numeric pad_supported
  obtain ⟨st, _, _, h1, i⟩ := create_inv (V := ℝ) (netOf_wellLaid F.laid.wf F.laid.shaped F.laid.layout)
  obtain ⟨e, he⟩ := params_entry (layers := infos padLayers) (L := padL)
  refine ⟨(cells (netOf (infos padLayers) padL) 0 0 (str "parameters")).length, by decide +kernel, fun θ => ?_⟩
  obtain ⟨st', h2, -, h3, -⟩ := write_inv F.laid i he (vals := List.ofFn θ) (by rw [List.length_ofFn])
  exact ⟨st', .step (.write (str "parameters") (List.ofFn θ)) (.new h1) h2, h3⟩

/-- An array with `n + 1` sequences of `T` steps. -/
def arr (T n m : ℕ) (f : ℕ → ℕ → ℕ → ℝ) : Arr (List ℝ) :=
  ⟨3, n + 1, (List.range T).map fun t => (List.range (n + 1)).map fun q => (List.range m).map (f t q)⟩

/-- Data with `n + 1` sequences, of which the sequence `q` has `len q` steps, padded to `T` steps. -/
noncomputable def padData (f g : ℕ → ℕ → ℕ → ℝ) (len : ℕ → ℕ) (T n : ℕ) : Dict Name (Arr (List ℝ)) :=
  [(str "default", arr T n 4 f), (str "targets", arr T n 2 g), (str "mask", arr T n 1 fun t q _ => if t < len q then 1 else 0)]

theorem pad_shapes : padInput.outShapes = [(str "default", ⟨[.T, .B, .n 4], 0, false⟩), (str "targets", ⟨[.T, .B, .n 2], 0, false⟩),
    (str "mask", ⟨[.T, .B, .n 1], 0, false⟩)] := by decide +kernel

theorem arr_regular (T n m : ℕ) (f : ℕ → ℕ → ℕ → ℝ) : (arr T n m f).Regular := by
  intro r hr
  obtain ⟨t, -, rfl⟩ := List.mem_map.1 hr
  simp [arr]

theorem arr_width {T n m : ℕ} {f : ℕ → ℕ → ℕ → ℝ} : ∀ r ∈ (arr T n m f).rows, ∀ v ∈ r, v.length = m := by
  intro r hr v hv
  obtain ⟨t, -, rfl⟩ := List.mem_map.1 hr
  obtain ⟨q, -, rfl⟩ := List.mem_map.1 hv
  rw [List.length_map, List.length_range]

theorem pad_fits (f g : ℕ → ℕ → ℕ → ℝ) (len : ℕ → ℕ) (T n : ℕ) : FitsInput padInput (padData f g len T n) where
  keys := by
    have : (Dict.keys (padData f g len T n)) = [str "default", str "targets", str "mask"] := rfl
    rw [this]
    decide
  regular := by
    simp only [padData, List.forall_mem_cons, List.not_mem_nil, false_imp_iff, implies_true, and_true]
    exact ⟨arr_regular _ _ _ _, arr_regular _ _ _ _, arr_regular _ _ _ _⟩
  sequences := by simp [padData, arr]
  shapes := by decide +kernel
  arrays := by
    rw [pad_shapes]
    simp only [List.forall_mem_cons, List.not_mem_nil, false_imp_iff, implies_true, and_true]
    exact ⟨⟨_, rfl, arr_width⟩, ⟨_, rfl, arr_width⟩, ⟨_, rfl, arr_width⟩⟩

theorem pad_create (f g : ℕ → ℕ → ℕ → ℝ) (len : ℕ → ℕ) (T n size : ℕ) (hs : 0 < size) (sh : Bool) :
    ∃ m, Minibatches.create nonzero size sh (.name (str "mask")) (padData f g len T n) = some m := by
  have hf : Data.assertFormat (padData f g len T n) = some (n + 1, T) := by
    simp [Data.assertFormat, padData, arr, Arr.times]
  have hl : ∃ lens, Data.seqLensOf nonzero (padData f g len T n) (n + 1) T (.name (str "mask")) = some lens := by
    have : Data.seqLensOf nonzero (padData f g len T n) (n + 1) T (.name (str "mask")) =
      Data.lengthsFromMask nonzero (arr T n 1 fun t q _ => if t < len q then 1 else 0) := rfl
    rw [this, Data.lengthsFromMask, if_pos]
    · exact ⟨_, rfl⟩
    · simp only [List.all_eq_true]
      intro r hr v hv
      have := arr_width r hr v hv
      obtain ⟨y, rfl⟩ := List.length_eq_one_iff.1 this
      rfl
  obtain ⟨lens, hl⟩ := hl
  unfold Minibatches.create
  rw [hf]
  simp only
  rw [if_neg (by omega), hl]
  exact ⟨_, rfl⟩

/-- The outputs of the FullyConnected layer and the targets can be scored. -/
theorem pad_output : Output padArch (infos padLayers) (path (str "Out") (str "outputs") (str "default")) ⟨[.T, .B, .n 2], 0, false⟩ ∧
    Output padArch (infos padLayers) (path (str "Input") (str "outputs") (str "targets")) ⟨[.T, .B, .n 2], 0, false⟩ := by
  have ex : ∀ n : Name, ∀ x, (∃ l ∈ infos padLayers, l.name = n ∧ (x, (⟨[.T, .B, .n 2], 0, false⟩ : Struct)) ∈ l.outShapes) →
      ¬ HasType padArch n (str "Loss") →
      Output padArch (infos padLayers) (path n (str "outputs") x) ⟨[.T, .B, .n 2], 0, false⟩ := by
    rintro n x ⟨l, h1, rfl, h2⟩ h3
    exact ⟨l, h1, x, h3, h2, by decide, rfl⟩
  refine ⟨ex _ _ (by decide +kernel) ?_, ex _ _ (by decide +kernel) ?_⟩ <;> rw [pad_types] <;> decide +kernel

/-- All assumptions are met: evaluation with a shuffling iterator that cuts the batches according to the mask. -/
example (f g : ℕ → ℕ → ℕ → ℝ) (len : ℕ → ℕ) (T n size : ℕ) (hs : 0 < size) (M : Mode) (hM : M.training = false) (rnds : ℕ → ℕ → ℝ)
    (rnd : ℕ → ℝ) (key : Name) :
    ∃ (m : Minibatches (List ℝ)) (bs : List Batch) (w : Batch) (P : ℕ → ℕ → List MLayer) (st : State ℝ),
      Minibatches.create nonzero size true (.name (str "mask")) (padData f g len T n) = some m ∧
      batchesOf padInput (m.call (List.range m.length).reverse) rnds = some bs ∧ batchOf padInput (padData f g len T n) rnd = some w ∧
      evaluateLoss (netOf (infos padLayers) padL) padInput.name P (fun T B m => Dict.get? (getLossValues padArch padLayers
        fun n => entry (netOf (infos padLayers) padL) T B n m "outputs" "loss" 0) key) bs st =
      evaluateLoss (netOf (infos padLayers) padL) padInput.name P (fun T B m => Dict.get? (getLossValues padArch padLayers
        fun n => entry (netOf (infos padLayers) padL) T B n m "outputs" "loss" 0) key) [w] st := by
  obtain ⟨data, rest, hdt, F, ps, -, h⟩ := C87_evaluate padKwargs padArch (by decide +kernel) (demoOrders true) (demoOrders_ok true)
    padLayers pad_instantiates pad_outs padL pad_layout pad_trainable pad_numeric pad_supported
  obtain ⟨k, hk, hnew⟩ := pad_with
  obtain ⟨st, hst, hθ⟩ := hnew fun i => (i : ℝ)
  obtain rfl := pad_data F hdt
  obtain ⟨m, hm⟩ := pad_create f g len T n size hs true
  obtain ⟨bs, w, g1, g2, g3⟩ := h M st _ hM hst hθ (fun l ts ht => (ht.elim (pad_types_not l).1 (pad_types_not l).2.1).elim) pad_alone
    _ size true (str "mask") m (pad_fits f g len T n) ⟨_, rfl⟩ hm _ (List.reverse_perm _) rnds rnd
  exact ⟨m, bs, w, _, st, hm, g1, g2, g3 pad_masked key⟩

/-- All assumptions are met: scores. -/
example (f g : ℕ → ℕ → ℕ → ℝ) (len : ℕ → ℕ) (T n size : ℕ) (hs : 0 < size) (M : Mode) (hM : M.training = false) (rnds : ℕ → ℕ → ℝ)
    (rnd : ℕ → ℝ) :
    ∃ (m : Minibatches (List ℝ)) (bs : List Batch) (w : Batch) (P : ℕ → ℕ → List MLayer) (st : State ℝ) (v : ℝ),
      Minibatches.create nonzero size true (.name (str "mask")) (padData f g len T n) = some m ∧
      batchesOf padInput (m.call (List.range m.length).reverse) rnds = some bs ∧ batchOf padInput (padData f g len T n) rnd = some w ∧
      evaluateScore (netOf (infos padLayers) padL) padInput.name P (scored (path (str "Out") (str "outputs") (str "default"))
        (path (str "Input") (str "outputs") (str "targets")) 2 2 (some (path padInput.name (str "outputs") (str "mask")))) true
        (Scoring.squaredError true) bs st = some v ∧
      evaluateScore (netOf (infos padLayers) padL) padInput.name P (scored (path (str "Out") (str "outputs") (str "default"))
        (path (str "Input") (str "outputs") (str "targets")) 2 2 (some (path padInput.name (str "outputs") (str "mask")))) true
        (Scoring.squaredError true) [w] st = some v := by
  obtain ⟨data, rest, hdt, F, ps, -, h⟩ := C87_scores padKwargs padArch (by decide +kernel) (demoOrders true) (demoOrders_ok true)
    padLayers pad_instantiates pad_outs padL pad_layout pad_trainable pad_numeric pad_supported
  obtain ⟨k, hk, hnew⟩ := pad_with
  obtain ⟨st, hst, hθ⟩ := hnew fun i => (i : ℝ)
  obtain rfl := pad_data F hdt
  obtain ⟨m, hm⟩ := pad_create f g len T n size hs true
  obtain ⟨bs, w, g1, g2, g3⟩ := h M st _ hM hst hθ (fun l ts ht => (ht.elim (pad_types_not l).1 (pad_types_not l).2.1).elim) pad_alone
    _ size true (str "mask") m (pad_fits f g len T n) ⟨_, rfl⟩ hm _ (List.reverse_perm _) rnds rnd
  obtain ⟨v, g4, g5⟩ := g3 _ _ _ _ ⟨[.T, .B, .n 1], 0, false⟩ _ pad_output.1 ⟨rfl, rfl⟩ pad_output.2 ⟨rfl, rfl⟩ (by rw [pad_shapes]; simp) ⟨rfl, rfl⟩ rfl
    (Or.inr (Or.inr rfl))
  exact ⟨m, bs, w, _, st, v, hm, g1, g2, g4, g5⟩

/-- The batch of all data, padded to `T` steps. -/
noncomputable def padBatch (f g : ℕ → ℕ → ℕ → ℝ) (len : ℕ → ℕ) (T n : ℕ) : Batch :=
  ⟨T, n + 1, padInput.outShapes.map fun e => (e.1, numbers ((Dict.get? (padData f g len T n) e.1).getD ⟨0, 0, []⟩)), 0⟩

/-- Two batches with the same data that are padded to different lengths. -/
theorem pad_shortened (f g : ℕ → ℕ → ℕ → ℝ) (len : ℕ → ℕ) (T stop n : ℕ) (hT : stop ≤ T) (hlen : ∀ q ≤ n, len q ≤ stop) :
    Shortened padInput (str "mask") (padBatch f g len T n) (padBatch f g len stop n) := by
  have key : ∀ T, ∀ e ∈ padInput.outShapes, ∃ h, (Dict.get? (padData f g len T n) e.1).getD ⟨0, 0, []⟩ = arr T n e.2.featureSize h := by
    intro T
    rw [pad_shapes]
    simp only [List.forall_mem_cons, List.not_mem_nil, false_imp_iff, implies_true, and_true]
    exact ⟨⟨f, rfl⟩, ⟨g, rfl⟩, ⟨_, rfl⟩⟩
  have hgood : ∀ T, ∀ e ∈ padInput.outShapes, ((Dict.get? (padData f g len T n) e.1).getD ⟨0, 0, []⟩).Regular ∧
      ((Dict.get? (padData f g len T n) e.1).getD ⟨0, 0, []⟩).seqs = n + 1 ∧ ((Dict.get? (padData f g len T n) e.1).getD ⟨0, 0, []⟩).times = T ∧
      ∀ r ∈ ((Dict.get? (padData f g len T n) e.1).getD ⟨0, 0, []⟩).rows, ∀ v ∈ r, v.length = e.2.featureSize := by
    intro T e he
    obtain ⟨h, e1⟩ := key T e he
    rw [e1]
    exact ⟨arr_regular _ _ _ _, rfl, by simp [arr, Arr.times], arr_width⟩
  refine shortened_of (g := fun x => (Dict.get? (padData f g len T n) x).getD ⟨0, 0, []⟩)
    (g' := fun x => (Dict.get? (padData f g len stop n) x).getD ⟨0, 0, []⟩) (by decide +kernel) (by decide +kernel) (hgood T) (hgood stop) ?_
    (by omega) hT ?_ _ _
  · have : ∀ m h, (arr stop n m h).rows = (arr T n m h).rows.take stop := by
      intro m h
      simp only [arr]
      rw [← List.map_take, List.take_range, Nat.min_eq_left hT]
    rw [pad_shapes]
    simp only [List.forall_mem_cons, List.not_mem_nil, false_imp_iff, implies_true, and_true]
    exact ⟨this 4 f, this 2 g, this 1 _⟩
  · intro s _ t r ht hr v hv
    have hr' : (arr T n 1 fun t q _ => if t < len q then (1 : ℝ) else 0).rows[t]? = some r := hr
    simp only [arr, List.getElem?_map, Option.map_eq_some_iff] at hr'
    obtain ⟨t', h1, rfl⟩ := hr'
    obtain ⟨h2, h3⟩ := List.getElem?_eq_some_iff.1 h1
    rw [List.getElem_range] at h3
    subst h3
    obtain ⟨q, hq, rfl⟩ := List.mem_map.1 hv
    rw [List.mem_range] at hq
    have := hlen q (by omega)
    simp only [List.range_one, List.map_cons, List.map_nil, nonzero]
    rw [if_neg (by omega)]
    simp

/-- All assumptions are met: losses and gradients of padded data. -/
example (f g : ℕ → ℕ → ℕ → ℝ) (len : ℕ → ℕ) (T stop n : ℕ) (hT : stop ≤ T) (h0 : 0 < stop) (hlen : ∀ q ≤ n, len q ≤ stop) (M : Mode) :
    ∃ (P : ℕ → ℕ → List MLayer) (st : State ℝ) (loss : ℝ) (d : List ℝ),
      Gives (netOf (infos padLayers) padL) padInput.name P (reported padArch padLayers padL) st (padBatch f g len T n) loss d ∧
      Gives (netOf (infos padLayers) padL) padInput.name P (reported padArch padLayers padL) st (padBatch f g len stop n) loss d := by
  obtain ⟨data, rest, hdt, F, ps, -, h⟩ := C87_gradients padKwargs padArch (by decide +kernel) (demoOrders true) (demoOrders_ok true)
    padLayers pad_instantiates pad_outs padL pad_layout pad_trainable pad_numeric pad_supported pad_free fun n => (pad_types_not n).2.2
  obtain ⟨k, hk, hnew⟩ := pad_with
  obtain ⟨st, hst, hθ⟩ := hnew fun i => (i : ℝ)
  obtain rfl := pad_data F hdt
  obtain ⟨loss, d, d', g1, g2, g3⟩ := h M k st _ hst hθ (fun i hi => absurd hi (pad_noPeriods i)) (str "mask") _ _ pad_masked
    (pad_shortened f g len T stop n hT hlen) (.inr pad_alone)
  obtain rfl := g3 (Or.inr ⟨pad_noKinks, h0⟩)
  exact ⟨_, st, loss, d, g1, g2⟩

/-- All assumptions are met: the losses of all sorts, also with dropout switched off. -/
example (f g : ℕ → ℕ → ℕ → ℝ) (len : ℕ → ℕ) (T stop n : ℕ) (hT : stop ≤ T) (hlen : ∀ q ≤ n, len q ≤ stop) (M : Mode) (key : Name) :
    ∃ (P : ℕ → ℕ → List MLayer) (st st₁ st₂ st₁' st₂' : State ℝ),
      provide (netOf (infos padLayers) padL) padInput.name (padBatch f g len T n) st = some st₁ ∧
      forwardPass (netOf (infos padLayers) padL) P (padBatch f g len T n).rnd st₁ = some st₂ ∧
      provide (netOf (infos padLayers) padL) padInput.name (padBatch f g len stop n) st = some st₁' ∧
      forwardPass (netOf (infos padLayers) padL) P (padBatch f g len stop n).rnd st₁' = some st₂' ∧
      Dict.get? (getLossValues padArch padLayers fun l => entry (netOf (infos padLayers) padL) T (n + 1) l (memOf st₂) "outputs" "loss" 0) key =
        Dict.get? (getLossValues padArch padLayers fun l => entry (netOf (infos padLayers) padL) stop (n + 1) l (memOf st₂') "outputs" "loss" 0) key := by
  obtain ⟨data, rest, hdt, F, ps, -, h⟩ := C87_losses padKwargs padArch (by decide +kernel) (demoOrders true) (demoOrders_ok true)
    padLayers pad_instantiates pad_outs padL pad_layout pad_trainable pad_numeric pad_supported
  obtain ⟨k, hk, hnew⟩ := pad_with
  obtain ⟨st, hst, hθ⟩ := hnew fun i => (i : ℝ)
  obtain rfl := pad_data F hdt
  obtain ⟨st₁, st₂, st₁', st₂', g1, g2, g3, g4, g5⟩ := h M st st _ (fun _ n => (pad_types_not n).2.2) hst hst hθ hθ
    (fun l ts ht => (ht.elim (pad_types_not l).1 (pad_types_not l).2.1).elim) (str "mask") _ _ pad_masked
    (pad_shortened f g len T stop n hT hlen) (.inr pad_alone)
  exact ⟨_, st, st₁, st₂, st₁', st₂', g1, g2, g3, g4, g5 key⟩

/-- All assumptions are met: trainings with data that are padded to different lengths. -/
example (f g : ℕ → ℕ → ℕ → ℕ → ℝ) (len : ℕ → ℕ → ℕ) (T stop n : ℕ → ℕ) (hT : ∀ j, stop j ≤ T j) (h0 : ∀ j, 0 < stop j)
    (hlen : ∀ j, ∀ q ≤ n j, len j q ≤ stop j) (M : Mode) (lr : ℕ → ℝ) (k : ℕ) :
    ∃ (P : ℕ → ℕ → List MLayer) (st st₁ st₂ : State ℝ) (log θ : List ℝ),
      train (netOf (infos padLayers) padL) padInput.name P (reported padArch padLayers padL)
        (fun k => sgdRun (netOf (infos padLayers) padL) P (lr k)) (fun j => padBatch (f j) (g j) (len j) (T j) (n j)) (fun _ => []) (st, ()) k =
          some ((st₁, ()), log) ∧
      train (netOf (infos padLayers) padL) padInput.name P (reported padArch padLayers padL)
        (fun k => sgdRun (netOf (infos padLayers) padL) P (lr k)) (fun j => padBatch (f j) (g j) (len j) (stop j) (n j)) (fun _ => []) (st, ()) k =
          some ((st₂, ()), log) ∧
      st₁.read (str "parameters") = some θ ∧ st₂.read (str "parameters") = some θ := by
  obtain ⟨data, rest, hdt, F, ps, -, h⟩ := C87_training padKwargs padArch (by decide +kernel) (demoOrders true) (demoOrders_ok true)
    padLayers pad_instantiates pad_outs padL pad_layout pad_trainable pad_numeric pad_supported pad_free fun n => (pad_types_not n).2.2
  obtain ⟨q, hq, hnew⟩ := pad_with
  obtain ⟨st, hst, hθ⟩ := hnew fun i => (i : ℝ)
  obtain rfl := pad_data F hdt
  obtain ⟨st₁, st₂, log, θ, g1, g2, g3, g4⟩ := (h M q st _ hst hθ (fun i hi => absurd hi (pad_noPeriods i)) (str "mask")
    (fun j => padBatch (f j) (g j) (len j) (T j) (n j)) (fun j => padBatch (f j) (g j) (len j) (stop j) (n j)) pad_masked
    (fun j => pad_shortened _ _ _ _ _ _ (hT j) (hlen j)) pad_alone lr 0 true k).1 (Or.inl ⟨pad_noKinks, fun j _ => h0 j⟩)
  exact ⟨_, st, st₁, st₂, log, θ, g1, g2, g3, g4⟩

end Verif.Padding
