import Verif.Shapes.Layers3
import Verif.Setup.Props
import Verif.Instantiate.Checks

/-!
# Property C64: the passes of a network of library layers never fail because of the shape of an array
-/

namespace Verif.Shapes

open Verif.Structure Verif.Instantiate Verif.Architecture
open Verif.Setup (Kwargs KVal inp inp_some Decl DeclClass library libEnv)

/-! ### Assumptions -/

/-- What a layer of type `t` needs in addition to what `setup` checks:
* an activation function that is given is one of the five names (finding 25);
* the inputs of a binomial cross entropy are vectors (finding 26);
* no input of a merge or softmax layer has width 0 (finding 27). -/
structure Supported (t : Name) (kw : Kwargs) (ins : Dict Name Struct) : Prop where
  activation : ∀ v, Dict.get? kw (str "activation") = some v →
    ∃ a ∈ [str "sigmoid", str "tanh", str "rel", str "el", str "linear"], v = .string a
  vector : t = str "BinomialCrossEntropy" → ∀ s, Dict.get? ins (str "default") = some s → s.featureShape.length = 1
  width : t = str "Merge" ∨ t = str "SoftmaxCE" → ∀ i s, Dict.get? ins i = some s → s.shape.getLast? ≠ some (.n 0)

/-! ### Every layer type -/

/-- The layer's inputs have the shapes its class expects and no context. -/
structure Fed (c : DeclClass) (ins : Dict Name Struct) : Prop where
  context : ∀ i s, Dict.get? ins i = some s → s.contextSize = 0
  shapes : ∀ i s t, Dict.get? ins i = some s → Dict.get? c.expectedInputs i = some t → t.matches s = true
  inputs : ∀ i s, Dict.get? ins i = some s → i ∈ Dict.keys c.expectedInputs

theorem Fed.allTB {c : DeclClass} {ins : Dict Name Struct} (h : Fed c ins)
    (ht : ∀ e ∈ c.expectedInputs, e.2 = Setup.anyTB) : AllTB ins := by
  intro k s hs
  obtain ⟨h1, h2⟩ := inp_some hs
  obtain ⟨t, htk⟩ := Option.isSome_iff_exists.1 ((Dict.mem_keys_iff _ _).1 (h.inputs k s h1))
  refine tb_of h2 ?_ (h.context k s h1)
  rw [← ht _ (Dict.mem_of_get? htk)]
  exact h.shapes k s t h1 htk




/-- Every layer type of the library. -/
theorem library_runs {t : Name} {c : DeclClass} (h : Dict.get? library (t ++ str "LayerImpl") = some c) {n : Name}
    {kw : Kwargs} {ins : Dict Name Struct} {sh : Instantiate.Shapes} (hf : Fed c ins) (hs : Supported t kw ins)
    (hset : c.toClass.setup n kw ins = some sh) (T B : Nat) :
    ∃ p, Dict.get? passes (t ++ str "LayerImpl") = some p ∧ Runs p kw ins sh T B := by
  simp only [DeclClass.toClass, Option.bind_eq_some_iff] at hset
  obtain ⟨d, hd, hb⟩ := hset
  have hk : Known kw := fun v hv => by
    obtain ⟨a, ha, e⟩ := hs.activation v hv
    exact ⟨a, by revert ha; simp only [activations, List.mem_cons]; tauto, e⟩
  have hv : ∀ k s, inp ins k = some s → s.validate = .ok () := fun k s h => (inp_some h).2
  have hc : ∀ k s, inp ins k = some s → s.contextSize = 0 := fun k s h => hf.context k s (inp_some h).1
  have hm := Dict.mem_of_get? h
  simp only [library, List.mem_cons, Prod.mk.injEq, List.not_mem_nil, or_false] at hm
  rcases hm with ⟨e, rfl⟩ | ⟨e, rfl⟩ | ⟨e, rfl⟩ | ⟨e, rfl⟩ | ⟨e, rfl⟩ | ⟨e, rfl⟩ | ⟨e, rfl⟩ | ⟨e, rfl⟩ | ⟨e, rfl⟩ | ⟨e, rfl⟩ |
    ⟨e, rfl⟩ | ⟨e, rfl⟩ | ⟨e, rfl⟩ | ⟨e, rfl⟩ | ⟨e, rfl⟩ | ⟨e, rfl⟩ | ⟨e, rfl⟩ | ⟨e, rfl⟩ | ⟨e, rfl⟩ | ⟨e, rfl⟩ | ⟨e, rfl⟩ |
    ⟨e, rfl⟩ | ⟨e, rfl⟩ | ⟨e, rfl⟩
  · rw [e]; exact ⟨_, rfl, runs_fullyConnected T B hk (hf.allTB (by decide)) hd hb⟩
  · rw [e]; exact ⟨_, rfl, runs_elementwise T B hk (hf.allTB (by decide)) hd hb⟩
  · rw [e]; exact ⟨_, rfl, runs_noOp T B (hf.allTB (by decide)) hd hb⟩
  · rw [e]; exact ⟨_, rfl, runs_deltasScaling T B (hf.allTB (by decide)) hd hb⟩
  · rw [e]; exact ⟨_, rfl, runs_highway T B (hf.allTB (by decide)) hd hb⟩
  · rw [e]; exact ⟨_, rfl, runs_dropout T B (hf.allTB (by decide)) hd hb⟩
  · rw [e]; exact ⟨_, rfl, runs_mask T B (hf.allTB (by decide)) hd hb⟩
  · have ht : t = str "Merge" := List.append_cancel_right (e.trans (by decide : _ = str "Merge" ++ str "LayerImpl"))
    rw [e]
    exact ⟨_, rfl, runs_merge T B hv hc (fun k s h => hs.width (.inl ht) k s (inp_some h).1) hd hb⟩
  · rw [e]; exact ⟨_, rfl, runs_loss T B hv hc hd hb⟩
  · rw [e]; exact ⟨_, rfl, runs_l1Decay T B (hf.allTB (by decide)) hd hb⟩
  · rw [e]; exact ⟨_, rfl, runs_l2Decay T B (hf.allTB (by decide)) hd hb⟩
  · rw [e]; exact ⟨_, rfl, runs_input T B ins⟩
  · rw [e]; exact ⟨_, rfl, runs_recurrent T B hk (hf.allTB (by decide)) hd hb⟩
  · rw [e]; exact ⟨_, rfl, runs_clockwork T B hk (hf.allTB (by decide)) hd hb⟩
  · rw [e]; exact ⟨_, rfl, runs_lstm T B hk (hf.allTB (by decide)) hd hb⟩
  · rw [e]; exact ⟨_, rfl, runs_clockworkLstm T B hk (hf.allTB (by decide)) hd hb⟩
  · rw [e]; exact ⟨_, rfl, runs_batchNorm T B (hf.allTB (by decide)) hd hb⟩
  · rw [e]; exact ⟨_, rfl, runs_sigmoidCE T B (hf.allTB (by decide)) hd hb⟩
  · have ht : t = str "SoftmaxCE" := List.append_cancel_right (e.trans (by decide : _ = str "SoftmaxCE" ++ str "LayerImpl"))
    rw [e]
    exact ⟨_, rfl, runs_softmaxCE T B (hf.allTB (by decide)) (fun k s h => hs.width (.inr ht) k s (inp_some h).1) hd hb⟩
  · rw [e]; exact ⟨_, rfl, runs_squaredDifference T B (hf.allTB (by decide)) hd hb⟩
  · rw [e]; exact ⟨_, rfl, runs_squaredError T B (hf.allTB (by decide)) hd hb⟩
  · have ht : t = str "BinomialCrossEntropy" :=
      List.append_cancel_right (e.trans (by decide : _ = str "BinomialCrossEntropy" ++ str "LayerImpl"))
    rw [e]
    exact ⟨_, rfl, runs_binomialCE T B (hf.allTB (by decide)) (fun s h => hs.vector ht s (inp_some h).1) hd hb⟩
  · rw [e]; exact ⟨_, rfl, runs_convolution2D T B hk (hf.allTB (by decide)) hd hb⟩
  · rw [e]; exact ⟨_, rfl, runs_pooling2D T B (hf.allTB (by decide)) hd hb⟩

/-! ### Networks -/

/-- In an instantiated network, every layer is of a library type and is fed what its class expects. -/
theorem network_fed {kwargs : Name → Kwargs} {a : Arch} (hk : (Dict.keys a).Nodup) {ord : Orders} (ho : ord.Ok)
    {layers : Dict Name (LayerObj Kwargs)} (h : Instantiates (libEnv kwargs) ord a (.ok layers)) {n : Name}
    {l : LayerObj Kwargs} (hl : Dict.get? layers n = some l) {d : LayerDesc} (hd : Dict.get? a n = some d) {t : Name}
    (ht : d.type = .string t) :
    ∃ c, Dict.get? library (t ++ str "LayerImpl") = some c ∧ Fed c l.inShapes ∧
      c.toClass.setup n l.kwargs l.inShapes = some l.shapes := by
  have hI := Setup.inst_of (libEnv kwargs) (fun _ _ _ _ _ _ h1 h2 => Setup.libEnv_good h1 h2) a hk ord ho layers h
  obtain ⟨d', t', cls, hd', ht', hcls, hacc, hset⟩ := C59_acceptable (libEnv kwargs) a hk ord layers h n l hl
  rw [hd] at hd'; cases hd'
  rw [ht] at ht'; cases ht'
  simp only [libEnv, Option.map_eq_some_iff] at hcls
  obtain ⟨c, hc, rfl⟩ := hcls
  refine ⟨c, hc, ⟨?_, ?_, ?_⟩, hset⟩
  · intro i s hi
    obtain ⟨srcs, -, -, h3, h4⟩ := hI.srcs n l hl i s hi
    refine (Setup.combine_size ?_ h4).1
    intro x hx
    obtain ⟨⟨c, t'⟩, hm, rfl⟩ := List.mem_map.1 hx
    obtain ⟨l', hl', hof⟩ := h3 _ _ hm
    have hv := (hI.good _ l' hl').valid
    rcases hof with hof | ⟨q, -, hof⟩ | ⟨q, -, hof⟩
    · exact hv _ (.inl rfl) _ (Dict.mem_of_get? hof)
    · exact hv _ (.inr (.inl rfl)) _ (Dict.mem_of_get? hof)
    · exact hv _ (.inr (.inr rfl)) _ (Dict.mem_of_get? hof)
  · exact fun i s t hi ht => hacc.shapes i s t (Dict.mem_of_get? hi) ht
  · exact fun i s hi => (hacc.inputs i).1 ((Dict.mem_keys_iff _ _).2 (by rw [hi]; rfl))

/-- **C64 (passes fit their buffers).** Take any architecture of library layers that can be instantiated, and any number of
time steps and sequences.  The forward pass (training or not) and the backward pass of every layer, given arrays of the
declared shapes, complete: no handler operation gets arrays of shapes it does not accept, no reshape changes the number of
elements, no index is out of range.
`_partial`: the layer must be `Supported`; the theorems below show that the code fails without that. -/
theorem C64_passes_partial (kwargs : Name → Kwargs) (a : Arch) (hk : (Dict.keys a).Nodup) (ord : Orders) (ho : ord.Ok)
    (layers : Dict Name (LayerObj Kwargs)) (h : Instantiates (libEnv kwargs) ord a (.ok layers))
    (n : Name) (l : LayerObj Kwargs) (hl : Dict.get? layers n = some l) (d : LayerDesc) (hd : Dict.get? a n = some d)
    (t : Name) (ht : d.type = .string t) (hs : Supported t l.kwargs l.inShapes) (T B : Nat) :
    ∃ p, Dict.get? passes (t ++ str "LayerImpl") = some p ∧
      (∀ training, p.forward ⟨l.kwargs, l.inShapes⟩ (viewsOf l.inShapes l.shapes T B) training = some ()) ∧
      p.backward ⟨l.kwargs, l.inShapes⟩ (viewsOf l.inShapes l.shapes T B) = some () := by
  obtain ⟨c, hc, hf, hset⟩ := network_fed hk ho h hl hd ht
  exact library_runs hc hf hs hset T B

/-- The value of a dictionary of shapes, by name. -/
theorem shapesOf_get {d : Dict Name Struct} {b : Name} {s : Struct} (h : Dict.get? d b = some s) (T B : Nat) :
    Dict.get? (shapesOf d T B) b = some (Buffers.structShape s T B) := by
  rw [get?_shapesOf, h]; rfl

/-- **C64 (the memory has the shapes the passes are given).** The arrays that the buffer manager creates for a layer have the
shapes that the passes in `C64_passes_partial` are given. -/
theorem C64_views (V : Type) [Zero V] (kwargs : Name → Kwargs) (a : Arch) (hk : (Dict.keys a).Nodup) (ord : Orders)
    (ho : ord.Ok) (layers : Dict Name (LayerObj Kwargs)) (h : Instantiates (libEnv kwargs) ord a (.ok layers))
    (hroot : Layout.NoRootNames (Setup.infos layers)) (hne : ∃ n l, Dict.get? layers n = some l ∧ l.shapes.outs ≠ [])
    (L : Layout.Layout) (hL : Layout.createLayout (Setup.infos layers) = .ok L) (T B : Nat) (n : Name)
    (l : LayerObj Kwargs) (hl : Dict.get? layers n = some l) :
    ∀ cat shapes, (cat, shapes) ∈ [(str "inputs", (viewsOf l.inShapes l.shapes T B).inputs),
        (str "outputs", (viewsOf l.inShapes l.shapes T B).outputs),
        (str "parameters", (viewsOf l.inShapes l.shapes T B).parameters),
        (str "internals", (viewsOf l.inShapes l.shapes T B).internals),
        (str "input_deltas", (viewsOf l.inShapes l.shapes T B).inputDeltas),
        (str "output_deltas", (viewsOf l.inShapes l.shapes T B).outputDeltas),
        (str "gradients", (viewsOf l.inShapes l.shapes T B).gradients)] →
      ∀ b shape, Dict.get? shapes b = some shape →
      ∃ e v, Dict.get? (Buffers.netOf (Setup.infos layers) L).layout (Layout.path n cat b) = some e ∧
        Buffers.viewOf (Buffers.netOf (Setup.infos layers) L).hubs T B e = some v ∧ v.shape = shape := by
  obtain ⟨-, key⟩ := Setup.C63_memory V kwargs a hk ord ho layers h hroot hne L hL
  have base : ∀ cat b s, Setup.HasBuffer l cat b s → ∃ e v,
      Dict.get? (Buffers.netOf (Setup.infos layers) L).layout (Layout.path n cat b) = some e ∧
        Buffers.viewOf (Buffers.netOf (Setup.infos layers) L).hubs T B e = some v ∧ v.shape = Buffers.structShape s T B := by
    intro cat b s hb
    obtain ⟨e, v, h1, h2, h3, -⟩ := key T B n l hl cat b s hb
    exact ⟨e, v, h1, h2, h3⟩
  have inv : ∀ (dd : Dict Name Struct) b shape, Dict.get? (shapesOf dd T B) b = some shape →
      ∃ s, Dict.get? dd b = some s ∧ shape = Buffers.structShape s T B := by
    intro dd b shape hb
    rw [get?_shapesOf, Option.map_eq_some_iff] at hb
    obtain ⟨s, h1, h2⟩ := hb
    exact ⟨s, h1, h2.symm⟩
  intro cat shapes hm b shape hb
  simp only [List.mem_cons, Prod.mk.injEq, List.not_mem_nil, or_false, viewsOf] at hm
  rcases hm with ⟨rfl, rfl⟩ | ⟨rfl, rfl⟩ | ⟨rfl, rfl⟩ | ⟨rfl, rfl⟩ | ⟨rfl, rfl⟩ | ⟨rfl, rfl⟩ | ⟨rfl, rfl⟩ <;>
    obtain ⟨s, hs, rfl⟩ := inv _ _ _ hb
  · exact base _ _ _ (.inputs hs)
  · exact base _ _ _ (.outputs hs)
  · exact base _ _ _ (.parameters hs)
  · exact base _ _ _ (.internals hs)
  · exact base _ _ _ (.inputDeltas hs)
  · exact base _ _ _ (.outputDeltas hs)
  · exact base _ _ _ (.gradients hs)

/-! ### Without the assumptions the passes fail -/

/-- **C64 (finding 26).** For a binomial cross entropy layer in any network, the forward pass always completes, but the
backward pass completes only if the inputs are vectors. -/
theorem C64_binomial_rank (kwargs : Name → Kwargs) (a : Arch) (hk : (Dict.keys a).Nodup) (ord : Orders) (ho : ord.Ok)
    (layers : Dict Name (LayerObj Kwargs)) (h : Instantiates (libEnv kwargs) ord a (.ok layers))
    (n : Name) (l : LayerObj Kwargs) (hl : Dict.get? layers n = some l) (d : LayerDesc) (hd : Dict.get? a n = some d)
    (ht : d.type = .string (str "BinomialCrossEntropy")) (s : Struct) (hs : Dict.get? l.inShapes (str "default") = some s)
    (T B : Nat) :
    (∀ training, binomialCE.forward ⟨l.kwargs, l.inShapes⟩ (viewsOf l.inShapes l.shapes T B) training = some ()) ∧
    (binomialCE.backward ⟨l.kwargs, l.inShapes⟩ (viewsOf l.inShapes l.shapes T B) = some () ↔ s.featureShape.length = 1) := by
  obtain ⟨c, hc, hf, hset⟩ := network_fed hk ho h hl hd ht
  have hc' : Dict.get? library (str "BinomialCrossEntropy" ++ str "LayerImpl") = some Setup.binomialCE := by rfl
  rw [hc'] at hc; cases hc
  simp only [DeclClass.toClass, Option.bind_eq_some_iff] at hset
  obtain ⟨dd, hdd, hb⟩ := hset
  obtain ⟨f, fs, b, c, hx, htg, hsh⟩ := binomial_views (hf.allTB (by decide)) hdd hb
  have hsx := (inp_some hx).1
  rw [hs] at hsx; cases hsx
  have hx' := at_in0 T B (inp_of hx)
  have ht' := at_in0 T B (inp_of htg)
  have hy : at? (shapesOf [(str "default", tbS [1])] T B) "default" = some [T, B, 1] := at_in0 T B rfl
  have hi : at? (shapesOf [(str "cee", tbS (f :: fs)), (str "ceed", tbS (f :: fs) 0 true)] T B) "cee" =
    some (T :: B :: f :: fs) := at_in0 T B rfl
  have hj : at? (shapesOf [(str "cee", tbS (f :: fs)), (str "ceed", tbS (f :: fs) 0 true)] T B) "ceed" =
    some (T :: B :: f :: fs) := at_in0 T B rfl
  rw [hsh]
  refine ⟨fun tr => ?_, ?_⟩
  · simp [binomialCE, viewsOf, hx', ht', hy, hi, flattenTF_ok, flattenTime_ok, same2_ok, same3_ok, sum_cols_keep]
  · rw [featureShape_tb]
    simp [binomialCE, viewsOf, hx', ht', hy, hj, same2_ok, same3_ok, broadcastT, check]
    by_cases hfs : fs = [] <;> simp [hfs]

/-- **C64 (finding 25).** For a fully connected layer in any network whose activation function is not one of the five names,
the forward pass fails for every number of time steps and sequences, although the layer was set up. -/
theorem C64_unknown_activation (kwargs : Name → Kwargs) (a : Arch) (hk : (Dict.keys a).Nodup) (ord : Orders) (ho : ord.Ok)
    (layers : Dict Name (LayerObj Kwargs)) (h : Instantiates (libEnv kwargs) ord a (.ok layers))
    (n : Name) (l : LayerObj Kwargs) (hl : Dict.get? layers n = some l) (d : LayerDesc) (hd : Dict.get? a n = some d)
    (ht : d.type = .string (str "FullyConnected")) (v : KVal) (hv : Dict.get? l.kwargs (str "activation") = some v)
    (hun : ∀ a ∈ [str "sigmoid", str "tanh", str "rel", str "el", str "linear"], v ≠ .string a) (T B : Nat) (training : Bool) :
    fullyConnected.forward ⟨l.kwargs, l.inShapes⟩ (viewsOf l.inShapes l.shapes T B) training = none := by
  have hbad : ∀ x, inplaceAct (activation l.kwargs (str "rel")) x = none := by
    intro x
    have : known (activation l.kwargs (str "rel")) = none := by
      unfold known check
      rw [if_neg]
      rintro ⟨m, hm, e⟩
      unfold activation at e
      rw [hv] at e
      cases v <;> simp_all [activations]
    unfold inplaceAct
    rw [this]; rfl
  unfold fullyConnected
  simp only [hbad]
  simp only [Option.bind_eq_bind, Option.bind_eq_none_iff]
  intros; trivial

theorem lastZero {s : Struct} (h : s.shape.getLast? = some (.n 0)) (T B : Nat) (hv : s.validate = .ok ())
    (hc : s.contextSize = 0) : rows (Buffers.structShape s T B) = none := by
  obtain ⟨p, fs, hne, hs, -⟩ := (C13_structures s).1 hv
  obtain ⟨sh, c, b⟩ := s
  simp only at hs hc h
  subst hs hc
  obtain ⟨init, x, rfl⟩ : ∃ init x, fs = init ++ [x] := ⟨_, _, (List.dropLast_append_getLast hne).symm⟩
  rw [structShape_shapeOf]
  have hx : x = 0 := by
    unfold shapeOf at h
    rw [List.map_append, ← List.append_assoc, List.map_singleton, List.getLast?_concat] at h
    simpa using h
  subst hx
  unfold rows
  rw [← List.append_assoc, List.getLast?_concat]
  rfl

/-- **C64 (finding 27).** For a merge layer in any network, if one of the two inputs has width 0, the forward pass fails for
every number of time steps and sequences, although the layer was set up. -/
theorem C64_merge_nothing (kwargs : Name → Kwargs) (a : Arch) (hk : (Dict.keys a).Nodup) (ord : Orders) (ho : ord.Ok)
    (layers : Dict Name (LayerObj Kwargs)) (h : Instantiates (libEnv kwargs) ord a (.ok layers))
    (n : Name) (l : LayerObj Kwargs) (hl : Dict.get? layers n = some l) (d : LayerDesc) (hd : Dict.get? a n = some d)
    (ht : d.type = .string (str "Merge")) (i : Name) (s : Struct) (hs : Dict.get? l.inShapes i = some s)
    (h0 : s.shape.getLast? = some (.n 0)) (T B : Nat) (training : Bool) :
    merge.forward ⟨l.kwargs, l.inShapes⟩ (viewsOf l.inShapes l.shapes T B) training = none := by
  obtain ⟨c, hc, hf, hset⟩ := network_fed hk ho h hl hd ht
  have hc' : Dict.get? library (str "Merge" ++ str "LayerImpl") = some Setup.merge := by rfl
  rw [hc'] at hc; cases hc
  simp only [DeclClass.toClass, Option.bind_eq_some_iff] at hset
  obtain ⟨dd, hdd, -⟩ := hset
  open_setup hdd
  obtain ⟨x, hx, y, hy, -, -⟩ := hdd
  have hvx := inp_some hx
  have hvy := inp_some hy
  have e1 : at? (viewsOf l.inShapes l.shapes T B).inputs "inputs_1" = some (Buffers.structShape x T B) :=
    shapesOf_get hvx.1 T B
  have e2 : at? (viewsOf l.inShapes l.shapes T B).inputs "inputs_2" = some (Buffers.structShape y T B) :=
    shapesOf_get hvy.1 T B
  have hbad : ∀ out, mergeTT (Buffers.structShape x T B) (Buffers.structShape y T B) out = none := by
    intro out
    have hi := hf.inputs i s hs
    have hi' : i = str "inputs_1" ∨ i = str "inputs_2" := by simpa [Setup.merge, Dict.keys] using hi
    unfold mergeTT
    rcases hi' with rfl | rfl
    · rw [hvx.1] at hs; cases hs
      rw [lastZero h0 T B hvx.2 (hf.context _ _ hvx.1)]; rfl
    · rw [hvy.1] at hs; cases hs
      rw [lastZero h0 T B hvy.2 (hf.context _ _ hvy.1)]
      cases rows (Buffers.structShape x T B) <;> rfl
  unfold merge
  simp only [e1, e2, hbad, Option.bind_eq_bind, Option.bind_some, Option.bind_none, Option.bind_eq_none_iff]
  intros; trivial

/-! ### The assumptions are met -/

/-- The layers of the demo network of C63. -/
def demoLayers : Dict Name (LayerObj Kwargs) :=
  match instantiateFuel 8 (libEnv Setup.demoKwargs) (demoOrders true) Setup.demoArch with
  | some (.ok ls) => ls
  | _ => []

/-- The softmax layer of the demo network is `Supported`. -/
example : (Dict.get? demoLayers (str "CE")).map (fun l => l.inShapes) =
      some [(str "default", ⟨[.T, .B, .n 2], 0, false⟩), (str "targets", ⟨[.T, .B, .n 1], 0, false⟩)] ∧
    Setup.demoKwargs (str "CE") = [] ∧
    Supported (str "SoftmaxCE") [] [(str "default", ⟨[.T, .B, .n 2], 0, false⟩), (str "targets", ⟨[.T, .B, .n 1], 0, false⟩)] := by
  refine ⟨by decide +kernel, rfl, fun v hv => by simp [Dict.get?] at hv, fun hb => absurd hb (by decide), fun _ i s hs => ?_⟩
  have := Dict.mem_of_get? hs
  simp only [List.mem_cons, Prod.mk.injEq, List.not_mem_nil, or_false] at this
  rcases this with ⟨-, rfl⟩ | ⟨-, rfl⟩ <;> decide

/-- Whether every layer's passes complete for 3 time steps and 2 sequences. -/
def demoRuns (ls : Dict Name (LayerObj Kwargs)) (a : Arch) : Bool :=
  ls.all fun e => match Dict.get? a e.1 with
    | some ⟨.string t, _⟩ => match Dict.get? passes (t ++ str "LayerImpl") with
      | some p => (p.forward ⟨e.2.kwargs, e.2.inShapes⟩ (viewsOf e.2.inShapes e.2.shapes 3 2) true).isSome &&
          (p.backward ⟨e.2.kwargs, e.2.inShapes⟩ (viewsOf e.2.inShapes e.2.shapes 3 2)).isSome
      | none => false
    | _ => false

example : demoLayers.length = 5 ∧ demoRuns demoLayers Setup.demoArch = true := by decide +kernel

/-- Keyword arguments of a network with an image input, an unknown activation function and a width of 0. -/
def badKwargs (n : Name) : Kwargs :=
  if n = str "Input" then [(str "out_shapes", .shapes ⟨[(str "default", [.T, .B, .n 4, .n 4]), (str "targets", [.T, .B, .n 4, .n 4]),
    (str "none", [.T, .B, .n 0])], by decide, by decide⟩)]
  else if n = str "Fc" then [(str "size", .int 3), (str "activation", .string (str "softplus"))]
  else []

/-- Its architecture. -/
def badArch : Arch :=
  [(str "Input", ⟨.string (str "Input"), .dict [(str "default", [str "Bin", str "Fc"]), (str "targets", [str "Bin.targets"]),
     (str "none", [str "Merge.inputs_1"])]⟩),
   (str "Fc", ⟨.string (str "FullyConnected"), .list [str "Merge.inputs_2"]⟩),
   (str "Merge", ⟨.string (str "Merge"), .list []⟩),
   (str "Bin", ⟨.string (str "BinomialCrossEntropy"), .list []⟩)]

/-- Which layers of a network complete their passes for 3 time steps and 2 sequences. -/
def badSummary : List (Name × Bool × Bool) :=
  match instantiateFuel 8 (libEnv badKwargs) (demoOrders true) badArch with
  | some (.ok ls) => ls.map fun e => match Dict.get? badArch e.1 with
    | some ⟨.string t, _⟩ => match Dict.get? passes (t ++ str "LayerImpl") with
      | some p => (e.1, (p.forward ⟨e.2.kwargs, e.2.inShapes⟩ (viewsOf e.2.inShapes e.2.shapes 3 2) true).isSome,
          (p.backward ⟨e.2.kwargs, e.2.inShapes⟩ (viewsOf e.2.inShapes e.2.shapes 3 2)).isSome)
      | none => (e.1, false, false)
    | _ => (e.1, false, false)
  | _ => []

/-- It is instantiated, and the three layers fail as the theorems say. -/
example : badSummary = [(str "Input", true, true), (str "Fc", false, false), (str "Bin", true, false),
    (str "Merge", false, false)] := by decide +kernel

end Verif.Shapes
