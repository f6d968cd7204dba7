import Verif.Instantiate.Model

/-!
# The `setup` methods of the layer types (`brainstorm/layers/*.py`)

What every layer type of the library expects (keyword arguments, inputs) and the structures of the outputs, parameters and
internal buffers it declares.

Simplifications: integers are natural numbers (a negative `size`, or a convolution whose kernel is larger than the padded
image, would be accepted by the code with negative sizes; here the layer is not created).  Which exception is raised is not
modelled.  Attributes that do not influence shapes (activation function, drop probability, ...) are not looked at.  The
names of external inputs are not empty and contain neither dots nor `@` (otherwise no layout can be created).
-/

namespace Verif.Setup

open Verif.Structure Verif.Instantiate

/-- A dictionary of external inputs: the `out_shapes` of the input layer. -/
structure InputShapes where
  entries : List (Name × List Tok)
  nodup : (entries.map Prod.fst).Nodup
  plain : ∀ e ∈ entries, e.1 ≠ [] ∧ '.' ∉ e.1 ∧ '@' ∉ e.1

/-- The value of a keyword argument. -/
inductive KVal
  | int (n : Nat)
  /-- a tuple or list of integers -/
  | ints (l : List Nat)
  | num (q : Rat)
  | string (s : Name)
  | shapes (s : InputShapes)
  | other

/-- Keyword arguments. -/
abbrev Kwargs := Dict Name KVal

/-- `BufferStructure(*shape, context_size=ctx, is_backward_only=back)` (buffer_structure.py:117-138); `none` is an exception. -/
def mk? (shape : List Tok) (ctx : Nat := 0) (back : Bool := false) : Option Struct :=
  match Struct.validate ⟨shape, ctx, back⟩ with
  | .ok _ => some ⟨shape, ctx, back⟩
  | .error _ => none

/-- `BufferStructure('T', 'B', *features)`. -/
def tb? (features : List Tok) (ctx : Nat := 0) (back : Bool := false) : Option Struct := mk? (.T :: .B :: features) ctx back

/-- `in_shapes[k]`.  An object of type `BufferStructure` is always legal: the constructor validates (buffer_structure.py:138). -/
def inp (ins : Dict Name Struct) (k : Name) : Option Struct :=
  match Dict.get? ins k with
  | none => none
  | some s => match s.validate with
    | .ok _ => some s
    | .error _ => none

/-- What a `setup` method declares; `none` where creating the structure raises. -/
structure Decl where
  outs : List (Name × Option Struct)
  params : List (Name × Option Struct)
  internals : List (Name × Option Struct)

/-- Filling an `OrderedDict`; fails if one of the structures is illegal. -/
def declare : List (Name × Option Struct) → Option (Dict Name Struct)
  | [] => some []
  | (_, none) :: _ => none
  | (k, some s) :: rest => (declare rest).map ((k, s) :: ·)

/-- The three dictionaries `setup` returns. -/
def Decl.build (d : Decl) : Option Shapes :=
  match declare d.outs, declare d.params, declare d.internals with
  | some o, some p, some i => some ⟨o, p, i⟩
  | _, _, _ => none

/-- A layer class whose `setup` is given by a declaration. -/
structure DeclClass where
  expectedKwargs : List Name
  expectedInputs : Dict Name Template
  decl : Name → Kwargs → Dict Name Struct → Option Decl

/-- The class as seen by `Layer.__init__`. -/
def DeclClass.toClass (c : DeclClass) : LayerClass Kwargs where
  expectedKwargs := c.expectedKwargs
  expectedInputs := c.expectedInputs
  setup n kw ins := (c.decl n kw ins).bind Decl.build

/-- `StructureTemplate('T', 'B', '...')`. -/
def anyTB : Template := ⟨[.T, .B, .dots], 0⟩

/-- `StructureTemplate('...')`. -/
def anything : Template := ⟨[.dots], 0⟩

/-- `kwargs.get('size', default)` that has to be an `int` (e.g. recurrent_layer.py:28-31). -/
def intSize (kw : Kwargs) (dflt : Nat) : Option Nat :=
  match Dict.get? kw (str "size") with
  | none => some dflt
  | some (.int n) => some n
  | some _ => none

/-- The feature shape of the output: `size` or that of the input (fully_connected_layer.py:33-38). -/
def fcShape (kw : Kwargs) (x : Struct) : Option (List Tok) :=
  match Dict.get? kw (str "size") with
  | none => some x.featureShape
  | some (.int n) => some [.n n]
  | some (.ints l) => some (l.map .n)
  | some _ => none

/-- `FullyConnectedLayerImpl.setup` (fully_connected_layer.py:27-50). -/
def fullyConnected : DeclClass where
  expectedKwargs := [str "size", str "activation"]
  expectedInputs := [(str "default", anyTB)]
  decl _ kw ins := do
    let x ← inp ins (str "default")
    let size ← fcShape kw x
    let out ← tb? size
    return ⟨[(str "default", some out)],
      [(str "W", mk? [.n out.featureSize, .n x.featureSize]), (str "bias", mk? [.n out.featureSize])], []⟩

/-- `ElementwiseLayerImpl.setup` (elementwise_layer.py:23-28), `NoOpLayerImpl.setup` (noop_layer.py:22-26) and
`DeltasScalingLayerImpl.setup` (deltas_scaling_layer.py:27-35) after its check: the outputs are the inputs. -/
def sameShape (ins : Dict Name Struct) : Option Decl := do
  let x ← inp ins (str "default")
  return ⟨[(str "default", some x)], [], []⟩

/-- elementwise_layer.py:21-28. -/
def elementwise : DeclClass where
  expectedKwargs := [str "activation"]
  expectedInputs := [(str "default", anyTB)]
  decl _ _ ins := sameShape ins

/-- noop_layer.py:20-26. -/
def noOp : DeclClass where
  expectedKwargs := []
  expectedInputs := [(str "default", anyTB)]
  decl _ _ ins := sameShape ins

/-- deltas_scaling_layer.py:26-35. -/
def deltasScaling : DeclClass where
  expectedKwargs := [str "factor"]
  expectedInputs := [(str "default", anyTB)]
  decl _ kw ins := if Dict.has kw (str "factor") then sameShape ins else none

/-- `HighwayLayerImpl.setup` (highway_layer.py:20-38). -/
def highway : DeclClass where
  expectedKwargs := []
  expectedInputs := [(str "H", anyTB), (str "T", anyTB), (str "x", anyTB)]
  decl _ _ ins := do
    let h ← inp ins (str "H")
    let t ← inp ins (str "T")
    let x ← inp ins (str "x")
    if h.shape ≠ t.shape then none
    else if h.shape ≠ x.shape then none
    else return ⟨[(str "default", tb? x.featureShape)], [], []⟩

/-- `DropoutLayerImpl.setup` (dropout_layer.py:23-34). -/
def dropout : DeclClass where
  expectedKwargs := [str "drop_prob"]
  expectedInputs := [(str "default", anyTB)]
  decl _ _ ins := do
    let x ← inp ins (str "default")
    return ⟨[(str "default", some x)], [], [(str "mask", some x)]⟩

/-- `MaskLayerImpl.setup` (mask_layer.py:20-42). -/
def mask : DeclClass where
  expectedKwargs := []
  expectedInputs := [(str "default", anyTB), (str "mask", anyTB)]
  decl _ _ ins := do
    let x ← inp ins (str "default")
    let m ← inp ins (str "mask")
    if m.featureShape = [.n 1] ∨ m.featureShape = x.featureShape.dropLast ++ [.n 1] ∨ m.featureShape = x.featureShape then
      return ⟨[(str "default", some x)], [], []⟩
    else none

/-- `MergeLayerImpl.setup` (merge_layer.py:20-44). -/
def merge : DeclClass where
  expectedKwargs := []
  expectedInputs := [(str "inputs_1", anything), (str "inputs_2", anything)]
  decl _ _ ins := do
    let x ← inp ins (str "inputs_1")
    let y ← inp ins (str "inputs_2")
    if x.shape.dropLast ≠ y.shape.dropLast then none
    else return ⟨[(str "default",
      mk? (x.shape.dropLast ++ [.n ((x.shape.getLastD (.n 0)).size + (y.shape.getLastD (.n 0)).size)]))], [], []⟩

/-- `LossLayerImpl.setup` (loss_layer.py:21-36). -/
def loss : DeclClass where
  expectedKwargs := [str "importance"]
  expectedInputs := [(str "default", anything)]
  decl name _ ins := do
    let _ ← inp ins (str "default")
    if name = str "total_loss" then none
    else return ⟨[(str "loss", mk? [.n 1])], [], []⟩

/-- `L1DecayLayerImpl.setup` (l1_decay.py:22-33). -/
def l1Decay : DeclClass where
  expectedKwargs := []
  expectedInputs := [(str "default", anyTB)]
  decl _ _ ins := do
    let x ← inp ins (str "default")
    return ⟨[(str "loss", tb? [.n 1])], [], [(str "tmp", some x)]⟩

/-- `L2DecayLayerImpl.setup` (l2_decay.py:22-35). -/
def l2Decay : DeclClass where
  expectedKwargs := []
  expectedInputs := [(str "default", anyTB)]
  decl _ _ ins := do
    let x ← inp ins (str "default")
    return ⟨[(str "loss", tb? [.n 1])], [], [(str "tmp", some x), (str "dsq_activations", mk? x.shape 0 true)]⟩

/-- `InputLayerImpl.setup` (input_layer.py:25-39); `_validate_connections` (41-47) forbids incoming connections, without which
there are no input shapes. -/
def input : DeclClass where
  expectedKwargs := [str "out_shapes"]
  expectedInputs := []
  decl _ kw ins := match Dict.get? kw (str "out_shapes") with
    | some (.shapes s) => if ins.isEmpty then some ⟨s.entries.map (fun e => (e.1, mk? e.2)), [], []⟩ else none
    | _ => none

/-- `RecurrentLayerImpl.setup` (recurrent_layer.py:23-49). -/
def recurrent : DeclClass where
  expectedKwargs := [str "size", str "activation"]
  expectedInputs := [(str "default", anyTB)]
  decl _ kw ins := do
    let x ← inp ins (str "default")
    let n ← intSize kw x.featureSize
    return ⟨[(str "default", tb? [.n n] 1)],
      [(str "W", mk? [.n n, .n x.featureSize]), (str "R", mk? [.n n, .n n]), (str "bias", mk? [.n n])],
      [(str "Ha", tb? [.n n] 1), (str "dHa", tb? [.n n] 1 true), (str "dHb", tb? [.n n] 1 true)]⟩

/-- `ClockworkLayerImpl.setup` (clockwork_layer.py:21-53). -/
def clockwork : DeclClass where
  expectedKwargs := [str "size", str "activation"]
  expectedInputs := [(str "default", anyTB)]
  decl _ kw ins := do
    let x ← inp ins (str "default")
    let n ← intSize kw x.featureSize
    return ⟨[(str "default", tb? [.n n] 1)],
      [(str "W", mk? [.n n, .n x.featureSize]), (str "R", mk? [.n n, .n n]), (str "bias", mk? [.n n]),
        (str "timing", mk? [.n n])],
      [(str "Ha", tb? [.n n] 1), (str "dHa", tb? [.n n] 1 true), (str "dHb", tb? [.n n] 1 true)]⟩

/-- The parameters of an LSTM (lstm_layer.py:38-55, clockwork_lstm_layer.py:40-58). -/
def lstmParams (n m : Nat) : List (Name × Option Struct) :=
  [(str "Wz", mk? [.n n, .n m]), (str "Wi", mk? [.n n, .n m]), (str "Wf", mk? [.n n, .n m]), (str "Wo", mk? [.n n, .n m]),
   (str "pi", mk? [.n 1, .n n]), (str "pf", mk? [.n 1, .n n]), (str "po", mk? [.n 1, .n n]),
   (str "Rz", mk? [.n n, .n n]), (str "Ri", mk? [.n n, .n n]), (str "Rf", mk? [.n n, .n n]), (str "Ro", mk? [.n n, .n n]),
   (str "bz", mk? [.n n]), (str "bi", mk? [.n n]), (str "bf", mk? [.n n]), (str "bo", mk? [.n n])]

/-- The internal buffers of an LSTM (lstm_layer.py:57-87, clockwork_lstm_layer.py:62-93). -/
def lstmInternals (n : Nat) : List (Name × Option Struct) :=
  [(str "Za", tb? [.n n] 1), (str "Zb", tb? [.n n] 1), (str "Ia", tb? [.n n] 1), (str "Ib", tb? [.n n] 1),
   (str "Fa", tb? [.n n] 1), (str "Fb", tb? [.n n] 1), (str "Oa", tb? [.n n] 1), (str "Ob", tb? [.n n] 1),
   (str "Ca", tb? [.n n] 1), (str "Cb", tb? [.n n] 1),
   (str "dZa", tb? [.n n] 1 true), (str "dZb", tb? [.n n] 1 true), (str "dIa", tb? [.n n] 1 true), (str "dIb", tb? [.n n] 1 true),
   (str "dFa", tb? [.n n] 1 true), (str "dFb", tb? [.n n] 1 true), (str "dOa", tb? [.n n] 1 true), (str "dOb", tb? [.n n] 1 true),
   (str "dCa", tb? [.n n] 1 true), (str "dCb", tb? [.n n] 1 true)]

/-- `LstmLayerImpl.setup` (lstm_layer.py:23-88). -/
def lstm : DeclClass where
  expectedKwargs := [str "size", str "activation"]
  expectedInputs := [(str "default", anyTB)]
  decl _ kw ins := do
    let x ← inp ins (str "default")
    let n ← intSize kw x.featureSize
    return ⟨[(str "default", tb? [.n n] 1)], lstmParams n x.featureSize, lstmInternals n⟩

/-- `ClockworkLstmLayerImpl.setup` (clockwork_lstm_layer.py:21-95). -/
def clockworkLstm : DeclClass where
  expectedKwargs := [str "size", str "activation"]
  expectedInputs := [(str "default", anyTB)]
  decl _ kw ins := do
    let x ← inp ins (str "default")
    let n ← intSize kw x.featureSize
    return ⟨[(str "default", tb? [.n n] 1)], lstmParams n x.featureSize ++ [(str "timing", mk? [.n n])], lstmInternals n⟩

/-- `0.0 <= decay <= 1.0` with the default 0.9 (batch_normalization_layer.py:34-35). -/
def decayOk (kw : Kwargs) : Bool :=
  match Dict.get? kw (str "decay") with
  | none => true
  | some (.num q) => decide (0 ≤ q ∧ q ≤ 1)
  | some (.int n) => decide (n ≤ 1)
  | some _ => false

/-- `BatchNormLayerImpl.setup` (batch_normalization_layer.py:29-52). -/
def batchNorm : DeclClass where
  expectedKwargs := [str "decay", str "epsilon"]
  expectedInputs := [(str "default", anyTB)]
  decl _ kw ins := do
    let x ← inp ins (str "default")
    if decayOk kw then
      let buf := mk? [x.featureShape.getLastD (.n 0)]
      return ⟨[(str "default", some x)], [(str "gamma", buf), (str "beta", buf), (str "mu", buf), (str "sigma", buf)],
        [(str "sigma_b", buf), (str "centered", some x), (str "x_hat", some x)]⟩
    else none

/-- `SigmoidCELayerImpl.setup` (sigmoid_ce_layer.py:34-56). -/
def sigmoidCE : DeclClass where
  expectedKwargs := []
  expectedInputs := [(str "default", anyTB), (str "targets", anyTB)]
  decl _ _ ins := do
    let x ← inp ins (str "default")
    let t ← inp ins (str "targets")
    if t.featureShape ≠ x.featureShape then none
    else return ⟨[(str "predictions", tb? x.featureShape), (str "loss", tb? x.featureShape)], [],
      [(str "dcee", tb? x.featureShape 0 true)]⟩

/-- `SoftmaxCELayerImpl.setup` (softmax_ce_layer.py:36-63). -/
def softmaxCE : DeclClass where
  expectedKwargs := []
  expectedInputs := [(str "default", anyTB), (str "targets", anyTB)]
  decl _ _ ins := do
    let x ← inp ins (str "default")
    let t ← inp ins (str "targets")
    if t.featureShape.length ≠ x.featureShape.length then none
    else if t.featureShape.dropLast ≠ x.featureShape.dropLast then none
    else if t.featureShape.getLastD (.n 0) ≠ .n 1 then none
    else return ⟨[(str "predictions", tb? x.featureShape), (str "loss", tb? t.featureShape)], [],
      [(str "t_bin", tb? x.featureShape 0 true)]⟩

/-- `SquaredDifferenceLayerImpl.setup` (squared_difference_layer.py:21-40). -/
def squaredDifference : DeclClass where
  expectedKwargs := []
  expectedInputs := [(str "inputs_1", anyTB), (str "inputs_2", anyTB)]
  decl _ _ ins := do
    let x ← inp ins (str "inputs_1")
    let y ← inp ins (str "inputs_2")
    if x.featureShape ≠ y.featureShape then none
    else return ⟨[(str "default", tb? x.featureShape)], [], [(str "diff", tb? x.featureShape)]⟩

/-- `SquaredErrorLayerImpl.setup` (squared_error_layer.py:33-54). -/
def squaredError : DeclClass where
  expectedKwargs := []
  expectedInputs := [(str "default", anyTB), (str "targets", anyTB)]
  decl _ _ ins := do
    let x ← inp ins (str "default")
    let t ← inp ins (str "targets")
    if x.featureShape ≠ t.featureShape then none
    else return ⟨[(str "predictions", tb? x.featureShape), (str "loss", tb? x.featureShape)], [],
      [(str "diff", tb? x.featureShape)]⟩

/-- `BinomialCrossEntropyLayerImpl.setup` (binomial_cross_entropy_layer.py:34-57). -/
def binomialCE : DeclClass where
  expectedKwargs := []
  expectedInputs := [(str "default", anyTB), (str "targets", anyTB)]
  decl _ _ ins := do
    let x ← inp ins (str "default")
    let t ← inp ins (str "targets")
    if x.shape ≠ t.shape then none
    else return ⟨[(str "default", tb? [.n 1])], [],
      [(str "cee", tb? x.featureShape), (str "ceed", tb? x.featureShape 0 true)]⟩

/-- `(size + 2 * padding - kernel) // stride + 1` (convolution_layer_2d.py:61-64, pooling_layer_2d.py:56-59); `none` for a
stride of 0 (`ZeroDivisionError`) and, a simplification, for a negative result. -/
def windowCount (size padding kernel stride : Nat) : Option Nat :=
  if stride = 0 then none
  else
    let v := Int.fdiv ((size : Int) + 2 * padding - kernel) stride + 1
    if v < 0 then none else some v.toNat

/-- `kwargs.get(k, default)` that has to be a tuple or list of two numbers (convolution_layer_2d.py:43-47). -/
def pairArg (kw : Kwargs) (k : Name) (dflt : Option (Nat × Nat)) : Option (Nat × Nat) :=
  match Dict.get? kw k with
  | none => dflt
  | some (.ints [a, b]) => some (a, b)
  | some _ => none

/-- `kwargs.get(k, default)` that has to be an `int`. -/
def intArg (kw : Kwargs) (k : Name) (dflt : Option Nat) : Option Nat :=
  match Dict.get? kw k with
  | none => dflt
  | some (.int n) => some n
  | some _ => none

/-- `Convolution2DLayerImpl.setup` (convolution_layer_2d.py:27-76). -/
def convolution2D : DeclClass where
  expectedKwargs := [str "num_filters", str "kernel_size", str "stride", str "padding", str "activation"]
  expectedInputs := [(str "default", anyTB)]
  decl _ kw ins := do
    let x ← inp ins (str "default")
    let filters ← intArg kw (str "num_filters") none
    let kernel ← pairArg kw (str "kernel_size") none
    let stride ← pairArg kw (str "stride") (some (1, 1))
    let padding ← intArg kw (str "padding") (some 0)
    match x.featureShape with
    | [.n h, .n w, .n c] =>
      let oh ← windowCount h padding kernel.1 stride.1
      let ow ← windowCount w padding kernel.2 stride.2
      return ⟨[(str "default", tb? [.n oh, .n ow, .n filters])],
        [(str "W", mk? [.n filters, .n kernel.1, .n kernel.2, .n c]), (str "bias", mk? [.n filters])], []⟩
    | _ => none

/-- `kwargs['type']`, which has to be `'max'` or `'avg'` (pooling_layer_2d.py:31-37). -/
def poolIsMax (kw : Kwargs) : Option Bool :=
  match Dict.get? kw (str "type") with
  | some (.string t) => if t = str "max" then some true else if t = str "avg" then some false else none
  | _ => none

/-- `Pooling2DLayerImpl.setup` (pooling_layer_2d.py:24-72). -/
def pooling2D : DeclClass where
  expectedKwargs := [str "kernel_size", str "type", str "stride", str "padding", str "activation_function"]
  expectedInputs := [(str "default", anyTB)]
  decl _ kw ins := do
    let x ← inp ins (str "default")
    let kernel ← pairArg kw (str "kernel_size") none
    let isMax ← poolIsMax kw
    let padding ← intArg kw (str "padding") (some 0)
    let stride ← pairArg kw (str "stride") (some (1, 1))
    match x.featureShape with
    | [.n h, .n w, .n c] =>
      let oh ← windowCount h padding kernel.1 stride.1
      let ow ← windowCount w padding kernel.2 stride.2
      if oh = 0 ∨ ow = 0 then none
      else return ⟨[(str "default", tb? [.n oh, .n ow, .n c])], [],
        if isMax then [(str "argmax", tb? [.n oh, .n ow, .n c])] else []⟩
    | _ => none

/-- The layer classes of the library (`get_inheritors(Layer)`, base_layer.py:10-16) by class name. -/
def library : List (Name × DeclClass) :=
  [(str "FullyConnectedLayerImpl", fullyConnected), (str "ElementwiseLayerImpl", elementwise), (str "NoOpLayerImpl", noOp),
   (str "DeltasScalingLayerImpl", deltasScaling), (str "HighwayLayerImpl", highway), (str "DropoutLayerImpl", dropout),
   (str "MaskLayerImpl", mask), (str "MergeLayerImpl", merge), (str "LossLayerImpl", loss), (str "L1DecayLayerImpl", l1Decay),
   (str "L2DecayLayerImpl", l2Decay), (str "InputLayerImpl", input), (str "RecurrentLayerImpl", recurrent),
   (str "ClockworkLayerImpl", clockwork), (str "LstmLayerImpl", lstm), (str "ClockworkLstmLayerImpl", clockworkLstm),
   (str "BatchNormLayerImpl", batchNorm), (str "SigmoidCELayerImpl", sigmoidCE), (str "SoftmaxCELayerImpl", softmaxCE),
   (str "SquaredDifferenceLayerImpl", squaredDifference), (str "SquaredErrorLayerImpl", squaredError),
   (str "BinomialCrossEntropyLayerImpl", binomialCE), (str "Convolution2DLayerImpl", convolution2D),
   (str "Pooling2DLayerImpl", pooling2D)]

/-- The environment in which the layers of the library are instantiated, given the keyword arguments of every layer. -/
def libEnv (kwargs : Name → Kwargs) : Env Kwargs where
  classOf t := (Dict.get? library t).map DeclClass.toClass
  kwargs := kwargs
  keys := Dict.keys

end Verif.Setup
