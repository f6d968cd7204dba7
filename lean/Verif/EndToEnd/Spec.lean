import Verif.Memory.LibraryProps
import Verif.Shapes.Props

/-!
# Specification for C75: which architectures can be trained, and what their layers compute

`Describes` says which function a layer of a given type with given keyword arguments is, `Trainable` which architectures
are meant.
-/

namespace Verif.EndToEnd

open Verif.Structure Verif.Layout Verif.Architecture Verif.Layers Verif.Memory
open Verif.Setup (Kwargs KVal pairArg intArg poolIsMax)

/-- The activation function with this name (base_handler.py:42-72). -/
def actNamed (s : Name) : Option Act :=
  if s = str "sigmoid" then some .sigmoid
  else if s = str "rel" then some .rel
  else if s = str "tanh" then some .tanh
  else if s = str "linear" then some .linear
  else if s = str "el" then some .el
  else none

/-- `kwargs.get('activation', default)` (e.g. fully_connected_layer.py:31), looked up by name. -/
def actOf (kw : Kwargs) (dflt : Act) : Option Act :=
  match Dict.get? kw (str "activation") with
  | none => some dflt
  | some (.string s) => actNamed s
  | some _ => none

/-- `kwargs.get(k, default)`, which has to be a number (dropout_layer.py:27, loss_layer.py:27). -/
def numArg (kw : Kwargs) (k : Name) (dflt : ℝ) : Option ℝ :=
  match Dict.get? kw k with
  | none => some dflt
  | some (.int n) => some n
  | some (.num q) => some q
  | some _ => none

/-- What does not follow from the architecture: whether this is a training pass, the smallest number and the casts by which
max-pooling stores indices in arrays of floats, and which random numbers the dropout layers use. -/
structure Mode where
  training : Bool
  lo : ℝ
  store : ℤ → ℝ
  load : ℝ → ℤ
  random : Name → ℕ

/-- The numbers in the geometry of a convolution (convolution_layer_2d.py:27-76). -/
structure ConvArgs (kw : Kwargs) (x : Struct) (g : Conv.Geom) (nf : ℕ) : Prop where
  image : x.featureShape = [.n g.H, .n g.W, .n g.C]
  filters : intArg kw (str "num_filters") none = some nf
  kernel : pairArg kw (str "kernel_size") none = some (g.KH, g.KW)
  stride : pairArg kw (str "stride") (some (1, 1)) = some (g.sh, g.sw)
  top : intArg kw (str "padding") (some 0) = some g.pt
  bottom : intArg kw (str "padding") (some 0) = some g.pb
  left : intArg kw (str "padding") (some 0) = some g.pl
  right : intArg kw (str "padding") (some 0) = some g.pr

/-- The numbers in the geometry of a pooling layer (pooling_layer_2d.py:24-72). -/
structure PoolArgs (kw : Kwargs) (x y : Struct) (g : Pool.Geom) (isMax : Bool) : Prop where
  image : x.featureShape = [.n g.H, .n g.W, .n g.nc]
  outputs : y.featureShape = [.n g.OH, .n g.OW, .n g.nc]
  kind : poolIsMax kw = some isMax
  kernel : pairArg kw (str "kernel_size") none = some (g.KH, g.KW)
  stride : pairArg kw (str "stride") (some (1, 1)) = some (g.sy, g.sx)
  padding : intArg kw (str "padding") (some 0) = some g.p

/-- The function with its settings is that of a layer of type `type` with the keyword arguments `kw`.  The settings and their
defaults are read in `setup`: activation functions in fully_connected_layer.py:31, elementwise_layer.py:27,
recurrent_layer.py:27, clockwork_layer.py:27, lstm_layer.py:27, clockwork_lstm_layer.py:27 and convolution_layer_2d.py:32,
numbers in dropout_layer.py:27 and loss_layer.py:27, geometries in convolution_layer_2d.py:27-76 and
pooling_layer_2d.py:24-72; the sizes are those of the shapes that `setup` declares (C63).  Targets that are not numbers of classes
are counted as class 0 (in the code, they raise exceptions, are rounded or count from the end). -/
def Describes {layers : List LayerInfo} {data l : LayerInfo} {T B : ℕ} (M : Mode) (type : Name) (kw : Kwargs) :
    LibLayer layers data l T B → Prop
  | .fullyConnected a _ _ _ _ _ _ => type = str "FullyConnected" ∧ actOf kw .rel = some a
  | .elementwise a _ _ _ => type = str "Elementwise" ∧ actOf kw .rel = some a
  | .noOp _ _ _ => type = str "NoOp"
  | .highway _ _ _ _ _ _ _ _ _ _ _ _ => type = str "Highway"
  | .merge _ m n x y z _ _ _ _ _ => type = str "Merge" ∧
      x.bufferType = z.bufferType ∧ y.bufferType = z.bufferType ∧
      ∃ p, x.featureShape = p ++ [.n m] ∧ y.featureShape = p ++ [.n n] ∧ z.featureShape = p ++ [.n (m + n)]
  | .mask _ n x k _ _ _ _ _ => type = str "Mask" ∧ Seq k ∧
      ((k.featureShape = [.n 1] ∧ n = x.featureSize) ∨
       (k.featureShape = x.featureShape.dropLast ++ [.n 1] ∧ x.featureShape.getLast? = some (.n n)))
  | .maskFull x k _ _ _ _ _ => type = str "Mask" ∧ k.featureShape = x.featureShape
  | .dropout training q off _ _ _ _ => type = str "Dropout" ∧ training = M.training ∧
      numArg kw (str "drop_prob") 0.5 = some q ∧ off = M.random l.name
  | .squaredDifference _ _ _ _ _ _ _ _ _ _ _ _ _ => type = str "SquaredDifference"
  | .squaredError _ _ _ _ _ _ _ _ _ _ _ _ _ _ _ _ _ _ => type = str "SquaredError"
  | .sigmoidCE _ _ _ _ _ _ _ _ _ _ _ _ _ _ => type = str "SigmoidCE"
  | .softmaxCE _ n dec x _ _ _ _ _ _ _ _ _ _ _ _ _ _ => type = str "SoftmaxCE" ∧ x.featureShape.getLast? = some (.n n) ∧
      (∀ j : Fin n, dec (j : ℕ) = j) ∧ ∀ r : ℝ, (∀ j : Fin n, r ≠ (j : ℕ)) → (dec r : ℕ) = 0
  | .binomialCE _ _ _ _ _ _ _ _ _ _ _ _ _ _ => type = str "BinomialCrossEntropy"
  | .l1Decay _ _ _ _ _ _ _ => type = str "L1Decay"
  | .l2Decay _ _ _ _ _ _ _ => type = str "L2Decay"
  | .loss importance _ _ _ => type = str "Loss" ∧ numArg kw (str "importance") 1 = some importance
  | .recurrent a _ _ _ _ => type = str "Recurrent" ∧ actOf kw .tanh = some a
  | .clockwork a _ _ _ _ => type = str "Clockwork" ∧ actOf kw .tanh = some a
  | .lstm a _ _ _ _ => type = str "Lstm" ∧ actOf kw .tanh = some a
  | .clockworkLstm a _ _ _ _ => type = str "ClockworkLstm" ∧ actOf kw .tanh = some a
  | .convolution2D a g _ nf x _ _ _ _ _ _ _ _ _ => type = str "Convolution2D" ∧ actOf kw .tanh = some a ∧ ConvArgs kw x g nf
  | .avgPooling2D g x y _ _ _ _ _ => type = str "Pooling2D" ∧ PoolArgs kw x y g false
  | .maxPooling2D g lo store load x y _ _ _ _ _ _ _ _ _ => type = str "Pooling2D" ∧ PoolArgs kw x y g true ∧ lo = M.lo ∧
      store = M.store ∧ load = M.load

/-- The layer `n` of the architecture has the type `t`. -/
def HasType (a : Arch) (n t : Name) : Prop := ∃ d, (n, d) ∈ a ∧ d.type = .string t

/-- What the theorem asks of an architecture besides being accepted. -/
structure Trainable (a : Arch) : Prop where
  /-- One Input layer. -/
  oneInput : ∀ n m, HasType a n (str "Input") → HasType a m (str "Input") → n = m
  /-- No layer that changes parameters in the forward pass, none that does not compute derivatives on purpose. -/
  noBatchNorm : ∀ n, ¬ HasType a n (str "BatchNorm")
  noScaling : ∀ n, ¬ HasType a n (str "DeltasScaling")
  /-- No layer is called like the arrays at the root. -/
  names : ∀ n ∈ Dict.keys a, n ≠ str "parameters" ∧ n ≠ str "gradients"
  /-- Nothing is connected to an internal buffer. -/
  noInternals : ∀ c, HasConnection a c → ¬ str "..internals." <+: c.outputName
  /-- Nothing is connected to two inputs of the same layer. -/
  once : ∀ c c', HasConnection a c → HasConnection a c' → c.startLayer = c'.startLayer → c.outputName = c'.outputName →
    c.endLayer = c'.endLayer → c.inputName = c'.inputName
  /-- Targets and masks are data. -/
  data : ∀ c, HasConnection a c → c.inputName = str "targets" ∨ c.inputName = str "mask" → HasType a c.startLayer (str "Input")
  /-- Predictions of cost layers and losses are not used any further. -/
  predictions : ∀ c, HasConnection a c → c.outputName = str "predictions" → HasType a c.startLayer (str "Input")
  losses : ∀ c, HasConnection a c → ¬ HasType a c.startLayer (str "Loss")
  /-- The parameters of layers that overwrite their gradients are not used by other layers. -/
  parameters : ∀ c, HasConnection a c → HasType a c.startLayer (str "FullyConnected") ∨ HasType a c.startLayer (str "Convolution2D") →
    ¬ str "..parameters." <+: c.outputName

/-- Settings that have to be numbers, if they are given. -/
structure Numeric (a : Arch) (kwargs : Name → Kwargs) : Prop where
  dropProb : ∀ n, HasType a n (str "Dropout") → ∀ v, Dict.get? (kwargs n) (str "drop_prob") = some v →
    (∃ k, v = .int k) ∨ ∃ q, v = .num q
  importance : ∀ n, HasType a n (str "Loss") → ∀ v, Dict.get? (kwargs n) (str "importance") = some v →
    (∃ k, v = .int k) ∨ ∃ q, v = .num q

/-- All layers are of types that are differentiable everywhere, with their settings: none is rectified, and pooling takes
averages.  `FullyConnected` and `Elementwise` are rectified by default. -/
structure Smooth (a : Arch) (kwargs : Name → Kwargs) : Prop where
  types : ∀ n t, HasType a n t → t ∈ [str "Input", str "FullyConnected", str "Elementwise", str "NoOp", str "Highway", str "Merge",
    str "Mask", str "SquaredDifference", str "SquaredError", str "L2Decay", str "Loss", str "Recurrent", str "Clockwork",
    str "Convolution2D", str "Pooling2D"]
  given : ∀ n, HasType a n (str "FullyConnected") ∨ HasType a n (str "Elementwise") → actOf (kwargs n) .rel ≠ some .rel
  notRel : ∀ n, HasType a n (str "Recurrent") ∨ HasType a n (str "Clockwork") ∨ HasType a n (str "Convolution2D") →
    actOf (kwargs n) .tanh ≠ some .rel
  average : ∀ n, HasType a n (str "Pooling2D") → poolIsMax (kwargs n) = some false

end Verif.EndToEnd
