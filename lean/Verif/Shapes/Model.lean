import Verif.Setup.Model
import Verif.Buffers.Model

/-!
# The shapes in the passes of the layers

`forward_pass` and `backward_pass` of all layer types (`brainstorm/layers/*.py`), looking only at the shapes of the arrays.
A program is a value of `Option Unit`; `none` is an exception.  Every handler operation checks its arguments as
`DebugHandler` asserts (debug_handler.py:89-548); where the shapes are left open there by a `TODO` (`sum_t`, `conv2d_*`,
`*pool2d_*`) or not checked (`merge_tt`, `split_add_tt`, `softmax_m`), also what `NumpyHandler` needs (numpy_handler.py:74-309).

Simplifications: the numbers in the arrays are not modelled, so neither are checks of values (class indices, NaN, a division
by a drop probability or batch size).  Arguments that are numbers are left out.  Operations that accept every array (`fill`,
`generate_probability_mask`) are left out.  Arrays allocated with the shape of another array are represented by that shape.
-/

namespace Verif.Shapes

open Verif.Structure Verif.Instantiate
open Verif.Setup (Kwargs KVal inp intSize pairArg intArg poolIsMax)

/-- The shape of an array. -/
abbrev Sh := List Nat

/-- `assert p`. -/
def check (p : Prop) [Decidable p] : Option Unit := if p then some () else none

/-! ### Views and reshaping -/

/-- `a.reshape(shape)`: only if the number of elements is the same. -/
def reshape (a shape : Sh) : Option Sh := if a.prod = shape.prod then some shape else none

/-- `flatten_time` (utils.py:150-154). -/
def flattenTime : Sh → Option Sh
  | t :: b :: f :: fs => reshape (t :: b :: f :: fs) ((t * b) :: f :: fs)
  | _ => none

/-- `flatten_time_and_features` (utils.py:157-161). -/
def flattenTF : Sh → Option Sh
  | t :: b :: f :: fs => reshape (t :: b :: f :: fs) [t * b, (f :: fs).prod]
  | _ => none

/-- `flatten_all_but_last` (utils.py:169-170); `IndexError` for an array without dimensions. -/
def flattenAllButLast (a : Sh) : Option Sh :=
  match a.getLast? with
  | none => none
  | some k => reshape a [a.dropLast.prod, k]

/-- `a[i]`: `IndexError` unless `-len <= i < len`. -/
def idx (a : Sh) (i : Int) : Option Sh :=
  match a with
  | [] => none
  | n :: rest => if -(n : Int) ≤ i ∧ i < n then some rest else none

/-- `a[start:-cut]` for `cut > 0`; slices never fail, they are empty if start and stop cross. -/
def slice (a : Sh) (start cut : Nat) : Option Sh :=
  match a with
  | [] => none
  | n :: rest => some ((n - cut - start) :: rest)

/-- `a.shape[i]`: `IndexError` if there are not that many dimensions. -/
def dim (a : Sh) (i : Nat) : Option Nat := a[i]?

/-- `bias.reshape((1, n))`. -/
def row (a : Sh) (n : Nat) : Option Sh := reshape a [1, n]

/-! ### Handler operations -/

/-- `assert_shapes_equal(a, b)` (debug_handler.py:567-577). -/
def same2 (a b : Sh) : Option Unit := check (b = a)

/-- `assert_shapes_equal(a, b, c)`. -/
def same3 (a b c : Sh) : Option Unit := check (b = a ∧ c = a)

/-- debug_handler.py:89-94. -/
abbrev copyTo (src dest : Sh) := same2 src dest
/-- debug_handler.py:96-100. -/
abbrev copyToIf (src dest cond : Sh) := same3 src dest cond
/-- debug_handler.py:113-118. -/
abbrev fillIf (mem cond : Sh) := same2 mem cond
/-- debug_handler.py:140-144. -/
abbrev absT (a out : Sh) := same2 a out
/-- debug_handler.py:146-150. -/
abbrev addIntoIf (a out cond : Sh) := same3 a out cond
/-- debug_handler.py:161-166. -/
abbrev addST (t out : Sh) := same2 t out
/-- debug_handler.py:168-172. -/
abbrev addTT (a b out : Sh) := same3 a b out
/-- debug_handler.py:224-231. -/
abbrev clipT (a out : Sh) := same2 a out
/-- debug_handler.py:312-316. -/
abbrev divideTT (a b out : Sh) := same3 a b out
/-- debug_handler.py:339-343. -/
abbrev logT (a out : Sh) := same2 a out
/-- debug_handler.py:385-389. -/
abbrev moduloTT (a b out : Sh) := same3 a b out
/-- debug_handler.py:391-396. -/
abbrev multAddST (t out : Sh) := same2 t out
/-- debug_handler.py:398-402. -/
abbrev multAddTT (a b out : Sh) := same3 a b out
/-- debug_handler.py:422-427. -/
abbrev multST (t out : Sh) := same2 t out
/-- debug_handler.py:429-433. -/
abbrev multTT (a b out : Sh) := same3 a b out
/-- debug_handler.py:435-439. -/
abbrev signT (a out : Sh) := same2 a out
/-- debug_handler.py:447-451. -/
abbrev sqrtT (a out : Sh) := same2 a out
/-- debug_handler.py:462-466. -/
abbrev subtractTT (a b out : Sh) := same3 a b out
/-- debug_handler.py:479-483. -/
abbrev sigmoid (x y : Sh) := same2 x y

/-- A row or a column combined with every row or column of a matrix: `add_mv`, `divide_mv`, `mult_add_mv`, `subtract_mv`
(debug_handler.py:152-159, 303-310, 413-420, 453-460). -/
def opMV (m v out : Sh) : Option Unit :=
  match m with
  | [r, c] => check (out = m ∧ (v = [r, 1] ∨ v = [1, c]))
  | _ => none

/-- debug_handler.py:152-159. -/
abbrev addMV (m v out : Sh) := opMV m v out
/-- debug_handler.py:303-310. -/
abbrev divideMV (m v out : Sh) := opMV m v out
/-- debug_handler.py:413-420. -/
abbrev multAddMV (m v out : Sh) := opMV m v out
/-- debug_handler.py:453-460. -/
abbrev subtractMV (m v out : Sh) := opMV m v out

/-- `mult_mv` (debug_handler.py:404-411): the vector may also be a whole matrix. -/
def multMV (m v out : Sh) : Option Unit :=
  match m with
  | [r, c] => check (out = m ∧ (v = [r, 1] ∨ v = [1, c] ∨ v = m))
  | _ => none

/-- `dot_mm` (debug_handler.py:282-301) and `dot_add_mm` (debug_handler.py:264-280). -/
def dotMM (a b out : Sh) (transa : Bool := false) (transb : Bool := false) : Option Unit :=
  match a, b with
  | [a1, a2], [b1, b2] =>
    check ((if transa then a1 else a2) = (if transb then b2 else b1) ∧
      out = [if transa then a2 else a1, if transb then b1 else b2])
  | _, _ => none

/-- debug_handler.py:264-280. -/
abbrev dotAddMM (a b out : Sh) (transa : Bool := false) (transb : Bool := false) := dotMM a b out transa transb

/-- `sum_t(a, None, out)` (debug_handler.py:468-475, numpy_handler.py:268-273): the result has no dimensions. -/
def sumAll (_a out : Sh) : Option Unit := check (out = [])

/-- `sum_t(a, axis, out)` (debug_handler.py:468-475, numpy_handler.py:268-273): the axis is kept, with size 1, if `out` has as
many dimensions as `a`; otherwise it is removed. -/
def sumT (a : Sh) (axis : Nat) (out : Sh) : Option Unit :=
  check (axis < a.length ∧ if out.length = a.length then out = a.set axis 1 else out = a.eraseIdx axis)

/-- `broadcast_t` (debug_handler.py:215-222, numpy_handler.py:103-105). -/
def broadcastT (a : Sh) (axis : Nat) (out : Sh) : Option Unit :=
  check (axis < out.length ∧ a = out.take axis ++ 1 :: out.drop (axis + 1))

/-- `binarize_v` (debug_handler.py:206-213); that the classes are in range is not modelled. -/
def binarizeV (v out : Sh) : Option Unit :=
  match out with
  | [r, _] => check (v = [r, 1])
  | _ => none

/-- `index_m_by_v` (debug_handler.py:331-337). -/
def indexMByV (m v out : Sh) : Option Unit :=
  match m with
  | [r, _] => check (v = [r, 1] ∧ out = v)
  | _ => none

/-- `softmax_m` (debug_handler.py:543-548, numpy_handler.py:292-295): the maximum over no classes is a `ValueError` (for
simplicity also if there are no rows). -/
def softmaxM (m out : Sh) : Option Unit :=
  match m with
  | [_, c] => check (out = m ∧ c ≠ 0)
  | _ => none

/-- `a.reshape(-1, a.shape[-1])`: the number of rows; `IndexError` without dimensions, `ValueError` if the last dimension is 0
(the number of rows is not determined). -/
def rows (a : Sh) : Option (Nat × Nat) :=
  match a.getLast? with
  | none => none
  | some k => if k = 0 then none else some (a.dropLast.prod, k)

/-- `merge_tt(a, b, out)` (debug_handler.py:379-383, numpy_handler.py:221-225). -/
def mergeTT (a b out : Sh) : Option Unit := do
  let ra ← rows a
  let rb ← rows b
  let ro ← rows out
  check (ra.2 + rb.2 = ro.2 ∧ ra.1 = ro.1 ∧ rb.1 = ro.1)

/-- `split_add_tt(x, out_a, out_b)` (debug_handler.py:441-445, numpy_handler.py:251-256). -/
def splitAddTT (x outA outB : Sh) : Option Unit := do
  let ra ← rows outA
  let rb ← rows outB
  let rx ← rows x
  check (ra.2 + rb.2 = rx.2 ∧ ra.1 = rx.1 ∧ rb.1 = rx.1)

/-- The number of positions of a kernel: `(height + pad + pad - kernel) // stride + 1` (_cpuop.pyx:258-259, 288-289). -/
def positions (size padding kernel stride : Nat) : Int := Int.fdiv ((size : Int) + padding + padding - kernel) stride + 1

/-- `conv2d_forward_batch` (debug_handler.py:251-262, numpy_handler.py:149-171): images with as many channels as the filters,
one bias and one output map per filter, and one output pixel per position of the kernel (`im2col` writes that many rows
without checking bounds). -/
def convForward (inputs weights bias outputs : Sh) (padding : Nat) (stride : Nat × Nat) : Option Unit :=
  match inputs, weights, outputs with
  | [n, h, w, c], [f, kh, kw, c'], [n', oh, ow, f'] =>
    check (c' = c ∧ n' = n ∧ f' = f ∧ bias.prod = f ∧ (oh : Int) = positions h padding kh stride.1 ∧
      (ow : Int) = positions w padding kw stride.2)
  | _, _, _ => none

/-- `conv2d_backward_batch` (debug_handler.py:233-249, numpy_handler.py:110-147). -/
def convBackward (inputs weights : Sh) (padding : Nat) (stride : Nat × Nat) (inDeltas outDeltas dWeights dBias : Sh) :
    Option Unit :=
  match inputs, weights, outDeltas with
  | [n, h, w, c], [f, kh, kw, c'], [n', oh, ow, f'] =>
    check (c' = c ∧ n' = n ∧ f' = f ∧ inDeltas = inputs ∧ dWeights = weights ∧ dBias = [f] ∧
      (oh : Int) = positions h padding kh stride.1 ∧ (ow : Int) = positions w padding kw stride.2)
  | _, _, _ => none

/-- `avgpool2d_forward_batch` and, with `argmax`, `maxpool2d_forward_batch` (debug_handler.py:192-204, 364-377, _cpuop.pyx:27-80,
120-162): four-dimensional arrays, which are accessed without checking bounds. -/
def poolForward (inputs : Sh) (window : Nat × Nat) (outputs : Sh) (padding : Nat) (stride : Nat × Nat) : Option Unit :=
  match inputs, outputs with
  | [n, h, w, c], [n', oh, ow, c'] =>
    check (c' = c ∧ n' = n ∧ (oh : Int) = positions h padding window.1 stride.1 ∧
      (ow : Int) = positions w padding window.2 stride.2)
  | _, _ => none

/-- `avgpool2d_backward_batch` and, with `argmax`, `maxpool2d_backward_batch` (debug_handler.py:174-190, 345-362,
_cpuop.pyx:84-115, 167-202). -/
def poolBackward (inputs : Sh) (window : Nat × Nat) (outputs : Sh) (padding : Nat) (stride : Nat × Nat)
    (inDeltas outDeltas : Sh) : Option Unit := do
  same2 inputs inDeltas
  same2 outputs outDeltas
  poolForward inputs window outputs padding stride

/-! ### Activation functions -/

/-- The names of the activation functions (base_handler.py:42-72). -/
def activations : List Name := [str "sigmoid", str "rel", str "tanh", str "linear", str "el"]

/-- `kwargs.get('activation', default)`; `none` if it is not a string. -/
def activation (kw : Kwargs) (dflt : Name) : Option Name :=
  match Dict.get? kw (str "activation") with
  | none => some dflt
  | some (.string s) => some s
  | some _ => none

/-- Looking up the activation function: `KeyError` for an unknown name. -/
def known (name : Option Name) : Option Unit := check (∃ n ∈ activations, name = some n)

/-- `sigmoid_deriv`, `tanh_deriv`, `rel_deriv`, `el_deriv` (debug_handler.py:485-541). -/
def deriv (x y dy dx : Sh) : Option Unit := check (dy = y ∧ dx = y ∧ y = x)

/-- `_h.act_func[self.activation](x, y)` (base_handler.py:58-64). -/
def act (name : Option Name) (x y : Sh) : Option Unit := do
  known name
  same2 x y

/-- `_h.act_func_deriv[self.activation](x, y, dy, dx)` (base_handler.py:66-72); `'linear'` only copies the deltas. -/
def actDeriv (name : Option Name) (x y dy dx : Sh) : Option Unit := do
  known name
  if name = some (str "linear") then copyTo dy dx else deriv x y dy dx

/-- `_h.inplace_act_func[self.activation](x)` (base_handler.py:42-48). -/
def inplaceAct (name : Option Name) (x : Sh) : Option Unit := do
  known name
  if name = some (str "linear") then some () else same2 x x

/-- `_h.inplace_act_func_deriv[self.activation](y, dy)` (base_handler.py:50-56). -/
def inplaceActDeriv (name : Option Name) (y dy : Sh) : Option Unit := do
  known name
  if name = some (str "linear") then some () else deriv y y dy dy

/-! ### The buffers of a layer -/

/-- The shapes of the buffers a layer gets, in the declared order. -/
structure Views where
  inputs : Dict Name Sh
  outputs : Dict Name Sh
  parameters : Dict Name Sh
  internals : Dict Name Sh
  inputDeltas : Dict Name Sh
  outputDeltas : Dict Name Sh
  gradients : Dict Name Sh

/-- Attribute access on a view (buffer_views.py:8-18); `AttributeError` if there is no such buffer. -/
def at? (d : Dict Name Sh) (k : String) : Option Sh := Dict.get? d (str k)

/-- The values of a view in order, for unpacking (`W, bias = buffers.parameters`). -/
def values (d : Dict Name Sh) : List Sh := d.map Prod.snd

/-- `a, b = ...`; `ValueError` for another number of values. -/
def unpack2 : List Sh → Option (Sh × Sh)
  | [a, b] => some (a, b)
  | _ => none

/-- `a, b, c = ...`. -/
def unpack3 : List Sh → Option (Sh × Sh × Sh)
  | [a, b, c] => some (a, b, c)
  | _ => none

/-- `a, b, c, d = ...`. -/
def unpack4 : List Sh → Option (Sh × Sh × Sh × Sh)
  | [a, b, c, d] => some (a, b, c, d)
  | _ => none

/-- The attributes of a layer that its passes use come from its keyword arguments and input shapes. -/
structure Self where
  kwargs : Kwargs
  inShapes : Dict Name Struct

/-- `self.size` of the recurrent layers (recurrent_layer.py:28). -/
def Self.size (self : Self) : Option Nat := do
  let x ← inp self.inShapes (str "default")
  intSize self.kwargs x.featureSize

/-- The passes of a layer type. -/
structure Passes where
  /-- `forward_pass(buffers, training_pass)` -/
  forward : Self → Views → Bool → Option Unit
  /-- `backward_pass(buffers)` -/
  backward : Self → Views → Option Unit

/-- `for t in range(n)`, also backwards: for shapes the order does not matter, every step has to succeed. -/
def loop (n : Nat) (body : Nat → Option Unit) : Option Unit := (List.range n).forM body

/-! ### The passes -/

/-- fully_connected_layer.py:52-78. -/
def fullyConnected : Passes where
  forward self v _ := do
    let (W, bias) ← unpack2 (values v.parameters)
    let inputs ← flattenTF (← at? v.inputs "default")
    let outputs ← flattenTF (← at? v.outputs "default")
    dotMM inputs W outputs (transb := true)
    addMV outputs (← row bias (← dim bias 0)) outputs
    inplaceAct (activation self.kwargs (str "rel")) outputs
  backward self v := do
    let (W, _) ← unpack2 (values v.parameters)
    let (dW, dbias) ← unpack2 (values v.gradients)
    let inputs ← flattenTF (← at? v.inputs "default")
    let outputs ← flattenTF (← at? v.outputs "default")
    let inDeltas ← flattenTF (← at? v.inputDeltas "default")
    let outDeltas ← flattenTF (← at? v.outputDeltas "default")
    inplaceActDeriv (activation self.kwargs (str "rel")) outputs outDeltas
    dotAddMM outDeltas W inDeltas
    dotMM outDeltas inputs dW (transa := true)
    sumT outDeltas 0 dbias

/-- elementwise_layer.py:30-40. -/
def elementwise : Passes where
  forward self v _ := do
    act (activation self.kwargs (str "rel")) (← at? v.inputs "default") (← at? v.outputs "default")
  backward self v := do
    let dx ← at? v.inputDeltas "default"
    let tmp := dx
    actDeriv (activation self.kwargs (str "rel")) (← at? v.inputs "default") (← at? v.outputs "default")
      (← at? v.outputDeltas "default") tmp
    addTT dx tmp dx

/-- noop_layer.py:28-34. -/
def noOp : Passes where
  forward _ v _ := do copyTo (← at? v.inputs "default") (← at? v.outputs "default")
  backward _ v := do
    let dx ← at? v.inputDeltas "default"
    addTT (← at? v.outputDeltas "default") dx dx

/-- deltas_scaling_layer.py:37-43. -/
def deltasScaling : Passes where
  forward _ v _ := do copyTo (← at? v.inputs "default") (← at? v.outputs "default")
  backward _ v := do multAddST (← at? v.outputDeltas "default") (← at? v.inputDeltas "default")

/-- highway_layer.py:40-71. -/
def highway : Passes where
  forward _ v _ := do
    let x ← at? v.inputs "x"
    let H ← at? v.inputs "H"
    let T ← at? v.inputs "T"
    let y ← at? v.outputs "default"
    let tmp := x
    subtractTT H x tmp
    multTT T tmp tmp
    addTT tmp x y
  backward _ v := do
    let x ← at? v.inputs "x"
    let H ← at? v.inputs "H"
    let T ← at? v.inputs "T"
    let dx ← at? v.inputDeltas "x"
    let dH ← at? v.inputDeltas "H"
    let dT ← at? v.inputDeltas "T"
    let dy ← at? v.outputDeltas "default"
    let tmp := dx
    subtractTT tmp T tmp
    multAddTT tmp dy dx
    multAddTT T dy dH
    subtractTT H x tmp
    multAddTT tmp dy dT

/-- dropout_layer.py:36-52. -/
def dropout : Passes where
  forward _ v training := do
    let x ← at? v.inputs "default"
    let y ← at? v.outputs "default"
    if training then
      multTT x (← at? v.internals "mask") y
      multST y y
    else copyTo x y
  backward _ v := do
    multAddTT (← at? v.outputDeltas "default") (← at? v.internals "mask") (← at? v.inputDeltas "default")

/-- `self.flatten_dim` (mask_layer.py:26-32). -/
def Self.flattenDim (self : Self) : Option Nat := do
  let x ← inp self.inShapes (str "default")
  let m ← inp self.inShapes (str "mask")
  return if m.featureShape = [.n 1] then 2 else x.featureShape.length + 1

/-- `flatten_buffer` (mask_layer.py:44-47). -/
def flattenAt (d : Nat) (a : Sh) : Option Sh := reshape a [(a.take d).prod, (a.drop d).prod]

/-- mask_layer.py:49-67. -/
def mask : Passes where
  forward self v _ := do
    let d ← self.flattenDim
    let inp ← flattenAt d (← at? v.inputs "default")
    let m ← flattenAt d (← at? v.inputs "mask")
    let out ← flattenAt d (← at? v.outputs "default")
    multMV inp m out
  backward self v := do
    let d ← self.flattenDim
    let outDeltas ← flattenAt d (← at? v.outputDeltas "default")
    let tmp := outDeltas
    let m ← flattenAt d (← at? v.inputs "mask")
    let inDeltas ← flattenAt d (← at? v.inputDeltas "default")
    multMV outDeltas m tmp
    addTT tmp inDeltas inDeltas

/-- merge_layer.py:46-57. -/
def merge : Passes where
  forward _ v _ := do mergeTT (← at? v.inputs "inputs_1") (← at? v.inputs "inputs_2") (← at? v.outputs "default")
  backward _ v := do
    splitAddTT (← at? v.outputDeltas "default") (← at? v.inputDeltas "inputs_1") (← at? v.inputDeltas "inputs_2")

/-- `self.batch_index` (loss_layer.py:28-32). -/
def Self.batchIndex (self : Self) : Option (Option Nat) := do
  let x ← inp self.inShapes (str "default")
  return if .T ∈ x.shape then some 1 else if .B ∈ x.shape then some 0 else none

/-- `buffers.inputs.default.shape[self.batch_index]` (loss_layer.py:39-42). -/
def batchSize (a : Sh) : Option Nat → Option Unit
  | none => some ()
  | some i => (dim a i).map (fun _ => ())

/-- loss_layer.py:38-58. -/
def loss : Passes where
  forward self v _ := do
    batchSize (← at? v.inputs "default") (← self.batchIndex)
    let y ← at? v.outputs "loss"
    sumAll (← at? v.inputs "default") (← reshape y [])
    multST y y
  backward self v := do
    batchSize (← at? v.inputs "default") (← self.batchIndex)
    let dx ← at? v.inputDeltas "default"
    addST dx dx

/-- l1_decay.py:35-69. -/
def l1Decay : Passes where
  forward _ v _ := do
    let x ← flattenTF (← at? v.inputs "default")
    let tmp ← flattenTF (← at? v.internals "tmp")
    let y ← flattenTime (← at? v.outputs "loss")
    absT x tmp
    sumT tmp 1 y
  backward _ v := do
    let x ← flattenTF (← at? v.inputs "default")
    let tmp ← flattenTF (← at? v.internals "tmp")
    let dy ← flattenTime (← at? v.outputDeltas "loss")
    let dx ← flattenTF (← at? v.inputDeltas "default")
    signT x tmp
    multMV tmp dy tmp
    addTT tmp dx dx

/-- l2_decay.py:37-71. -/
def l2Decay : Passes where
  forward _ v _ := do
    let x ← flattenTF (← at? v.inputs "default")
    let tmp ← flattenTF (← at? v.internals "tmp")
    let y ← flattenTime (← at? v.outputs "loss")
    multTT x x tmp
    multST tmp tmp
    sumT tmp 1 y
  backward _ v := do
    let x ← flattenTF (← at? v.inputs "default")
    let tmp ← flattenTF (← at? v.internals "tmp")
    let dy ← flattenTime (← at? v.outputDeltas "loss")
    let dx ← flattenTF (← at? v.inputDeltas "default")
    multMV x dy tmp
    addTT tmp dx dx

/-- input_layer.py:23-47 has no passes of its own; those of the base class do nothing (base_layer.py:119-123). -/
def input : Passes where
  forward _ _ _ := some ()
  backward _ _ := some ()

/-- recurrent_layer.py:51-102. -/
def recurrent : Passes where
  forward self v _ := do
    let a := activation self.kwargs (str "tanh")
    let (W, R, bias) ← unpack3 (values v.parameters)
    let inputs ← at? v.inputs "default"
    let outputs ← at? v.outputs "default"
    let Ha ← at? v.internals "Ha"
    let flatInputs ← flattenTF inputs
    let flatH ← flattenTime (← slice Ha 0 1)
    dotMM flatInputs W flatH (transb := true)
    addMV flatH (← row bias (← self.size)) flatH
    loop (← dim inputs 0) fun t => do
      dotAddMM (← idx outputs (t - 1)) R (← idx Ha t) (transb := true)
      act a (← idx Ha t) (← idx outputs t)
  backward self v := do
    let a := activation self.kwargs (str "tanh")
    let (W, R, _) ← unpack3 (values v.parameters)
    let (dW, dR, dbias) ← unpack3 (values v.gradients)
    let inputs ← at? v.inputs "default"
    let outputs ← at? v.outputs "default"
    let dinputs ← at? v.inputDeltas "default"
    let doutputs ← at? v.outputDeltas "default"
    let (Ha, dHa, dHb) ← unpack3 (values v.internals)
    copyTo doutputs dHb
    let T := (← dim inputs 0 : Int) - 1
    actDeriv a (← idx Ha T) (← idx outputs T) (← idx dHb T) (← idx dHa T)
    loop T.toNat fun t => do
      dotAddMM (← idx dHa (t + 1)) R (← idx dHb t)
      actDeriv a (← idx Ha t) (← idx outputs t) (← idx dHb t) (← idx dHa t)
    let flatInputs ← flattenTF inputs
    let flatDinputs ← flattenTF dinputs
    let flatDHa ← flattenTime (← slice dHa 0 1)
    dotAddMM flatDHa W flatDinputs
    dotAddMM flatDHa flatInputs dW (transa := true)
    let dbiasTmp := dbias
    sumT flatDHa 0 dbiasTmp
    addTT dbias dbiasTmp dbias
    let flatOutputs ← flattenTime (← slice outputs 0 2)
    let flatDHa' ← flattenTime (← slice dHa 1 1)
    dotAddMM flatDHa' flatOutputs dR (transa := true)
    dotAddMM (← idx dHa 0) (← idx outputs (-1)) dR (transa := true)

/-- `fill(tmp, t)`, `modulo_tt(tmp, timing, tmp)`, `broadcast_t(tmp.reshape((1, tmp.shape[0])), 0, cond)`
(clockwork_layer.py:76-78, 99-101, clockwork_lstm_layer.py:160-162, 206-208), with `tmp = zeros(timing.shape)`. -/
def clockCond (timing cond : Sh) : Option Unit := do
  let tmp := timing
  moduloTT tmp timing tmp
  broadcastT (← row tmp (← dim tmp 0)) 0 cond

/-- clockwork_layer.py:55-122. -/
def clockwork : Passes where
  forward self v _ := do
    let a := activation self.kwargs (str "tanh")
    let (W, R, bias, timing) ← unpack4 (values v.parameters)
    let inputs ← at? v.inputs "default"
    let outputs ← at? v.outputs "default"
    let Ha ← at? v.internals "Ha"
    let flatInputs ← flattenTF inputs
    let flatH ← flattenTime (← slice Ha 0 1)
    dotMM flatInputs W flatH (transb := true)
    addMV flatH (← row bias (← self.size)) flatH
    let cond ← idx outputs 0
    loop (← dim inputs 0) fun t => do
      dotAddMM (← idx outputs (t - 1)) R (← idx Ha t) (transb := true)
      act a (← idx Ha t) (← idx outputs t)
      if 0 < t then
        clockCond timing cond
        copyToIf (← idx outputs (t - 1)) (← idx outputs t) cond
      else some ()
  backward self v := do
    let a := activation self.kwargs (str "tanh")
    let (W, R, _, timing) ← unpack4 (values v.parameters)
    let (dW, dR, dbias, _) ← unpack4 (values v.gradients)
    let inputs ← at? v.inputs "default"
    let outputs ← at? v.outputs "default"
    let dinputs ← at? v.inputDeltas "default"
    let doutputs ← at? v.outputDeltas "default"
    let (Ha, dHa, dHb) ← unpack3 (values v.internals)
    let cond ← idx outputs 0
    copyTo doutputs dHb
    let T := (← dim inputs 0 : Int) - 1
    actDeriv a (← idx Ha T) (← idx outputs T) (← idx dHb T) (← idx dHa T)
    loop T.toNat fun t => do
      clockCond timing cond
      addIntoIf (← idx dHb (t + 1)) (← idx dHb t) cond
      fillIf (← idx dHa (t + 1)) cond
      dotAddMM (← idx dHa (t + 1)) R (← idx dHb t)
      actDeriv a (← idx Ha t) (← idx outputs t) (← idx dHb t) (← idx dHa t)
    let flatInputs ← flattenTF inputs
    let flatDinputs ← flattenTF dinputs
    let flatDHa ← flattenTime (← slice dHa 0 1)
    dotAddMM flatDHa W flatDinputs
    dotAddMM flatDHa flatInputs dW (transa := true)
    let dbiasTmp := dbias
    sumT flatDHa 0 dbiasTmp
    addTT dbias dbiasTmp dbias
    let flatOutputs ← flattenTime (← slice outputs 0 2)
    let flatDHa' ← flattenTime (← slice dHa 1 1)
    dotAddMM flatDHa' flatOutputs dR (transa := true)
    dotAddMM (← idx dHa 0) (← idx outputs (-1)) dR (transa := true)

/-- The parameters (or gradients) of an LSTM, in the order in which they are unpacked. -/
structure LstmP where
  (Wz Wi Wf Wo pi pf po Rz Ri Rf Ro bz bi bf bo : Sh)

/-- The internal buffers of an LSTM, in the order in which they are unpacked. -/
structure LstmI where
  (Za Zb Ia Ib Fa Fb Oa Ob Ca Cb dZa dZb dIa dIb dFa dFb dOa dOb dCa dCb : Sh)

/-- lstm_layer.py:93-96, 150-157. -/
def lstmP : List Sh → Option LstmP
  | [Wz, Wi, Wf, Wo, pi, pf, po, Rz, Ri, Rf, Ro, bz, bi, bf, bo] =>
    some ⟨Wz, Wi, Wf, Wo, pi, pf, po, Rz, Ri, Rf, Ro, bz, bi, bf, bo⟩
  | _ => none

/-- clockwork_lstm_layer.py:100-104, 173-183: with the timing at the end. -/
def cwLstmP : List Sh → Option (LstmP × Sh)
  | [Wz, Wi, Wf, Wo, pi, pf, po, Rz, Ri, Rf, Ro, bz, bi, bf, bo, timing] =>
    some (⟨Wz, Wi, Wf, Wo, pi, pf, po, Rz, Ri, Rf, Ro, bz, bi, bf, bo⟩, timing)
  | _ => none

/-- lstm_layer.py:98-99, 159-160, clockwork_lstm_layer.py:106-107, 185-186. -/
def lstmI : List Sh → Option LstmI
  | [Za, Zb, Ia, Ib, Fa, Fb, Oa, Ob, Ca, Cb, dZa, dZb, dIa, dIb, dFa, dFb, dOa, dOb, dCa, dCb] =>
    some ⟨Za, Zb, Ia, Ib, Fa, Fb, Oa, Ob, Ca, Cb, dZa, dZb, dIa, dIb, dFa, dFb, dOa, dOb, dCa, dCb⟩
  | _ => none

/-- The parts of the gates that depend on the inputs only (lstm_layer.py:105-113, clockwork_lstm_layer.py:116-124). -/
def lstmInputs (p : LstmP) (i : LstmI) (x : Sh) : Option Unit := do
  let flatX ← flattenTF x
  let flatZa ← flattenTime (← slice i.Za 0 1)
  let flatIa ← flattenTime (← slice i.Ia 0 1)
  let flatFa ← flattenTime (← slice i.Fa 0 1)
  let flatOa ← flattenTime (← slice i.Oa 0 1)
  dotMM flatX p.Wz flatZa (transb := true)
  dotMM flatX p.Wi flatIa (transb := true)
  dotMM flatX p.Wf flatFa (transb := true)
  dotMM flatX p.Wo flatOa (transb := true)

/-- One time step of the forward pass (lstm_layer.py:116-145, clockwork_lstm_layer.py:128-157). -/
def lstmStep (a : Option Name) (size : Nat) (p : LstmP) (i : LstmI) (y : Sh) (t : Nat) : Option Unit := do
  dotAddMM (← idx y (t - 1)) p.Rz (← idx i.Za t) (transb := true)
  addMV (← idx i.Za t) (← row p.bz size) (← idx i.Za t)
  act a (← idx i.Za t) (← idx i.Zb t)
  dotAddMM (← idx y (t - 1)) p.Ri (← idx i.Ia t) (transb := true)
  multAddMV (← idx i.Ca (t - 1)) p.pi (← idx i.Ia t)
  addMV (← idx i.Ia t) (← row p.bi size) (← idx i.Ia t)
  sigmoid (← idx i.Ia t) (← idx i.Ib t)
  dotAddMM (← idx y (t - 1)) p.Rf (← idx i.Fa t) (transb := true)
  multAddMV (← idx i.Ca (t - 1)) p.pf (← idx i.Fa t)
  addMV (← idx i.Fa t) (← row p.bf size) (← idx i.Fa t)
  sigmoid (← idx i.Fa t) (← idx i.Fb t)
  multTT (← idx i.Ib t) (← idx i.Zb t) (← idx i.Ca t)
  multAddTT (← idx i.Fb t) (← idx i.Ca (t - 1)) (← idx i.Ca t)
  dotAddMM (← idx y (t - 1)) p.Ro (← idx i.Oa t) (transb := true)
  multAddMV (← idx i.Ca t) p.po (← idx i.Oa t)
  addMV (← idx i.Oa t) (← row p.bo size) (← idx i.Oa t)
  sigmoid (← idx i.Oa t) (← idx i.Ob t)
  act a (← idx i.Ca t) (← idx i.Cb t)
  multTT (← idx i.Ob t) (← idx i.Cb t) (← idx y t)

/-- One time step of the backward pass (lstm_layer.py:172-205). -/
def lstmBackStep (a : Option Name) (p : LstmP) (i : LstmI) (deltas dy : Sh) (t : Nat) : Option Unit := do
  copyTo (← idx deltas t) (← idx dy t)
  dotAddMM (← idx i.dIa (t + 1)) p.Ri (← idx dy t)
  dotAddMM (← idx i.dFa (t + 1)) p.Rf (← idx dy t)
  dotAddMM (← idx i.dOa (t + 1)) p.Ro (← idx dy t)
  dotAddMM (← idx i.dZa (t + 1)) p.Rz (← idx dy t)
  multAddMV (← idx i.dIa (t + 1)) p.pi (← idx i.dCa t)
  multAddMV (← idx i.dFa (t + 1)) p.pf (← idx i.dCa t)
  multTT (← idx dy t) (← idx i.Cb t) (← idx i.dOb t)
  deriv (← idx i.Oa t) (← idx i.Ob t) (← idx i.dOb t) (← idx i.dOa t)
  multAddMV (← idx i.dOa t) p.po (← idx i.dCa t)
  multTT (← idx dy t) (← idx i.Ob t) (← idx i.dCb t)
  actDeriv a (← idx i.Ca t) (← idx i.Cb t) (← idx i.dCb t) (← idx i.dCb t)
  addTT (← idx i.dCa t) (← idx i.dCb t) (← idx i.dCa t)
  multAddTT (← idx i.dCa (t + 1)) (← idx i.Fb (t + 1)) (← idx i.dCa t)
  multTT (← idx i.dCa t) (← idx i.Ca (t - 1)) (← idx i.dFb t)
  deriv (← idx i.Fa t) (← idx i.Fb t) (← idx i.dFb t) (← idx i.dFa t)
  multTT (← idx i.dCa t) (← idx i.Zb t) (← idx i.dIb t)
  deriv (← idx i.Ia t) (← idx i.Ib t) (← idx i.dIb t) (← idx i.dIa t)
  multTT (← idx i.dCa t) (← idx i.Ib t) (← idx i.dZb t)
  actDeriv a (← idx i.Za t) (← idx i.Zb t) (← idx i.dZb t) (← idx i.dZa t)

/-- One time step of the backward pass of the clockwork LSTM (clockwork_lstm_layer.py:204-252). -/
def cwLstmBackStep (a : Option Name) (p : LstmP) (timing : Sh) (i : LstmI) (deltas dy cond : Sh) (t : Nat) :
    Option Unit := do
  addTT (← idx dy t) (← idx deltas t) (← idx dy t)
  clockCond timing cond
  dotAddMM (← idx i.dIa (t + 1)) p.Ri (← idx dy t)
  dotAddMM (← idx i.dFa (t + 1)) p.Rf (← idx dy t)
  dotAddMM (← idx i.dOa (t + 1)) p.Ro (← idx dy t)
  dotAddMM (← idx i.dZa (t + 1)) p.Rz (← idx dy t)
  multAddMV (← idx i.dIa (t + 1)) p.pi (← idx i.dCa t)
  multAddMV (← idx i.dFa (t + 1)) p.pf (← idx i.dCa t)
  multTT (← idx dy t) (← idx i.Cb t) (← idx i.dOb t)
  fillIf (← idx i.dOb t) cond
  deriv (← idx i.Oa t) (← idx i.Ob t) (← idx i.dOb t) (← idx i.dOa t)
  multAddMV (← idx i.dOa t) p.po (← idx i.dCa t)
  multTT (← idx dy t) (← idx i.Ob t) (← idx i.dCb t)
  actDeriv a (← idx i.Ca t) (← idx i.Cb t) (← idx i.dCb t) (← idx i.dCb t)
  fillIf (← idx i.dCb t) cond
  addTT (← idx i.dCa t) (← idx i.dCb t) (← idx i.dCa t)
  multAddTT (← idx i.dCa (t + 1)) (← idx i.Fb (t + 1)) (← idx i.dCa t)
  multTT (← idx i.dCa t) (← idx i.Ca (t - 1)) (← idx i.dFb t)
  deriv (← idx i.Fa t) (← idx i.Fb t) (← idx i.dFb t) (← idx i.dFa t)
  multTT (← idx i.dCa t) (← idx i.Zb t) (← idx i.dIb t)
  deriv (← idx i.Ia t) (← idx i.Ib t) (← idx i.dIb t) (← idx i.dIa t)
  multTT (← idx i.dCa t) (← idx i.Ib t) (← idx i.dZb t)
  actDeriv a (← idx i.Za t) (← idx i.Zb t) (← idx i.dZb t) (← idx i.dZa t)
  addIntoIf (← idx dy t) (← idx dy (t - 1)) cond
  addIntoIf (← idx i.dCa t) (← idx i.dCa (t - 1)) cond
  fillIf (← idx i.dIa t) cond
  fillIf (← idx i.dFa t) cond
  fillIf (← idx i.dZa t) cond
  fillIf (← idx i.Fb t) cond

/-- The input deltas, weight and bias gradients (lstm_layer.py:207-234, clockwork_lstm_layer.py:255-282). -/
def lstmGrads (p g : LstmP) (i : LstmI) (x dx : Sh) : Option Unit := do
  let flatX ← flattenTF x
  let flatDx ← flattenTF dx
  let flatI ← flattenTime (← slice i.dIa 0 1)
  let flatF ← flattenTime (← slice i.dFa 0 1)
  let flatO ← flattenTime (← slice i.dOa 0 1)
  let flatZ ← flattenTime (← slice i.dZa 0 1)
  dotAddMM flatI p.Wi flatDx
  dotAddMM flatF p.Wf flatDx
  dotAddMM flatO p.Wo flatDx
  dotAddMM flatZ p.Wz flatDx
  dotAddMM flatI flatX g.Wi (transa := true)
  dotAddMM flatF flatX g.Wf (transa := true)
  dotAddMM flatO flatX g.Wo (transa := true)
  dotAddMM flatZ flatX g.Wz (transa := true)
  let biasTmp := g.bz
  sumT flatI 0 biasTmp
  addTT g.bi biasTmp g.bi
  sumT flatF 0 biasTmp
  addTT g.bf biasTmp g.bf
  sumT flatO 0 biasTmp
  addTT g.bo biasTmp g.bo
  sumT flatZ 0 biasTmp
  addTT g.bz biasTmp g.bz

/-- The gradients of the recurrent weights and peepholes (lstm_layer.py:236-278, clockwork_lstm_layer.py:284-326). -/
def lstmRecGrads (g : LstmP) (i : LstmI) (y dy : Sh) : Option Unit := do
  let flatY ← flattenTime (← slice y 0 2)
  let flatCell ← flattenTime (← slice i.Ca 0 2)
  let flatCell2 ← flattenTime (← slice i.Ca 0 1)
  let flatO ← flattenTime (← slice i.dOa 0 1)
  let dWcoTmp := flatCell2
  let dWcTmp := g.po
  multTT flatCell2 flatO dWcoTmp
  sumT dWcoTmp 0 dWcTmp
  addTT g.po dWcTmp g.po
  let flatI' ← flattenTime (← slice i.dIa 1 1)
  let flatF' ← flattenTime (← slice i.dFa 1 1)
  let flatO' ← flattenTime (← slice i.dOa 1 1)
  let flatZ' ← flattenTime (← slice i.dZa 1 1)
  dotAddMM flatI' flatY g.Ri (transa := true)
  dotAddMM flatF' flatY g.Rf (transa := true)
  dotAddMM flatO' flatY g.Ro (transa := true)
  dotAddMM flatZ' flatY g.Rz (transa := true)
  dotAddMM (← idx i.dIa 0) (← idx dy (-1)) g.Ri (transa := true)
  dotAddMM (← idx i.dFa 0) (← idx dy (-1)) g.Rf (transa := true)
  dotAddMM (← idx i.dOa 0) (← idx dy (-1)) g.Ro (transa := true)
  dotAddMM (← idx i.dZa 0) (← idx dy (-1)) g.Rz (transa := true)
  let dWcifTmp := flatCell
  multTT flatCell flatI' dWcifTmp
  sumT dWcifTmp 0 dWcTmp
  addTT g.pi dWcTmp g.pi
  multTT flatCell flatF' dWcifTmp
  sumT dWcifTmp 0 dWcTmp
  addTT g.pf dWcTmp g.pf
  let dWcifTmp' ← idx i.dIa 0
  multTT (← idx i.dCa (-1)) (← idx i.dIa 0) dWcifTmp'
  sumT dWcifTmp' 0 dWcTmp
  addTT g.pi dWcTmp g.pi
  multTT (← idx i.dCa (-1)) (← idx i.dIa 0) dWcifTmp'
  sumT dWcifTmp' 0 dWcTmp
  addTT g.pf dWcTmp g.pf

/-- lstm_layer.py:90-278. -/
def lstm : Passes where
  forward self v _ := do
    let a := activation self.kwargs (str "tanh")
    let p ← lstmP (values v.parameters)
    let i ← lstmI (values v.internals)
    let x ← at? v.inputs "default"
    let y ← at? v.outputs "default"
    let timeSize ← dim x 0
    let _batchSize ← dim x 1
    lstmInputs p i x
    loop timeSize (lstmStep a (← self.size) p i y)
  backward self v := do
    let a := activation self.kwargs (str "tanh")
    let p ← lstmP (values v.parameters)
    let g ← lstmP (values v.gradients)
    let i ← lstmI (values v.internals)
    let x ← at? v.inputs "default"
    let dx ← at? v.inputDeltas "default"
    let y ← at? v.outputs "default"
    let deltas ← at? v.outputDeltas "default"
    let dy := y
    let timeSize ← dim x 0
    let _batchSize ← dim x 1
    loop timeSize (lstmBackStep a p i deltas dy)
    lstmGrads p g i x dx
    lstmRecGrads g i y dy

/-- clockwork_lstm_layer.py:97-326. -/
def clockworkLstm : Passes where
  forward self v _ := do
    let a := activation self.kwargs (str "tanh")
    let (p, timing) ← cwLstmP (values v.parameters)
    let i ← lstmI (values v.internals)
    let x ← at? v.inputs "default"
    let y ← at? v.outputs "default"
    let timeSize ← dim x 0
    let _batchSize ← dim x 1
    let cond ← idx y 0
    lstmInputs p i x
    let size ← self.size
    loop timeSize fun t => do
      lstmStep a size p i y t
      if 0 < t then
        clockCond timing cond
        copyToIf (← idx i.Ca (t - 1)) (← idx i.Ca t) cond
        copyToIf (← idx y (t - 1)) (← idx y t) cond
      else some ()
  backward self v := do
    let a := activation self.kwargs (str "tanh")
    let (g, _) ← cwLstmP (values v.gradients)
    let (p, timing) ← cwLstmP (values v.parameters)
    let i ← lstmI (values v.internals)
    let x ← at? v.inputs "default"
    let dx ← at? v.inputDeltas "default"
    let y ← at? v.outputs "default"
    let deltas ← at? v.outputDeltas "default"
    let dy := y
    let timeSize ← dim x 0
    let _batchSize ← dim x 1
    let cond ← idx y 0
    loop timeSize (cwLstmBackStep a p timing i deltas dy cond)
    lstmGrads p g i x dx
    lstmRecGrads g i y dy

/-- The batch statistics of a training pass: `mu_b` is stored in `sigma_b` (batch_normalization_layer.py:65-76). -/
def bnMean (inputs sigmaB mu : Sh) : Option Unit := do
  let muB := sigmaB
  sumT inputs 0 muB
  multST muB muB
  multST mu mu
  multAddST muB mu

/-- batch_normalization_layer.py:81-98. -/
def bnSigma (centered xHat sigmaB sigma : Sh) : Option Unit := do
  let sigma2 := sigmaB
  let centered2 := xHat
  multTT centered centered centered2
  sumT centered2 0 sigma2
  multST sigma2 sigma2
  addST sigma2 sigma2
  sqrtT sigma2 sigmaB
  multST sigma sigma
  multAddST sigmaB sigma

/-- batch_normalization_layer.py:54-152. -/
def batchNorm : Passes where
  forward _ v training := do
    let (sigmaB, centered, xHat) ← unpack3 (values v.internals)
    let (gamma, beta, mu, sigma) ← unpack4 (values v.parameters)
    let inputs ← flattenAllButLast (← at? v.inputs "default")
    let centered ← flattenAllButLast centered
    let xHat ← flattenAllButLast xHat
    let out ← flattenAllButLast (← at? v.outputs "default")
    if training then bnMean inputs sigmaB mu else some ()
    let mu := if training then sigmaB else mu
    addMV inputs (← row mu mu.prod) centered
    if training then bnSigma centered xHat sigmaB sigma else some ()
    let sigma := if training then sigmaB else sigma
    divideMV centered (← row sigma sigma.prod) xHat
    multMV xHat (← row gamma gamma.prod) out
    addMV out (← row beta beta.prod) out
  backward _ v := do
    let (sigmaB, _, xHat) ← unpack3 (values v.internals)
    let gamma ← at? v.parameters "gamma"
    let dgamma ← at? v.gradients "gamma"
    let dbeta ← at? v.gradients "beta"
    let xHat ← flattenAllButLast xHat
    let outDeltas ← flattenAllButLast (← at? v.outputDeltas "default")
    let inDeltas ← flattenAllButLast (← at? v.inputDeltas "default")
    let big := xHat
    let small := gamma
    multTT outDeltas xHat big
    sumT big 0 small
    addTT small dgamma dgamma
    multST small small
    multMV xHat (← row small gamma.prod) big
    sumT outDeltas 0 small
    addTT small dbeta dbeta
    multST small small
    subtractTT outDeltas big big
    subtractMV big (← row small dbeta.prod) big
    divideTT gamma sigmaB small
    multMV big (← row small small.prod) big
    addTT big inDeltas inDeltas

/-- sigmoid_ce_layer.py:58-100. -/
def sigmoidCE : Passes where
  forward _ v _ := do
    let inputs ← flattenTF (← at? v.inputs "default")
    let targets ← flattenTF (← at? v.inputs "targets")
    let loss ← flattenTF (← at? v.outputs "loss")
    let prob ← flattenTF (← at? v.outputs "predictions")
    sigmoid inputs prob
    let tmp := prob
    subtractTT tmp prob loss
    subtractTT tmp targets tmp
    clipT loss loss
    logT loss loss
    multTT tmp loss tmp
    clipT prob loss
    logT loss loss
    multTT targets loss loss
    addTT tmp loss loss
    multST loss loss
  backward _ v := do
    let dinputs ← flattenTF (← at? v.inputDeltas "default")
    let dloss ← flattenTF (← at? v.outputDeltas "loss")
    let dcee ← flattenTF (← at? v.internals "dcee")
    let targets ← flattenTF (← at? v.inputs "targets")
    let prob ← flattenTF (← at? v.outputs "predictions")
    subtractTT prob targets dcee
    multMV dcee dloss dcee
    addTT dcee dinputs dinputs

/-- softmax_ce_layer.py:65-114. -/
def softmaxCE : Passes where
  forward _ v _ := do
    let loss ← at? v.outputs "loss"
    let flatInputs ← flattenAllButLast (← at? v.inputs "default")
    let flatProbs ← flattenAllButLast (← at? v.outputs "predictions")
    let flatLoss ← flattenAllButLast loss
    let flatTargets ← flattenAllButLast (← at? v.inputs "targets")
    softmaxM flatInputs flatProbs
    indexMByV flatProbs flatTargets flatLoss
    clipT flatLoss flatLoss
    logT loss loss
    multST loss loss
  backward _ v := do
    let flatProbs ← flattenAllButLast (← at? v.outputs "predictions")
    let flatTargets ← flattenAllButLast (← at? v.inputs "targets")
    let flatTBin ← flattenAllButLast (← at? v.internals "t_bin")
    let flatDloss ← flattenAllButLast (← at? v.outputDeltas "loss")
    let flatDinputs ← flattenAllButLast (← at? v.inputDeltas "default")
    binarizeV flatTargets flatTBin
    multST flatTBin flatTBin
    addTT flatTBin flatProbs flatTBin
    multMV flatTBin flatDloss flatTBin
    addTT flatTBin flatDinputs flatDinputs

/-- squared_difference_layer.py:42-67. -/
def squaredDifference : Passes where
  forward _ v _ := do
    let inputs1 ← flattenTF (← at? v.inputs "inputs_1")
    let inputs2 ← flattenTF (← at? v.inputs "inputs_2")
    let diff ← flattenTF (← at? v.internals "diff")
    let outputs ← flattenTF (← at? v.outputs "default")
    subtractTT inputs1 inputs2 diff
    multTT diff diff outputs
  backward _ v := do
    let outDeltas ← flattenTF (← at? v.outputDeltas "default")
    let diff ← flattenTF (← at? v.internals "diff")
    let dinputs1 ← flattenTF (← at? v.inputDeltas "inputs_1")
    let dinputs2 ← flattenTF (← at? v.inputDeltas "inputs_2")
    let tmp := outDeltas
    multST outDeltas outDeltas
    multAddTT outDeltas diff dinputs1
    multST diff tmp
    multAddTT outDeltas tmp dinputs2

/-- squared_error_layer.py:56-79. -/
def squaredError : Passes where
  forward _ v _ := do
    let x ← flattenTF (← at? v.inputs "default")
    let t ← flattenTF (← at? v.inputs "targets")
    let diff ← flattenTF (← at? v.internals "diff")
    let y ← flattenTF (← at? v.outputs "predictions")
    let loss ← flattenTF (← at? v.outputs "loss")
    copyTo x y
    subtractTT x t diff
    multTT diff diff loss
    multST loss loss
  backward _ v := do
    let dloss ← flattenTF (← at? v.outputDeltas "loss")
    let diff ← flattenTF (← at? v.internals "diff")
    let dx ← flattenTF (← at? v.inputDeltas "default")
    multAddTT dloss diff dx

/-- binomial_cross_entropy_layer.py:59-116. -/
def binomialCE : Passes where
  forward _ v _ := do
    let y ← at? v.inputs "default"
    let t ← at? v.inputs "targets"
    let cee ← at? v.internals "cee"
    let ceeSum ← at? v.outputs "default"
    let tmp := cee
    subtractTT tmp y cee
    subtractTT tmp t tmp
    clipT cee cee
    logT cee cee
    multTT tmp cee tmp
    clipT y cee
    logT cee cee
    multTT t cee cee
    addTT tmp cee cee
    let flatCee ← flattenTF cee
    let flatSum ← flattenTime ceeSum
    sumT flatCee 1 flatSum
    multST flatSum flatSum
  backward _ v := do
    let ceedSum ← at? v.outputDeltas "default"
    let ceed ← at? v.internals "ceed"
    let tmp := ceed
    let y ← at? v.inputs "default"
    let t ← at? v.inputs "targets"
    let yd ← at? v.inputDeltas "default"
    multTT y y ceed
    subtractTT y ceed ceed
    clipT ceed ceed
    subtractTT y t tmp
    divideTT tmp ceed ceed
    broadcastT ceedSum 2 tmp
    multTT ceed tmp ceed
    addTT ceed yd yd

/-- convolution_layer_2d.py:78-112; `self.padding` and `self.stride` are set in lines 39-40, 56-57. -/
def convolution2D : Passes where
  forward self v _ := do
    let stride ← pairArg self.kwargs (str "stride") (some (1, 1))
    let padding ← intArg self.kwargs (str "padding") (some 0)
    let (W, bias) ← unpack2 (values v.parameters)
    let inputs ← at? v.inputs "default"
    let outputs ← at? v.outputs "default"
    let flatInputs ← flattenTime inputs
    let flatOutputs ← flattenTime outputs
    convForward flatInputs W bias flatOutputs padding stride
    inplaceAct (activation self.kwargs (str "tanh")) outputs
  backward self v := do
    let stride ← pairArg self.kwargs (str "stride") (some (1, 1))
    let padding ← intArg self.kwargs (str "padding") (some 0)
    let (W, _) ← unpack2 (values v.parameters)
    let (dW, dbias) ← unpack2 (values v.gradients)
    let inputs ← at? v.inputs "default"
    let outputs ← at? v.outputs "default"
    let inDeltas ← at? v.inputDeltas "default"
    let outDeltas ← at? v.outputDeltas "default"
    let flatInputs ← flattenTime inputs
    let flatInDeltas ← flattenTime inDeltas
    let flatOutDeltas ← flattenTime outDeltas
    inplaceActDeriv (activation self.kwargs (str "tanh")) outputs outDeltas
    convBackward flatInputs W padding stride flatInDeltas flatOutDeltas dW dbias

/-- pooling_layer_2d.py:74-121; the attributes are set in lines 32-35, 52-55. -/
def pooling2D : Passes where
  forward self v _ := do
    let kernel ← pairArg self.kwargs (str "kernel_size") none
    let isMax ← poolIsMax self.kwargs
    let padding ← intArg self.kwargs (str "padding") (some 0)
    let stride ← pairArg self.kwargs (str "stride") (some (1, 1))
    let flatInputs ← flattenTime (← at? v.inputs "default")
    let flatOutputs ← flattenTime (← at? v.outputs "default")
    if isMax then
      let flatArgmax ← flattenTime (← at? v.internals "argmax")
      same2 flatOutputs flatArgmax
      poolForward flatInputs kernel flatOutputs padding stride
    else poolForward flatInputs kernel flatOutputs padding stride
  backward self v := do
    let kernel ← pairArg self.kwargs (str "kernel_size") none
    let isMax ← poolIsMax self.kwargs
    let padding ← intArg self.kwargs (str "padding") (some 0)
    let stride ← pairArg self.kwargs (str "stride") (some (1, 1))
    let flatInputs ← flattenTime (← at? v.inputs "default")
    let flatInDeltas ← flattenTime (← at? v.inputDeltas "default")
    let flatOutDeltas ← flattenTime (← at? v.outputDeltas "default")
    let flatOutputs ← flattenTime (← at? v.outputs "default")
    if isMax then
      let flatArgmax ← flattenTime (← at? v.internals "argmax")
      same2 flatOutputs flatArgmax
      poolBackward flatInputs kernel flatOutputs padding stride flatInDeltas flatOutDeltas
    else poolBackward flatInputs kernel flatOutputs padding stride flatInDeltas flatOutDeltas

/-- The passes of the layer classes by class name. -/
def passes : List (Name × Passes) :=
  [(str "FullyConnectedLayerImpl", fullyConnected), (str "ElementwiseLayerImpl", elementwise), (str "NoOpLayerImpl", noOp),
   (str "DeltasScalingLayerImpl", deltasScaling), (str "HighwayLayerImpl", highway), (str "DropoutLayerImpl", dropout),
   (str "MaskLayerImpl", mask), (str "MergeLayerImpl", merge), (str "LossLayerImpl", loss), (str "L1DecayLayerImpl", l1Decay),
   (str "L2DecayLayerImpl", l2Decay), (str "InputLayerImpl", input), (str "RecurrentLayerImpl", recurrent),
   (str "ClockworkLayerImpl", clockwork), (str "LstmLayerImpl", lstm), (str "ClockworkLstmLayerImpl", clockworkLstm),
   (str "BatchNormLayerImpl", batchNorm), (str "SigmoidCELayerImpl", sigmoidCE), (str "SoftmaxCELayerImpl", softmaxCE),
   (str "SquaredDifferenceLayerImpl", squaredDifference), (str "SquaredErrorLayerImpl", squaredError),
   (str "BinomialCrossEntropyLayerImpl", binomialCE), (str "Convolution2DLayerImpl", convolution2D),
   (str "Pooling2DLayerImpl", pooling2D)]

/-- The shapes of declared structures for `T` time steps and `B` sequences. -/
def shapesOf (d : Dict Name Struct) (T B : Nat) : Dict Name Sh := d.map (fun e => (e.1, Buffers.structShape e.2 T B))

/-- The buffers a layer with these input shapes and declarations gets for `T` time steps and `B` sequences: deltas have the
shapes of the inputs and outputs, gradients those of the parameters (C63: the memory has these shapes). -/
def viewsOf (ins : Dict Name Struct) (sh : Instantiate.Shapes) (T B : Nat) : Views where
  inputs := shapesOf ins T B
  outputs := shapesOf sh.outs T B
  parameters := shapesOf sh.params T B
  internals := shapesOf sh.internals T B
  inputDeltas := shapesOf ins T B
  outputDeltas := shapesOf sh.outs T B
  gradients := shapesOf sh.params T B

end Verif.Shapes
