import Verif.NetSpec.Model
import Verif.Construction.Generate

/-!
# `get_in_out_layers` and `create_net_from_spec` as construction scripts
(brainstorm/tools.py:179-293, 482-597)

Both functions create layers and wire them with `>>`; here they return what they create (in order) and the wires.  Layers are
numbered in the order of creation (`creation_id`); `n` layers have been created by the program before.
-/

namespace Verif.NetSpec

open Verif.Construction

/-- The arguments of `get_in_out_layers` (tools.py:179-181). -/
structure Opts where
  task : Name
  inShape : List Nat
  outShape : List Nat
  dataName : Name := str "default"
  targetsName : Name := str "targets"
  projectionName : Option Name := none
  outlayerName : Option Name := none
  maskName : Option Name := none
  useConv : Option Bool := none

/-- `name or default`: the empty text counts as missing. -/
def orElse (name : Option Name) (dflt : Name) : Name :=
  match name with
  | none => dflt
  | some n => if n = [] then dflt else n

/-- tools.py:249. -/
def Opts.outName (o : Opts) : Name := orElse o.outlayerName (str "Output")
/-- tools.py:250. -/
def Opts.projName (o : Opts) : Name := orElse o.projectionName (o.outName ++ str "_projection")

/-- The projection layer (tools.py:252-260). -/
def Opts.projection (o : Opts) : Option Made :=
  if o.outShape.length = 1 ∨ o.useConv = some false then
    some ⟨str "FullyConnectedLayerImpl", some o.projName,
      [(str "size", .ints o.outShape), (str "activation", .string (str "linear"))]⟩
  else if o.outShape.length = 3 ∨ o.useConv = some true then
    match o.outShape.getLast? with
    | some f => some (mkConvolution f (1, 1) (1, 1) 0 (str "linear") (some o.projName))
    | none => none
  else none

/-- The class of the output layer (tools.py:262-269). -/
def outClass (task : Name) : Option Name :=
  if task = str "classification" then some (str "SoftmaxCELayerImpl")
  else if task = str "multi-label" then some (str "SigmoidCELayerImpl")
  else if task = str "regression" then some (str "SquaredErrorLayerImpl")
  else none

/-- tools.py:273-276. -/
def Opts.targetShape (o : Opts) : List Nat :=
  if o.task = str "classification" then o.outShape.dropLast ++ [1] else o.outShape

/-- `('T', 'B') + shape`. -/
def tb (shape : List Nat) : List Verif.Structure.Tok := .T :: .B :: shape.map .n

/-- The shapes of the input layer (tools.py:278-280, 284-287): a dictionary, later entries replace earlier ones. -/
def Opts.inputs (o : Opts) : Dict Name (List Verif.Structure.Tok) :=
  let d := Dict.set (Dict.set [] o.dataName (tb o.inShape)) o.targetsName (tb o.targetShape)
  match o.maskName with
  | none => d
  | some m => Dict.set d m (tb [1])

/-- What a construction program does: layers to create, in order, and all operations. -/
structure Script where
  made : List Made
  ops : List Op
deriving DecidableEq, Repr

/-- Creating a layer. -/
def Made.op (m : Made) : Op := .create m.cls m.name

/-- `get_in_out_layers` (tools.py:179-293): the script; the input layer is number `n + 2`, the projection layer is number
`n`. -/
def getInOut (n : Nat) (o : Opts) : Option Script :=
  match o.projection, outClass o.task with
  | some proj, some cls =>
    let out : Made := ⟨cls, some o.outName, []⟩
    let input : Made := ⟨str "InputLayerImpl", none, [(str "out_shapes", .shapes o.inputs)]⟩
    let loss : Made := ⟨str "LossLayerImpl", none, [(str "importance", .num 1)]⟩
    let mask : Made := ⟨str "MaskLayerImpl", none, []⟩
    match o.maskName with
    | none => some ⟨[proj, out, input, loss],
        [proj.op, out.op, .connect n (str "default") (str "default") (n + 1), input.op,
          .connect (n + 2) o.targetsName (str "targets") (n + 1), loss.op,
          .connect (n + 1) (str "loss") (str "default") (n + 3)]⟩
    | some m => some ⟨[proj, out, input, mask, loss],
        [proj.op, out.op, .connect n (str "default") (str "default") (n + 1), input.op, mask.op,
          .connect (n + 2) o.targetsName (str "targets") (n + 1),
          .connect (n + 1) (str "loss") (str "default") (n + 3), loss.op,
          .connect (n + 3) (str "default") (str "default") (n + 4),
          .connect (n + 2) m (str "mask") (n + 3)]⟩
  | _, _ => none

/-- `current >>= layer` for every layer and finally `current >> outp` (tools.py:578-585): `k` layers exist, `cur` is the
current layer and `proj` the projection layer. -/
def chainOps (proj : Nat) : Nat → Nat → List Made → List Op
  | _, cur, [] => [.connect cur (str "default") (str "default") proj]
  | k, cur, m :: rest => m.op :: .connect cur (str "default") (str "default") k :: chainOps proj (k + 1) k rest

/-- The input layer, hidden layers in a row, and the output layers. -/
def stack (n : Nat) (o : Opts) (hidden : List Made) : Option Script :=
  (getInOut n o).map (fun s => ⟨s.made ++ hidden, s.ops ++ chainOps n (n + s.made.length) (n + 2) hidden⟩)

/-- `create_net_from_spec` up to `Network.from_layer` (tools.py:563-585). -/
def netFromSpec (n : Nat) (o : Opts) (spec : List Char) : Option Script :=
  (specLayers spec).bind (stack n o)

end Verif.NetSpec
