import Verif.NetSpec.Regex
import Verif.Setup.Model
import Verif.Construction.Model

/-!
# Networks from a line of text: `create_net_from_spec` and `get_in_out_layers`
(brainstorm/tools.py:179-293, 348-597)

Simplifications: decimal numbers are rational numbers instead of floats; `\s` is white space of ASCII.
Which exception is raised is not modelled.
-/

namespace Verif.NetSpec

/-! ## Reading the line -/

/-- `\s`. -/
def isSpace (c : Char) : Bool := c == ' ' || c == '\t' || c == '\n' || c == '\r' || c == '\x0b' || c == '\x0c'
/-- `[A-Z]`. -/
def isUpper (c : Char) : Bool := 'A' ≤ c && c ≤ 'Z'
/-- `[a-z]`. -/
def isLower (c : Char) : Bool := 'a' ≤ c && c ≤ 'z'
/-- `[0-9]`. -/
def isDigit (c : Char) : Bool := '0' ≤ c && c ≤ '9'
/-- `[-+]`. -/
def isSign (c : Char) : Bool := c == '-' || c == '+'
/-- `\.`. -/
def isDot (c : Char) : Bool := c == '.'
/-- `[:/|]`. -/
def isSep (c : Char) : Bool := c == ':' || c == '/' || c == '|'

/-- `\s*`. -/
def reSpaces : Re := .star (.chr isSpace)

/-- `LAYER_TYPE = r'\s*(?P<layer_type>[A-Z]+)\s*'` (tools.py:570); `layer_type` is group 1. -/
def reType : Re := .seq reSpaces (.seq (.cap 1 (.plus (.chr isUpper))) reSpaces)

/-- `FLOAT = r'\s*[-+]?[0-9]*\.?[0-9]+\s*'` (tools.py:571). -/
def reFloat : Re :=
  .seq reSpaces (.seq (.opt (.chr isSign)) (.seq (.star (.chr isDigit)) (.seq (.opt (.chr isDot))
    (.seq (.plus (.chr isDigit)) reSpaces))))

/-- `ARG = r'\s*([a-z]|{float})\s*[:/|]?\s*'` (tools.py:572); its group is number 2. -/
def reArg : Re :=
  .seq reSpaces (.seq (.cap 2 (.alt (.chr isLower) reFloat)) (.seq reSpaces (.seq (.opt (.chr isSep)) reSpaces)))

/-- `ARG_LIST = r'(?P<args>({arg})*)'` (tools.py:573); `args` is group 3. -/
def reArgs : Re := .cap 3 (.star reArg)

/-- `ARCH_SPEC = r'({type}{args})'` (tools.py:574). -/
def reSpec : Re := .seq reType reArgs

/-- An argument: a text or a number (tools.py:472-479). -/
inductive Val
  | text (s : List Char)
  | int (z : Int)
  | float (q : Rat)
deriving DecidableEq, Repr

/-- The number digits denote. -/
def digitsVal (ds : List Char) : Nat := ds.foldl (fun n c => 10 * n + (c.toNat - '0'.toNat)) 0

/-- `s.strip()`. -/
def strip (s : List Char) : List Char := ((s.dropWhile isSpace).reverse.dropWhile isSpace).reverse

/-- Splits off a sign. -/
def signOf : List Char → Int × List Char
  | '-' :: r => (-1, r)
  | '+' :: r => (1, r)
  | r => (1, r)

/-- `int(s)`; `none` is a `ValueError`.  (Underscores between digits are not modelled: `ARG` captures none.) -/
def pyInt (s : List Char) : Option Int :=
  let p := signOf (strip s)
  if p.2 ≠ [] ∧ p.2.all isDigit then some (p.1 * digitsVal p.2) else none

/-- `float(s)` for a decimal number; `none` is a `ValueError`.  (Exponents, `inf` and `nan` are not modelled: `ARG` captures
single letters only.) -/
def pyFloat (s : List Char) : Option Rat :=
  let p := signOf (strip s)
  let a := p.2.takeWhile isDigit
  match p.2.dropWhile isDigit with
  | [] => if a = [] then none else some (p.1 * digitsVal a)
  | c :: b => if c = '.' ∧ b.all isDigit ∧ ¬(a = [] ∧ b = []) then
      some (p.1 * (digitsVal a + digitsVal b / 10 ^ b.length)) else none

/-- `trynumber` (tools.py:472-479). -/
def tryNumber (s : List Char) : Val :=
  match pyInt s with
  | some z => .int z
  | none => match pyFloat s with
    | some q => .float q
    | none => .text s

/-- `[trynumber(a) for a in re.split(ARG, text)[1::2] if a != '']` (tools.py:581-582): the odd parts of `re.split` are what
the group of `ARG` captured in the successive matches. -/
def readArgs (text : List Char) : List Val :=
  (((findAll reArg text).map (fun m => (m.group 2).getD [])).filter (· ≠ [])).map tryNumber

/-- The loop over the matches (tools.py:579-582): layer type and arguments of each. -/
def readSpec (spec : List Char) : List (List Char × List Val) :=
  (findAll reSpec spec).map (fun m => ((m.group 1).getD [], readArgs ((m.group 3).getD [])))

/-! ## Creating layers -/

/-- A value given to a layer. -/
inductive Arg
  | int (z : Int)
  | pair (a b : Int)
  | ints (l : List Nat)
  | num (q : Rat)
  | string (s : Name)
  | shapes (l : List (Name × List Verif.Structure.Tok))
deriving DecidableEq, Repr

/-- What `ConstructionWrapper.create` is called with: class, name and keyword arguments. -/
structure Made where
  cls : Name
  name : Option Name := none
  kwargs : Dict Name Arg
deriving DecidableEq, Repr

/-- `FullyConnected(size, activation, name)` (fully_connected_layer.py:13-22), `size` not `None`. -/
def mkFullyConnected (size : Arg) (activation : Name) (name : Option Name := none) : Made :=
  ⟨str "FullyConnectedLayerImpl", name, [(str "size", size), (str "activation", .string activation)]⟩

/-- `Recurrent(size, activation)` (recurrent_layer.py:13-17). -/
def mkRecurrent (size : Arg) (activation : Name) : Made :=
  ⟨str "RecurrentLayerImpl", none, [(str "size", size), (str "activation", .string activation)]⟩

/-- `Lstm(size, activation)` (lstm_layer.py:13-17). -/
def mkLstm (size : Arg) (activation : Name) : Made :=
  ⟨str "LstmLayerImpl", none, [(str "size", size), (str "activation", .string activation)]⟩

/-- `BatchNorm()` (batch_normalization_layer.py:14-25). -/
def mkBatchNorm : Made := ⟨str "BatchNormLayerImpl", none, [(str "decay", .num (9 / 10)), (str "epsilon", .num (1 / 100000))]⟩

/-- `Dropout(drop_prob)` (dropout_layer.py:11-18). -/
def mkDropout (p : Rat := 1 / 2) : Made := ⟨str "DropoutLayerImpl", none, [(str "drop_prob", .num p)]⟩

/-- `Convolution2D(num_filters, kernel_size, stride, padding, activation, name)` (convolution_layer_2d.py:13-23). -/
def mkConvolution (filters : Int) (kernel stride : Int × Int) (padding : Int) (activation : Name)
    (name : Option Name := none) : Made :=
  ⟨str "Convolution2DLayerImpl", name, [(str "num_filters", .int filters), (str "kernel_size", .pair kernel.1 kernel.2),
    (str "stride", .pair stride.1 stride.2), (str "padding", .int padding), (str "activation", .string activation)]⟩

/-- `Pooling2D(kernel_size, type, stride, padding)` (pooling_layer_2d.py:13-19). -/
def mkPooling (kernel stride : Int × Int) (type : Name) (padding : Int) : Made :=
  ⟨str "Pooling2DLayerImpl", none, [(str "kernel_size", .pair kernel.1 kernel.2), (str "type", .string type),
    (str "stride", .pair stride.1 stride.2), (str "padding", .int padding)]⟩

/-- `act_funcs` (tools.py:348-353). -/
def actFuncs : Val → Option Name
  | .text ['s'] => some (str "sigmoid")
  | .text ['t'] => some (str "tanh")
  | .text ['r'] => some (str "rel")
  | .text ['l'] => some (str "linear")
  | _ => none

/-- The optional first argument (e.g. tools.py:357-361): activation and the other arguments. -/
def takeAct (dflt : Name) : List Val → Name × List Val
  | v :: rest => match actFuncs v with
    | some a => (a, rest)
    | none => (dflt, v :: rest)
  | [] => (dflt, [])

/-- `size = args[0]` and the assertion that it is an integer (tools.py:362-363). -/
def takeSize : List Val → Option Int
  | .int z :: _ => some z
  | _ => none

/-- `F` (tools.py:356-364). -/
def layerF (args : List Val) : Option Made :=
  let p := takeAct (str "rel") args
  (takeSize p.2).map (fun z => mkFullyConnected (.int z) p.1)

/-- `B` (tools.py:367-369). -/
def layerB (args : List Val) : Option Made := if args = [] then some mkBatchNorm else none

/-- `D` (tools.py:372-377). -/
def layerD : List Val → Option Made
  | [] => some mkDropout
  | .float q :: _ => some (mkDropout q)
  | _ => none

/-- `R` (tools.py:380-388). -/
def layerR (args : List Val) : Option Made :=
  let p := takeAct (str "tanh") args
  (takeSize p.2).map (fun z => mkRecurrent (.int z) p.1)

/-- `L` (tools.py:391-399). -/
def layerL (args : List Val) : Option Made :=
  let p := takeAct (str "tanh") args
  (takeSize p.2).map (fun z => mkLstm (.int z) p.1)

/-- The loop `while args` of `C` and `P` (tools.py:417-424, 446-453): padding and stride.  `args[0] in 'ps'` raises for a
number, `args[1]` at the end; an integer is required for both by the layers, so a text or a decimal number makes
creating the network fail (here: at once). -/
def padStride : List Val → Int × Int → Option (Int × Int)
  | [], r => some r
  | .text ['p'] :: .int z :: rest, r => padStride rest (z, r.2)
  | .text ['s'] :: .int z :: rest, r => padStride rest (r.1, z)
  | _, _ => none

/-- `C` (tools.py:402-428). -/
def layerC (args : List Val) : Option Made :=
  let p := takeAct (str "rel") args
  match p.2 with
  | .int f :: .int k :: rest => (padStride rest (0, 1)).map (fun r => mkConvolution f (k, k) (r.2, r.2) r.1 p.1)
  | _ => none

/-- `pool_types` and the optional first argument of `P` (tools.py:432-440). -/
def takePool : List Val → Option (Name × List Val)
  | [] => none
  | .text ['m'] :: rest => some (str "max", rest)
  | .text ['a'] :: rest => some (str "avg", rest)
  | args => some (str "max", args)

/-- `P` (tools.py:431-457). -/
def layerP (args : List Val) : Option Made :=
  match takePool args with
  | none => none
  | some p => match p.2 with
    | .int k :: rest => (padStride rest (0, 1)).map (fun r => mkPooling (k, k) (r.2, r.2) p.1 r.1)
    | _ => none

/-- `create_layer` (tools.py:460-469); other types are a `KeyError`. -/
def createLayer (type : List Char) (args : List Val) : Option Made :=
  if type = ['F'] then layerF args
  else if type = ['B'] then layerB args
  else if type = ['R'] then layerR args
  else if type = ['L'] then layerL args
  else if type = ['D'] then layerD args
  else if type = ['C'] then layerC args
  else if type = ['P'] then layerP args
  else none

/-- The layers of the loop (tools.py:579-583). -/
def specLayers (spec : List Char) : Option (List Made) := (readSpec spec).mapM (fun e => createLayer e.1 e.2)

end Verif.NetSpec
