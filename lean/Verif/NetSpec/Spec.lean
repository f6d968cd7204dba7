import Verif.NetSpec.Model

/-!
# What a spec line means

The layers that the documentation of `create_net_from_spec` (tools.py:485-562) describes, and all the ways to write them.
-/

namespace Verif.NetSpec

/-! ## The layers of the documentation -/

/-- The activation functions `{l, r, s, t}`. -/
inductive Act
  | linear | relu | sigmoid | tanh
deriving DecidableEq, Repr

/-- The letter of an activation function. -/
def Act.letter : Act → Char
  | .linear => 'l' | .relu => 'r' | .sigmoid => 's' | .tanh => 't'

/-- The name of an activation function in a layer. -/
def Act.name : Act → Name
  | .linear => str "linear" | .relu => str "rel" | .sigmoid => str "sigmoid" | .tanh => str "tanh"

/-- Kinds of pooling. -/
inductive PoolKind
  | max | avg
deriving DecidableEq, Repr

def PoolKind.letter : PoolKind → Char
  | .max => 'm' | .avg => 'a'

def PoolKind.name : PoolKind → Name
  | .max => str "max" | .avg => str "avg"

/-- `p1` and `s2`. -/
inductive Extra
  | padding (n : Nat)
  | stride (n : Nat)
deriving DecidableEq, Repr

def Extra.args : Extra → List Val
  | .padding n => [.text ['p'], .int n]
  | .stride n => [.text ['s'], .int n]

def Extra.padding? : Extra → Option Nat
  | .padding n => some n
  | _ => none

def Extra.stride? : Extra → Option Nat
  | .stride n => some n
  | _ => none

/-- The padding asked for: the last one given, or none. -/
def paddingOf (l : List Extra) : Nat := ((l.filterMap Extra.padding?).getLast?).getD 0
/-- The stride asked for: the last one given, or 1. -/
def strideOf (l : List Extra) : Nat := ((l.filterMap Extra.stride?).getLast?).getD 1

/-- A layer as the documentation describes it. -/
inductive Doc
  | fullyConnected (act : Option Act) (size : Nat)
  | recurrent (act : Option Act) (size : Nat)
  | lstm (act : Option Act) (size : Nat)
  | batchNorm
  | dropout (prob : Option Rat)
  | convolution (act : Option Act) (filters kernel : Nat) (extra : List Extra)
  | pooling (kind : Option PoolKind) (kernel : Nat) (extra : List Extra)
deriving DecidableEq, Repr

/-- The capital letter. -/
def Doc.letter : Doc → Char
  | .fullyConnected .. => 'F' | .recurrent .. => 'R' | .lstm .. => 'L' | .batchNorm => 'B' | .dropout .. => 'D'
  | .convolution .. => 'C' | .pooling .. => 'P'

/-- The arguments, in the order they are written. -/
def Doc.args : Doc → List Val
  | .fullyConnected a n => (a.toList.map (fun a => .text [a.letter])) ++ [.int n]
  | .recurrent a n => (a.toList.map (fun a => .text [a.letter])) ++ [.int n]
  | .lstm a n => (a.toList.map (fun a => .text [a.letter])) ++ [.int n]
  | .batchNorm => []
  | .dropout p => p.toList.map .float
  | .convolution a f k l => (a.toList.map (fun a => .text [a.letter])) ++ [.int f, .int k] ++ l.flatMap Extra.args
  | .pooling t k l => (t.toList.map (fun t => .text [t.letter])) ++ [.int k] ++ l.flatMap Extra.args

/-- The layer it stands for: its class and all its keyword arguments. -/
def Doc.made : Doc → Made
  | .fullyConnected a n => ⟨str "FullyConnectedLayerImpl", none,
      [(str "size", .int n), (str "activation", .string ((a.getD .relu).name))]⟩
  | .recurrent a n => ⟨str "RecurrentLayerImpl", none,
      [(str "size", .int n), (str "activation", .string ((a.getD .tanh).name))]⟩
  | .lstm a n => ⟨str "LstmLayerImpl", none, [(str "size", .int n), (str "activation", .string ((a.getD .tanh).name))]⟩
  | .batchNorm => ⟨str "BatchNormLayerImpl", none, [(str "decay", .num (9 / 10)), (str "epsilon", .num (1 / 100000))]⟩
  | .dropout p => ⟨str "DropoutLayerImpl", none, [(str "drop_prob", .num (p.getD (1 / 2)))]⟩
  | .convolution a f k l => ⟨str "Convolution2DLayerImpl", none,
      [(str "num_filters", .int f), (str "kernel_size", .pair k k), (str "stride", .pair (strideOf l) (strideOf l)),
        (str "padding", .int (paddingOf l)), (str "activation", .string ((a.getD .relu).name))]⟩
  | .pooling t k l => ⟨str "Pooling2DLayerImpl", none,
      [(str "kernel_size", .pair k k), (str "type", .string ((t.getD .max).name)),
        (str "stride", .pair (strideOf l) (strideOf l)), (str "padding", .int (paddingOf l))]⟩

/-! ## Writing them down -/

/-- One argument as written: a letter, the digits of an integer, or the digits before and after a decimal point. -/
inductive Word
  | letter (c : Char)
  | int (ds : List Char)
  | dec (a b : List Char)
deriving DecidableEq, Repr

/-- Letters are lower case, digits are digits; digits before the decimal point may be missing. -/
def Word.Ok : Word → Prop
  | .letter c => isLower c = true
  | .int ds => ds.all isDigit = true ∧ ds ≠ []
  | .dec a b => a.all isDigit = true ∧ b.all isDigit = true ∧ b ≠ []

def Word.text : Word → List Char
  | .letter c => [c]
  | .int ds => ds
  | .dec a b => a ++ '.' :: b

def Word.IsNumber : Word → Prop
  | .letter _ => False
  | _ => True

/-- The value. -/
def Word.val : Word → Val
  | .letter c => .text [c]
  | .int ds => .int (digitsVal ds)
  | .dec a b => .float (digitsVal a + digitsVal b / 10 ^ b.length)

/-- An argument with what is written behind it: white space, perhaps a separator, white space. -/
structure Written where
  word : Word
  gap : List Char
  sep : Option Char
  gap' : List Char
deriving DecidableEq, Repr

def Written.after (a : Written) : List Char := a.gap ++ (a.sep.toList ++ a.gap')

def Written.text (a : Written) : List Char := a.word.text ++ a.after

def Written.Ok (a : Written) : Prop :=
  a.word.Ok ∧ a.gap.all isSpace = true ∧ (∀ c ∈ a.sep, isSep c = true) ∧ a.gap'.all isSpace = true

/-- Two numbers do not touch. -/
def Apart : List Written → Prop
  | a :: b :: r => (a.word.IsNumber → b.word.IsNumber → a.after ≠ []) ∧ Apart (b :: r)
  | _ => True

/-- A layer as written: its letter, white space and its arguments. -/
structure Item where
  letter : Char
  gap : List Char
  args : List Written
deriving DecidableEq, Repr

def Item.text (i : Item) : List Char := i.letter :: (i.gap ++ i.args.flatMap Written.text)

/-- The item is a way to write the layer. -/
def Item.Writes (i : Item) (d : Doc) : Prop :=
  i.letter = d.letter ∧ i.args.map (fun a => a.word.val) = d.args ∧ i.gap.all isSpace = true ∧ (∀ a ∈ i.args, a.Ok) ∧
    Apart i.args

/-- Two capital letters do not touch. -/
def LettersApart : List Item → Prop
  | a :: b :: r => (a.args = [] → a.gap ≠ []) ∧ LettersApart (b :: r)
  | _ => True

end Verif.NetSpec
