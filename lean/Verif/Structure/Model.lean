/-!
# Buffer structures: `brainstorm/structure/buffer_structure.py`

Shapes are tuples of the markers `'T'`, `'B'`, `'F'`, `'...'`, integers or other
strings.  Simplification: integers in shapes are natural numbers (the code
accepts any `int`); `is_backward_only` is a boolean and `context_size` a natural
number (the code raises for anything else, buffer_structure.py:76-79, 190-193).
-/

namespace Verif.Structure

/-- An entry of a shape. -/
inductive Tok
  | T | B | F | dots
  | n (k : Nat)
  | other
deriving DecidableEq, Repr

/-- `isinstance(f, int)`. -/
def Tok.isInt : Tok → Bool
  | .n _ => true
  | _ => false

/-- The size an integer entry stands for. -/
def Tok.size : Tok → Nat
  | .n k => k
  | _ => 0

/-- Failures: `StructureValidationError`, `ValueError`, `ValidationError`. -/
inductive Error
  | structure
  | value
  | validation
deriving DecidableEq, Repr

/-- Number of leading entries that are not features: `first_feature_dim`
(buffer_structure.py:22-27, 129-135), also the `buffer_type` of a structure. -/
def typeOf (shape : List Tok) : Nat :=
  if .T ∈ shape then 2 else if .B ∈ shape then 1 else 0

/-- `StructureTemplate` (buffer_structure.py:10-106); `is_backward_only` is
stored but not used. -/
structure Template where
  shape : List Tok
  contextSize : Nat
deriving DecidableEq, Repr

/-- `StructureTemplate.feature_shape` (buffer_structure.py:31-33). -/
def Template.featureShape (t : Template) : List Tok := t.shape.drop (typeOf t.shape)

/-- `StructureTemplate.validate` (buffer_structure.py:35-84). -/
def Template.validate (t : Template) : Except Error Unit :=
  if t.shape = [] then .error .structure
  else if .T ∈ t.shape ∧ t.shape.take 2 ≠ [.T, .B] then .error .structure
  else if .T ∉ t.shape ∧ .B ∈ t.shape ∧ t.shape.take 1 ≠ [.B] then .error .structure
  else if t.shape.length < typeOf t.shape then .error .structure
  else if .dots ∈ t.shape ∧ t.featureShape ≠ [.dots] then .error .structure
  else if .dots ∉ t.shape ∧ .F ∈ t.shape ∧ ¬ (t.featureShape.all (· = .F)) then .error .structure
  else if .dots ∉ t.shape ∧ .F ∉ t.shape ∧ ¬ (t.featureShape.all Tok.isInt) then .error .structure
  else if t.contextSize ≠ 0 ∧ .T ∉ t.shape then .error .structure
  else .ok ()

/-- `BufferStructure` (buffer_structure.py:109-259). -/
structure Struct where
  shape : List Tok
  contextSize : Nat := 0
  backwardOnly : Bool := false
deriving DecidableEq, Repr

/-- `buffer_type` (buffer_structure.py:129-135). -/
def Struct.bufferType (s : Struct) : Nat := typeOf s.shape

/-- `scaling_shape` (buffer_structure.py:148-150). -/
def Struct.scalingShape (s : Struct) : List Tok := s.shape.take s.bufferType

/-- `feature_shape` (buffer_structure.py:152-154). -/
def Struct.featureShape (s : Struct) : List Tok := s.shape.drop s.bufferType

/-- `feature_size` (buffer_structure.py:156-158). -/
def Struct.featureSize (s : Struct) : Nat := (s.featureShape.map Tok.size).foldl (· * ·) 1

/-- `BufferStructure.validate` (buffer_structure.py:164-199). -/
def Struct.validate (s : Struct) : Except Error Unit :=
  if s.shape = [] then .error .structure
  else if .T ∈ s.shape ∧ s.shape.take 2 ≠ [.T, .B] then .error .structure
  else if .T ∉ s.shape ∧ .B ∈ s.shape ∧ s.shape.take 1 ≠ [.B] then .error .structure
  else if s.shape.length ≤ s.bufferType then .error .structure
  else if ¬ (s.featureShape.all Tok.isInt) then .error .structure
  else if s.contextSize ≠ 0 ∧ .T ∉ s.shape then .error .structure
  else .ok ()

/-- `StructureTemplate.matches` (buffer_structure.py:86-103). -/
def Template.matches (t : Template) (s : Struct) : Bool :=
  if .dots ∉ t.shape ∧ s.shape.length ≠ t.shape.length then false
  else if .dots ∈ t.shape ∧ s.shape.length < t.shape.length then false
  else (s.shape.zip t.shape).all (fun p =>
    decide (p.2 = p.1) || (decide (p.2 = .F) && p.1.isInt) || decide (p.2 = .dots))

/-- `combine_buffer_structures` (buffer_structure.py:262-297).  The result of an
empty list is `BufferStructure(0)`. -/
def combine (shapes : List Struct) : Except Error Struct :=
  match shapes with
  | [] => .ok ⟨[.n 0], 0, false⟩
  | first :: _ =>
    if ¬ (shapes.all (fun s => s.shape.length = first.shape.length)) then .error .value
    else if ¬ (shapes.all (fun s => s.bufferType = first.bufferType)) then .error .validation
    else if ¬ (shapes.all (fun s => s.featureShape.dropLast = first.featureShape.dropLast)) then
      .error .value
    else
      let summed := (shapes.map (fun s => (s.featureShape.getLastD (.n 0)).size)).sum
      .ok ⟨first.scalingShape ++ first.featureShape.dropLast ++ [.n summed], 0, false⟩

end Verif.Structure
