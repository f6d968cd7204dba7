import Verif.Base.Dict
import Verif.Utils.Names
import Mathlib.Data.List.Dedup
import Mathlib.Data.List.Sort

/-!
# Building architectures with `>>`: `brainstorm/structure/construction.py`

The object graph (layers pointing to shared `scope` dictionaries) is modelled
with explicit pointers: `ptr i` is the identity of the dictionary object that
`layer.scope` refers to, `heap p` its contents.  A layer is identified with its
`creation_id` (a `Nat`, construction.py:25-26); only the order of creation ids
is used by the code.
-/

namespace Verif.Construction

/-- `UniquelyNamed.scope` (construction.py:24): base name ↦ objects. -/
abbrev Scope := Dict Name (List Nat)

/-- An entry `(output_name, input_name, layer)` of `LayerDetails.outgoing`
(construction.py:85-92). -/
structure Out where
  outputName : Name
  inputName : Name
  layer : Nat
deriving DecidableEq, Repr

/-- An entry `(layer, output_name, input_name)` of `LayerDetails.incoming`
(construction.py:76-83). -/
structure In where
  layer : Nat
  outputName : Name
  inputName : Name
deriving DecidableEq, Repr

/-- All `LayerDetails` objects created so far (construction.py:9-113).
`layer_kwargs` is not modelled (no function here reads it) and `_traversing` is never
used by the code. -/
structure State where
  /-- `UniquelyNamed.global_counter`. -/
  count : Nat
  /-- `_basename` of each object. -/
  base : Nat → Name
  /-- `layer_type` of each object. -/
  layerType : Nat → Name
  /-- identity of the dictionary `scope` of each object. -/
  ptr : Nat → Nat
  /-- contents of the scope dictionaries. -/
  heap : Nat → Scope
  /-- `outgoing` of each object. -/
  outgoing : Nat → List Out
  /-- `incoming` of each object. -/
  incoming : Nat → List In

/-- Attribute assignment on one object. -/
def upd {α : Type} (f : Nat → α) (i : Nat) (v : α) : Nat → α :=
  fun j => if j = i then v else f j

/-- No object has been created. -/
def State.init : State where
  count := 0
  base := fun _ => []
  layerType := fun _ => []
  ptr := fun _ => 0
  heap := fun _ => []
  outgoing := fun _ => []
  incoming := fun _ => []

/-- `sorted(set(l), key=lambda x: x.creation_id)` (construction.py:33-34). -/
def sortIds (l : List Nat) : List Nat := l.dedup.insertionSort (· ≤ ·)

/-- First loop of `merge_scopes` (construction.py:29-34): add the entries of the
other dictionary to `self.scope`. -/
def mergeDicts (self : Scope) (items : Scope) : Scope :=
  items.foldl (fun new (p : Name × List Nat) =>
    let new := if Dict.has new p.1 then new else Dict.set new p.1 []
    Dict.set new p.1 (sortIds (((Dict.get? new p.1).getD []) ++ p.2))) self

/-- `UniquelyNamed.merge_scopes` (construction.py:28-37).  `new_scope` is the
dictionary object of `self`, changed in place; afterwards every object in it is
pointed to it. -/
def mergeScopes (s : State) (self other : Nat) : State :=
  let p := s.ptr self
  let new := mergeDicts (s.heap p) (s.heap (s.ptr other))
  let members := new.flatMap (fun e => e.2)
  { s with
    heap := upd s.heap p new
    ptr := fun j => if j ∈ members then p else s.ptr j }

/-- Why creating a layer can fail. -/
inductive CreateError
  | notLayerImpl   -- construction.py:134-136
  | invalidType    -- construction.py:65-67
  | invalidName    -- construction.py:68-70
deriving DecidableEq, Repr

/-- `layer_type_name.endswith('LayerImpl')` and `layer_type_name[:-9]`
(construction.py:134-137). -/
def stripLayerImpl (t : Name) : Option Name :=
  if (str "LayerImpl").isSuffixOf t then some (t.take (t.length - 9)) else none

/-- The checks of `ConstructionWrapper.create` and `LayerDetails.__init__`
(construction.py:128-140, 64-71): base name and type of the new object. -/
def checkCreate (typeName : Name) (name : Option Name) : Except CreateError (Name × Name) :=
  match stripLayerImpl typeName with
  | none => .error .notLayerImpl
  | some t =>
    if isValidLayerName t then
      match name with
      | none => .ok (t, t)
      | some n => if isValidLayerName n then .ok (n, t) else .error .invalidName
    else .error .invalidType

/-- `UniquelyNamed.__init__` and `LayerDetails.__init__` (construction.py:22-26,
71-97): a new object with a new dictionary. -/
def alloc (s : State) (base layerType : Name) : State :=
  { s with
    count := s.count + 1
    base := upd s.base s.count base
    layerType := upd s.layerType s.count layerType
    ptr := upd s.ptr s.count s.count
    heap := upd s.heap s.count [(base, [s.count])]
    outgoing := upd s.outgoing s.count []
    incoming := upd s.incoming s.count [] }

/-- What a user script does to build an architecture. -/
inductive Op
  /-- `ConstructionWrapper.create(typeName, name=name)`. -/
  | create (typeName : Name) (name : Option Name)
  /-- `(a - outputName) >> (inputName - b)` (construction.py:148-168). -/
  | connect (a : Nat) (outputName inputName : Name) (b : Nat)
deriving DecidableEq, Repr

/-- Effect of one operation.  A failing `create` raises before any object
exists.  Connecting objects that do not exist is impossible in Python; the model
ignores it. -/
def step (s : State) : Op → State
  | .create t n =>
    match checkCreate t n with
    | .error _ => s
    | .ok (base, ty) => alloc s base ty
  | .connect a o i b =>
    if a < s.count ∧ b < s.count then
      let s := { s with outgoing := upd s.outgoing a (s.outgoing a ++ ([⟨o, i, b⟩] : List Out)) }
      let s := { s with incoming := upd s.incoming b (s.incoming b ++ ([⟨a, o, i⟩] : List In)) }
      mergeScopes s a b
    else s

/-- The state after a script. -/
def run (ops : List Op) : State := ops.foldl step State.init

/-- The inner `while` of `name` (construction.py:49-51) starting at index `i`;
`none` if it does not end within `fuel` rounds. -/
def nextFree (scope : Scope) (base : Name) : Nat → Nat → Option Nat
  | 0, _ => none
  | fuel + 1, i =>
    match Dict.get? scope (indexed base i) with
    | some [_] => nextFree scope base fuel (i + 1)
    | _ => some i

/-- The `for` loop of `name` (construction.py:45-54).  `none`: the loop ends
without finding `self` (Python returns `None`) or the inner loop does not end
within `fuel` rounds. -/
def nameLoop (scope : Scope) (base : Name) (self : Nat) (fuel : Nat) :
    List Nat → Nat → Option Name
  | [], _ => none
  | un :: rest, i =>
    match nextFree scope base fuel i with
    | none => none
    | some i => if un = self then some (indexed base i) else nameLoop scope base self fuel rest (i + 1)

/-- The property `name` (construction.py:39-54) with a bound on the rounds of
the inner loop; `none` also for a `KeyError` in `self.scope[self._basename]`. -/
def nameFuel (fuel : Nat) (s : State) (self : Nat) : Option Name :=
  let scope := s.heap (s.ptr self)
  match Dict.get? scope (s.base self) with
  | none => none
  | some [_] => some (s.base self)
  | some l => nameLoop scope (s.base self) self fuel l 1

/-- The property `name` (construction.py:39-54): the unbounded `while` loop
returns `n` when it ends after some number of rounds. -/
def HasName (s : State) (self : Nat) (n : Name) : Prop :=
  ∃ fuel, ∀ fuel' ≥ fuel, nameFuel fuel' s self = some n

end Verif.Construction
