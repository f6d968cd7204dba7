import Verif.Base.Dict
import Verif.Utils.NameOrder

/-!
# Architectures: `brainstorm/structure/architecture.py`

An architecture is a dictionary from layer names (strings) to layer
descriptions.  Only the two entries the functions look at are modelled,
`'@type'` and `'@outgoing_connections'`; all other entries are keyword arguments
of the layer.  Keys are strings (the branch for non-string names,
architecture.py:83-84, is not modelled) and connection lists contain strings.
-/

namespace Verif.Architecture

/-- `layer['@type']`. -/
inductive TypeEntry
  | missing
  | string (t : Name)
  | other
deriving DecidableEq, Repr

/-- `layer['@outgoing_connections']`: absent, a list/tuple of strings, a
dictionary from output names to lists of strings, or something else. -/
inductive OutEntry
  | missing
  | list (l : List Name)
  | dict (d : Dict Name (List Name))
  | other
deriving DecidableEq, Repr

/-- A layer description. -/
structure LayerDesc where
  type : TypeEntry
  outgoing : OutEntry
deriving DecidableEq, Repr

/-- An architecture. -/
abbrev Arch := Dict Name LayerDesc

/-- `Connection` (architecture.py:16-18). -/
structure Connection where
  startLayer : Name
  outputName : Name
  endLayer : Name
  inputName : Name
deriving DecidableEq, Repr

/-- The tuple behind the named tuple. -/
def Connection.key (c : Connection) : List Name :=
  [c.startLayer, c.outputName, c.endLayer, c.inputName]

/-- Order of named tuples. -/
def connLe (a b : Connection) : Bool := lexLe nameLe a.key b.key

/-- Failures of the functions of this file. -/
inductive ArchError
  | missingType | invalidType | invalidOutgoing   -- architecture.py:85-95
  | invalidName                                   -- architecture.py:99-101
  | keyError                                      -- layer['@outgoing_connections'] missing
  | undefinedEndLayer                             -- architecture.py:107-109
  | noInput                                       -- architecture.py:112-115
  | inputHasIncoming                              -- architecture.py:118-120
  | assertion                                     -- architecture.py:154
deriving DecidableEq, Repr

/-- `s.partition('.')`: text before the first dot and text after it (both whole
and empty if there is no dot). -/
def partitionDot : Name → Name × Name
  | [] => ([], [])
  | c :: rest =>
    if c = '.' then ([], rest)
    else let r := partitionDot rest; (c :: r.1, r.2)

/-- `parse_connection` (architecture.py:47-49). -/
def parseConnection (s : Name) : Name × Name := partitionDot s

/-- Lines 56-60 and 64-68: one connection string of output `outName`. -/
def mkConnection (layerName outName conStr : Name) : Connection :=
  let (endLayer, inputName) := parseConnection conStr
  let inputName := if inputName = [] then str "default" else inputName
  ⟨layerName, outName, endLayer, inputName⟩

/-- `collect_all_outgoing_connections` (architecture.py:52-69).  `'other'`
values behave like a dictionary without the method `items`; they are rejected
before this function is called (92-95), so the model lets them fail the same way
as a missing key. -/
def collectOutgoing (layer : LayerDesc) (layerName : Name) : Except ArchError (List Connection) :=
  match layer.outgoing with
  | .missing => .error .keyError
  | .other => .error .keyError
  | .list l => .ok (l.map (mkConnection layerName (str "default")))
  | .dict d => .ok (d.flatMap (fun e => e.2.map (mkConnection layerName e.1)))

/-- The loop of `collect_all_connections` (architecture.py:73-76). -/
def collectUnsorted : Arch → Except ArchError (List Connection)
  | [] => .ok []
  | (n, l) :: rest =>
    match collectOutgoing l n with
    | .error e => .error e
    | .ok cs => match collectUnsorted rest with
      | .error e => .error e
      | .ok more => .ok (cs ++ more)

/-- `collect_all_connections` (architecture.py:72-77). -/
def collectAll (a : Arch) : Except ArchError (List Connection) :=
  (collectUnsorted a).map (sortBy connLe)

/-- The schema check of one layer (architecture.py:82-95). -/
def schemaCheck (l : LayerDesc) : Except ArchError Unit :=
  match l.type with
  | .missing => .error .missingType
  | .other => .error .invalidType
  | .string _ => match l.outgoing with
    | .other => .error .invalidOutgoing
    | _ => .ok ()

/-- First error of a check over all entries. -/
def forAll {α : Type} (f : α → Except ArchError Unit) : List α → Except ArchError Unit
  | [] => .ok ()
  | x :: xs => match f x with
    | .error e => .error e
    | .ok () => forAll f xs

/-- `validate_architecture` (architecture.py:80-124). -/
def validate (a : Arch) : Except ArchError Unit := do
  forAll (fun e => schemaCheck e.2) a
  forAll (fun n => if isValidLayerName n then .ok () else .error .invalidName) (Dict.keys a)
  let connections ← collectAll a
  let endLayers := connections.map (·.endLayer)
  if endLayers.any (fun n => !(decide (n ∈ Dict.keys a))) then
    .error .undefinedEndLayer
  else
    match Dict.get? a (str "Input") with
    | none => .error .noInput
    | some l =>
      if l.type ≠ .string (str "Input") then .error .noInput
      else if str "Input" ∈ endLayers then .error .inputHasIncoming
      else .ok ()

/-- One round of the `while` loop of `get_canonical_layer_order`
(architecture.py:138-145): the layers whose successors are all ordered. -/
def newLayers (names : List Name) (cs : List Connection) (ordered : List Name) : List Name :=
  (names.filter (fun l => !(decide (l ∈ ordered)))).filter (fun l =>
    (cs.filter (fun c => decide (c.startLayer = l))).all (fun c => decide (c.endLayer ∈ ordered)))

/-- The `while` loop of `get_canonical_layer_order` (architecture.py:137-150);
`none` if it does not end within `fuel` rounds. -/
def peel (names : List Name) (cs : List Connection) : Nat → List Name → Option (List Name)
  | 0, _ => none
  | fuel + 1, order =>
    let new := newLayers names cs order
    if new = [] then some order
    else peel names cs fuel (order ++ sortBy (fun a b => nameLe b a) new)

/-- `get_canonical_layer_order` (architecture.py:127-155) with a bound on the
number of rounds; the outer `Option` is `none` if the bound is too small. -/
def canonicalOrderFuel (fuel : Nat) (a : Arch) : Option (Except ArchError (List Name)) :=
  match collectAll a with
  | .error e => some (.error e)
  | .ok cs =>
    match peel (Dict.keys a) cs fuel [] with
    | none => none
    | some order =>
      if (Dict.keys a).all (fun n => decide (n ∈ order)) then some (.ok order.reverse)
      else some (.error .assertion)

/-- `get_canonical_layer_order` returns (or raises) `r`. -/
def CanonicalOrder (a : Arch) (r : Except ArchError (List Name)) : Prop :=
  ∃ fuel, ∀ fuel' ≥ fuel, canonicalOrderFuel fuel' a = some r

end Verif.Architecture
