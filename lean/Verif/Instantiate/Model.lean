import Verif.Architecture.Model
import Verif.Structure.Model
import Verif.Utils.Paths

/-!
# Instantiating layers: `instantiate_layers_from_architecture`
(brainstorm/structure/architecture.py:163-187) and the constructor of layers
(brainstorm/layers/base_layer.py:65-83, 125-226)

A Python set is represented by a list without duplicates; every loop over a set
goes through a function of the `Orders` record, which may enumerate the set in
any order.  The layer types are a parameter: a type has expected keyword
arguments, expected inputs, and a `setup` that computes the output, parameter
and internal structures from the keyword arguments and the input shapes (or
raises).  Which of several possible exceptions is raised is not modelled: the
error values only say which check failed.
-/

namespace Verif.Instantiate

open Verif.Architecture Verif.Structure Verif.Paths

variable {K : Type}

/-- Reasons for failure. -/
inductive Err
  | arch (e : ArchError)        -- validation of the architecture, canonical order
  | unknownType                 -- base_layer.py:10-16
  | missingLayer                -- `layers[c.start_layer]`, a KeyError
  | badPath                     -- get_shape / get_normalized_path
  | combine (e : Structure.Error)
  | kwargs | inputs | connections   -- base_layer.py:139-226
  | setup                       -- an exception of the layer's own `setup`
deriving DecidableEq, Repr

/-- What `setup` returns: output, parameter and internal structures. -/
structure Shapes where
  outs : Dict Name Struct
  params : Dict Name Struct
  internals : Dict Name Struct
deriving DecidableEq, Repr

/-- A layer class: `expected_kwargs`, `expected_inputs` and `setup`
(base_layer.py:55-59, 85-107), which can use the name, the keyword arguments and the
ordered dictionary of input shapes; `none` is an exception. -/
structure LayerClass (K : Type) where
  expectedKwargs : List Name
  expectedInputs : Dict Name Template
  setup : Name → K → Dict Name Struct → Option Shapes

/-- A layer object (base_layer.py:65-83). -/
structure LayerObj (K : Type) where
  name : Name
  kwargs : K
  inShapes : Dict Name Struct
  incoming : List Connection
  outgoing : List Connection
  shapes : Shapes
deriving DecidableEq, Repr

/-- The environment: `get_layer_class_from_typename` (base_layer.py:10-16) on the type
plus `'LayerImpl'`, the keyword arguments of each layer (`get_kwargs`,
architecture.py:158-160) and the keys of a keyword dictionary. -/
structure Env (K : Type) where
  classOf : Name → Option (LayerClass K)
  kwargs : Name → K
  keys : K → List Name

/-- The orders in which sets are enumerated while layer `n` is processed: the set
of incoming connections, the set of outgoing connections and the set of input names. -/
structure Orders where
  incoming : Name → List Connection → List Connection
  outgoing : Name → List Connection → List Connection
  inputs : Name → List Name → List Name

/-- `sorted(in_shapes.keys())` and the loop over it (base_layer.py:70-72). -/
def sortShapes (d : Dict Name Struct) : Dict Name Struct :=
  (sortBy nameLe (Dict.keys d)).filterMap (fun k => (Dict.get? d k).map (fun s => (k, s)))

/-- The part of `_validate_connections` about one outgoing connection
(base_layer.py:196-226). -/
def outgoingOk (sh : Shapes) (c : Connection) : Bool :=
  match c.outputName with
  | '.' :: '.' :: rest =>
    let p := partitionDot rest
    if p.1 = str "parameters" then Dict.has sh.params p.2
    else if p.1 = str "internals" then Dict.has sh.internals p.2
    else false
  | o => Dict.has sh.outs o

/-- `Layer.__init__` (base_layer.py:65-83) with `_validate_kwargs` (139-147),
`_validate_in_shapes` (149-176) and `_validate_connections` (178-226).  The two set
loops of the last one enumerate the sets by `ordIn` and `ordOut`. -/
def construct (cls : LayerClass K) (keys : K → List Name) (ordIn ordOut : List Connection → List Connection)
    (name : Name) (inShapes : Dict Name Struct) (incoming outgoing : List Connection) (kw : K) :
    Except Err (LayerObj K) :=
  let sorted := sortShapes inShapes
  if (keys kw).any (fun k => !(decide (k ∈ cls.expectedKwargs))) then .error .kwargs
  else if (Dict.keys sorted).any (fun k => !(Dict.has cls.expectedInputs k)) then .error .inputs
  else if (Dict.keys cls.expectedInputs).any (fun k => !(Dict.has sorted k)) then .error .inputs
  else if sorted.any (fun e => match Dict.get? cls.expectedInputs e.1 with
      | none => true
      | some t => !(t.matches e.2)) then .error .inputs
  else match cls.setup name kw sorted with
    | none => .error .setup
    | some sh =>
      if (ordIn incoming).any (fun c => !(Dict.has sorted c.inputName)) then .error .connections
      else if (ordOut outgoing).any (fun c => !(outgoingOk sh c)) then .error .connections
      else .ok ⟨name, kw, sorted, incoming, outgoing, sh⟩

/-- `Layer.get_shape` (base_layer.py:125-137).  The dictionaries of structures are
flat, so `get_by_path` with a path of several parts fails. -/
def getShape (l : LayerObj K) (path : Name) : Except Err Struct :=
  let p := partitionDot path
  let d := if p.1 = str "parameters" then some l.shapes.params
    else if p.1 = str "internals" then some l.shapes.internals
    else if p.1 = str "inputs" then some l.inShapes
    else if p.1 = str "outputs" then some l.shapes.outs
    else none
  match d with
  | none => .error .badPath
  | some d => match splitDot p.2 with
    | [k] => match Dict.get? d k with
      | none => .error .badPath
      | some s => .ok s
    | _ => .error .badPath

/-- One element of `incoming_out_shapes` (architecture.py:179-182). -/
def sourceShape (layers : Dict Name (LayerObj K)) (c : Connection) : Except Err Struct :=
  match Dict.get? layers c.startLayer with
  | none => .error .missingLayer
  | some l => match normalizedPath [str "outputs", c.outputName] with
    | none => .error .badPath
    | some p => getShape l p

/-- The list of shapes (architecture.py:179-182): stops at the first exception. -/
def sourceShapes (layers : Dict Name (LayerObj K)) : List Connection → Except Err (List Struct)
  | [] => .ok []
  | c :: cs => match sourceShape layers c with
    | .error e => .error e
    | .ok s => match sourceShapes layers cs with
      | .error e => .error e
      | .ok ss => .ok (s :: ss)

/-- The shape of one input (architecture.py:179-183). -/
def inputShape (layers : Dict Name (LayerObj K)) (incoming : List Connection) (i : Name) :
    Except Err Struct :=
  match sourceShapes layers (incoming.filter (fun c => decide (c.inputName = i))) with
  | .error e => .error e
  | .ok ss => match combine ss with
    | .error e => .error (.combine e)
    | .ok s => .ok s

/-- The loop over input names (architecture.py:177-183). -/
def inputShapes (layers : Dict Name (LayerObj K)) (incoming : List Connection) :
    List Name → Except Err (Dict Name Struct)
  | [] => .ok []
  | i :: is => match inputShape layers incoming i with
    | .error e => .error e
    | .ok s => match inputShapes layers incoming is with
      | .error e => .error e
      | .ok d => .ok ((i, s) :: d)

/-- The set of connections with a property: `{c for c in connections if ...}`. -/
def connSet (cs : List Connection) (p : Connection → Bool) : List Connection :=
  (cs.filter p).dedup

/-- The body of the loop over layers (architecture.py:168-185). -/
def instLayer (env : Env K) (ord : Orders) (a : Arch) (cs : List Connection)
    (layers : Dict Name (LayerObj K)) (n : Name) : Except Err (LayerObj K) :=
  match Dict.get? a n with
  | none => .error .missingLayer
  | some d => match d.type with
    | .string t => match env.classOf (t ++ str "LayerImpl") with
      | none => .error .unknownType
      | some cls =>
        let incoming := connSet cs (fun c => decide (c.endLayer = n))
        let outgoing := connSet cs (fun c => decide (c.startLayer = n))
        let names := ((ord.incoming n incoming).map (·.inputName)).dedup
        match inputShapes layers (ord.incoming n incoming) (ord.inputs n names) with
        | .error e => .error e
        | .ok inShapes => construct cls env.keys (ord.incoming n) (ord.outgoing n) n inShapes
            incoming outgoing (env.kwargs n)
    | _ => .error .missingLayer

/-- The loop over the canonical order (architecture.py:167-186). -/
def instLoop (env : Env K) (ord : Orders) (a : Arch) (cs : List Connection) :
    Dict Name (LayerObj K) → List Name → Except Err (Dict Name (LayerObj K))
  | layers, [] => .ok layers
  | layers, n :: ns => match instLayer env ord a cs layers n with
    | .error e => .error e
    | .ok l => instLoop env ord a cs (Dict.set layers n l) ns

/-- `instantiate_layers_from_architecture` (architecture.py:163-187) with a bound on
the number of rounds of the canonical order. -/
def instantiateFuel (fuel : Nat) (env : Env K) (ord : Orders) (a : Arch) :
    Option (Except Err (Dict Name (LayerObj K))) :=
  match validate a with
  | .error e => some (.error (.arch e))
  | .ok () => match collectAll a with
    | .error e => some (.error (.arch e))
    | .ok cs => match canonicalOrderFuel fuel a with
      | none => none
      | some (.error e) => some (.error (.arch e))
      | some (.ok order) => some (instLoop env ord a cs [] order)

/-- `instantiate_layers_from_architecture` returns (or raises) `r`. -/
def Instantiates (env : Env K) (ord : Orders) (a : Arch) (r : Except Err (Dict Name (LayerObj K))) : Prop :=
  ∃ fuel, ∀ fuel' ≥ fuel, instantiateFuel fuel' env ord a = some r

end Verif.Instantiate
