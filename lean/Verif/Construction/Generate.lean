import Verif.Construction.Spec
import Verif.Architecture.Model

/-!
# From layers to an architecture: `generate_architecture`

`brainstorm/structure/construction.py:99-110` and
`brainstorm/structure/architecture.py:21-44`.
-/

namespace Verif.Construction

open Verif.Architecture

/-- The `while` loop of `collect_connected_layers` (construction.py:103-109).
Sets are lists without duplicates; `none` if the loop does not end within `fuel`
rounds. -/
def collectFuel (s : State) : Nat → List Nat → List Nat → Option (List Nat)
  | 0, _, _ => none
  | fuel + 1, connectom, newLayers =>
    if newLayers = [] then some connectom
    else
      let veryNew := newLayers.flatMap (fun l =>
        (s.outgoing l).map (·.layer) ++ (s.incoming l).map (·.layer))
      let connectom := connectom ++ newLayers
      collectFuel s fuel connectom (veryNew.dedup.filter (fun l => !(decide (l ∈ connectom))))

/-- The loop of `get_layer_description` (architecture.py:23-28): output name ↦
list of `"{}.{}".format(end_layer.name, inp)`. -/
def describeOutgoing (name : Nat → Option Name) :
    List Out → Dict Name (List Name) → Option (Dict Name (List Name))
  | [], d => some d
  | e :: rest, d =>
    match name e.layer with
    | none => none
    | some n =>
      let text := n ++ '.' :: e.inputName
      match Dict.get? d e.outputName with
      | some l => describeOutgoing name rest (Dict.set d e.outputName (l ++ [text]))
      | none => describeOutgoing name rest (Dict.set d e.outputName [text])

/-- `get_layer_description` (architecture.py:21-36).  The keyword arguments
(34-35) are not modelled; they are Python identifiers, so they cannot replace
the two `@` entries. -/
def describe (name : Nat → Option Name) (s : State) (k : Nat) : Option LayerDesc :=
  match describeOutgoing name (s.outgoing k) [] with
  | none => none
  | some d => some ⟨.string (s.layerType k), .dict d⟩

/-- The dictionary comprehension of `generate_architecture`
(architecture.py:43). -/
def buildArch (name : Nat → Option Name) (s : State) : List Nat → Arch → Option Arch
  | [], a => some a
  | k :: rest, a =>
    match name k, describe name s k with
    | some n, some d => buildArch name s rest (Dict.set a n d)
    | _, _ => none

/-- `generate_architecture` (architecture.py:39-44) with a bound on all loops.
`enum` is the order in which Python enumerates the set of layers. -/
def generateFuel (fuel : Nat) (enum : List Nat → List Nat) (s : State) (i : Nat) : Option Arch :=
  match collectFuel s fuel [] [i] with
  | none => none
  | some layers => buildArch (nameFuel fuel s) s (enum layers) []

/-- `generate_architecture` called on layer `i` returns `a`. -/
def Generates (s : State) (enum : List Nat → List Nat) (i : Nat) (a : Arch) : Prop :=
  ∃ fuel, ∀ fuel' ≥ fuel, generateFuel fuel' enum s i = some a

end Verif.Construction
