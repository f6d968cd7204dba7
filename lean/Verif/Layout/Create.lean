import Verif.Layout.Group

/-!
# `create_layout`: `brainstorm/structure/layout.py:134-358`

A layer is given by its name, its shapes and its outgoing connections.
Simplifications: the nested layout dictionary is a flat list of paths with their
structures; a connection is given in normalised form (kind of buffer and buffer
name), which `Layer._validate_connections` (base_layer.py:200-226) restricts to
outputs, parameters and internals; names of layers and buffers contain no dot.
A layer called `parameters` or `gradients` would overwrite the root entry of that
name; the theorems assume there is none (`NoRootNames`).
-/

namespace Verif.Layout

open Verif.Structure

/-- What kind of buffer a connection starts from. -/
inductive Kind
  | outputs | parameters | internals
deriving DecidableEq, Repr

/-- The category name in a path. -/
def Kind.str : Kind → Name
  | .outputs => Verif.str "outputs"
  | .parameters => Verif.str "parameters"
  | .internals => Verif.str "internals"

/-- An outgoing connection of a layer. -/
structure Outgoing where
  kind : Kind
  buffer : Name
  endLayer : Name
  endInput : Name
deriving DecidableEq, Repr

/-- A layer as `create_layout` sees it. -/
structure LayerInfo where
  name : Name
  inShapes : List (Name × Struct)
  outShapes : List (Name × Struct)
  paramShapes : List (Name × Struct)
  internalShapes : List (Name × Struct)
  outgoing : List Outgoing
deriving DecidableEq, Repr

/-- No layer has the name of one of the two arrays at the root of the layout, whose entry it would overwrite
(layout.py:209-221). -/
def NoRootNames (layers : List LayerInfo) : Prop := ∀ l ∈ layers, l.name ≠ str "parameters" ∧ l.name ≠ str "gradients"

/-- `'.'.join([layer, category, buffer])`. -/
def path (layer cat buffer : Name) : Name := layer ++ '.' :: (cat ++ '.' :: buffer)

/-- The arrays of one category of one layer. -/
def category (layer cat : Name) (back : Bool) (shapes : List (Name × Struct)) : List (Name × Struct) :=
  shapes.map (fun e => (path layer cat e.1,
    if back then { e.2 with backwardOnly := true } else e.2))

/-- `get_layout_stub_for_layer` (layout.py:225-283): the categories in the order
of their `@index`, whether they are marked backward-only, and their shapes. -/
def layerCats (l : LayerInfo) : List (Name × Bool × List (Name × Struct)) :=
  [(str "inputs", false, l.inShapes), (str "outputs", false, l.outShapes),
   (str "parameters", false, l.paramShapes), (str "internals", false, l.internalShapes),
   (str "input_deltas", true, l.inShapes), (str "output_deltas", true, l.outShapes),
   (str "gradients", true, l.paramShapes)]

/-- The arrays of a layer with their paths, in order. -/
def layerArrays (l : LayerInfo) : List (Name × Struct) :=
  (layerCats l).flatMap (fun c => category l.name c.1 c.2.1 c.2.2)

/-- `create_layout_stub` and `gather_array_nodes` (layout.py:208-222, 286-294)
without the two root arrays. -/
def networkArrays (layers : List LayerInfo) : List (Name × Struct) := layers.flatMap layerArrays

/-- The forward connection of an outgoing connection (layout.py:323-325). -/
def fwdConn (l : LayerInfo) (o : Outgoing) : Name × Name :=
  (path l.name o.kind.str o.buffer, path o.endLayer (str "inputs") o.endInput)

/-- `get_backward_connection` (layout.py:297-316). -/
def bwdConn (l : LayerInfo) (o : Outgoing) : Except LayoutError (Name × Name) :=
  let stop := path o.endLayer (str "input_deltas") o.endInput
  match o.kind with
  | .outputs => .ok (path l.name (str "output_deltas") o.buffer, stop)
  | .parameters => .ok (path l.name (str "gradients") o.buffer, stop)
  | .internals =>
    if ('d' :: o.buffer) ∈ l.internalShapes.map Prod.fst then
      .ok (path l.name (str "internals") ('d' :: o.buffer), stop)
    else .error .keyError

/-- The first loop of `get_connections` (layout.py:321-331) for one layer. -/
def layerConns (l : LayerInfo) : List Outgoing → Except LayoutError (List (Name × Name))
  | [] => .ok []
  | o :: rest => match bwdConn l o with
    | .error e => .error e
    | .ok b => match layerConns l rest with
      | .error e => .error e
      | .ok cs => .ok (fwdConn l o :: b :: cs)

/-- The first loop of `get_connections` (layout.py:321-331). -/
def flowConns : List LayerInfo → Except LayoutError (List (Name × Name))
  | [] => .ok []
  | l :: ls => match layerConns l l.outgoing with
    | .error e => .error e
    | .ok a => match flowConns ls with
      | .error e => .error e
      | .ok b => .ok (a ++ b)

/-- The second loop of `get_connections` (layout.py:333-343). -/
def paramConns (layers : List LayerInfo) : List (Name × Name) :=
  layers.flatMap (fun l => l.paramShapes.flatMap (fun e =>
    [(path l.name (str "parameters") e.1, str "parameters"),
     (path l.name (str "gradients") e.1, str "gradients")]))

/-- Comparison of pairs of strings. -/
def pairLe (a b : Name × Name) : Bool := lexLe nameLe [a.1, a.2] [b.1, b.2]

/-- `get_connections` (layout.py:319-344). -/
def getConnections (layers : List LayerInfo) : Except LayoutError (List (Name × Name)) :=
  match flowConns layers with
  | .error e => .error e
  | .ok cs => .ok (sortBy pairLe (cs ++ paramConns layers))

/-- `get_parameter_order` (layout.py:351-353). -/
def paramOrder (l : LayerInfo) : List Name := l.paramShapes.map (fun e => path l.name (str "parameters") e.1)

/-- `get_gradient_order` (layout.py:356-358). -/
def gradOrder (l : LayerInfo) : List Name := l.paramShapes.map (fun e => path l.name (str "gradients") e.1)

/-- `get_forced_orders` (layout.py:193-205). -/
def getForcedOrders (layers : List LayerInfo) : Except LayoutError (List (List Name)) :=
  let forced := (layers.map paramOrder ++ layers.map gradOrder).filter (fun l => l ≠ [])
  if forced.Pairwise (fun a b => ∀ x ∈ a, x ∉ b) then .ok forced else .error .assertion

/-- One round of the loop of `get_all_sources` (layout.py:178-188). -/
def addSource (forced : List (List Name)) (sinks : List Name) (acc : List Item) (s : Name) : List Item :=
  if s ∈ sinks ∨ s = str "parameters" ∨ s = str "gradients" then acc
  else if forced = [] then acc ++ [.one s]
  else if s ∈ acc.flatMap Item.flat then acc
  else match forced.find? (fun fo => s ∈ fo) with
    | some fo => acc ++ [.tup fo]
    | none => acc ++ [.one s]

/-- `get_all_sources` (layout.py:174-190). -/
def getAllSources (forced : List (List Name)) (conns : List (Name × Name)) (arrays : List Name) : List Item :=
  arrays.foldl (addSource forced (conns.map Prod.snd)) []

/-- The key order of `sorted(hubs, key=lambda x: (x.is_backward_only, x.btype))`
(layout.py:145). -/
def hubLe (a b : Group) : Bool :=
  (!a.hub.backwardOnly && b.hub.backwardOnly) ||
    (a.hub.backwardOnly == b.hub.backwardOnly && decide (a.hub.btype ≤ b.hub.btype))

/-- One entry written into the layout: path, hub number and slice. -/
structure Entry where
  name : Name
  hub : Nat
  slice : Nat × Nat
deriving DecidableEq, Repr

/-- `layout_hubs` (layout.py:162-171): all writes in order. -/
def layoutHubs : Nat → List Group → List Entry
  | _, [] => []
  | k, g :: gs => g.hub.getIndices.map (fun e => ⟨e.1, k, e.2⟩) ++ layoutHubs (k + 1) gs

/-- The finished layout: the hubs in order and the entries written. -/
structure Layout where
  groups : List Group
  entries : List Entry

/-- Reading an entry: the last write counts. -/
def Layout.get (L : Layout) (name : Name) : Option (Nat × (Nat × Nat)) :=
  (L.entries.reverse.find? (fun e => e.name = name)).map (fun e => (e.hub, e.slice))

/-- Reading the root entries `parameters` and `gradients`, with the default for
networks without parameters (layout.py:148-154). -/
def Layout.root (L : Layout) (name : Name) : Nat × (Nat × Nat) := (L.get name).getD (0, (0, 0))

/-- `create_layout` (layout.py:134-159). -/
def createLayout (layers : List LayerInfo) : Except LayoutError Layout :=
  match getForcedOrders layers with
  | .error e => .error e
  | .ok forced =>
    match getConnections layers with
    | .error e => .error e
    | .ok conns =>
      let arrays := networkArrays layers
      let sources := getAllSources forced conns (arrays.map Prod.fst)
      match groupIntoHubs (Dict.get? arrays) conns forced sources with
      | .error e => .error e
      | .ok groups =>
        let sorted := sortBy hubLe groups
        let entries := layoutHubs 0 sorted
        if entries.all (fun e => e.name ∈ arrays.map Prod.fst ∨ e.name = str "parameters" ∨
            e.name = str "gradients") then .ok ⟨sorted, entries⟩
        else .error .keyError

end Verif.Layout
