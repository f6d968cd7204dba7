import Mathlib.Data.List.Dedup
import Verif.Layout.Model

/-!
# Grouping sources into hubs: `brainstorm/structure/layout.py:360-427`

Sets are lists without duplicates; the model fixes one enumeration.  This is
harmless: `Hub.create` sorts both sets, and the removal loop removes the same
elements in any order.
-/

namespace Verif.Layout

open Verif.Structure

/-- A connection between (merged) nodes. -/
abbrev Conn := Item × Item

/-- `{start for start, end in connections if end in sink_set}` (layout.py:417-418). -/
def startsOf (conns : List Conn) (sinks : List Item) : List Item :=
  ((conns.filter (fun c => c.2 ∈ sinks)).map Prod.fst).dedup

/-- `{end for start, end in connections if start in source_set}` (layout.py:413, 419-420). -/
def endsOf (conns : List Conn) (sources : List Item) : List Item :=
  ((conns.filter (fun c => c.1 ∈ sources)).map Prod.snd).dedup

/-- The `while growing` loop of `get_forward_closure` (layout.py:414-426). -/
def closureFuel (conns : List Conn) : Nat → List Item → List Item → Option (List Item × List Item)
  | 0, _, _ => none
  | k + 1, src, snk =>
    let newSrc := startsOf conns snk
    let newSnk := endsOf conns src
    if newSrc.length > src.length ∨ newSnk.length > snk.length then closureFuel conns k newSrc newSnk
    else some (src, snk)

/-- `get_forward_closure` (layout.py:390-427) with the loop cut off after `fuel`
rounds. -/
def forwardClosure (conns : List Conn) (fuel : Nat) (node : Item) : Option (List Item × List Item) :=
  closureFuel conns fuel [node] (endsOf conns [node])

/-- A number of rounds that is always enough (proved in `closure_terminates`). -/
def closureBound (conns : List Conn) : Nat := 2 * conns.length + 2

/-- `if start in fo: start = fo` (layout.py:367-371); a tuple is never an element
of a tuple of strings. -/
def mergeStep (node : Item) (fo : List Name) : Item :=
  match node with
  | .one q => if q ∈ fo then .tup fo else .one q
  | .tup l => .tup l

/-- The inner loop of `merge_connections` (layout.py:366-371) for one end. -/
def mergeNode (forced : List (List Name)) (p : Name) : Item :=
  forced.foldl mergeStep (.one p)

/-- `merge_connections` (layout.py:361-373). -/
def mergeConnections (conns : List (Name × Name)) (forced : List (List Name)) : List Conn :=
  conns.map (fun c => (mergeNode forced c.1, mergeNode forced c.2))

/-- `for s in source_set: remaining_sources.remove(s)` (layout.py:382-383). -/
def removeSources : List Item → List Item → Except LayoutError (List Item)
  | remaining, [] => .ok remaining
  | remaining, s :: rest =>
    if s ∈ remaining then removeSources (remaining.erase s) rest else .error .valueError

/-- The sinks of a hub have to be single paths: sorting a mixed set or looking
up a tuple in the layout raises. -/
def sinkNames : List Item → Except LayoutError (List Name)
  | [] => .ok []
  | .one p :: rest => match sinkNames rest with
    | .ok ps => .ok (p :: ps)
    | .error e => .error e
  | .tup _ :: _ => .error .typeError

/-- One group: its sources, its sinks and the hub made of it. -/
structure Group where
  sources : List Item
  sinks : List Name
  hub : Hub

/-- The loop of `group_into_hubs` (layout.py:376-387); every round removes at
least the first remaining source, so `remaining.length` rounds are enough. -/
def groupFuel (structOf : Name → Option Struct) (conns : List (Name × Name)) (mcons : List Conn) :
    Nat → List Item → Except LayoutError (List Group)
  | _, [] => .ok []
  | 0, _ :: _ => .ok []
  | k + 1, node :: rest =>
    match forwardClosure mcons (closureBound mcons) node with
    | none => .ok []
    | some (src, snk) =>
      match removeSources (node :: rest) src with
      | .error e => .error e
      | .ok remaining =>
        match sinkNames snk with
        | .error e => .error e
        | .ok names =>
          match Hub.create structOf conns src names with
          | .error e => .error e
          | .ok hub =>
            match groupFuel structOf conns mcons k remaining with
            | .error e => .error e
            | .ok groups => .ok (⟨src, names, hub⟩ :: groups)

/-- `group_into_hubs` (layout.py:376-387). -/
def groupIntoHubs (structOf : Name → Option Struct) (conns : List (Name × Name))
    (forced : List (List Name)) (sources : List Item) : Except LayoutError (List Group) :=
  groupFuel structOf conns (mergeConnections conns forced) sources.length sources

end Verif.Layout
