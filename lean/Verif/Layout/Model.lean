import Verif.Base.Dict
import Verif.Utils.NameOrder
import Verif.Structure.Model

/-!
# Memory layout, one hub: `brainstorm/structure/layout.py`, class `Hub`

Paths such as `'Layer.outputs.default'` are names.  A source of a hub is either
a single path or a tuple of paths that have to stay in order (`Item`).  numpy
tables are functions `row → column → Bool` with explicit sizes.
-/

namespace Verif.Layout

open Verif.Structure

/-- Failures while laying out. -/
inductive LayoutError
  | typeError     -- `sorted` of a set with both strings and tuples (Python 3)
  | keyError      -- get_by_path / back_buffer_name / missing delta buffer
  | assertion     -- ensure_uniform, forced orders overlap
  | valueError    -- `remaining_sources.remove(s)` of a missing element
  | validation    -- NetworkValidationError "Failed to lay out buffers"
deriving DecidableEq, Repr

/-- A source: a path or a tuple of paths (a "forced order"). -/
inductive Item
  | one (p : Name)
  | tup (l : List Name)
deriving DecidableEq, Repr

/-- `flatten` (utils.py:70-77) of one source. -/
def Item.flat : Item → List Name
  | .one p => [p]
  | .tup l => l

/-- `convert_to_nested_indices` (utils.py:80-89) from index `k` on; the plain
index `i` of a single path is the list `[i]`. -/
def nestedIndices : Nat → List Item → List (List Nat)
  | _, [] => []
  | k, it :: rest => List.range' k it.flat.length :: nestedIndices (k + it.flat.length) rest

/-- All ways to take one element out of a list, first position first. -/
def picks {α : Type} : List α → List (α × List α)
  | [] => []
  | x :: xs => (x, xs) :: (picks xs).map (fun e => (e.1, x :: e.2))

/-- `itertools.permutations` in its order (lexicographic in positions). -/
def permsN {α : Type} : Nat → List α → List (List α)
  | 0, _ => [[]]
  | k + 1, l => (picks l).flatMap (fun e => (permsN k e.2).map (e.1 :: ·))

/-- `itertools.permutations(l)`. -/
def perms {α : Type} (l : List α) : List (List α) := permsN l.length l

/-- A table of zeros and ones. -/
abbrev Table := Nat → Nat → Bool

/-- `set_up_connection_table` (layout.py:63-80): start with zeros and set one
entry per connection between a source and a sink of the hub. -/
def connTable (flat sinks : List Name) (conns : List (Name × Name)) : Table :=
  conns.foldl (fun t c =>
    if c.1 ∈ flat ∧ c.2 ∈ sinks then
      fun i j => if i = flat.idxOf c.1 ∧ j = sinks.idxOf c.2 then true else t i j
    else t) (fun _ _ => false)

/-- `np.abs(np.diff(col)).sum()` of a column of zeros and ones. -/
def changes : List Bool → Nat
  | a :: b :: rest => (if a = b then 0 else 1) + changes (b :: rest)
  | _ => 0

/-- `can_be_connected_with_single_buffer` (layout.py:100-120) for the rows
`rows` of the table with `m` columns. -/
def singleBuffer (t : Table) (m : Nat) (rows : List Nat) : Bool :=
  (List.range m).all (fun j => decide (changes (false :: (rows.map (fun i => t i j)) ++ [false]) ≤ 2))

/-- `permute_rows` (layout.py:82-98): the first permutation of the nested
indices that works. -/
def permuteRows (t : Table) (m : Nat) (nesting : List (List Nat)) : Except LayoutError (List Nat) :=
  match ((perms nesting).map List.flatten).find? (singleBuffer t m) with
  | some p => .ok p
  | none => .error .validation

/-- `Hub` (layout.py:16-131) after `create`. -/
structure Hub where
  flatSources : List Name
  sinks : List Name
  btype : Nat
  contextSize : Nat
  table : Table
  sizes : List Nat
  size : Nat
  perm : List Nat
  backwardOnly : Bool

/-- `ensure_uniform` (layout.py:19-21): `min` of an empty list raises. -/
def ensureUniform {α : Type} [DecidableEq α] : List α → Except LayoutError α
  | [] => .error .valueError
  | x :: xs => if xs.all (· = x) then .ok x else .error .assertion

/-- Comparison of tuples of strings. -/
def tupLe (a b : List Name) : Bool := lexLe nameLe a b

/-- Comparison of sources of the same kind. -/
def itemLe : Item → Item → Bool
  | .one a, .one b => nameLe a b
  | .tup a, .tup b => tupLe a b
  | .tup _, .one _ => true
  | .one _, .tup _ => false

/-- `sorted(source_set)` (layout.py:23): Python 3 cannot compare strings and
tuples. -/
def sortedItems (l : List Item) : Except LayoutError (List Item) :=
  if l.all (fun i => match i with | .one _ => true | .tup _ => false) ∨
     l.all (fun i => match i with | .one _ => false | .tup _ => true) then
    .ok (sortBy itemLe l)
  else .error .typeError

/-- `[BufferStructure.from_layout(get_by_path(layout, s)) for s in flat_sources]`
(layout.py:28-29). -/
def lookupAll (structOf : Name → Option Struct) : List Name → Except LayoutError (List Struct)
  | [] => .ok []
  | p :: ps => match structOf p with
    | none => .error .keyError
    | some s => match lookupAll structOf ps with
      | .error e => .error e
      | .ok ss => .ok (s :: ss)

/-- `Hub.create` (layout.py:18-40), given the layout as a map from paths to
structures. -/
def Hub.create (structOf : Name → Option Struct) (conns : List (Name × Name))
    (sourceSet : List Item) (sinkSet : List Name) : Except LayoutError Hub :=
  match sortedItems sourceSet with
  | .error e => .error e
  | .ok sorted =>
    let flat := sorted.flatMap Item.flat
    match lookupAll structOf flat with
    | .error e => .error e
    | .ok structs =>
      match ensureUniform (structs.map Struct.bufferType) with
      | .error e => .error e
      | .ok btype =>
        let ctx := (structs.map Struct.contextSize).foldl max 0
        let sinks := sortBy nameLe sinkSet
        let t := connTable flat sinks conns
        match permuteRows t sinks.length (nestedIndices 0 sorted) with
        | .error e => .error e
        | .ok perm =>
          let permuted := perm.map (fun i => structs.getD i ⟨[], 0, false⟩)
          let sizes := permuted.map Struct.featureSize
          match ensureUniform (permuted.map Struct.backwardOnly) with
          | .error e => .error e
          | .ok bwd => .ok {
              flatSources := perm.map (fun i => flat.getD i [])
              sinks := sinks
              btype := btype
              contextSize := ctx
              table := fun r j => t (perm.getD r 0) j
              sizes := sizes
              size := sizes.sum
              perm := perm
              backwardOnly := bwd }

/-- Entry `i` of `np.cumsum([0] + sizes)` (layout.py:123). -/
def offset (sizes : List Nat) (i : Nat) : Nat := (sizes.take i).sum

/-- `np.argmax` of a column of zeros and ones: the first one, or 0. -/
def argmax (l : List Bool) : Nat := if true ∈ l then l.idxOf true else 0

/-- Column `j` of the permuted table. -/
def Hub.column (h : Hub) (j : Nat) : List Bool :=
  (List.range h.flatSources.length).map (fun r => h.table r j)

/-- The slice of a sink (layout.py:127-131). -/
def Hub.sinkSlice (h : Hub) (j : Nat) : Nat × Nat :=
  (offset h.sizes (argmax (h.column j)),
   offset h.sizes (h.flatSources.length - argmax (h.column j).reverse))

/-- `get_indices` (layout.py:122-131). -/
def Hub.getIndices (h : Hub) : List (Name × Nat × Nat) :=
  (h.flatSources.zipIdx.map (fun e => (e.1, offset h.sizes e.2, offset h.sizes (e.2 + 1)))) ++
  (h.sinks.zipIdx.map (fun e => (e.1, h.sinkSlice e.2)))

end Verif.Layout
