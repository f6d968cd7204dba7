import Verif.Layout.Create

/-!
# `BufferManager`: `brainstorm/structure/buffers.py`

Memory is a heap of blocks; `full_buffer` is one block and every array is a
view: a shape and the addresses of its cells in row-major order.  Views keep the
block they were created in, as numpy views do.  Simplifications: values are an
arbitrary type `V` with a zero (no rounding, no dtype conversion); the nested
layout is a flat list of named entries; arrays passed in have the size of the
array they are copied to (no broadcasting).  `none` stands for a raised exception.
-/

namespace Verif.Buffers

open Verif.Structure

/-- The attributes of a `Hub` used here (layout.py:42-51). -/
structure HubInfo where
  btype : Nat
  ctx : Nat
  size : Nat
  backwardOnly : Bool
deriving DecidableEq, Repr

/-- `Hub.get_shape` (layout.py:53-57). -/
def HubInfo.shape (h : HubInfo) (T B : Nat) : List Nat := [T + h.ctx, B, h.size].drop (2 - h.btype)

/-- `np.cumsum([a] + l)`. -/
def cumsum : Nat → List Nat → List Nat
  | a, [] => [a]
  | a, x :: xs => a :: cumsum (a + x) xs

/-- `get_total_size_slices_and_shapes` (buffers.py:47-53). -/
def totalSizeSlicesShapes (hubs : List HubInfo) (T B : Nat) :
    Nat × List (Nat × Nat) × List (List Nat) :=
  let shapes := hubs.map (fun h => h.shape T B)
  let totals := cumsum 0 (shapes.map List.prod)
  (totals.getLastD 0, totals.dropLast.zip totals.tail, shapes)

/-- An array: its shape and the addresses of its cells in row-major order. -/
structure View where
  shape : List Nat
  cells : List Nat
deriving DecidableEq, Repr

/-- The addresses selected by `a[r₀, r₁, ...]` with slices `rᵢ = (start, stop)`
from a contiguous array at `base`; missing slices select everything, and a stop
beyond the end is clipped as in Python. -/
def cellsOf : Nat → List Nat → List (Nat × Nat) → List Nat
  | base, [], _ => [base]
  | base, d :: ds, [] => (List.range d).flatMap (fun i => cellsOf (base + i * ds.prod) ds [])
  | base, d :: ds, (a, b) :: rs =>
    (List.range (min b d - a)).flatMap (fun i => cellsOf (base + (a + i) * ds.prod) ds rs)

/-- `BufferStructure.get_shape` (buffer_structure.py:213-216). -/
def structShape (s : Struct) (T B : Nat) : List Nat :=
  ([T + s.contextSize, B] ++ s.featureShape.map Tok.size).drop (2 - s.bufferType)

/-- The stop of `slice(0, -cutoff if cutoff else None)` on an axis of length `d`,
with `cutoff = hub.context_size - self.context_size` (buffer_structure.py:239-240). -/
def timeStop (s : Struct) (h : HubInfo) (d : Nat) : Nat :=
  if s.contextSize < h.ctx then d - (h.ctx - s.contextSize)
  else if s.contextSize = h.ctx then d
  else s.contextSize - h.ctx

/-- `create_from_buffer_hub` (buffer_structure.py:218-245): the buffer of the hub
is the contiguous array of the given shape at `base`. -/
def createFromHub (s : Struct) (h : HubInfo) (base : Nat) (shape : List Nat) (sl : Nat × Nat) : Option View :=
  let sub : Option (List (Nat × Nat) × Nat × Nat) :=
    match s.bufferType, shape with
    | 0, _ => some ([sl], 0, 0)
    | 1, d :: _ :: _ => some ([(0, d), sl], 0, d)
    | 2, d :: d' :: _ :: _ => some ([(0, timeStop s h d), (0, d'), sl], d - h.ctx, d')
    | _, _ => none
  match sub with
  | none => none
  | some (ranges, t, b) =>
    let cells := cellsOf base shape ranges
    let shape' := structShape s t b
    if cells.length = shape'.prod then some ⟨shape', cells⟩ else none

/-- An array entry of the layout: `@hub`, `@slice` and the structure. -/
structure ArrayEntry where
  hub : Nat
  slice : Nat × Nat
  struct : Struct
deriving DecidableEq, Repr

/-- The array of a layout entry (buffers.py:15-20). -/
def viewOf (hubs : List HubInfo) (T B : Nat) (e : ArrayEntry) : Option View :=
  match hubs[e.hub]?, (totalSizeSlicesShapes hubs T B).2.1[e.hub]? with
  | some h, some sl => createFromHub e.struct h sl.1 (h.shape T B) e.slice
  | _, _ => none

/-- `create_buffer_views_from_layout` (buffers.py:14-44) on the flat layout. -/
def createViews (hubs : List HubInfo) (T B : Nat) :
    List (Name × ArrayEntry) → Option (List (Name × View))
  | [] => some []
  | (n, e) :: rest => match viewOf hubs T B e, createViews hubs T B rest with
    | some v, some vs => some ((n, v) :: vs)
    | _, _ => none

/-- The layout of a network as the buffer manager sees it. -/
structure Net where
  hubs : List HubInfo
  layout : List (Name × ArrayEntry)

/-- The state of a `BufferManager` (buffers.py:57-67); `none` for the initial -1
and `None`.  `views` is the block and the named arrays in it. -/
structure State (V : Type) where
  timeSize : Option Nat
  batchSize : Option Nat
  size : Option Nat
  heap : List (List V)
  full : Option Nat
  views : Option (Nat × List (Name × View))

variable {V : Type} [Zero V]

/-- Reading the cells of a view. -/
def readCells (block : List V) (cells : List Nat) : List V := cells.map (fun c => block.getD c 0)

/-- `mem[:] = arr`. -/
def writeCells (block : List V) (cells : List Nat) (vals : List V) : List V :=
  (cells.zip vals).foldl (fun m p => m.set p.1 p.2) block

/-- `mem.fill(0)`. -/
def zeroCells (block : List V) (cells : List Nat) : List V := writeCells block cells (List.replicate cells.length 0)

/-- A block of the heap. -/
def block (heap : List (List V)) (b : Nat) : List V := heap.getD b []

/-- The current contents of a named array. -/
def State.read (st : State V) (n : Name) : Option (List V) :=
  match st.views with
  | none => none
  | some (b, vs) => (Dict.get? vs n).map (fun v => readCells (block st.heap b) v.cells)

/-- Writing into a named array; fails if the sizes differ. -/
def State.write (st : State V) (n : Name) (vals : List V) : Option (State V) :=
  match st.views with
  | none => none
  | some (b, vs) => match Dict.get? vs n with
    | none => none
    | some v =>
      if v.cells.length = vals.length then
        some { st with heap := st.heap.set b (writeCells (block st.heap b) v.cells vals) }
      else none

/-- The state before the first `resize` (buffers.py:57-66). -/
def State.init : State V := ⟨none, none, none, [], none, none⟩

/-- `if total_size > self.size: allocate` (buffers.py:78-80); the new block is
filled with zeros (numpy_handler.py:36-37). -/
def State.ensure (st : State V) (total : Nat) : State V :=
  if (match st.size with | none => true | some s => decide (total > s)) then
    { st with heap := st.heap ++ [List.replicate total 0], full := some st.heap.length, size := some total }
  else st

/-- `resize` (buffers.py:69-96). -/
def resize (net : Net) (st : State V) (T B : Nat) : Option (State V) :=
  if st.timeSize = some T ∧ st.batchSize = some B then some st
  else
    let st₁ := { st with timeSize := some T, batchSize := some B }
    let st₂ := st₁.ensure (totalSizeSlicesShapes net.hubs T B).1
    match st₂.full with
    | none => none
    | some b =>
      let parameters := st₂.read (str "parameters")
      match createViews net.hubs T B net.layout with
      | none => none
      | some vs =>
        let st₃ := { st₂ with views := some (b, vs) }
        match st.views, parameters with
        | none, _ => some st₃
        | some _, none => none
        | some _, some ps => st₃.write (str "parameters") ps

/-- `BufferManager.__init__` (buffers.py:57-67). -/
def create (net : Net) : Option (State V) := resize net State.init 0 0

/-- `set_handler` (buffers.py:98-110). -/
def setHandler (net : Net) (st : State V) : Option (State V) :=
  let parameters := st.read (str "parameters")
  match resize net { st with full := none, size := none, timeSize := none, batchSize := none, views := none } 0 0 with
  | none => none
  | some st' =>
    match st.views, parameters with
    | none, _ => some st'
    | some _, none => none
    | some _, some ps => st'.write (str "parameters") ps

/-- Address and shape of the buffer of hub `k` (buffers.py:82-83). -/
def hubCells (net : Net) (T B k : Nat) (ranges : List (Nat × Nat)) : List Nat :=
  match net.hubs[k]?, (totalSizeSlicesShapes net.hubs T B).2.1[k]? with
  | some h, some sl => cellsOf sl.1 (h.shape T B) ranges
  | _, _ => []

/-- Apply a function to the current full buffer. -/
def State.onFull (st : State V) (f : Nat → Nat → List V → List V) : Option (State V) :=
  match st.full, st.timeSize, st.batchSize with
  | some b, some T, some B => some { st with heap := st.heap.set b (f T B (block st.heap b)) }
  | _, _, _ => none

/-- The start of `buf[self.time_size - hub.context_size:]` on an axis of length
`T + ctx`; a negative start counts from the end. -/
def clearStart (T ctx : Nat) : Nat := if ctx ≤ T then T - ctx else 2 * T

/-- `clear_context` (buffers.py:138-145). -/
def clearContext (net : Net) (st : State V) : Option (State V) :=
  st.onFull (fun T B m => net.hubs.zipIdx.foldl (fun m hk =>
    if hk.1.btype = 2 ∧ hk.1.ctx ≠ 0 then
      zeroCells m (hubCells net T B hk.2 [(clearStart T hk.1.ctx, T + hk.1.ctx)])
    else m) m)

/-- `clear_backward_buffers` (buffers.py:147-150). -/
def clearBackward (net : Net) (st : State V) : Option (State V) :=
  st.onFull (fun T B m => net.hubs.zipIdx.foldl (fun m hk =>
    if hk.1.backwardOnly then zeroCells m (hubCells net T B hk.2 []) else m) m)

/-- `get_context` (buffers.py:112-130): for each hub `None` or the rows
`T - ctx .. T`; raises if there are fewer than `ctx` rows, because the empty
slice cannot be copied into the context array. -/
def getContext (net : Net) (st : State V) : Option (List (Option (List V))) :=
  match st.full, st.timeSize, st.batchSize with
  | some b, some T, some B =>
    net.hubs.zipIdx.mapM (fun hk =>
      if hk.1.btype ≠ 2 ∨ hk.1.ctx = 0 then some none
      else if T < hk.1.ctx then none
      else some (some (readCells (block st.heap b) (hubCells net T B hk.2 [(T - hk.1.ctx, T)]))))
  | _, _, _ => none

/-- One step of `apply_context` (buffers.py:132-136). -/
def applyOne (net : Net) (T B : Nat) (m : List V) (k : Nat) (ctx : Nat) (c : List V) : Option (List V) :=
  let cells := hubCells net T B k [(T, T + ctx)]
  if cells.length = c.length then some (writeCells m cells c) else none

/-- `apply_context` (buffers.py:132-136). -/
def applyLoop (net : Net) (T B : Nat) : List (Option (List V) × HubInfo × Nat) → List V → Option (List V)
  | [], m => some m
  | (none, _) :: rest, m => applyLoop net T B rest m
  | (some c, h, k) :: rest, m => match applyOne net T B m k h.ctx c with
    | none => none
    | some m' => applyLoop net T B rest m'

/-- `apply_context` (buffers.py:132-136). -/
def applyContext (net : Net) (st : State V) (context : List (Option (List V))) : Option (State V) :=
  match st.full, st.timeSize, st.batchSize with
  | some b, some T, some B =>
    match applyLoop net T B (context.zip net.hubs.zipIdx) (block st.heap b) with
    | none => none
    | some m => some { st with heap := st.heap.set b m }
  | _, _, _ => none

/-- The writing loop of `provide_external_data` (network.py:396-403). -/
def writeAll : State V → List (Name × List V) → Option (State V)
  | st, [] => some st
  | st, (n, d) :: rest => match st.write n d with
    | none => none
    | some st' => writeAll st' rest

/-- `provide_external_data` (network.py:381-403): `data` holds, for the arrays of
`Input.outputs`, the values in row-major order. -/
def provideExternalData (net : Net) (st : State V) (T B : Nat) (data : List (Name × List V)) : Option (State V) :=
  match resize net st T B with
  | none => none
  | some st' => writeAll st' data

/-- The part of `forward_pass` before the layers run (network.py:424-427). -/
def prepareForward (net : Net) (st : State V) (context : Option (List (Option (List V)))) : Option (State V) :=
  match context with
  | none => clearContext net st
  | some c => applyContext net st c

end Verif.Buffers
