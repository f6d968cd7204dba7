import Verif.Base.Dict
import Verif.Utils.Names

/-!
# `Minibatches`: `brainstorm/data_iterators.py:400-501`

Arrays of shape `(T, B, ...)` are lists of rows (time) of lists of blocks
(sequence); a block `α` holds all features of one sequence at one step.
Simplification: sizes are natural numbers and the number of batches is computed
exactly (the code divides floats, exact below 2^53).
-/

namespace Verif.Data

/-- A numpy array of shape `(len rows, seqs, ...)` with `rank` dimensions. -/
structure Arr (α : Type) where
  rank : Nat
  seqs : Nat
  rows : List (List α)
deriving DecidableEq, Repr

/-- `shape[0]`. -/
def Arr.times {α : Type} (a : Arr α) : Nat := a.rows.length

/-- `v[:stop, lo:hi]`. -/
def Arr.slice {α : Type} (a : Arr α) (stop lo hi : Nat) : Arr α :=
  ⟨a.rank, min hi a.seqs - min lo a.seqs, (a.rows.take stop).map (fun r => (r.drop lo).take (hi - lo))⟩

variable {α : Type}

/-- `_assert_correct_data_format` (data_iterators.py:469-493); `min = max` of the
collected sizes is written as: all are equal.  `min` of no data raises. -/
def assertFormat (data : Dict Name (Arr α)) : Option (Nat × Nat) :=
  match data with
  | [] => none
  | (_, a) :: _ =>
    if data.any (fun d => decide (d.2.rank < 3)) then none
    else if ¬ data.all (fun d => decide (d.2.seqs = a.seqs)) then none
    else if ¬ data.all (fun d => decide (d.2.times = a.times)) then none
    else some (a.seqs, a.times)

/-- `argmax` of a boolean vector: the first `True`, or 0. -/
def argmaxB (l : List Bool) : Nat := if l.any id then l.findIdx id else 0

/-- One entry of `_calculate_lengths_from_mask` (data_iterators.py:498-500) for the
column of a sequence. -/
def lengthOfColumn (b : List Bool) : Nat :=
  if b.any id then b.length - argmaxB b.reverse else 0

/-- `_calculate_lengths_from_mask` (data_iterators.py:496-501).  `nonzero` tells for
a block of shape `(1,)` whether it differs from 0 and is `none` for other shapes
(the assertion). -/
def lengthsFromMask (nonzero : α → Option Bool) (mask : Arr α) : Option (List Nat) :=
  if mask.rows.all (fun r => r.all (fun x => (nonzero x).isSome)) then
    some ((List.range mask.seqs).map (fun i =>
      lengthOfColumn (mask.rows.map (fun r => ((r[i]?).bind nonzero).getD false))))
  else none

/-- The argument `cut_according_to`. -/
inductive Cut
  | name (n : Name)
  | nothing
  | lens (l : List Nat)

/-- The attributes of a `Minibatches` object. -/
structure Minibatches (α : Type) where
  data : Dict Name (Arr α)
  length : Nat
  shuffle : Bool
  batchSize : Nat
  seqLens : List Nat

/-- `seq_lens` (data_iterators.py:439-448). -/
def seqLensOf (nonzero : α → Option Bool) (data : Dict Name (Arr α)) (n T : Nat) : Cut → Option (List Nat)
  | .name c => match Dict.get? data c with
    | some mask => lengthsFromMask nonzero mask
    | none => some (List.replicate n T)
  | .nothing => some (List.replicate n T)
  | .lens l => if l.length = n then some l else none

/-- `Minibatches.__init__` (data_iterators.py:415-452); a batch size of 0 raises
`ZeroDivisionError`. -/
def Minibatches.create (nonzero : α → Option Bool) (batchSize : Nat) (shuffle : Bool) (cut : Cut)
    (data : Dict Name (Arr α)) : Option (Minibatches α) :=
  match assertFormat data with
  | none => none
  | some (n, T) =>
    if batchSize = 0 then none
    else match seqLensOf nonzero data n T cut with
      | none => none
      | some lens => some ⟨data, (n + batchSize - 1) / batchSize, shuffle, batchSize, lens⟩

/-- `np.max`; only used on non-empty lists. -/
def maxOf (l : List Nat) : Nat := l.foldl max 0

/-- The batch with index `idx` (data_iterators.py:459-465). -/
def Minibatches.batch (m : Minibatches α) (idx : Nat) : Dict Name (Arr α) :=
  let lo := idx * m.batchSize
  let hi := (idx + 1) * m.batchSize
  let stop := maxOf ((m.seqLens.drop lo).take (hi - lo))
  m.data.map (fun d => (d.1, d.2.slice stop lo hi))

/-- `Minibatches.__call__` (data_iterators.py:454-466); `shuffled` is the result of
shuffling `arange(length)` in place. -/
def Minibatches.call (m : Minibatches α) (shuffled : List Nat) : List (Dict Name (Arr α)) :=
  (if m.shuffle then shuffled else List.range m.length).map m.batch

end Verif.Data
