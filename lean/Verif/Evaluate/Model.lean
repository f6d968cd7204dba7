import Verif.Sequence.Model
import Verif.Scoring.Model
import Verif.Data.Tools

/-!
# `evaluate` and `extract` on the memory of a network: `brainstorm/tools.py:52-121`, `brainstorm/scorers.py:34-62`,
`brainstorm/training/utils.py:6-9`

The data iterator is the list of batches it yields.  Numbers are real.
-/

namespace Verif.Evaluate

open Verif.Structure Verif.Layout Verif.Buffers Verif.Memory Verif.Session

/-- The loop over `run_network` with `forward_pass()` in it (tools.py:76-77, 107-108; utils.py:6-9).  The result are the states after
the forward passes. -/
def passes (net : Net) (input : Name) (P : ℕ → ℕ → List MLayer) : List Batch → State ℝ → Option (List (State ℝ))
  | [], _ => some []
  | b :: bs, st =>
    (provide net input b st).bind fun st =>
    (forwardPass net P b.rnd st).bind fun st =>
    (passes net input P bs st).map (st :: ·)

/-- One of the losses that `evaluate` returns (tools.py:72-82, scorers.py:36-38, 58-59); `loss` is the entry of `get_loss_values()` that
belongs to it. -/
noncomputable def evaluateLoss (net : Net) (input : Name) (P : ℕ → ℕ → List MLayer) (loss : ℕ → ℕ → Mem → Option ℝ) (bs : List Batch)
    (st : State ℝ) : Option ℝ :=
  (passes net input P bs st).bind fun sts =>
  ((bs.zip sts).mapM fun x => (loss x.1.T x.1.B (memOf x.2)).map fun v => ((x.1.B : ℝ), v)).map Scoring.weightedAverage

/-- The mask, if there is one (scorers.py:46-47). -/
def maskOf (mask : Option Name) (st : State ℝ) : Option (List ℝ) :=
  match mask with
  | none => some []
  | some m => st.read m

/-- What a scorer gets (scorers.py:42-50, 101-104): the arrays `out`, `targets` and `mask`, flattened to `R` rows, with `n` and `n'`
numbers for each row of the first two. -/
def scored (out targets : Name) (n n' : ℕ) (mask : Option Name) (R : ℕ) (st : State ℝ) : Option (List (Scoring.Row ℝ)) :=
  (st.read out).bind fun ps =>
  (st.read targets).bind fun ls =>
  (maskOf mask st).map fun (ms : List ℝ) =>
  (List.range R).map fun r => ⟨(ps.drop (r * n)).take n, (ls.drop (r * n')).take n', ms.getD r 0⟩

/-- One of the scores that `evaluate` returns (tools.py:72-82, scorers.py:40-53, 60-61). -/
noncomputable def evaluateScore (net : Net) (input : Name) (P : ℕ → ℕ → List MLayer) (rows : ℕ → State ℝ → Option (List (Scoring.Row ℝ)))
    (useMask : Bool) (score : List (Scoring.Row ℝ) → ℝ) (bs : List Batch) (st : State ℝ) : Option ℝ :=
  (passes net input P bs st).bind fun sts =>
  ((bs.zip sts).mapM fun x => (rows (x.1.T * x.1.B) x.2).map fun rs => (Scoring.weight useMask rs, score rs)).map Scoring.aggregate

/-- An array with time and batch axes, given by its numbers in the order of C, as a table of lists of features. -/
def table (s : Struct) (T B : ℕ) (xs : List ℝ) : Data.Arr (List ℝ) :=
  ⟨s.shape.length, B, (List.range (T + s.contextSize)).map fun t => (List.range B).map fun q =>
    (xs.drop ((t * B + q) * s.featureSize)).take s.featureSize⟩

/-- `network.get(name)` for the names of arrays given with their structures (tools.py:111-112). -/
def buffersOf (arrays : List (Name × Struct)) (b : Batch) (st : State ℝ) : Option (Dict Name (Data.Arr (List ℝ))) :=
  arrays.mapM fun x => (st.read x.1).map fun xs => (x.1, table x.2 b.T b.B xs)

/-- `extract` (tools.py:85-121) with `nr` examples. -/
def extract (net : Net) (input : Name) (P : ℕ → ℕ → List MLayer) (arrays : List (Name × Struct)) (nr : ℕ) (bs : List Batch) (st : State ℝ) :
    Option (Dict Name (Data.Arr (List ℝ))) :=
  (passes net input P bs st).bind fun sts =>
  ((bs.zip sts).mapM fun x => buffersOf arrays x.1 x.2).bind fun ds =>
  Data.extract (fun x => List.replicate (((Dict.get? arrays x).map Struct.featureSize).getD 0) 0) nr (arrays.map Prod.fst) ds

end Verif.Evaluate
