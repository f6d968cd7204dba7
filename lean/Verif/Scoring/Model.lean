import Verif.Base.Dict
import Verif.Utils.Names
import Mathlib.Algebra.Order.Field.Basic
import Mathlib.Algebra.BigOperators.Group.List.Basic
import Mathlib.Algebra.Order.BigOperators.Group.List
import Mathlib.Algebra.BigOperators.Ring.List

/-!
# Losses, scorers and `evaluate`: `brainstorm/scorers.py`, `brainstorm/tools.py:52-82`,
`brainstorm/structure/network.py:447-475, 540-541`, `brainstorm/layers/loss_layer.py`

Numbers are elements of a linearly ordered field (rounding is not modelled).
-/

namespace Verif.Scoring

variable {K : Type} [Field K] [LinearOrder K]

/-- What the network produces and is given for one time step of one sequence: the row of the
scored output, the row of the targets and the mask. -/
structure Row (K : Type) where
  pred : List K
  label : List K
  mask : K

/-- A sequence: its rows, and the entries of the input of the loss layer that belong to it. -/
structure Seq (K : Type) where
  rows : List (Row K)
  loss : List K

/-- `_flatten_all_but_last` (scorers.py:101-104) of the arrays of a batch with `steps` time steps: time
first, then sequences. -/
def flatRows (steps : Nat) (batch : List (Seq K)) : List (Row K) :=
  (List.range steps).flatMap (fun t => batch.filterMap (fun s => s.rows[t]?))

/-- `argmax` of a row (numpy: the first of the largest entries). -/
def argmax : List K → Nat
  | [] => 0
  | [_] => 0
  | x :: y :: rest =>
    let k := argmax (y :: rest)
    if (y :: rest).getD k 0 ≤ x then 0 else k + 1

/-- `np.sum(correct * mask)`: the factor is 1 without mask. -/
def weighted (useMask : Bool) (r : Row K) (x : K) : K := if useMask then x * r.mask else x

/-- One entry of `predicted == true_labels` (scorers.py:69-71). -/
def isCorrect (r : Row K) : Bool :=
  if 1 < r.pred.length then (argmax r.pred : K) = r.label.headD 0 else r.pred.headD 0 = r.label.headD 0

/-- `Accuracy.__call__` (scorers.py:68-74). -/
def accuracy (useMask : Bool) (rows : List (Row K)) : K :=
  (rows.map (fun r => weighted useMask r (if isCorrect r then 1 else 0))).sum

/-- `np.logical_xor(predicted < threshold, true_labels)` for one entry (scorers.py:84-85). -/
def hit (threshold p l : K) : Bool := xor (decide (p < threshold)) (decide (l ≠ 0))

/-- `Hamming.__call__` (scorers.py:83-88) for targets with `cols` columns. -/
def hamming (threshold : K) (cols : Nat) (useMask : Bool) (rows : List (Row K)) : K :=
  (rows.map (fun r => ((r.pred.zip r.label).map (fun pl => weighted useMask r (if hit threshold pl.1 pl.2 then 1 else 0))).sum)).sum / cols

/-- `MeanSquaredError.__call__` (scorers.py:92-96). -/
def squaredError (useMask : Bool) (rows : List (Row K)) : K :=
  1 / 2 * (rows.map (fun r => ((r.pred.zip r.label).map (fun pl => weighted useMask r ((pl.2 - pl.1) ^ 2))).sum)).sum

/-- `mask.sum() if mask is not None else predicted.shape[0]` (scorers.py:51). -/
def weight (useMask : Bool) (rows : List (Row K)) : K :=
  if useMask then (rows.map (fun r => r.mask)).sum else rows.length

/-- `Scorer.aggregate` (scorers.py:26-29). -/
def aggregate (errors : List (K × K)) : K := (errors.map Prod.snd).sum / (errors.map Prod.fst).sum

/-- `_weighted_average` (scorers.py:107-110). -/
def weightedAverage (errors : List (K × K)) : K := (errors.map (fun e => e.2 * e.1 / (errors.map Prod.fst).sum)).sum

/-- The output of a loss layer whose input has a batch dimension (loss_layer.py:38-49). -/
def lossValue (importance : K) (batch : List (Seq K)) : K := importance / batch.length * (batch.map (fun s => s.loss.sum)).sum

/-- The score reported by `evaluate` (tools.py:72-82) for one scorer, the data being presented in
the given batches of sequences with `steps` time steps each. -/
def evaluateScore (score : List (Row K) → K) (useMask : Bool) (steps : Nat) (batches : List (List (Seq K))) : K :=
  aggregate (batches.map (fun b => (weight useMask (flatRows steps b), score (flatRows steps b))))

/-- The loss reported by `evaluate` for one loss layer. -/
def evaluateLoss (importance : K) (batches : List (List (Seq K))) : K :=
  weightedAverage (batches.map (fun b => ((b.length : K), lossValue importance b)))

/-- `get_loss_values` (network.py:447-475): `losses` are the outputs of the loss layers in layer
order. -/
def lossValues (losses : List (Name × K)) : Dict Name K :=
  match losses with
  | [l] => [(str "total_loss", l.2)]
  | _ => (losses.foldl (fun d l => Dict.set d l.1 l.2) ([] : Dict Name K)).set (str "total_loss") (losses.foldl (fun s l => s + l.2) 0)

/-- The 'total_loss' reported by `evaluate` for several loss layers: in every batch the sum of the
losses (network.py:469-474). -/
def evaluateTotal (losses : List (List (Seq K) → K)) (batches : List (List (Seq K))) : K :=
  weightedAverage (batches.map (fun b => ((b.length : K), losses.foldl (fun s l => s + l b) 0)))

end Verif.Scoring
