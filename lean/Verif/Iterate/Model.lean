import Verif.Evaluate.Model
import Verif.Data.Model

/-!
# From the arrays of a data iterator to the data that a network is provided with: `brainstorm/structure/network.py:381-403`,
`brainstorm/training/utils.py:6-9`
-/

namespace Verif.Iterate

open Verif.Structure Verif.Layout Verif.Session Verif.Data

/-- The numbers of an array in the order of C. -/
def numbers (x : Arr (List ℝ)) : List ℝ := x.rows.flatten.flatten

/-- What `provide_external_data` makes of the dictionary `d` (network.py:393-403): the sizes are those of its first array, and for every
output of the Input layer the array with its name is used; other arrays are not.  Together with it come the random numbers that are drawn
while the batch is processed. -/
def batchOf (input : LayerInfo) (d : Dict Name (Arr (List ℝ))) (rnd : ℕ → ℝ) : Option Batch :=
  match d with
  | [] => none
  | (_, x) :: _ =>
    (input.outShapes.mapM fun e => (Dict.get? d e.1).map fun x => (e.1, numbers x)).map fun xs => ⟨x.times, x.seqs, xs, rnd⟩

/-- The batches of one pass of an iterator over the data (utils.py:6-9). -/
def batchesOf (input : LayerInfo) (ds : List (Dict Name (Arr (List ℝ)))) (rnds : ℕ → ℕ → ℝ) : Option (List Batch) :=
  ds.zipIdx.mapM fun x => batchOf input x.1 (rnds x.2)

end Verif.Iterate
