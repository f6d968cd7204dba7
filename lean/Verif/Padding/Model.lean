import Verif.Iterate.Model

/-!
# The mask that `Minibatches` cuts batches with: `brainstorm/data_iterators.py:496-498`
-/

namespace Verif.Padding

/-- `mask != 0` for a block of the shape `(1,)`, and the assertion that masks have such blocks (data_iterators.py:497-498). -/
noncomputable def nonzero : List ℝ → Option Bool
  | [v] => some (decide (v ≠ 0))
  | _ => none

end Verif.Padding
