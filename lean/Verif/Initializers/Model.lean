import Mathlib.Analysis.Real.Sqrt
import Mathlib.Data.Matrix.Mul
import Mathlib.Algebra.Star.BigOperators
import Mathlib.LinearAlgebra.Matrix.Notation

/-!
# Initializers: `brainstorm/initializers.py:59-396`

Random draws are arguments; `none` is an `InitializationError`.  Arrays are functions from indices
to real numbers (rounding is not modelled); where the shape matters it is an argument.
-/

namespace Verif.Initializers

variable {ι : Type}

/-- The product of the entries of a shape (`np.prod`). -/
def prod (shape : List ℕ) : ℕ := shape.foldl (· * ·) 1

/-- The scale of `DenseSqrtFanIn` (initializers.py:91-99): a number or a name; `none` is a
`KeyError`. -/
inductive Scale
  | number (x : ℝ)
  | rel
  | tanh
  | sigmoid
  | linear

/-- The table of `DenseSqrtFanIn` (initializers.py:92-97). -/
noncomputable def Scale.fanIn : Scale → ℝ
  | .number x => x
  | .rel => Real.sqrt 6
  | .tanh => Real.sqrt 3
  | .sigmoid => 4 * Real.sqrt 3
  | .linear => 1

/-- The table of `DenseSqrtFanInOut` (initializers.py:139-144). -/
noncomputable def Scale.fanInOut : Scale → ℝ
  | .number x => x
  | .rel => Real.sqrt 12
  | .tanh => Real.sqrt 6
  | .sigmoid => 4 * Real.sqrt 6
  | .linear => 1

/-- `DenseSqrtFanIn.__call__` (initializers.py:88-100); `rand` are the draws of `rnd.rand`. -/
noncomputable def denseSqrtFanIn (scale : Scale) (shape : List ℕ) (rand : ι → ℝ) : Option (ι → ℝ) :=
  if shape.length < 2 then none
  else
    let numIn := prod shape.tail
    some (fun i => scale.fanIn * (2 * rand i - 1) / Real.sqrt numIn)

/-- `DenseSqrtFanInOut.__call__` (initializers.py:135-147). -/
noncomputable def denseSqrtFanInOut (scale : Scale) (shape : List ℕ) (rand : ι → ℝ) : Option (ι → ℝ) :=
  if shape.length < 2 then none
  else
    let n1 := shape.headD 0
    let n2 := prod shape.tail
    some (fun i => scale.fanInOut * (2 * rand i - 1) / Real.sqrt (n1 + n2))

/-- `Uniform.__init__` (initializers.py:381-392): the interval; `none` is the assertion error. -/
noncomputable def uniformInit (low : ℝ) (high : Option ℝ) : Option (ℝ × ℝ) :=
  let (low, high) := match high with
    | none => (min (-low) low, max (-low) low)
    | some high => (low, high)
  if low < high then some (low, high) else none

/-- `Uniform.__call__` (initializers.py:394-396). -/
def uniform (low high : ℝ) (rand : ι → ℝ) : ι → ℝ := fun i => (high - low) * rand i + low

/-- `Identity.__call__` (initializers.py:205-215); `noise` are the draws of `rnd.randn`. -/
def identity (scale std : ℝ) (enforceSquare : Bool) (shape : List ℕ) (noise : ℕ → ℕ → ℝ) : Option (ℕ → ℕ → ℝ) :=
  match shape with
  | [m, n] => if enforceSquare && m != n then none else some (fun i j => (if i = j then 1 else 0) * scale + noise i j * std)
  | _ => none

/-- The check of `EchoState` (initializers.py:167-171); at least two dimensions, the first two
equal. -/
def echoStateOk : List ℕ → Bool
  | m :: n :: _ => m == n
  | _ => false

/-- The check of `RandomWalk` (initializers.py:294-299). -/
def randomWalkOk : List ℕ → Bool
  | [m, n] => m == n
  | _ => false

/-- The random mask of `SparseInputs` (initializers.py:335-338): ones in the first `connections`
rows, then every column `i` is shuffled along the rows.  The array has `r` rows, `c` columns and
further dimensions `κ`; `perm i` is the shuffle of column `i`. -/
def inputMask {r c : ℕ} {κ : Type} (connections : ℕ) (perm : Fin c → Equiv.Perm (Fin r)) : Fin r → Fin c → κ → ℝ :=
  fun a i _ => if (perm i a).val < connections then 1 else 0

/-- `SparseInputs.__call__` (initializers.py:328-339); `sub` is the result of the
sub-initializer. -/
def sparseInputs {r c : ℕ} {κ : Type} (connections : ℕ) (sub : Fin r → Fin c → κ → ℝ) (perm : Fin c → Equiv.Perm (Fin r)) :
    Option (Fin r → Fin c → κ → ℝ) :=
  if r < connections then none
  else some (fun a i k => sub a i k * inputMask connections perm a i k)

/-- The random mask of `SparseOutputs` (initializers.py:364-367). -/
def outputMask {r c : ℕ} {κ : Type} (connections : ℕ) (perm : Fin r → Equiv.Perm (Fin c)) : Fin r → Fin c → κ → ℝ :=
  fun a i _ => if (perm a i).val < connections then 1 else 0

/-- `SparseOutputs.__call__` (initializers.py:358-368). -/
def sparseOutputs {r c : ℕ} {κ : Type} (connections : ℕ) (sub : Fin r → Fin c → κ → ℝ) (perm : Fin r → Equiv.Perm (Fin c)) :
    Option (Fin r → Fin c → κ → ℝ) :=
  if c < connections then none
  else some (fun a i k => sub a i k * outputMask connections perm a i k)

/-- `weights[lo:hi] = block` for arrays indexed by row. -/
def setRows {κ : Type} (lo hi : ℕ) (block : ℕ → κ → ℝ) (w : ℕ → κ → ℝ) : ℕ → κ → ℝ :=
  fun i k => if lo ≤ i ∧ i < hi then block (i - lo) k else w i k

/-- `LstmOptInit.__call__` (initializers.py:234-251) for `rows` rows; the four blocks are the results
of the sub-initializers for a quarter of the rows. -/
def lstmOptInit {κ : Type} (rows : ℕ) (a b c d : ℕ → κ → ℝ) : Option (ℕ → κ → ℝ) :=
  if rows % 4 ≠ 0 then none
  else
    let n := rows / 4
    let w : ℕ → κ → ℝ := fun _ _ => 0
    let w := setRows 0 n a w
    let w := setRows n (2 * n) b w
    let w := setRows (2 * n) (3 * n) c w
    let w := setRows (3 * n) rows d w
    some w

/-- `Orthogonal.__call__` (initializers.py:266-274) after the decomposition `u · s · v` with
`u : m × k`, `v : k × n`, `k = min m n`: the factor with the right shape is scaled.  Here for the
two cases `k = n` (then `u` has the shape) and `k = m < n`. -/
def orthogonalTall {m n : ℕ} (scale : ℝ) (u : Matrix (Fin m) (Fin n) ℝ) : Matrix (Fin m) (Fin n) ℝ := scale • u

/-- The wide case. -/
def orthogonalWide {m n : ℕ} (scale : ℝ) (v : Matrix (Fin m) (Fin n) ℝ) : Matrix (Fin m) (Fin n) ℝ := scale • v

end Verif.Initializers
