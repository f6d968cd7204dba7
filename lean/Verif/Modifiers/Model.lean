import Mathlib.Analysis.Calculus.Deriv.Abs
import Mathlib.Analysis.Calculus.Deriv.Add
import Mathlib.Analysis.Calculus.Deriv.Mul
import Mathlib.Analysis.Calculus.Deriv.Pow
import Mathlib.Analysis.SpecialFunctions.Pow.Real
import Mathlib.Data.Real.Sign

/-!
# Value and gradient modifiers: `brainstorm/value_modifiers.py`

Arrays are functions from indices to real numbers: floating-point rounding is not modelled.
-/

namespace Verif.Modifiers

open Finset

variable {ι : Type}

/-- `clip_t` (numpy_handler.py:107-108): `np.clip(a, low, high)`. -/
noncomputable def clip (low high : ℝ) (a : ι → ℝ) : ι → ℝ := fun i => min (max (a i) low) high

/-- `ClipValues.__call__` (value_modifiers.py:106-107). -/
noncomputable def clipValues (low high : ℝ) (view : ι → ℝ) : ι → ℝ := clip low high view

/-- `ConstrainL2Norm.__call__` (value_modifiers.py:70-83).  `mat` is the view with all dimensions
but the first flattened (value_modifiers.py:73), `rank` the number of dimensions of the view and
`big` the largest number of the number type. -/
noncomputable def constrainL2 {r c : ℕ} (limit big : ℝ) (rank : ℕ) (mat : Fin r → Fin c → ℝ) : Fin r → Fin c → ℝ :=
  if rank < 2 then mat
  else
    let sqNorm : Fin r → ℝ := fun i => ∑ j, mat i j * mat i j
    let divisor : Fin r → ℝ := fun i => 1 / limit * sqNorm i ^ (0.5 : ℝ)
    let divisor := clip 1 big divisor
    fun i j => mat i j / divisor i

/-- Handlers differ in the type of their arrays (`handler.array_type`); two handlers with the same
array type share arrays.  A device array is tagged with its type. -/
structure Device (T A : Type) where
  type : T
  content : A

/-- State of a `MaskValues` object: the mask and the cached device copy. -/
structure MaskState (T ι : Type) where
  mask : ι → ℝ
  device : Option (Device T (ι → ℝ))

/-- The cached copy, renewed if there is none or if it has another array type
(value_modifiers.py:141-144 and 173-176); copying between devices is exact. -/
def cached {T A : Type} [DecidableEq T] (device : Option (Device T A)) (t : T) (host : A) : Device T A :=
  match device with
  | none => ⟨t, host⟩
  | some d => if d.type = t then d else ⟨t, host⟩

/-- `MaskValues.__call__` (value_modifiers.py:140-145) with a handler of array type `t`. -/
def MaskState.call {T : Type} [DecidableEq T] (s : MaskState T ι) (t : T) (view : ι → ℝ) : MaskState T ι × (ι → ℝ) :=
  let d := cached s.device t s.mask
  (⟨s.mask, some d⟩, fun i => view i * d.content i)

/-- State of a `FreezeValues` object (value_modifiers.py:164-167). -/
structure FreezeState (T ι : Type) where
  weights : Option (ι → ℝ)
  device : Option (Device T (ι → ℝ))

/-- `FreezeValues.__call__` (value_modifiers.py:169-178). -/
def FreezeState.call {T : Type} [DecidableEq T] (s : FreezeState T ι) (t : T) (view : ι → ℝ) : FreezeState T ι × (ι → ℝ) :=
  let w := s.weights.getD view
  let d := cached s.device t w
  (⟨some w, some d⟩, d.content)

/-- `L1Decay.__call__` (value_modifiers.py:193-196). -/
noncomputable def l1Decay (factor : ℝ) (parameters gradients : ι → ℝ) : ι → ℝ :=
  let tmp : ι → ℝ := fun i => Real.sign (parameters i)
  fun i => gradients i + factor * tmp i

/-- `L2Decay.__call__` (value_modifiers.py:211-212). -/
noncomputable def l2Decay (factor : ℝ) (parameters gradients : ι → ℝ) : ι → ℝ :=
  fun i => gradients i + factor * parameters i

/-! ### Specification -/

/-- The Euclidean norm of a row. -/
noncomputable def norm2 {c : ℕ} (row : Fin c → ℝ) : ℝ := Real.sqrt (∑ j, row j ^ 2)

/-- Applying a stateful modifier again and again: `history` gives the array type of the handler and
the weights before each application; the result are the weights after each application. -/
def FreezeState.run {T : Type} [DecidableEq T] : FreezeState T ι → List (T × (ι → ℝ)) → List (ι → ℝ)
  | _, [] => []
  | s, (t, view) :: rest => (s.call t view).2 :: (s.call t view).1.run rest

/-- The same for `MaskValues`. -/
def MaskState.run {T : Type} [DecidableEq T] : MaskState T ι → List (T × (ι → ℝ)) → List (ι → ℝ)
  | _, [] => []
  | s, (t, view) :: rest => (s.call t view).2 :: (s.call t view).1.run rest

end Verif.Modifiers
