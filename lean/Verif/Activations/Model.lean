import Mathlib.Analysis.SpecialFunctions.Exp
import Mathlib.Analysis.SpecialFunctions.Trigonometric.DerivHyp

/-!
# Activation functions and softmax (brainstorm/handlers/numpy_handler.py:277-309)

The functions act elementwise (softmax: row by row); the model is what happens to one element
(one row).  Numbers are reals, except that `exp` overflows above a bound `m`: an overflowing
exponential, and everything computed from it by `+`, `-` and `*`, is not a finite number
(`none`).  Rounding and underflow are not modelled.
-/

namespace Verif.Activations

noncomputable section

/-- `np.exp` with overflow above `m`. -/
def npExp (m x : ℝ) : Option ℝ := if x ≤ m then some (Real.exp x) else none

/-- A comparison used as a number. -/
def ind (p : Prop) [Decidable p] : ℝ := if p then 1 else 0

/-- `rel` (numpy_handler.py:277-278). -/
def rel (x : ℝ) : ℝ := x * ind (x > 0)

/-- `rel_deriv` (numpy_handler.py:280-281). -/
def relDeriv (_x y dy : ℝ) : ℝ := dy * ind (y > 0)

/-- `sigmoid` (numpy_handler.py:283-287). -/
def sigmoid (m x : ℝ) : Option ℝ :=
  if x ≥ 0 then (npExp m (-x)).map (fun e => 1 / (1 + e))
  else (npExp m x).bind (fun e => (npExp m x).map (fun e' => e / (1 + e')))

/-- `sigmoid(x, x)`, the in-place use (base_handler.py:43): the second mask is computed after the
first assignment. -/
def sigmoidInplace (m x : ℝ) : Option ℝ :=
  (if x ≥ 0 then (npExp m (-x)).map (fun e => 1 / (1 + e)) else some x).bind (fun y =>
    if y < 0 then (npExp m y).bind (fun e => (npExp m y).map (fun e' => e / (1 + e'))) else some y)

/-- `sigmoid_deriv` (numpy_handler.py:289-290). -/
def sigmoidDeriv (_x y dy : ℝ) : ℝ := dy * y * (1 - y)

/-- `np.amax` of a non-empty row. -/
def rowMax {n : Nat} [NeZero n] (row : Fin n → ℝ) : ℝ :=
  Finset.univ.sup' ⟨0, Finset.mem_univ _⟩ row

/-- A row of numbers is finite if all its elements are. -/
def allSome {n : Nat} (f : Fin n → Option ℝ) : Option (Fin n → ℝ) :=
  if ∀ i, (f i).isSome then some (fun i => (f i).getD 0) else none

/-- `softmax_m` on one row (numpy_handler.py:292-295). -/
def softmax {n : Nat} [NeZero n] (m : ℝ) (row : Fin n → ℝ) : Option (Fin n → ℝ) :=
  (allSome (fun i => npExp m (row i - rowMax row))).map (fun e i => e i / ∑ j, e j)

/-- `tanh` (numpy_handler.py:297-298). -/
def tanh (x : ℝ) : ℝ := Real.tanh x

/-- `tanh_deriv` (numpy_handler.py:300-301). -/
def tanhDeriv (_x y dy : ℝ) : ℝ := dy * (1 - y * y)

/-- `el` (numpy_handler.py:303-305). -/
def el (m x : ℝ) : Option ℝ :=
  (npExp m x).map (fun e => x * ind (x ≥ 0) + (e - 1) * ind (x < 0))

/-- `el_deriv` (numpy_handler.py:307-309). -/
def elDeriv (_x y dy : ℝ) : ℝ := dy * ind (y ≥ 0) + dy * (y + 1) * ind (y < 0)

end

end Verif.Activations
