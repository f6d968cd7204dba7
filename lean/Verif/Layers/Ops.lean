import Verif.Activations.Props
import Mathlib.Algebra.BigOperators.Ring.Finset
import Mathlib.Data.Fintype.BigOperators
import Mathlib.Analysis.SpecialFunctions.Log.Deriv
import Mathlib.Analysis.SpecialFunctions.Sqrt

/-!
# Handler operations on arrays of reals (brainstorm/handlers/numpy_handler.py)

Arrays are functions of their indices; rows (time and batch flattened) and features are
indexed by arbitrary finite types, so that all shapes are covered.  `out` is the array passed
as `out`, with whatever it held before; the result is what it holds afterwards.
-/

namespace Verif.Layers

variable {ι κ μ : Type}

/-- A vector and a matrix. -/
abbrev V (ι : Type) := ι → ℝ
abbrev M (ι κ : Type) := ι → κ → ℝ

/-- The transpose used for `transa`, `transb`. -/
def tr (a : M ι κ) : M κ ι := fun j i => a i j

section
variable [Fintype κ]

/-- `dot_mm` (numpy_handler.py:181-185). -/
def dotMM (a : M ι κ) (b : M κ μ) (_out : M ι μ) : M ι μ := fun i j => ∑ k, a i k * b k j

/-- `dot_add_mm` (numpy_handler.py:176-179). -/
def dotAddMM (a : M ι κ) (b : M κ μ) (out : M ι μ) : M ι μ := fun i j => out i j + ∑ k, a i k * b k j

/-- `sum_t` over axis 1 (numpy_handler.py:268-273). -/
def sumT1 (a : M ι κ) (_out : V ι) : V ι := fun i => ∑ k, a i k

end

/-- `sum_t` over axis 0 (numpy_handler.py:268-273). -/
def sumT0 [Fintype ι] (a : M ι κ) (_out : V κ) : V κ := fun k => ∑ i, a i k

/-- `sum_t` over everything (numpy_handler.py:268-273). -/
def sumTAll [Fintype ι] [Fintype κ] (a : M ι κ) (_out : ℝ) : ℝ := ∑ i, ∑ k, a i k

/-- `copy_to` (numpy_handler.py:47-52). -/
def copyTo (src _dest : M ι κ) : M ι κ := src

/-- `add_mv` with a row vector (numpy_handler.py:80-81). -/
def addMV (m : M ι κ) (v : V κ) (_out : M ι κ) : M ι κ := fun i k => m i k + v k

/-- `add_st` (numpy_handler.py:83-84). -/
def addST (s : ℝ) (t _out : M ι κ) : M ι κ := fun i k => t i k + s

/-- `add_tt` (numpy_handler.py:86-87). -/
def addTT (a b _out : M ι κ) : M ι κ := fun i k => a i k + b i k

/-- `add_tt` on vectors. -/
def addVV (a b _out : V κ) : V κ := fun k => a k + b k

/-- `subtract_tt` (numpy_handler.py:264-266). -/
def subTT (a b _out : M ι κ) : M ι κ := fun i k => a i k - b i k

/-- `subtract_mv` with a row vector (numpy_handler.py:261-262). -/
def subMV (m : M ι κ) (v : V κ) (_out : M ι κ) : M ι κ := fun i k => m i k - v k

/-- `mult_tt` (numpy_handler.py:245-246). -/
def mulTT (a b _out : M ι κ) : M ι κ := fun i k => a i k * b i k

/-- `mult_add_tt` (numpy_handler.py:233-234). -/
def mulAddTT (a b out : M ι κ) : M ι κ := fun i k => out i k + a i k * b i k

/-- `mult_st` (numpy_handler.py:242-243). -/
def mulST (s : ℝ) (t _out : M ι κ) : M ι κ := fun i k => s * t i k

/-- `mult_st` on vectors. -/
def mulSV (s : ℝ) (t _out : V κ) : V κ := fun k => s * t k

/-- `mult_add_st` (numpy_handler.py:230-231). -/
def mulAddST (s : ℝ) (t out : M ι κ) : M ι κ := fun i k => out i k + s * t i k

/-- `mult_add_st` on vectors. -/
def mulAddSV (s : ℝ) (t out : V κ) : V κ := fun k => out k + s * t k

/-- `mult_mv` with a row vector (numpy_handler.py:236-237). -/
def mulMV (m : M ι κ) (v : V κ) (_out : M ι κ) : M ι κ := fun i k => m i k * v k

/-- `mult_mv` with a column vector: broadcasting over the last axis. -/
def mulMC (m : M ι κ) (v : V ι) (_out : M ι κ) : M ι κ := fun i k => m i k * v i

/-- `mult_add_mv` with a row vector (numpy_handler.py:239-240). -/
def mulAddMV (m : M ι κ) (v : V κ) (out : M ι κ) : M ι κ := fun i k => out i k + m i k * v k

/-- `divide_mv` with a row vector (numpy_handler.py:187-188). -/
noncomputable def divMV (m : M ι κ) (v : V κ) (_out : M ι κ) : M ι κ := fun i k => m i k / v k

/-- `divide_tt` (numpy_handler.py:190-191). -/
noncomputable def divTT (a b _out : M ι κ) : M ι κ := fun i k => a i k / b i k

/-- `divide_tt` on vectors. -/
noncomputable def divVV (a b _out : V κ) : V κ := fun k => a k / b k

/-- `sqrt_t` on vectors (numpy_handler.py:258-259). -/
noncomputable def sqrtV (a _out : V κ) : V κ := fun k => Real.sqrt (a k)

/-- `abs_t` (numpy_handler.py:74-75). -/
def absT (a _out : M ι κ) : M ι κ := fun i k => |a i k|

/-- `sign_t` (numpy_handler.py:248-249). -/
noncomputable def signT (a _out : M ι κ) : M ι κ :=
  fun i k => if 0 < a i k then 1 else if a i k < 0 then -1 else 0

/-- `clip_t` (numpy_handler.py:107-108). -/
noncomputable def clipT (a : M ι κ) (lo hi : ℝ) (_out : M ι κ) : M ι κ :=
  fun i k => min (max (a i k) lo) hi

/-- `log_t` (numpy_handler.py:207-208). -/
noncomputable def logT (a _out : M ι κ) : M ι κ := fun i k => Real.log (a i k)

/-! ## Activation functions by name (base_handler.py:41-72) -/

inductive Act
  | sigmoid
  | rel
  | tanh
  | linear
  | el
deriving DecidableEq, Repr

open Verif.Activations in
/-- `act_func` and `inplace_act_func` (base_handler.py:42-48, 58-64), without overflow. -/
noncomputable def Act.f : Act → ℝ → ℝ
  | .sigmoid, x => if x ≥ 0 then 1 / (1 + Real.exp (-x)) else Real.exp x / (1 + Real.exp x)
  | .rel, x => Activations.rel x
  | .tanh, x => Activations.tanh x
  | .linear, x => x
  | .el, x => x * ind (x ≥ 0) + (Real.exp x - 1) * ind (x < 0)

/-- `act_func_deriv` and `inplace_act_func_deriv` (base_handler.py:50-56, 66-72): what becomes
of an output delta, given the output. -/
noncomputable def Act.d : Act → ℝ → ℝ → ℝ
  | .sigmoid, y, dy => Activations.sigmoidDeriv y y dy
  | .rel, y, dy => Activations.relDeriv y y dy
  | .tanh, y, dy => Activations.tanhDeriv y y dy
  | .linear, _, dy => dy
  | .el, y, dy => Activations.elDeriv y y dy

/-- An activation function on an array. -/
noncomputable def actF (a : Act) (x _out : M ι κ) : M ι κ := fun i k => a.f (x i k)

/-- Its derivative on arrays. -/
noncomputable def actD (a : Act) (y dy _out : M ι κ) : M ι κ := fun i k => a.d (y i k) (dy i k)

/-- Inputs at which the activation is differentiable: everything but the kink of `rel`. -/
def Act.Smooth (a : Act) (x : ℝ) : Prop := a = .rel → x ≠ 0

theorem Act.f_sigmoid (x : ℝ) : Act.sigmoid.f x = 1 / (1 + Real.exp (-x)) := by
  unfold Act.f
  dsimp only
  by_cases h : x ≥ 0
  · rw [if_pos h]
  · rw [if_neg h, Real.exp_neg]
    have := Real.exp_pos x
    field_simp
    ring

/-- The derivatives are right and linear in the delta. -/
theorem Act.hasDerivAt (a : Act) {x : ℝ} (h : a.Smooth x) : HasDerivAt a.f (a.d (a.f x) 1) x := by
  cases a with
  | sigmoid =>
    have e : Act.sigmoid.f = fun u => 1 / (1 + Real.exp (-u)) := funext Act.f_sigmoid
    rw [e]
    refine HasDerivAt.congr_deriv (Activations.logistic_hasDerivAt x) ?_
    simp [Act.d, Activations.sigmoidDeriv]
  | rel =>
    have := Activations.C49_rel_deriv x 1 (h rfl)
    simp only [one_mul] at this
    exact this
  | tanh =>
    have := Activations.C49_tanh_deriv x 1
    simp only [one_mul] at this
    exact this
  | linear => exact hasDerivAt_id x
  | el =>
    have hx : x < |x| + 1 := by have := le_abs_self x; linarith
    have hm : 0 < |x| + 1 := by positivity
    have := Activations.C49_el_deriv (|x| + 1) x 1 (Act.el.f x) hx hm (by
      unfold Activations.el; rw [Activations.npExp_le hx.le]; rfl)
    simp only [one_mul] at this
    refine HasDerivAt.congr_of_eventuallyEq this ?_
    filter_upwards [gt_mem_nhds hx] with u hu
    unfold Activations.el
    rw [Activations.npExp_le hu.le]
    rfl

theorem Act.d_linear (a : Act) (y dy : ℝ) : a.d y dy = a.d y 1 * dy := by
  cases a <;> simp [Act.d, Activations.sigmoidDeriv, Activations.relDeriv, Activations.tanhDeriv,
    Activations.elDeriv] <;> ring

end Verif.Layers
