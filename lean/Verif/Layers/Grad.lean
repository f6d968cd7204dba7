import Verif.Layers.Ops
import Mathlib.Analysis.Calculus.Deriv.Add
import Mathlib.Analysis.Calculus.Deriv.Mul
import Mathlib.Analysis.Calculus.Deriv.Pi

/-!
# What it means that a backward pass is the derivative of a forward pass

Let the arrays that a layer reads move: each of their elements is a function of a real number
`s`, differentiable at 0.  Then the sum of the outputs, each multiplied by its delta, is
a function of `s`.  The backward pass is right if the derivative of this function at 0 is the sum of the
computed input deltas times the velocities of the inputs plus the sum of the computed gradients
times the velocities of the parameters.  Moving a single element shows that each input delta
and each gradient is the partial derivative with respect to its element
(`Moves.partial_deriv`).
-/

namespace Verif.Layers

variable {ι κ : Type}

/-- The matrix `X s` moves through `X 0` with velocity `X'`. -/
def Moves (X : ℝ → M ι κ) (X' : M ι κ) : Prop := ∀ i k, HasDerivAt (fun s => X s i k) (X' i k) 0

/-- The vector `v s` moves through `v 0` with velocity `v'`. -/
def MovesV (v : ℝ → V κ) (v' : V κ) : Prop := ∀ k, HasDerivAt (fun s => v s k) (v' k) 0

/-- `∑ᵢₖ aᵢₖ bᵢₖ`. -/
def inner [Fintype ι] [Fintype κ] (a b : M ι κ) : ℝ := ∑ i, ∑ k, a i k * b i k

/-- `∑ₖ aₖ bₖ`. -/
def innerV [Fintype κ] (a b : V κ) : ℝ := ∑ k, a k * b k

section
variable [Fintype ι] [Fintype κ]

theorem inner_hasDerivAt (δ : M ι κ) {Y : ℝ → M ι κ} {Y' : M ι κ} (h : Moves Y Y') :
    HasDerivAt (fun s => inner δ (Y s)) (inner δ Y') 0 := by
  unfold inner
  refine HasDerivAt.fun_sum (u := Finset.univ) (fun i _ => ?_)
  exact HasDerivAt.fun_sum (u := Finset.univ) (fun k _ => (h i k).const_mul (δ i k))

theorem Moves.const (X : M ι κ) : Moves (fun _ => X) (fun _ _ => 0) := fun i k => hasDerivAt_const _ _

open Classical in
/-- Moving one element. -/
theorem Moves.single (X : M ι κ) (i : ι) (k : κ) :
    Moves (fun s => fun i' k' => X i' k' + if i' = i ∧ k' = k then s else 0)
      (fun i' k' => if i' = i ∧ k' = k then 1 else 0) := by
  intro i' k'
  by_cases h : i' = i ∧ k' = k
  · simp only [if_pos h]; exact (hasDerivAt_id 0).const_add _
  · simp only [if_neg h]; exact hasDerivAt_const _ _

open Classical in
/-- If a function of a matrix has derivative `inner g X'` along all motions through `X`, then `g` is the
matrix of its partial derivatives. -/
theorem Moves.partial_deriv (F : M ι κ → ℝ) (X g : M ι κ)
    (h : ∀ Y Y', Y 0 = X → Moves Y Y' → HasDerivAt (fun s => F (Y s)) (inner g Y') 0) (i : ι) (k : κ) :
    HasDerivAt (fun s => F (fun i' k' => X i' k' + if i' = i ∧ k' = k then s else 0)) (g i k) 0 := by
  have := h (fun s => fun i' k' => X i' k' + if i' = i ∧ k' = k then s else 0) _ (by simp)
    (Moves.single X i k)
  refine this.congr_deriv ?_
  unfold inner
  rw [Finset.sum_eq_single i]
  · rw [Finset.sum_eq_single k]
    · simp
    · intro b _ hb; simp [hb]
    · simp
  · intro b _ hb; simp [hb]
  · simp

end

end Verif.Layers
