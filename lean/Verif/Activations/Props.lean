import Verif.Activations.Model
import Mathlib.Analysis.Calculus.Deriv.Inv
import Mathlib.Tactic.FieldSimp
import Mathlib.Tactic.Positivity
import Mathlib.Tactic.Linarith
import Mathlib.Algebra.BigOperators.Field
import Mathlib.Analysis.Calculus.Deriv.Slope

namespace Verif.Activations

/-! ## Sigmoid -/

theorem npExp_le {m x : ℝ} (h : x ≤ m) : npExp m x = some (Real.exp x) := if_pos h

/-- The two-branch sigmoid is the logistic function and never overflows. -/
theorem C49_sigmoid (m : ℝ) (hm : 0 ≤ m) (x : ℝ) :
    sigmoid m x = some (1 / (1 + Real.exp (-x))) := by
  unfold sigmoid
  by_cases h : x ≥ 0
  · rw [if_pos h, npExp_le (by linarith)]; rfl
  · rw [if_neg h, npExp_le (by linarith)]
    simp only [Option.bind_some, Option.map_some, Option.some.injEq]
    rw [Real.exp_neg]
    have := Real.exp_pos x
    field_simp
    ring

/-- Applied in place it gives the same: the results of the first assignment are not negative and
so not touched by the second. -/
theorem C49_sigmoid_inplace (m : ℝ) (hm : 0 ≤ m) (x : ℝ) : sigmoidInplace m x = sigmoid m x := by
  unfold sigmoidInplace sigmoid
  by_cases h : x ≥ 0
  · rw [if_pos h, if_pos h, npExp_le (by linarith)]
    simp only [Option.map_some, Option.bind_some]
    have : (0 : ℝ) < 1 / (1 + Real.exp (-x)) := by have := Real.exp_pos (-x); positivity
    rw [if_neg (not_lt.2 this.le)]
  · rw [if_neg h, if_neg h]
    simp only [Option.bind_some]
    rw [if_pos (not_le.1 h)]

theorem logistic_hasDerivAt (x : ℝ) : HasDerivAt (fun u => 1 / (1 + Real.exp (-u)))
    (1 / (1 + Real.exp (-x)) * (1 - 1 / (1 + Real.exp (-x)))) x := by
  have hp := Real.exp_pos (-x)
  have h1 : HasDerivAt (fun u : ℝ => 1 + Real.exp (-u)) (Real.exp (-x) * (-1)) x :=
    ((hasDerivAt_neg x).exp).const_add 1
  have h2 := h1.fun_inv (by positivity)
  simp only [one_div]
  refine HasDerivAt.congr_deriv h2 ?_
  field_simp
  ring

/-- `sigmoid_deriv` is the derivative of the sigmoid, computed from the output. -/
theorem C49_sigmoid_deriv (m : ℝ) (hm : 0 ≤ m) (x dy y : ℝ) (hy : sigmoid m x = some y) :
    HasDerivAt (fun u => dy * (sigmoid m u).getD 0) (sigmoidDeriv x y dy) x := by
  have e : (fun u => dy * (sigmoid m u).getD 0) = fun u => dy * (1 / (1 + Real.exp (-u))) := by
    funext u; rw [C49_sigmoid m hm]; rfl
  rw [C49_sigmoid m hm] at hy
  rw [e, ← Option.some.inj hy]
  refine HasDerivAt.congr_deriv ((logistic_hasDerivAt x).const_mul dy) ?_
  unfold sigmoidDeriv
  ring

/-! ## Hyperbolic tangent -/

/-- `tanh_deriv` is the derivative of tanh, computed from the output. -/
theorem C49_tanh_deriv (x dy : ℝ) :
    HasDerivAt (fun u => dy * tanh u) (tanhDeriv x (tanh x) dy) x := by
  have hc := Real.cosh_pos x
  have h := (Real.hasDerivAt_sinh x).fun_div (Real.hasDerivAt_cosh x) hc.ne'
  have e : (fun u => dy * tanh u) = fun u => dy * (Real.sinh u / Real.cosh u) := by
    funext u; rw [tanh, Real.tanh_eq_sinh_div_cosh]
  rw [e]
  refine HasDerivAt.congr_deriv (h.const_mul dy) ?_
  unfold tanhDeriv tanh
  rw [Real.tanh_eq_sinh_div_cosh]
  field_simp

/-! ## Rectified linear -/

/-- `rel` is the maximum of 0 and its argument. -/
theorem C49_rel (x : ℝ) : rel x = max x 0 := by
  unfold rel ind
  split
  · rename_i h; rw [mul_one, max_eq_left (le_of_lt h)]
  · rename_i h; rw [mul_zero, max_eq_right (not_lt.1 h)]

/-- `rel_deriv` is the derivative of `rel` except at 0 (where there is none). -/
theorem C49_rel_deriv (x dy : ℝ) (hx : x ≠ 0) :
    HasDerivAt (fun u => dy * rel u) (relDeriv x (rel x) dy) x := by
  rcases lt_or_gt_of_ne hx with h | h
  · have e : (fun u => dy * rel u) =ᶠ[nhds x] fun _ => 0 := by
      filter_upwards [gt_mem_nhds h] with u hu
      rw [C49_rel, max_eq_right hu.le, mul_zero]
    have : relDeriv x (rel x) dy = 0 := by
      rw [C49_rel, max_eq_right h.le]; simp [relDeriv, ind]
    rw [this]
    exact (hasDerivAt_const x (0 : ℝ)).congr_of_eventuallyEq e
  · have e : (fun u => dy * rel u) =ᶠ[nhds x] fun u => dy * u := by
      filter_upwards [lt_mem_nhds h] with u hu
      rw [C49_rel, max_eq_left hu.le]
    have : relDeriv x (rel x) dy = dy * 1 := by
      rw [C49_rel, max_eq_left h.le]; simp [relDeriv, ind, h]
    rw [this]
    exact ((hasDerivAt_id x).const_mul dy).congr_of_eventuallyEq e

/-! ## Exponential linear -/

/-- `el` is the exponential linear unit as long as the exponential does not overflow. -/
theorem C49_el (m x : ℝ) (h : x ≤ m) :
    el m x = some (if 0 ≤ x then x else Real.exp x - 1) := by
  unfold el ind
  rw [npExp_le h]
  simp only [Option.map_some, Option.some.injEq]
  by_cases hx : 0 ≤ x
  · simp [hx, not_lt.2 hx]
  · simp [hx, not_le.1 hx]

/-- For larger inputs `el` is not a finite number, although the exponential linear unit is
just the identity there: the branch that is not wanted overflows and infinity times 0 is not a
number. -/
theorem C49_el_overflow (m x : ℝ) (h : m < x) : el m x = none := by
  unfold el npExp
  rw [if_neg (not_le.2 h)]
  rfl

/-- `el_deriv` is the derivative of `el`, computed from the output, everywhere (also at 0). -/
theorem C49_el_deriv (m x dy y : ℝ) (hx : x < m) (hm : 0 < m) (hy : el m x = some y) :
    HasDerivAt (fun u => dy * (el m u).getD 0) (elDeriv x y dy) x := by
  rw [C49_el m x hx.le] at hy
  have hy := Option.some.inj hy
  have e : (fun u => dy * (el m u).getD 0) =ᶠ[nhds x]
      fun u => dy * (if 0 ≤ u then u else Real.exp u - 1) := by
    filter_upwards [gt_mem_nhds hx] with u hu
    rw [C49_el m u hu.le]; rfl
  refine HasDerivAt.congr_of_eventuallyEq ?_ e
  rcases lt_trichotomy x 0 with h | h | h
  · have e : (fun u => dy * (if 0 ≤ u then u else Real.exp u - 1)) =ᶠ[nhds x]
        fun u => dy * (Real.exp u - 1) := by
      filter_upwards [gt_mem_nhds h] with u hu
      rw [if_neg (not_le.2 hu)]
    refine HasDerivAt.congr_of_eventuallyEq ?_ e
    refine HasDerivAt.congr_deriv (((Real.hasDerivAt_exp x).sub_const 1).const_mul dy) ?_
    rw [if_neg (not_le.2 h)] at hy
    have : y < 0 := by rw [← hy]; have := Real.exp_lt_one_iff.2 h; linarith
    rw [elDeriv, ind, ind, if_neg (not_le.2 this), if_pos this, ← hy]
    ring
  · subst h
    rw [if_pos le_rfl] at hy
    have hd : elDeriv 0 y dy = dy * 1 := by rw [elDeriv, ← hy]; simp [ind]
    rw [hd]
    refine HasDerivAt.const_mul dy ?_
    have hl : HasDerivWithinAt (fun u : ℝ => if 0 ≤ u then u else Real.exp u - 1) 1 (Set.Iic 0) 0 := by
      have h1 : HasDerivAt (fun u : ℝ => Real.exp u - 1) 1 0 := by
        simpa using (Real.hasDerivAt_exp 0).sub_const 1
      refine h1.hasDerivWithinAt.congr ?_ (by simp)
      intro u hu
      rcases eq_or_lt_of_le (Set.mem_Iic.1 hu) with rfl | hu
      · simp
      · rw [if_neg (not_le.2 hu)]
    have hr : HasDerivWithinAt (fun u : ℝ => if 0 ≤ u then u else Real.exp u - 1) 1 (Set.Ici 0) 0 := by
      refine (hasDerivAt_id (0 : ℝ)).hasDerivWithinAt.congr ?_ (by simp)
      intro u hu
      rw [if_pos (Set.mem_Ici.1 hu)]; rfl
    have := hl.union hr
    rw [Set.Iic_union_Ici] at this
    exact this.hasDerivAt Filter.univ_mem
  · have e : (fun u => dy * (if 0 ≤ u then u else Real.exp u - 1)) =ᶠ[nhds x] fun u => dy * u := by
      filter_upwards [lt_mem_nhds h] with u hu
      rw [if_pos (le_of_lt hu)]
    refine HasDerivAt.congr_of_eventuallyEq ?_ e
    refine HasDerivAt.congr_deriv ((hasDerivAt_id x).const_mul dy) ?_
    rw [if_pos h.le] at hy
    subst hy
    rw [elDeriv, ind, ind, if_pos h.le, if_neg (not_lt.2 h.le)]
    ring

/-! ## Softmax -/

theorem le_rowMax {n : Nat} [NeZero n] (row : Fin n → ℝ) (i : Fin n) : row i ≤ rowMax row :=
  Finset.le_sup' row (Finset.mem_univ i)

theorem sum_exp_pos {n : Nat} [NeZero n] (row : Fin n → ℝ) : 0 < ∑ j, Real.exp (row j) :=
  Finset.sum_pos (fun _ _ => Real.exp_pos _) ⟨0, Finset.mem_univ _⟩

/-- Softmax is `exp(row_i) / sum_j exp(row_j)` and never overflows. -/
theorem C49_softmax {n : Nat} [NeZero n] (m : ℝ) (hm : 0 ≤ m) (row : Fin n → ℝ) :
    softmax m row = some (fun i => Real.exp (row i) / ∑ j, Real.exp (row j)) := by
  have h : ∀ i, npExp m (row i - rowMax row) = some (Real.exp (row i - rowMax row)) :=
    fun i => npExp_le (by have := le_rowMax row i; linarith)
  unfold softmax allSome
  simp only [h]
  simp only [Option.isSome_some, implies_true, if_true, Option.map_some, Option.getD_some,
    Option.some.injEq]
  funext i
  have e : ∀ j, Real.exp (row j - rowMax row) = Real.exp (row j) * Real.exp (-rowMax row) := by
    intro j; rw [← Real.exp_add, sub_eq_add_neg]
  simp only [e]
  rw [← Finset.sum_mul]
  exact mul_div_mul_right _ _ (Real.exp_pos _).ne'

/-- The outputs of softmax are positive, sum to 1, and are ordered like the inputs. -/
theorem C49_softmax_distribution {n : Nat} [NeZero n] (m : ℝ) (hm : 0 ≤ m) (row out : Fin n → ℝ)
    (h : softmax m row = some out) :
    (∀ i, 0 < out i) ∧ ∑ i, out i = 1 ∧ ∀ i j, out i ≤ out j ↔ row i ≤ row j := by
  rw [C49_softmax m hm] at h
  obtain rfl := Option.some.inj h
  have hp := sum_exp_pos row
  refine ⟨fun i => div_pos (Real.exp_pos _) hp, ?_, fun i j => ?_⟩
  · rw [← Finset.sum_div]; exact div_self hp.ne'
  · rw [div_le_div_iff_of_pos_right hp, Real.exp_le_exp]

/-- Adding the same number to all inputs does not change the outputs of softmax. -/
theorem C49_softmax_shift {n : Nat} [NeZero n] (m : ℝ) (hm : 0 ≤ m) (row : Fin n → ℝ) (c : ℝ) :
    softmax m (fun i => row i + c) = softmax m row := by
  rw [C49_softmax m hm, C49_softmax m hm]
  congr 1
  funext i
  simp only [Real.exp_add]
  rw [← Finset.sum_mul]
  exact mul_div_mul_right _ _ (Real.exp_pos _).ne'

/-! ## The hypotheses can be met -/

example : (0 : ℝ) ≤ 88 ∧ (88 : ℝ) < 100 ∧ (-3 : ℝ) ≠ 0 := by norm_num
example : el 88 100 = none := C49_el_overflow 88 100 (by norm_num)
example : el 88 (-1) = some (Real.exp (-1) - 1) := by
  rw [C49_el 88 (-1) (by norm_num), if_neg (by norm_num)]
example : sigmoid 88 0 = some (1 / 2) := by rw [C49_sigmoid 88 (by norm_num)]; norm_num
example : softmax 88 ![(1 : ℝ), 1] = some (fun _ => 1 / 2) := by
  rw [C49_softmax 88 (by norm_num)]
  congr 1
  funext i
  have : Real.exp 1 ≠ 0 := (Real.exp_pos 1).ne'
  fin_cases i <;> (simp [Fin.sum_univ_two]; field_simp; norm_num)

end Verif.Activations
