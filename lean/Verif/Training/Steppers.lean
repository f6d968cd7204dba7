import Mathlib.Algebra.BigOperators.Group.Finset.Basic
import Mathlib.Algebra.BigOperators.Intervals
import Mathlib.Algebra.Module.Basic
import Mathlib.Algebra.Module.BigOperators
import Mathlib.Tactic.Module
import Mathlib.Tactic.Ring
import Mathlib.Tactic.NormNum
import Mathlib.Algebra.Field.Rat

/-!
# Steppers: `brainstorm/training/steppers.py:46-145`

Parameters, gradients and velocity are vectors (elements of a module over a field; exact
arithmetic).  Forward and backward pass put the gradient at the current parameters into the
gradient buffer: `G i` is this function for the batch of step `i`.  Learning rate and momentum
may differ from step to step, because hooks may change them.
-/

namespace Verif.Training

open Finset

variable {K V : Type} [Field K] [AddCommGroup V] [Module K V]

/-- The buffers a stepper works on. -/
structure Bufs (V : Type) where
  params : V
  grads : V
  velocity : V

/-- `stepper.start(net)` sets the velocity to zero (steppers.py:92-94). -/
def startStepper (params grads : V) : Bufs V := ⟨params, grads, 0⟩

/-- `forward_pass` and `backward_pass`: the gradients at the current parameters. -/
def passes (G : V → V) (b : Bufs V) : Bufs V := { b with grads := G b.params }

/-- `SgdStepper.run` (steppers.py:61-69): `update` is a scratch vector. -/
def sgdRun (lr : K) (G : V → V) (b : Bufs V) : Bufs V :=
  let b := passes G b
  let update := (-lr) • b.grads
  { b with params := update + b.params }

/-- The learning rate used by momentum steppers (steppers.py:97-100, 128-131). -/
def scaledRate (scale : Bool) (lr momentum : K) : K := if scale then lr * (1 - momentum) else lr

/-- `MomentumStepper.run` (steppers.py:96-114). -/
def momentumRun (scale : Bool) (lr momentum : K) (G : V → V) (b : Bufs V) : Bufs V :=
  let rate := scaledRate scale lr momentum
  let b := passes G b
  let b := { b with velocity := momentum • b.velocity }
  let b := { b with velocity := (-rate) • b.grads + b.velocity }
  { b with params := b.velocity + b.params }

/-- `NesterovStepper.run` (steppers.py:126-145). -/
def nesterovRun (scale : Bool) (lr momentum : K) (G : V → V) (b : Bufs V) : Bufs V :=
  let rate := scaledRate scale lr momentum
  let b := { b with velocity := momentum • b.velocity }
  let b := { b with params := b.velocity + b.params }
  let b := passes G b
  let b := { b with velocity := (-rate) • b.grads + b.velocity }
  { b with params := (-rate) • b.grads + b.params }

/-- The settings of a step: learning rate and momentum at step `i` and the gradient function
of its batch. -/
structure Settings (K V : Type) where
  lr : ℕ → K
  momentum : ℕ → K
  G : ℕ → V → V

/-- The state before step `n` of a run. -/
def sgdAt (st : Settings K V) (b : Bufs V) : ℕ → Bufs V
  | 0 => b
  | n + 1 => sgdRun (st.lr n) (st.G n) (sgdAt st b n)

/-- The state before step `n` of a run. -/
def momentumAt (scale : Bool) (st : Settings K V) (b : Bufs V) : ℕ → Bufs V
  | 0 => b
  | n + 1 => momentumRun scale (st.lr n) (st.momentum n) (st.G n) (momentumAt scale st b n)

/-- The state before step `n` of a run. -/
def nesterovAt (scale : Bool) (st : Settings K V) (b : Bufs V) : ℕ → Bufs V
  | 0 => b
  | n + 1 => nesterovRun scale (st.lr n) (st.momentum n) (st.G n) (nesterovAt scale st b n)

/-- **C40** (SGD): a step moves the parameters by `-learning_rate` times the gradient at the
parameters before the step. -/
theorem C40_sgd_step (lr : K) (G : V → V) (b : Bufs V) : (sgdRun lr G b).params = b.params - lr • G b.params := by
  simp only [sgdRun, passes]; module

/-- **C40** (SGD, run): after `n` steps the parameters are the initial ones minus the sum of
learning rate times gradient over the steps. -/
theorem C40_sgd_run (st : Settings K V) (b : Bufs V) (n : ℕ) :
    (sgdAt st b n).params = b.params - ∑ i ∈ range n, st.lr i • st.G i (sgdAt st b i).params := by
  induction n with
  | zero => simp [sgdAt]
  | succ n ih =>
    rw [sum_range_succ, sgdAt, C40_sgd_step, ← sub_sub, ← ih]

/-- The recurrence of the velocity has this closed form. -/
theorem velocity_closed (v : ℕ → V) (m : ℕ → K) (g : ℕ → V) (h0 : v 0 = 0) (h : ∀ n, v (n + 1) = m n • v n + g n) (n : ℕ) :
    v n = ∑ i ∈ range n, (∏ j ∈ Ico (i + 1) n, m j) • g i := by
  induction n with
  | zero => simp [h0]
  | succ n ih =>
    rw [sum_range_succ, h, ih, smul_sum]
    congr 1
    · refine sum_congr rfl fun i hi => ?_
      rw [prod_Ico_succ_top (by have := mem_range.1 hi; omega), smul_smul, mul_comm]
    · simp

/-- **C40** (momentum): after `start` and `n` steps the velocity is the sum over the past steps of
minus the rate times the gradient, weighted by the product of the momenta since; each step adds the
new velocity to the parameters. -/
theorem C40_momentum (scale : Bool) (st : Settings K V) (p g : V) (n : ℕ) :
    (momentumAt scale st (startStepper p g) n).velocity = ∑ i ∈ range n, (∏ j ∈ Ico (i + 1) n, st.momentum j) •
        (-(if scale then st.lr i * (1 - st.momentum i) else st.lr i) • st.G i (momentumAt scale st (startStepper p g) i).params) ∧
    (momentumAt scale st (startStepper p g) (n + 1)).params =
      (momentumAt scale st (startStepper p g) n).params + (momentumAt scale st (startStepper p g) (n + 1)).velocity := by
  constructor
  · refine velocity_closed (fun n => (momentumAt scale st (startStepper p g) n).velocity) st.momentum _ rfl ?_ n
    intro n
    simp only [momentumAt, momentumRun, passes, scaledRate]
    exact add_comm _ _
  · simp only [momentumAt, momentumRun]
    exact add_comm _ _

/-- **C40** (momentum, constant settings): the velocity is the exponentially weighted sum of the
past gradients. -/
theorem C40_momentum_constant (scale : Bool) (lr m : K) (G : ℕ → V → V) (p g : V) (n : ℕ) :
    (momentumAt scale ⟨fun _ => lr, fun _ => m, G⟩ (startStepper p g) n).velocity =
      -(if scale then lr * (1 - m) else lr) • ∑ i ∈ range n,
        m ^ (n - 1 - i) • G i (momentumAt scale ⟨fun _ => lr, fun _ => m, G⟩ (startStepper p g) i).params := by
  rw [(C40_momentum scale ⟨fun _ => lr, fun _ => m, G⟩ p g n).1, smul_sum]
  refine sum_congr rfl fun i hi => ?_
  have := mem_range.1 hi
  simp only [prod_const, Nat.card_Ico]
  rw [show n - (i + 1) = n - 1 - i by omega, smul_comm]

/-- **C40** (Nesterov): one step evaluates the gradient at the look-ahead point
`parameters + momentum * velocity`; the velocity is updated with it as in the momentum method and
the parameters move by the new velocity. -/
theorem C40_nesterov_step (scale : Bool) (lr m : K) (G : V → V) (b : Bufs V) :
    (nesterovRun scale lr m G b).grads = G (b.params + m • b.velocity) ∧
    (nesterovRun scale lr m G b).velocity =
      m • b.velocity - (if scale then lr * (1 - m) else lr) • G (b.params + m • b.velocity) ∧
    (nesterovRun scale lr m G b).params = b.params + (nesterovRun scale lr m G b).velocity := by
  simp only [nesterovRun, passes, scaledRate]
  rw [add_comm (m • b.velocity) b.params]
  refine ⟨rfl, ?_, ?_⟩ <;> module

/-- **C40** (Nesterov, run): closed form of the velocity. -/
theorem C40_nesterov (scale : Bool) (st : Settings K V) (p g : V) (n : ℕ) :
    (nesterovAt scale st (startStepper p g) n).velocity = ∑ i ∈ range n, (∏ j ∈ Ico (i + 1) n, st.momentum j) •
        (-(if scale then st.lr i * (1 - st.momentum i) else st.lr i) • st.G i
          ((nesterovAt scale st (startStepper p g) i).params + st.momentum i • (nesterovAt scale st (startStepper p g) i).velocity)) := by
  refine velocity_closed (fun n => (nesterovAt scale st (startStepper p g) n).velocity) st.momentum _ rfl ?_ n
  intro n
  simp only [nesterovAt]
  rw [(C40_nesterov_step _ _ _ _ _).2.1]
  module

/-- **C40** (no momentum): with momentum 0 all three steppers move the parameters in the same way,
for every history of batches and learning rates and in whatever state the velocity is. -/
theorem C40_no_momentum (scale : Bool) (st : Settings K V) (hm : ∀ i, st.momentum i = 0) (b : Bufs V) (n : ℕ) :
    (momentumAt scale st b n).params = (sgdAt st b n).params ∧ (nesterovAt scale st b n).params = (sgdAt st b n).params := by
  induction n with
  | zero => exact ⟨rfl, rfl⟩
  | succ n ih =>
    have hr : scaledRate scale (st.lr n) (0 : K) = st.lr n := by unfold scaledRate; split <;> simp
    constructor
    · simp only [momentumAt, sgdAt, C40_sgd_step, ← ih.1]
      simp only [momentumRun, passes, hm, hr]
      module
    · simp only [nesterovAt, sgdAt, C40_sgd_step, ← ih.2]
      simp only [nesterovRun, passes, hm, hr, zero_smul, zero_add]
      module

example : (momentumAt false (⟨fun _ => 1, fun _ => 1/2, fun _ x => x⟩ : Settings ℚ ℚ) (startStepper 1 0) 2).params = -1/2 ∧
    (nesterovAt false (⟨fun _ => 1/2, fun _ => 1/2, fun _ x => x⟩ : Settings ℚ ℚ) (startStepper 1 0) 2).params = 1/8 := by
  norm_num [momentumAt, momentumRun, nesterovAt, nesterovRun, passes, startStepper, scaledRate]

end Verif.Training
