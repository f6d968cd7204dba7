import Verif.Layers.Props

/-!
# Masked steps (C57)
-/

namespace Verif.Layers

noncomputable section

variable {ρ φ : Type}

/-- The value of the mask for an element. -/
def Mask.at_ : Mask ρ φ → ρ → φ → ℝ
  | .column m, r, _ => m r
  | .full m, r, k => m r k

/-- **C57.**  Where the mask is 1, outputs are the inputs and input deltas receive the output deltas; where
it is 0, outputs are 0 and the input deltas are left alone. -/
theorem C57_mask (x out δ din : M ρ φ) (mask : Mask ρ φ) (r : ρ) (k : φ) :
    (mask.at_ r k = 1 → maskForward x mask out r k = x r k ∧ maskBackward mask δ din r k = din r k + δ r k) ∧
    (mask.at_ r k = 0 → maskForward x mask out r k = 0 ∧ maskBackward mask δ din r k = din r k) := by
  have hf : maskForward x mask out r k = x r k * mask.at_ r k := by cases mask <;> rfl
  have hb : maskBackward mask δ din r k = δ r k * mask.at_ r k + din r k := by cases mask <;> rfl
  rw [hf, hb]
  constructor
  · intro h; rw [h]; constructor <;> ring
  · intro h; rw [h]; constructor <;> ring

/-! ## A network of layers without recurrence -/

/-- A stack of fully connected and elementwise layers from `n` to `k` features. -/
inductive Stack : ℕ → ℕ → Type
  | nil (n : ℕ) : Stack n n
  | fc {n m k : ℕ} (a : Act) (W : M (Fin m) (Fin n)) (bias : V (Fin m)) (rest : Stack m k) : Stack n k
  | act {n k : ℕ} (a : Act) (rest : Stack n k) : Stack n k

/-- The gradients of the stack. -/
inductive Grads
  | nil
  | fc {n m : ℕ} (dW : M (Fin m) (Fin n)) (dbias : V (Fin m)) (rest : Grads)
  | act (rest : Grads)

/-- The outputs of the last layer (buffers hold zeros before; by `C22` theorems' arbitrary `out` and C20 what they held does
not matter). -/
def Stack.forward : {n k : ℕ} → Stack n k → M ρ (Fin n) → M ρ (Fin k)
  | _, _, .nil _, x => x
  | _, _, .fc a W b rest, x => rest.forward (fcForward a x W b 0)
  | _, _, .act a rest, x => rest.forward (elementwiseForward a x 0)

/-- The backward pass through the stack: deltas of the input (starting from 0) and gradients. -/
def Stack.backward [Fintype ρ] : {n k : ℕ} → Stack n k → M ρ (Fin n) → M ρ (Fin k) → M ρ (Fin n) × Grads
  | _, _, .nil _, _, δ => (δ, .nil)
  | _, _, .fc a W b rest, x, δ =>
    let y := fcForward a x W b 0
    let r := rest.backward y δ
    let back := fcBackward a x W y 0 r.1 0 0
    (back.inDeltas, .fc back.dW back.dbias r.2)
  | _, _, .act a rest, x, δ =>
    let y := elementwiseForward a x 0
    let r := rest.backward y δ
    (elementwiseBackward a y 0 r.1, .act r.2)

/-- The loss of the network: stack, then SquaredError with targets, then Mask on its loss, then Loss. -/
def maskedLoss [Fintype ρ] {n k : ℕ} (importance batch : ℝ) (st : Stack n k) (x : M ρ (Fin n)) (t : M ρ (Fin k))
    (mask : V ρ) : ℝ :=
  lossForward importance batch (maskForward (squaredErrorForward (st.forward x) t 0 0 0).2.2 (.column mask) 0) 0

/-- The gradients of the network. -/
def maskedGrads [Fintype ρ] {n k : ℕ} (importance batch : ℝ) (st : Stack n k) (x : M ρ (Fin n)) (t : M ρ (Fin k))
    (mask : V ρ) : Grads :=
  (st.backward x (squaredErrorBackward (squaredErrorForward (st.forward x) t 0 0 0).2.1
    (maskBackward (.column mask) (lossBackward importance batch 0) 0) 0)).2

theorem Act.d_zero (a : Act) (y : ℝ) : a.d y 0 = 0 := by rw [Act.d_linear, mul_zero]

theorem Stack.forward_row {n k : ℕ} (st : Stack n k) (x x' : M ρ (Fin n)) (r : ρ) (h : x r = x' r) :
    st.forward x r = st.forward x' r := by
  induction st with
  | nil n => exact h
  | fc a W b rest ih =>
    apply ih
    unfold fcForward actF addMV dotMM
    simp only [h]
  | act a rest ih =>
    apply ih
    unfold elementwiseForward actF
    simp only [h]

variable [Fintype ρ]

theorem fcBackward_masked {n m : ℕ} (a : Act) (x x' : M ρ (Fin n)) (W : M (Fin m) (Fin n)) (y y' δ δ' : M ρ (Fin m))
    (P : ρ → Prop) (hx : ∀ r, P r → x r = x' r) (hy : ∀ r, P r → y r = y' r) (hδ : ∀ r, P r → δ r = δ' r)
    (h0 : ∀ r, ¬ P r → δ r = 0 ∧ δ' r = 0) :
    let b := fcBackward a x W y 0 δ 0 0
    let b' := fcBackward a x' W y' 0 δ' 0 0
    b.dW = b'.dW ∧ b.dbias = b'.dbias ∧ (∀ r, P r → b.inDeltas r = b'.inDeltas r) ∧
      ∀ r, ¬ P r → b.inDeltas r = 0 ∧ b'.inDeltas r = 0 := by
  intro b b'
  have hg : ∀ r j, a.d (y r j) (δ r j) = a.d (y' r j) (δ' r j) := by
    intro r j
    by_cases hp : P r
    · rw [hy r hp, hδ r hp]
    · rw [(h0 r hp).1, (h0 r hp).2, Pi.zero_apply, Act.d_zero, Act.d_zero]
  have hgx : ∀ r j k, a.d (y r j) (δ r j) * x r k = a.d (y' r j) (δ' r j) * x' r k := by
    intro r j k
    by_cases hp : P r
    · rw [hg, hx r hp]
    · rw [(h0 r hp).1, (h0 r hp).2, Pi.zero_apply, Act.d_zero, Act.d_zero, zero_mul, zero_mul]
  refine ⟨?_, ?_, ?_, ?_⟩
  · funext j k
    exact Finset.sum_congr rfl fun r _ => hgx r j k
  · funext j
    exact Finset.sum_congr rfl fun r _ => hg r j
  · intro r hp
    funext k
    show (0 : ℝ) + ∑ j, a.d (y r j) (δ r j) * W j k = 0 + ∑ j, a.d (y' r j) (δ' r j) * W j k
    simp only [hg]
  · intro r hp
    constructor
    · funext k
      show (0 : ℝ) + ∑ j, a.d (y r j) (δ r j) * W j k = 0
      simp [(h0 r hp).1, Act.d_zero]
    · funext k
      show (0 : ℝ) + ∑ j, a.d (y' r j) (δ' r j) * W j k = 0
      simp [(h0 r hp).2, Act.d_zero]

theorem Stack.backward_masked {n k : ℕ} (st : Stack n k) (x x' : M ρ (Fin n)) (δ δ' : M ρ (Fin k)) (P : ρ → Prop)
    (hx : ∀ r, P r → x r = x' r) (hδ : ∀ r, P r → δ r = δ' r) (h0 : ∀ r, ¬ P r → δ r = 0 ∧ δ' r = 0) :
    (st.backward x δ).2 = (st.backward x' δ').2 ∧
    (∀ r, P r → (st.backward x δ).1 r = (st.backward x' δ').1 r) ∧
    ∀ r, ¬ P r → (st.backward x δ).1 r = 0 ∧ (st.backward x' δ').1 r = 0 := by
  induction st with
  | nil n => exact ⟨rfl, hδ, h0⟩
  | fc a W b rest ih =>
    have hy : ∀ r, P r → fcForward a x W b 0 r = fcForward a x' W b 0 r := by
      intro r hp
      unfold fcForward actF addMV dotMM
      simp only [hx r hp]
    obtain ⟨i1, i2, i3⟩ := ih (fcForward a x W b 0) (fcForward a x' W b 0) δ δ' hy hδ h0
    obtain ⟨f1, f2, f3, f4⟩ := fcBackward_masked a x x' W (fcForward a x W b 0) (fcForward a x' W b 0) _ _ P hx hy i2 i3
    refine ⟨?_, f3, f4⟩
    unfold Stack.backward
    dsimp only
    rw [f1, f2, i1]
  | act a rest ih =>
    have hy : ∀ r, P r → elementwiseForward a x 0 r = elementwiseForward a x' 0 r := by
      intro r hp
      unfold elementwiseForward actF
      simp only [hx r hp]
    obtain ⟨i1, i2, i3⟩ := ih (elementwiseForward a x 0) (elementwiseForward a x' 0) δ δ' hy hδ h0
    refine ⟨?_, ?_, ?_⟩
    · unfold Stack.backward
      dsimp only
      rw [i1]
    · intro r hp
      funext k
      show (0 : ℝ) + a.d (elementwiseForward a x 0 r k) _ = 0 + a.d (elementwiseForward a x' 0 r k) _
      rw [hy r hp, i2 r hp]
    · intro r hp
      constructor
      · funext k
        show (0 : ℝ) + a.d (elementwiseForward a x 0 r k) _ = 0
        rw [(i3 r hp).1, Pi.zero_apply, Act.d_zero, add_zero]
      · funext k
        show (0 : ℝ) + a.d (elementwiseForward a x' 0 r k) _ = 0
        rw [(i3 r hp).2, Pi.zero_apply, Act.d_zero, add_zero]

/-- **C57.**  In a network of fully connected and elementwise layers, of any depth and sizes, whose loss is masked, the loss
and all gradients are the same for any two inputs and targets that agree where the mask is not zero. -/
theorem C57_independent {n k : ℕ} (importance batch : ℝ) (st : Stack n k) (x x' : M ρ (Fin n)) (t t' : M ρ (Fin k))
    (mask : V ρ) (h : ∀ r, mask r ≠ 0 → x r = x' r ∧ t r = t' r) :
    maskedLoss importance batch st x t mask = maskedLoss importance batch st x' t' mask ∧
    maskedGrads importance batch st x t mask = maskedGrads importance batch st x' t' mask := by
  have hy : ∀ r, mask r ≠ 0 → st.forward x r = st.forward x' r := fun r hr => st.forward_row x x' r (h r hr).1
  constructor
  · unfold maskedLoss lossForward
    dsimp only
    congr 1
    refine Finset.sum_congr rfl fun r _ => Finset.sum_congr rfl fun k _ => ?_
    show 0.5 * ((st.forward x r k - t r k) * (st.forward x r k - t r k)) * mask r =
      0.5 * ((st.forward x' r k - t' r k) * (st.forward x' r k - t' r k)) * mask r
    by_cases hr : mask r = 0
    · rw [hr, mul_zero, mul_zero]
    · rw [hy r hr, (h r hr).2]
  · refine (st.backward_masked x x' _ _ (fun r => mask r ≠ 0) (fun r hr => (h r hr).1) ?_ ?_).1
    · intro r hr
      funext k
      show (0 : ℝ) + (maskBackward (.column mask) (lossBackward importance batch 0) 0 r k) * (st.forward x r k - t r k) =
        0 + (maskBackward (.column mask) (lossBackward importance batch 0) 0 r k) * (st.forward x' r k - t' r k)
      rw [hy r hr, (h r hr).2]
    · intro r hr
      have hr : mask r = 0 := by by_contra h'; exact hr h'
      have hz : ∀ j, maskBackward (.column mask) (lossBackward (ρ := ρ) (φ := Fin k) importance batch 0) 0 r j = 0 := by
        intro j
        show (lossBackward importance batch (0 : M ρ (Fin k)) r j) * mask r + 0 = 0
        rw [hr, mul_zero, add_zero]
      constructor
      · funext k
        show (0 : ℝ) + (maskBackward (.column mask) (lossBackward importance batch 0) 0 r k) * _ = 0
        rw [hz, zero_mul, add_zero]
      · funext k
        show (0 : ℝ) + (maskBackward (.column mask) (lossBackward importance batch 0) 0 r k) * _ = 0
        rw [hz, zero_mul, add_zero]

/-- Two inputs that differ at a masked step, and a mask that is not all zero: the hypothesis is met. -/
example : ∃ (x x' t : M (Fin 2) (Fin 1)) (mask : V (Fin 2)), x ≠ x' ∧ (∃ r, mask r ≠ 0) ∧
    ∀ r, mask r ≠ 0 → x r = x' r ∧ t r = t r := by
  refine ⟨fun _ _ => 0, fun r _ => if r = 1 then 5 else 0, fun _ _ => 1, fun r => if r = 0 then 1 else 0, ?_, ⟨0, by simp⟩, ?_⟩
  · intro h
    have := congrFun (congrFun h 1) 0
    norm_num at this
  · intro r hr
    have : r = 0 := by by_contra h; exact hr (if_neg h)
    subst this
    exact ⟨by funext k; simp, rfl⟩

end

end Verif.Layers
