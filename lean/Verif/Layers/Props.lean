import Verif.Layers.Model
import Verif.Layers.Grad

/-!
# Gradients of the layers without recurrence (C22)

Form of the theorems: let everything the layer reads move (`Moves`).  Then the derivative of
the sum of outputs times output deltas is the sum over inputs and parameters of what the
backward pass *added* to their deltas or gradients times their velocity.  The old contents of
outputs, deltas and gradients are arbitrary.
-/

namespace Verif.Layers

noncomputable section

variable {ρ φ ψ : Type}

/-! ## Algebra of the affine map -/

section affine
variable [Fintype ρ] [Fintype φ] [Fintype ψ]

theorem inner_affine_left (g : M ρ ψ) (X' : M ρ φ) (W : M ψ φ) :
    inner g (fun r j => ∑ k, X' r k * W j k) = inner (fun r k => ∑ j, g r j * W j k) X' := by
  unfold inner
  refine Finset.sum_congr rfl fun r _ => ?_
  simp only [Finset.mul_sum, Finset.sum_mul]
  rw [Finset.sum_comm]
  refine Finset.sum_congr rfl fun k _ => Finset.sum_congr rfl fun j _ => by ring

theorem inner_affine_right (g : M ρ ψ) (X : M ρ φ) (W' : M ψ φ) :
    inner g (fun r j => ∑ k, X r k * W' j k) = inner (fun j k => ∑ r, g r j * X r k) W' := by
  unfold inner
  rw [Finset.sum_comm]
  refine Finset.sum_congr rfl fun j _ => ?_
  simp only [Finset.mul_sum, Finset.sum_mul]
  rw [Finset.sum_comm]
  refine Finset.sum_congr rfl fun k _ => Finset.sum_congr rfl fun r _ => by ring

omit [Fintype φ] in
theorem inner_bias (g : M ρ ψ) (b' : V ψ) : inner g (fun _ j => b' j) = innerV (fun j => ∑ r, g r j) b' := by
  unfold inner innerV
  rw [Finset.sum_comm]
  simp only [Finset.sum_mul]

omit [Fintype φ] in
theorem inner_add (g a b : M ρ ψ) : inner g (fun r j => a r j + b r j) = inner g a + inner g b := by
  unfold inner
  simp only [mul_add, Finset.sum_add_distrib]

omit [Fintype φ] in
theorem inner_congr {g a g' a' : M ρ ψ} (h : ∀ r j, g r j * a r j = g' r j * a' r j) :
    inner g a = inner g' a' := by
  unfold inner
  exact Finset.sum_congr rfl fun r _ => Finset.sum_congr rfl fun j _ => h r j

omit [Fintype ρ] in
theorem Moves.affine {X : ℝ → M ρ φ} {X' : M ρ φ} {W : ℝ → M ψ φ} {W' : M ψ φ} {b : ℝ → V ψ} {b' : V ψ}
    (hX : Moves X X') (hW : Moves W W') (hb : MovesV b b') :
    Moves (fun s => fun r j => ∑ k, X s r k * W s j k + b s j)
      (fun r j => (∑ k, X' r k * W 0 j k + ∑ k, X 0 r k * W' j k) + b' j) := by
  intro r j
  refine HasDerivAt.add ?_ (hb j)
  refine (HasDerivAt.fun_sum (u := Finset.univ) (fun k _ => (hX r k).mul (hW j k))).congr_deriv ?_
  rw [Finset.sum_add_distrib]

end affine


theorem Moves.act (a : Act) {A : ℝ → M ρ φ} {A' : M ρ φ} (h : Moves A A') (sm : ∀ r k, a.Smooth (A 0 r k)) :
    Moves (fun s => fun r k => a.f (A s r k)) (fun r k => a.d (a.f (A 0 r k)) 1 * A' r k) := by
  intro r k
  exact (a.hasDerivAt (sm r k)).comp (0 : ℝ) (h r k)

variable [Fintype ρ] [Fintype φ]

/-- **C22 (FullyConnected).**  The input deltas are added; the gradients of the weights and of
the bias are *overwritten* (see C55) with the right derivative. -/
theorem C22_fully_connected [Fintype ψ] (a : Act) (X : ℝ → M ρ φ) (X' : M ρ φ) (W : ℝ → M ψ φ) (W' : M ψ φ)
    (b : ℝ → V ψ) (b' : V ψ) (hX : Moves X X') (hW : Moves W W') (hb : MovesV b b') (out δ : M ρ ψ)
    (din : M ρ φ) (dW : M ψ φ) (db : V ψ) (smooth : ∀ r j, a.Smooth (∑ k, X 0 r k * W 0 j k + b 0 j)) :
    let back := fcBackward a (X 0) (W 0) (fcForward a (X 0) (W 0) (b 0) out) din δ dW db
    HasDerivAt (fun s => inner δ (fcForward a (X s) (W s) (b s) out))
      (inner (back.inDeltas - din) X' + inner back.dW W' + innerV back.dbias b') 0 := by
  intro back
  have h1 := Moves.act a (Moves.affine hX hW hb) smooth
  refine (inner_hasDerivAt δ h1).congr_deriv ?_
  set g : M ρ ψ := fun r j => a.d (fcForward a (X 0) (W 0) (b 0) out r j) (δ r j) with hg
  have e : inner δ (fun r j => a.d (a.f (∑ k, X 0 r k * W 0 j k + b 0 j)) 1 *
      ((∑ k, X' r k * W 0 j k + ∑ k, X 0 r k * W' j k) + b' j)) =
      inner g (fun r j => (∑ k, X' r k * W 0 j k + ∑ k, X 0 r k * W' j k) + b' j) := by
    refine inner_congr fun r j => ?_
    rw [hg]
    dsimp only
    rw [Act.d_linear a _ (δ r j)]
    unfold fcForward actF addMV dotMM tr
    ring
  rw [e, inner_add g _ (fun _ j => b' j), inner_add, inner_affine_left, inner_affine_right, inner_bias]
  have e1 : back.inDeltas - din = fun r k => ∑ j, g r j * W 0 j k := by
    funext r k
    show din r k + _ - din r k = _
    rw [add_sub_cancel_left]
    rfl
  rw [e1]
  rfl

/-- **C22 (Elementwise).** -/
theorem C22_elementwise (a : Act) (X : ℝ → M ρ φ) (X' : M ρ φ) (hX : Moves X X') (out δ din : M ρ φ)
    (smooth : ∀ r k, a.Smooth (X 0 r k)) :
    HasDerivAt (fun s => inner δ (elementwiseForward a (X s) out))
      (inner (elementwiseBackward a (elementwiseForward a (X 0) out) din δ - din) X') 0 := by
  refine (inner_hasDerivAt δ (Moves.act a hX smooth)).congr_deriv ?_
  refine inner_congr fun r k => ?_
  show _ = (din r k + a.d (a.f (X 0 r k)) (δ r k) - din r k) * X' r k
  rw [Act.d_linear a _ (δ r k)]
  ring

/-- **C22 (Highway).** -/
theorem C22_highway (H T X : ℝ → M ρ φ) (H' T' X' : M ρ φ) (hH : Moves H H') (hT : Moves T T')
    (hX : Moves X X') (out δ dH dT dx : M ρ φ) :
    let back := highwayBackward (H 0) (T 0) (X 0) δ dH dT dx
    HasDerivAt (fun s => inner δ (highwayForward (H s) (T s) (X s) out))
      (inner (back.1 - dH) H' + inner (back.2.1 - dT) T' + inner (back.2.2 - dx) X') 0 := by
  intro back
  have h : Moves (fun s => highwayForward (H s) (T s) (X s) out)
      (fun r k => T' r k * (H 0 r k - X 0 r k) + T 0 r k * (H' r k - X' r k) + X' r k) :=
    fun r k => ((hT r k).mul ((hH r k).sub (hX r k))).add (hX r k)
  refine (inner_hasDerivAt δ h).congr_deriv ?_
  unfold inner
  simp only [← Finset.sum_add_distrib]
  refine Finset.sum_congr rfl fun r _ => Finset.sum_congr rfl fun k _ => ?_
  show _ = (dH r k + T 0 r k * δ r k - dH r k) * H' r k + (dT r k + (H 0 r k - X 0 r k) * δ r k - dT r k) * T' r k +
    (dx r k + (1 - T 0 r k) * δ r k - dx r k) * X' r k
  ring

/-- **C22 (NoOp).** -/
theorem C22_noop (X : ℝ → M ρ φ) (X' : M ρ φ) (hX : Moves X X') (out δ din : M ρ φ) :
    HasDerivAt (fun s => inner δ (copyForward (X s) out)) (inner (noopBackward δ din - din) X') 0 := by
  refine (inner_hasDerivAt δ hX).congr_deriv (inner_congr fun r k => ?_)
  show _ = (δ r k + din r k - din r k) * X' r k
  ring

/-- **C22 (DeltasScaling).**  As documented, the deltas are the derivative times `factor`. -/
theorem C22_deltas_scaling (factor : ℝ) (X : ℝ → M ρ φ) (X' : M ρ φ) (hX : Moves X X') (out δ din : M ρ φ) :
    ∃ d, HasDerivAt (fun s => inner δ (copyForward (X s) out)) d 0 ∧
      inner (scalingBackward factor δ din - din) X' = factor * d := by
  refine ⟨_, inner_hasDerivAt δ hX, ?_⟩
  unfold inner
  simp only [Finset.mul_sum]
  refine Finset.sum_congr rfl fun r _ => Finset.sum_congr rfl fun k _ => ?_
  show (din r k + factor * δ r k - din r k) * X' r k = _
  ring

/-- **C22 (Merge).** -/
theorem C22_merge [Fintype ψ] (A : ℝ → M ρ φ) (A' : M ρ φ) (B : ℝ → M ρ ψ) (B' : M ρ ψ) (hA : Moves A A')
    (hB : Moves B B') (out δ : M ρ (φ ⊕ ψ)) (da : M ρ φ) (db : M ρ ψ) :
    let back := mergeBackward δ da db
    HasDerivAt (fun s => inner δ (mergeForward (A s) (B s) out))
      (inner (back.1 - da) A' + inner (back.2 - db) B') 0 := by
  intro back
  have h : Moves (fun s => mergeForward (A s) (B s) out) (fun r => Sum.elim (A' r) (B' r)) := by
    intro r k
    cases k with
    | inl k => exact hA r k
    | inr k => exact hB r k
  refine (inner_hasDerivAt δ h).congr_deriv ?_
  unfold inner
  simp only [Fintype.sum_sum_type, Sum.elim_inl, Sum.elim_inr, Finset.sum_add_distrib]
  congr 1 <;> refine Finset.sum_congr rfl fun r _ => Finset.sum_congr rfl fun k _ => ?_
  · show _ = (da r k + δ r (.inl k) - da r k) * A' r k
    ring
  · show _ = (db r k + δ r (.inr k) - db r k) * B' r k
    ring

/-- **C22 (Mask).**  With respect to the masked input; the layer computes no deltas for the mask. -/
theorem C22_mask (X : ℝ → M ρ φ) (X' : M ρ φ) (hX : Moves X X') (mask : Mask ρ φ) (out δ din : M ρ φ) :
    HasDerivAt (fun s => inner δ (maskForward (X s) mask out)) (inner (maskBackward mask δ din - din) X') 0 := by
  cases mask with
  | column m =>
    have h : Moves (fun s => maskForward (X s) (.column m) out) (fun r k => X' r k * m r) :=
      fun r k => (hX r k).mul_const (m r)
    refine (inner_hasDerivAt δ h).congr_deriv (inner_congr fun r k => ?_)
    show _ = (δ r k * m r + din r k - din r k) * X' r k
    ring
  | full m =>
    have h : Moves (fun s => maskForward (X s) (.full m) out) (fun r k => X' r k * m r k) :=
      fun r k => (hX r k).mul_const (m r k)
    refine (inner_hasDerivAt δ h).congr_deriv (inner_congr fun r k => ?_)
    show _ = (δ r k * m r k + din r k - din r k) * X' r k
    ring

/-- **C22 (SquaredError).**  Of the output `loss`, with respect to the predictions; the layer
computes no deltas for the targets. -/
theorem C22_squared_error (X : ℝ → M ρ φ) (X' : M ρ φ) (hX : Moves X X') (t y diff loss δ dx : M ρ φ) :
    HasDerivAt (fun s => inner δ (squaredErrorForward (X s) t y diff loss).2.2)
      (inner (squaredErrorBackward (squaredErrorForward (X 0) t y diff loss).2.1 δ dx - dx) X') 0 := by
  have h : Moves (fun s => (squaredErrorForward (X s) t y diff loss).2.2)
      (fun r k => 0.5 * (X' r k * (X 0 r k - t r k) + (X 0 r k - t r k) * X' r k)) := by
    intro r k
    have := ((hX r k).sub_const (t r k))
    exact (this.mul this).const_mul 0.5
  refine (inner_hasDerivAt δ h).congr_deriv (inner_congr fun r k => ?_)
  show _ = (dx r k + δ r k * (X 0 r k - t r k) - dx r k) * X' r k
  ring

/-- **C22 (SquaredDifference).** -/
theorem C22_squared_difference (A B : ℝ → M ρ φ) (A' B' : M ρ φ) (hA : Moves A A') (hB : Moves B B')
    (diff out δ da db : M ρ φ) :
    let back := squaredDiffBackward (squaredDiffForward (A 0) (B 0) diff out).1 δ da db
    HasDerivAt (fun s => inner δ (squaredDiffForward (A s) (B s) diff out).2)
      (inner (back.1 - da) A' + inner (back.2 - db) B') 0 := by
  intro back
  have h : Moves (fun s => (squaredDiffForward (A s) (B s) diff out).2)
      (fun r k => (A' r k - B' r k) * (A 0 r k - B 0 r k) + (A 0 r k - B 0 r k) * (A' r k - B' r k)) :=
    fun r k => ((hA r k).sub (hB r k)).mul ((hA r k).sub (hB r k))
  refine (inner_hasDerivAt δ h).congr_deriv ?_
  unfold inner
  simp only [← Finset.sum_add_distrib]
  refine Finset.sum_congr rfl fun r _ => Finset.sum_congr rfl fun k _ => ?_
  show _ = (da r k + 2 * δ r k * (A 0 r k - B 0 r k) - da r k) * A' r k +
    (db r k + 2 * δ r k * (-1 * (A 0 r k - B 0 r k)) - db r k) * B' r k
  ring

omit [Fintype ρ] [Fintype φ] in
theorem abs_hasDerivAt {x : ℝ} (h : x ≠ 0) : HasDerivAt (fun u => |u|) (if 0 < x then 1 else if x < 0 then -1 else 0) x := by
  rcases lt_or_gt_of_ne h with hx | hx
  · rw [if_neg (not_lt.2 hx.le), if_pos hx]
    refine (hasDerivAt_neg x).congr_of_eventuallyEq ?_
    filter_upwards [gt_mem_nhds hx] with u hu
    exact abs_of_neg hu
  · rw [if_pos hx]
    refine (hasDerivAt_id x).congr_of_eventuallyEq ?_
    filter_upwards [lt_mem_nhds hx] with u hu
    exact abs_of_pos hu

/-- **C22 (L1Decay).**  Where no input is exactly zero. -/
theorem C22_l1 (X : ℝ → M ρ φ) (X' : M ρ φ) (hX : Moves X X') (ne : ∀ r k, X 0 r k ≠ 0) (tmp din : M ρ φ)
    (out δ : V ρ) :
    HasDerivAt (fun s => innerV δ (l1Forward (X s) tmp out).2)
      (inner (l1Backward (X 0) (l1Forward (X 0) tmp out).1 δ din - din) X') 0 := by
  have h : HasDerivAt (fun s => innerV δ (l1Forward (X s) tmp out).2)
      (∑ r, δ r * ∑ k, (if 0 < X 0 r k then 1 else if X 0 r k < 0 then -1 else 0) * X' r k) 0 := by
    unfold innerV
    refine HasDerivAt.fun_sum (u := Finset.univ) (fun r _ => HasDerivAt.const_mul (δ r) ?_)
    exact HasDerivAt.fun_sum (u := Finset.univ) (fun k _ => (abs_hasDerivAt (ne r k)).comp (0 : ℝ) (hX r k))
  refine h.congr_deriv ?_
  unfold inner
  refine Finset.sum_congr rfl fun r _ => ?_
  rw [Finset.mul_sum]
  refine Finset.sum_congr rfl fun k _ => ?_
  show _ = ((if 0 < X 0 r k then 1 else if X 0 r k < 0 then -1 else 0) * δ r + din r k - din r k) * X' r k
  ring

/-- **C22 (L2Decay).** -/
theorem C22_l2 (X : ℝ → M ρ φ) (X' : M ρ φ) (hX : Moves X X') (tmp din : M ρ φ) (out δ : V ρ) :
    HasDerivAt (fun s => innerV δ (l2Forward (X s) tmp out).2)
      (inner (l2Backward (X 0) (l2Forward (X 0) tmp out).1 δ din - din) X') 0 := by
  have h : HasDerivAt (fun s => innerV δ (l2Forward (X s) tmp out).2)
      (∑ r, δ r * ∑ k, 0.5 * (X' r k * X 0 r k + X 0 r k * X' r k)) 0 := by
    unfold innerV
    refine HasDerivAt.fun_sum (u := Finset.univ) (fun r _ => HasDerivAt.const_mul (δ r) ?_)
    exact HasDerivAt.fun_sum (u := Finset.univ) (fun k _ => ((hX r k).mul (hX r k)).const_mul 0.5)
  refine h.congr_deriv ?_
  unfold inner
  refine Finset.sum_congr rfl fun r _ => ?_
  rw [Finset.mul_sum]
  refine Finset.sum_congr rfl fun k _ => ?_
  show _ = (X 0 r k * δ r + din r k - din r k) * X' r k
  ring

/-- **C22 (Loss).**  The derivative of the loss itself: the layer ignores the delta of its
output. -/
theorem C22_loss (importance batchSize : ℝ) (X : ℝ → M ρ φ) (X' : M ρ φ) (hX : Moves X X') (out : ℝ) (din : M ρ φ) :
    HasDerivAt (fun s => lossForward importance batchSize (X s) out)
      (inner (lossBackward importance batchSize din - din) X') 0 := by
  have h : HasDerivAt (fun s => lossForward importance batchSize (X s) out)
      (importance / batchSize * ∑ r, ∑ k, X' r k) 0 := by
    refine HasDerivAt.const_mul _ ?_
    exact HasDerivAt.fun_sum (u := Finset.univ) (fun r _ => HasDerivAt.fun_sum (u := Finset.univ) (fun k _ => hX r k))
  refine h.congr_deriv ?_
  unfold inner
  simp only [Finset.mul_sum]
  refine Finset.sum_congr rfl fun r _ => Finset.sum_congr rfl fun k _ => ?_
  show _ = (din r k + importance / batchSize - din r k) * X' r k
  ring

end

end Verif.Layers
