import Verif.Layers.PropsLoss

/-!
# Batch normalisation: statistics (C58) and gradient (C22)
-/

namespace Verif.Layers

noncomputable section

variable {ρ φ : Type} [Fintype ρ]

/-! ## Specification -/

/-- Mean of a feature over time and batch. -/
def mean (x : M ρ φ) (k : φ) : ℝ := (∑ r, x r k) / Fintype.card ρ

/-- Variance of a feature over time and batch (dividing by the number of rows). -/
def variance (x : M ρ φ) (k : φ) : ℝ := (∑ r, (x r k - mean x k) ^ 2) / Fintype.card ρ

/-! ## Lemmas -/

theorem card_pos [Nonempty ρ] : (0 : ℝ) < Fintype.card ρ := by exact_mod_cast Fintype.card_pos

theorem variance_nonneg (x : M ρ φ) (k : φ) : 0 ≤ variance x k :=
  div_nonneg (Finset.sum_nonneg fun _ _ => sq_nonneg _) (Nat.cast_nonneg _)

theorem bn_centered (decay eps : ℝ) (x : M ρ φ) (gamma beta : V φ) (st : BnState ρ φ) (r : ρ) (k : φ) :
    (bnForward true decay eps x gamma beta st).centered r k = x r k - mean x k := by
  show x r k + -1 / (Fintype.card ρ : ℝ) * ∑ r, x r k = _
  unfold mean
  ring

theorem bn_sigma (decay eps : ℝ) (x : M ρ φ) (gamma beta : V φ) (st : BnState ρ φ) (k : φ) :
    (bnForward true decay eps x gamma beta st).sigmaB k = Real.sqrt (variance x k + eps) := by
  show Real.sqrt (1 / (Fintype.card ρ : ℝ) * ∑ r, (bnForward true decay eps x gamma beta st).centered r k *
    (bnForward true decay eps x gamma beta st).centered r k + eps) = _
  congr 2
  unfold variance
  simp only [bn_centered, pow_two]
  ring

theorem bn_xHat (decay eps : ℝ) (x : M ρ φ) (gamma beta : V φ) (st : BnState ρ φ) (r : ρ) (k : φ) :
    (bnForward true decay eps x gamma beta st).xHat r k = (x r k - mean x k) / Real.sqrt (variance x k + eps) := by
  rw [← bn_centered decay eps x gamma beta st, ← bn_sigma decay eps x gamma beta st]
  rfl

theorem bn_out (decay eps : ℝ) (x : M ρ φ) (gamma beta : V φ) (st : BnState ρ φ) (r : ρ) (k : φ) :
    (bnForward true decay eps x gamma beta st).out r k =
      (bnForward true decay eps x gamma beta st).xHat r k * gamma k + beta k := rfl

theorem sum_centered [Nonempty ρ] (x : M ρ φ) (k : φ) : ∑ r, (x r k - mean x k) = 0 := by
  have := card_pos (ρ := ρ)
  simp only [Finset.sum_sub_distrib, Finset.sum_const, Finset.card_univ, nsmul_eq_mul]
  unfold mean
  field_simp
  ring

/-! ## Statistics -/

/-- **C58.**  In a training pass every normalised feature has mean 0 and variance `v / (v + ε)`, where `v` is its
variance over time and batch, and the outputs are the normalised features times `gamma` plus `beta`. -/
theorem C58_normalised [Nonempty ρ] (decay eps : ℝ) (heps : 0 < eps) (x : M ρ φ) (gamma beta : V φ)
    (st : BnState ρ φ) (k : φ) :
    let st' := bnForward true decay eps x gamma beta st
    mean st'.xHat k = 0 ∧ variance st'.xHat k = variance x k / (variance x k + eps) ∧
    ∀ r, st'.out r k = (x r k - mean x k) / Real.sqrt (variance x k + eps) * gamma k + beta k := by
  intro st'
  have hpos : 0 < variance x k + eps := add_pos_of_nonneg_of_pos (variance_nonneg x k) heps
  have hx : ∀ r, st'.xHat r k = (x r k - mean x k) / Real.sqrt (variance x k + eps) :=
    fun r => bn_xHat decay eps x gamma beta st r k
  have hmean : mean st'.xHat k = 0 := by
    unfold mean
    simp only [hx, ← Finset.sum_div]
    rw [sum_centered]
    simp
  refine ⟨hmean, ?_, fun r => ?_⟩
  · unfold variance
    rw [hmean]
    simp only [hx, sub_zero, div_pow, Real.sq_sqrt hpos.le, ← Finset.sum_div]
    unfold variance
    ring
  · rw [← hx]; rfl

/-- **C58.**  A training pass moves the stored statistics towards those of the batch. `mu` stores
the *negative* mean, `sigma` the standard deviation. -/
theorem C58_training_statistics (decay eps : ℝ) (x : M ρ φ) (gamma beta : V φ) (st : BnState ρ φ) (k : φ) :
    (bnForward true decay eps x gamma beta st).mu k = decay * st.mu k + (1 - decay) * -mean x k ∧
    (bnForward true decay eps x gamma beta st).sigma k =
      decay * st.sigma k + (1 - decay) * Real.sqrt (variance x k + eps) := by
  constructor
  · show decay * st.mu k + (1 - decay) * (-1 / (Fintype.card ρ : ℝ) * ∑ r, x r k) = _
    unfold mean
    ring
  · rw [← bn_sigma decay eps x gamma beta st]
    rfl

/-- **C58.**  A non-training pass changes no statistics and normalises with the stored ones. -/
theorem C58_non_training (decay eps : ℝ) (x : M ρ φ) (gamma beta : V φ) (st : BnState ρ φ) :
    let st' := bnForward false decay eps x gamma beta st
    st'.mu = st.mu ∧ st'.sigma = st.sigma ∧
    ∀ r k, st'.out r k = (x r k + st.mu k) / st.sigma k * gamma k + beta k := by
  intro st'
  exact ⟨rfl, rfl, fun r k => rfl⟩

/-- The passes of a history: batches (of any sizes) with the flag `training_pass`. What the
internals and outputs held before each pass (e.g. because of resizing) does not matter. -/
structure Pass (φ : Type) where
  training : Bool
  rows : ℕ
  x : M (Fin rows) φ
  internals : V φ × M (Fin rows) φ × M (Fin rows) φ × M (Fin rows) φ

/-- The stored statistics `(mu, sigma)` after one pass. -/
def statistics (decay eps : ℝ) (gamma beta : V φ) (s : V φ × V φ) (p : Pass φ) : V φ × V φ :=
  let st := bnForward p.training decay eps p.x gamma beta
    ⟨s.1, s.2, p.internals.1, p.internals.2.1, p.internals.2.2.1, p.internals.2.2.2⟩
  (st.mu, st.sigma)

/-- Specification: the exponential moving average of a list of numbers, the last being the newest. -/
def ema (decay start : ℝ) (l : List ℝ) : ℝ :=
  decay ^ l.length * start +
    (1 - decay) * ((List.range l.length).map fun i => decay ^ (l.length - 1 - i) * l.getD i 0).sum

theorem ema_nil (decay start : ℝ) : ema decay start [] = start := by simp [ema]

theorem ema_append (decay start : ℝ) (l : List ℝ) (y : ℝ) :
    ema decay start (l ++ [y]) = decay * ema decay start l + (1 - decay) * y := by
  unfold ema
  rw [List.length_append, List.length_singleton, List.range_succ, List.map_append, List.sum_append]
  have e1 : ((List.range l.length).map fun i => decay ^ (l.length + 1 - 1 - i) * (l ++ [y]).getD i 0).sum =
      decay * ((List.range l.length).map fun i => decay ^ (l.length - 1 - i) * l.getD i 0).sum := by
    rw [← List.sum_map_mul_left]
    congr 1
    apply List.map_congr_left
    intro i hi
    have hi := List.mem_range.1 hi
    have : l.length + 1 - 1 - i = (l.length - 1 - i) + 1 := by omega
    rw [this, pow_succ]
    have : (l ++ [y]).getD i 0 = l.getD i 0 := by
      rw [List.getD_eq_getElem?_getD, List.getD_eq_getElem?_getD, List.getElem?_append_left hi]
    rw [this]
    ring
  rw [e1]
  have e2 : (l ++ [y]).getD l.length 0 = y := by simp [List.getD_eq_getElem?_getD]
  simp only [List.map_cons, List.map_nil, List.sum_cons, List.sum_nil, Nat.add_sub_cancel, Nat.sub_self, pow_zero, e2]
  ring

/-- **C58.**  After every history of passes, with batches of any sizes, the stored statistics are the
exponential moving averages of the statistics of the training batches alone. -/
theorem C58_history (decay eps : ℝ) (gamma beta : V φ) (s : V φ × V φ) (ps : List (Pass φ)) (k : φ) :
    (ps.foldl (statistics decay eps gamma beta) s).1 k =
      ema decay (s.1 k) ((ps.filter (·.training)).map fun p => -mean p.x k) ∧
    (ps.foldl (statistics decay eps gamma beta) s).2 k =
      ema decay (s.2 k) ((ps.filter (·.training)).map fun p => Real.sqrt (variance p.x k + eps)) := by
  induction ps using List.reverseRecOn with
  | nil => simp [ema_nil]
  | append_singleton ps p ih =>
    rw [List.foldl_append, List.foldl_cons, List.foldl_nil, List.filter_append]
    cases hp : p.training with
    | true =>
      have hf : [p].filter (·.training) = [p] := by simp [hp]
      rw [hf, List.map_append, List.map_append, List.map_singleton, List.map_singleton, ema_append, ema_append,
        ← ih.1, ← ih.2]
      unfold statistics
      rw [hp]
      exact C58_training_statistics decay eps p.x gamma beta _ k
    | false =>
      have hf : [p].filter (·.training) = [] := by simp [hp]
      rw [hf, List.append_nil]
      unfold statistics
      rw [hp]
      exact ih

/-- A batch with variance 1 in its only feature: the hypotheses can be met and the claim is
not trivial. -/
example : mean (fun (r : Fin 2) (_ : Fin 1) => if r = 0 then (1 : ℝ) else 3) 0 = 2 ∧
    variance (fun (r : Fin 2) (_ : Fin 1) => if r = 0 then (1 : ℝ) else 3) 0 = 1 := by
  constructor <;> simp [mean, variance, Fin.sum_univ_two] <;> norm_num

/-! ## Gradient -/

variable [Fintype φ]

theorem inner_swap (a b : M ρ φ) : inner a b = ∑ k, ∑ r, a r k * b r k := by
  unfold inner
  exact Finset.sum_comm

/-- **C22 (BatchNorm).**  In a training pass, with respect to the inputs, `gamma` and `beta`; the other
parameters do not enter the output of a training pass, and get no gradient. -/
theorem C22_batch_norm [Nonempty ρ] (decay eps : ℝ) (heps : 0 < eps) (X : ℝ → M ρ φ) (X' : M ρ φ) (hX : Moves X X')
    (gamma beta : ℝ → V φ) (gamma' beta' : V φ) (hg : MovesV gamma gamma') (hb : MovesV beta beta')
    (st : BnState ρ φ) (δ din : M ρ φ) (dgamma dbeta : V φ) :
    let back := bnBackward (gamma 0) (bnForward true decay eps (X 0) (gamma 0) (beta 0) st) δ din dgamma dbeta
    HasDerivAt (fun s => inner δ (bnForward true decay eps (X s) (gamma s) (beta s) st).out)
      (inner (back.inDeltas - din) X' + innerV (back.dgamma - dgamma) gamma' + innerV (back.dbeta - dbeta) beta') 0 := by
  intro back
  have hm := card_pos (ρ := ρ)
  set m : ℝ := (Fintype.card ρ : ℝ) with hmdef
  -- abbreviations
  set st0 := bnForward true decay eps (X 0) (gamma 0) (beta 0) st with hst0
  set xh : M ρ φ := st0.xHat with hxh
  let σ : V φ := fun k => Real.sqrt (variance (X 0) k + eps)
  have hvpos : ∀ k, 0 < variance (X 0) k + eps := fun k => add_pos_of_nonneg_of_pos (variance_nonneg _ k) heps
  have σpos : ∀ k, 0 < σ k := fun k => Real.sqrt_pos.2 (hvpos k)
  have hxhat : ∀ r k, xh r k = (X 0 r k - mean (X 0) k) / σ k := fun r k => bn_xHat _ _ _ _ _ _ r k
  have hsx : ∀ k, ∑ r, xh r k = 0 := by
    intro k
    simp only [hxhat, ← Finset.sum_div, sum_centered, zero_div]
  -- velocities
  let c' : M ρ φ := fun r k => X' r k - mean X' k
  have hmean : ∀ k, HasDerivAt (fun s => mean (X s) k) (mean X' k) 0 := by
    intro k
    exact (HasDerivAt.fun_sum (u := Finset.univ) (fun r _ => hX r k)).div_const _
  have hc : ∀ r k, HasDerivAt (fun s => X s r k - mean (X s) k) (c' r k) 0 := fun r k => (hX r k).sub (hmean k)
  have hvar : ∀ k, HasDerivAt (fun s => variance (X s) k) ((∑ r, 2 * (X 0 r k - mean (X 0) k) * c' r k) / m) 0 := by
    intro k
    refine HasDerivAt.div_const (HasDerivAt.fun_sum (u := Finset.univ) (fun r _ => ?_)) _
    refine ((hc r k).pow 2).congr_deriv ?_
    simp
  have hσ : ∀ k, HasDerivAt (fun s => Real.sqrt (variance (X s) k + eps)) ((∑ r, xh r k * c' r k) / m) 0 := by
    intro k
    refine (((hvar k).add_const eps).sqrt (hvpos k).ne').congr_deriv ?_
    have e : ∑ r, 2 * (X 0 r k - mean (X 0) k) * c' r k = 2 * σ k * ∑ r, xh r k * c' r k := by
      rw [Finset.mul_sum]
      refine Finset.sum_congr rfl fun r _ => ?_
      rw [hxhat]
      have := (σpos k).ne'
      field_simp
    rw [e]
    have := (σpos k).ne'
    show 2 * σ k * (∑ r, xh r k * c' r k) / m / (2 * σ k) = _
    field_simp
  have hxd : ∀ r k, HasDerivAt (fun s => (X s r k - mean (X s) k) / Real.sqrt (variance (X s) k + eps))
      ((c' r k - xh r k * ((∑ r, xh r k * c' r k) / m)) / σ k) 0 := by
    intro r k
    refine ((hc r k).fun_div (hσ k) (σpos k).ne').congr_deriv ?_
    show (c' r k * σ k - (X 0 r k - mean (X 0) k) * ((∑ r, xh r k * c' r k) / m)) / σ k ^ 2 = _
    have h1 : X 0 r k - mean (X 0) k = xh r k * σ k := by
      rw [hxhat]; have := (σpos k).ne'; field_simp
    rw [h1]
    have := (σpos k).ne'
    field_simp
  have hout : Moves (fun s => (bnForward true decay eps (X s) (gamma s) (beta s) st).out)
      (fun r k => (c' r k - xh r k * ((∑ r, xh r k * c' r k) / m)) / σ k * gamma 0 k + xh r k * gamma' k + beta' k) := by
    intro r k
    have := ((hxd r k).mul (hg k)).add (hb k)
    have e : (fun s => (bnForward true decay eps (X s) (gamma s) (beta s) st).out r k) =
        fun s => (X s r k - mean (X s) k) / Real.sqrt (variance (X s) k + eps) * gamma s k + beta s k := by
      funext s
      rw [bn_out, bn_xHat]
    rw [e]
    refine this.congr_deriv ?_
    dsimp only
    rw [hxhat r k]
  refine (inner_hasDerivAt δ hout).congr_deriv ?_
  -- algebra, feature by feature
  have eback : ∀ r k, (back.inDeltas - din) r k =
      (δ r k - xh r k * (1 / m * ∑ r, δ r k * xh r k) - 1 / m * ∑ r, δ r k) * (gamma 0 k / σ k) := by
    intro r k
    have hs : st0.sigmaB k = σ k := bn_sigma _ _ _ _ _ _ k
    show (δ r k - xh r k * (1 / m * ∑ r, δ r k * xh r k) - 1 / m * ∑ r, δ r k) * (gamma 0 k / st0.sigmaB k) +
      din r k - din r k = _
    rw [hs]
    ring
  have edg : ∀ k, (back.dgamma - dgamma) k = ∑ r, δ r k * xh r k := by
    intro k
    show ∑ r, δ r k * xh r k + dgamma k - dgamma k = _
    ring
  have edb : ∀ k, (back.dbeta - dbeta) k = ∑ r, δ r k := by
    intro k
    show ∑ r, δ r k + dbeta k - dbeta k = _
    ring
  rw [inner_swap, inner_swap]
  unfold innerV
  rw [← Finset.sum_add_distrib, ← Finset.sum_add_distrib]
  refine Finset.sum_congr rfl fun k _ => ?_
  simp only [eback, edg, edb]
  have hσ0 := (σpos k).ne'
  set P := ∑ r, δ r k * xh r k with hP
  set D := ∑ r, δ r k with hD
  set Q := ∑ r, xh r k * X' r k with hQ
  set R := ∑ r, δ r k * X' r k with hR
  set S := ∑ r, X' r k with hS
  have hcx : ∑ r, xh r k * c' r k = Q := by
    simp only [c', mul_sub, Finset.sum_sub_distrib, ← Finset.sum_mul]
    rw [hsx]
    ring
  rw [hcx]
  have hmX : mean X' k = S / m := rfl
  have lhs : ∑ r, δ r k * ((c' r k - xh r k * (Q / m)) / σ k * gamma 0 k + xh r k * gamma' k + beta' k) =
      (R - D * (S / m) - P * (Q / m)) * (gamma 0 k / σ k) + P * gamma' k + D * beta' k := by
    have : ∀ r, δ r k * ((c' r k - xh r k * (Q / m)) / σ k * gamma 0 k + xh r k * gamma' k + beta' k) =
        (δ r k * X' r k) * (gamma 0 k / σ k) - δ r k * (S / m * (gamma 0 k / σ k)) -
        (δ r k * xh r k) * (Q / m * (gamma 0 k / σ k)) + (δ r k * xh r k) * gamma' k + δ r k * beta' k := by
      intro r
      simp only [c', hmX]
      ring
    simp only [this, Finset.sum_add_distrib, Finset.sum_sub_distrib, ← Finset.sum_mul]
    rw [← hR, ← hD, ← hP]
    ring
  rw [lhs]
  have rhs : ∑ r, (δ r k - xh r k * (1 / m * P) - 1 / m * D) * (gamma 0 k / σ k) * X' r k =
      (R - Q * (1 / m * P) - 1 / m * D * S) * (gamma 0 k / σ k) := by
    have : ∀ r, (δ r k - xh r k * (1 / m * P) - 1 / m * D) * (gamma 0 k / σ k) * X' r k =
        (δ r k * X' r k) * (gamma 0 k / σ k) - (xh r k * X' r k) * (1 / m * P * (gamma 0 k / σ k)) -
        X' r k * (1 / m * D * (gamma 0 k / σ k)) := by
      intro r; ring
    simp only [this, Finset.sum_sub_distrib, ← Finset.sum_mul]
    rw [← hR, ← hQ, ← hS]
    ring
  rw [rhs]
  ring

end

end Verif.Layers
