import Verif.Layers.Props
import Mathlib.Algebra.BigOperators.Field
import Mathlib.Analysis.SpecialFunctions.Log.Deriv
import Mathlib.Analysis.SpecialFunctions.Sqrt
import Mathlib.Tactic.FieldSimp

/-!
# Gradients of dropout, of the cross entropy layers and of batch normalisation (C22, C58)
-/

namespace Verif.Layers

noncomputable section

variable {ρ φ ψ : Type}
variable [Fintype ρ] [Fintype φ]

/-! ## Dropout -/

/-- **C22 (Dropout, what holds).**  In a training pass the backward pass computes the derivative *times
`1 - p`*: the factor `1 / (1 - p)` of the forward pass is missing.  It is right only for `p = 0`. -/
theorem C22_dropout_partial (p : ℝ) (hp : p ≠ 1) (X : ℝ → M ρ φ) (X' : M ρ φ) (hX : Moves X X')
    (drawn mask out δ din : M ρ φ) :
    ∃ d, HasDerivAt (fun s => inner δ (dropoutForward true p drawn (X s) mask out).2) d 0 ∧
      inner (dropoutBackward (dropoutForward true p drawn (X 0) mask out).1 δ din - din) X' = (1 - p) * d := by
  have h : Moves (fun s => (dropoutForward true p drawn (X s) mask out).2)
      (fun r k => 1 / (1 - p) * (X' r k * drawn r k)) :=
    fun r k => ((hX r k).mul_const (drawn r k)).const_mul (1 / (1 - p))
  refine ⟨_, inner_hasDerivAt δ h, ?_⟩
  unfold inner
  simp only [Finset.mul_sum]
  refine Finset.sum_congr rfl fun r _ => Finset.sum_congr rfl fun k _ => ?_
  show (din r k + δ r k * drawn r k - din r k) * X' r k = _
  have : (1 - p) ≠ 0 := sub_ne_zero.2 (Ne.symm hp)
  field_simp
  ring

/-- **C22 (Dropout, negation).**  For every drop probability other than 0 and 1, wherever a kept unit has
a delta, the input delta computed is not the derivative. -/
theorem C22_dropout_wrong (p : ℝ) (hp : p ≠ 1) (hp0 : p ≠ 0) (x drawn mask out δ din : M ρ φ) (r : ρ) (k : φ)
    (kept : drawn r k = 1) (hδ : δ r k ≠ 0) :
    ¬ ∀ (X : ℝ → M ρ φ) (X' : M ρ φ), X 0 = x → Moves X X' →
      HasDerivAt (fun s => inner δ (dropoutForward true p drawn (X s) mask out).2)
        (inner (dropoutBackward (dropoutForward true p drawn x mask out).1 δ din - din) X') 0 := by
  classical
  intro hall
  have hm := Moves.single x r k
  have h1 := hall _ _ (by simp) hm
  obtain ⟨d, h2, h3⟩ := C22_dropout_partial p hp _ _ hm drawn mask out δ din
  have h3 : inner (dropoutBackward (dropoutForward true p drawn x mask out).1 δ din - din) _ = (1 - p) * d := h3
  have h4 := h1.unique h2
  rw [h3] at h4
  have hd : d ≠ 0 := by
    intro h0
    rw [h0, mul_zero] at h3
    unfold inner at h3
    rw [Finset.sum_eq_single r] at h3
    · rw [Finset.sum_eq_single k] at h3
      · simp only [and_self, if_true, mul_one] at h3
        have : din r k + δ r k * drawn r k - din r k = 0 := h3
        rw [kept] at this
        apply hδ; linarith
      · intro b _ hb; simp [hb]
      · simp
    · intro b _ hb; simp [hb]
    · simp
  have : p * d = 0 := by linarith
  rcases mul_eq_zero.1 this with h | h
  · exact hp0 h
  · exact hd h

/-! ## Cross entropy -/

omit [Fintype ρ] in
theorem log_clip_hasDerivAt {y : ℝ} (h1 : 1e-6 < y) (h2 : y < 1) :
    HasDerivAt (fun u => Real.log (min (max u 1e-6) 1)) (1 / y) y := by
  have hy : y ≠ 0 := by have : (0 : ℝ) < 1e-6 := by norm_num
                        linarith
  rw [one_div]
  refine (Real.hasDerivAt_log hy).congr_of_eventuallyEq ?_
  filter_upwards [lt_mem_nhds h1, gt_mem_nhds h2] with u hu hu'
  rw [max_eq_left hu.le, min_eq_left hu'.le]

/-- **C22 (SigmoidCE).**  Of the output `loss`, where the probabilities are in the range that is not
clipped. -/
theorem C22_sigmoid_ce (X : ℝ → M ρ φ) (X' : M ρ φ) (hX : Moves X X') (t prob loss dcee δ din : M ρ φ)
    (range : ∀ r k, 1e-6 < 1 / (1 + Real.exp (-(X 0 r k))) ∧ 1 / (1 + Real.exp (-(X 0 r k))) < 1 - 1e-6) :
    HasDerivAt (fun s => inner δ (sigmoidCEForward (X s) t prob loss).2)
      (inner (sigmoidCEBackward t (sigmoidCEForward (X 0) t prob loss).1 dcee δ din - din) X') 0 := by
  have h : Moves (fun s => (sigmoidCEForward (X s) t prob loss).2)
      (fun r k => (Act.sigmoid.f (X 0 r k) - t r k) * X' r k) := by
    intro r k
    set y := Act.sigmoid.f (X 0 r k) with hy
    obtain ⟨l, u⟩ := range r k
    rw [← Act.f_sigmoid, ← hy] at l u
    have hd : HasDerivAt (fun s => Act.sigmoid.f (X s r k)) (y * (1 - y) * X' r k) 0 := by
      have := (Act.sigmoid.hasDerivAt (x := X 0 r k) (by intro h; cases h)).comp (0 : ℝ) (hX r k)
      refine this.congr_deriv ?_
      rw [← hy]
      simp [Act.d, Activations.sigmoidDeriv]
    have h1 := (log_clip_hasDerivAt l (by linarith)).comp (0 : ℝ) hd
    have hd' : HasDerivAt (fun s => 1 - Act.sigmoid.f (X s r k)) (-(y * (1 - y) * X' r k)) 0 := hd.const_sub 1
    have l' : (1e-6 : ℝ) < 1 - y := by linarith
    have u' : 1 - y < 1 := by
      have : (0 : ℝ) < 1e-6 := by norm_num
      linarith
    have h2 := (log_clip_hasDerivAt l' u').comp (0 : ℝ) hd'
    refine (((h2.const_mul (1 - t r k)).add (h1.const_mul (t r k))).const_mul (-1)).congr_deriv ?_
    have y0 : y ≠ 0 := by
      have : (0 : ℝ) < 1e-6 := by norm_num
      linarith
    have y1 : 1 - y ≠ 0 := by
      have : (0 : ℝ) < 1e-6 := by norm_num
      linarith
    field_simp
    ring
  refine (inner_hasDerivAt δ h).congr_deriv (inner_congr fun r k => ?_)
  show _ = ((Act.sigmoid.f (X 0 r k) - t r k) * δ r k + din r k - din r k) * X' r k
  ring

/-- **C22 (BinomialCrossEntropy).**  With respect to the predictions, where nothing is clipped. -/
theorem C22_binomial_ce (Y : ℝ → M ρ φ) (Y' : M ρ φ) (hY : Moves Y Y') (t cee ceed din : M ρ φ) (out δ : V ρ)
    (range : ∀ r k, 1e-6 < Y 0 r k ∧ Y 0 r k < 1 - 1e-6) (range' : ∀ r k, 1e-6 ≤ Y 0 r k * (1 - Y 0 r k)) :
    HasDerivAt (fun s => innerV δ (binomialCEForward (Y s) t cee out).2)
      (inner (binomialCEBackward (Y 0) t ceed δ din - din) Y') 0 := by
  have pos : (0 : ℝ) < 1e-6 := by norm_num
  have h : HasDerivAt (fun s => innerV δ (binomialCEForward (Y s) t cee out).2)
      (∑ r, δ r * (-1 * ∑ k, ((1 - t r k) * (1 / (1 - Y 0 r k) * -Y' r k) + t r k * (1 / Y 0 r k * Y' r k)))) 0 := by
    unfold innerV
    refine HasDerivAt.fun_sum (u := Finset.univ) (fun r _ => HasDerivAt.const_mul (δ r) (HasDerivAt.const_mul (-1) ?_))
    refine HasDerivAt.fun_sum (u := Finset.univ) (fun k _ => ?_)
    obtain ⟨l, u⟩ := range r k
    have h1 := (log_clip_hasDerivAt l (by linarith)).comp (0 : ℝ) (hY r k)
    have h2 := (log_clip_hasDerivAt (y := 1 - Y 0 r k) (by linarith) (by linarith)).comp (0 : ℝ)
      ((hY r k).const_sub 1)
    exact (h2.const_mul (1 - t r k)).add (h1.const_mul (t r k))
  refine h.congr_deriv ?_
  unfold inner
  refine Finset.sum_congr rfl fun r _ => ?_
  rw [Finset.mul_sum, Finset.mul_sum]
  refine Finset.sum_congr rfl fun k _ => ?_
  obtain ⟨l, u⟩ := range r k
  have c := range' r k
  have hclip : min (max (Y 0 r k - Y 0 r k * Y 0 r k) 1e-6) 1 = Y 0 r k * (1 - Y 0 r k) := by
    have e : Y 0 r k - Y 0 r k * Y 0 r k = Y 0 r k * (1 - Y 0 r k) := by ring
    rw [e, max_eq_left c, min_eq_left]
    nlinarith
  show _ = ((Y 0 r k - t r k) / min (max (Y 0 r k - Y 0 r k * Y 0 r k) 1e-6) 1 * δ r + din r k - din r k) * Y' r k
  rw [hclip]
  have y0 : Y 0 r k ≠ 0 := by linarith
  have y1 : 1 - Y 0 r k ≠ 0 := by linarith
  field_simp
  ring

omit [Fintype ρ] in
theorem softmaxM_eq [Nonempty φ] (m out : M ρ φ) (r : ρ) (k : φ) :
    softmaxM m out r k = Real.exp (m r k) / ∑ j, Real.exp (m r j) := by
  unfold softmaxM
  dsimp only
  simp only [Real.exp_sub]
  rw [← Finset.sum_div, div_div_div_cancel_right₀ (Real.exp_ne_zero _)]

/-- **C22 (SoftmaxCE).**  Of the output `loss`, where the probability of the target class is at least
the clipping threshold. -/
theorem C22_softmax_ce [Nonempty φ] [DecidableEq φ] (X : ℝ → M ρ φ) (X' : M ρ φ) (hX : Moves X X') (t : ρ → φ)
    (probs tBin din : M ρ φ) (loss δ : V ρ)
    (range : ∀ r, 1e-6 < Real.exp (X 0 r (t r)) / ∑ j, Real.exp (X 0 r j)) :
    HasDerivAt (fun s => innerV δ (softmaxCEForward (X s) t probs loss).2)
      (inner (softmaxCEBackward t (softmaxCEForward (X 0) t probs loss).1 tBin δ din - din) X') 0 := by
  have pos : (0 : ℝ) < 1e-6 := by norm_num
  -- the loss of a row near `X 0`
  have h : ∀ r, HasDerivAt (fun s => (softmaxCEForward (X s) t probs loss).2 r)
      (∑ k, (softmaxM (X 0) probs r k - if k = t r then 1 else 0) * X' r k) 0 := by
    intro r
    have hsum : HasDerivAt (fun s => ∑ j, Real.exp (X s r j)) (∑ j, Real.exp (X 0 r j) * X' r j) 0 :=
      HasDerivAt.fun_sum (u := Finset.univ) (fun j _ => (hX r j).exp)
    have Spos : ∀ s, 0 < ∑ j, Real.exp (X s r j) := fun s =>
      Finset.sum_pos (fun j _ => Real.exp_pos _) Finset.univ_nonempty
    -- unclipped: `log ∑ exp - x_t`
    have hraw : HasDerivAt (fun s => Real.log (∑ j, Real.exp (X s r j)) - X s r (t r))
        ((∑ j, Real.exp (X 0 r j) * X' r j) / (∑ j, Real.exp (X 0 r j)) - X' r (t r)) 0 :=
      (hsum.log (Spos 0).ne').sub (hX r (t r))
    have hq : HasDerivAt (fun s => Real.exp (X s r (t r)) / ∑ j, Real.exp (X s r j)) _ 0 :=
      ((hX r (t r)).exp).fun_div hsum (Spos 0).ne'
    have hle : ∀ s, Real.exp (X s r (t r)) / ∑ j, Real.exp (X s r j) ≤ 1 := by
      intro s
      rw [div_le_one (Spos s)]
      exact Finset.single_le_sum (f := fun j => Real.exp (X s r j)) (fun j _ => (Real.exp_pos _).le)
        (Finset.mem_univ (t r))
    have hnear : (fun s => (softmaxCEForward (X s) t probs loss).2 r) =ᶠ[nhds 0]
        (fun s => Real.log (∑ j, Real.exp (X s r j)) - X s r (t r)) := by
      filter_upwards [hq.continuousAt.eventually (lt_mem_nhds (range r))] with s hs
      show -1 * Real.log (min (max (softmaxM (X s) probs r (t r)) 1e-6) 1) = _
      rw [softmaxM_eq, max_eq_left (le_of_lt hs), min_eq_left (hle s),
        Real.log_div (Real.exp_ne_zero _) (Spos s).ne', Real.log_exp]
      ring
    refine (hraw.congr_of_eventuallyEq hnear).congr_deriv ?_
    simp only [sub_mul, Finset.sum_sub_distrib]
    congr 1
    · rw [Finset.sum_div]
      refine Finset.sum_congr rfl fun k _ => ?_
      rw [softmaxM_eq]
      ring
    · simp
  have h' : HasDerivAt (fun s => innerV δ (softmaxCEForward (X s) t probs loss).2)
      (∑ r, δ r * ∑ k, (softmaxM (X 0) probs r k - if k = t r then 1 else 0) * X' r k) 0 := by
    unfold innerV
    exact HasDerivAt.fun_sum (u := Finset.univ) (fun r _ => (h r).const_mul (δ r))
  refine h'.congr_deriv ?_
  unfold inner
  refine Finset.sum_congr rfl fun r _ => ?_
  rw [Finset.mul_sum]
  refine Finset.sum_congr rfl fun k _ => ?_
  show _ = ((-1 * (if k = t r then 1 else 0) + softmaxM (X 0) probs r k) * δ r + din r k - din r k) * X' r k
  ring

/-- **C22 (SoftmaxCE, negation in the clipped range).**  Where the probability of the target is below
the threshold, the loss is constant, but the backward pass still adds `(p - 1) δ` to the delta of the target class. -/
theorem C22_softmax_ce_clipped [Nonempty φ] [DecidableEq φ] (X : ℝ → M ρ φ) (X' : M ρ φ) (hX : Moves X X') (t : ρ → φ)
    (probs tBin din : M ρ φ) (loss δ : V ρ) (r : ρ)
    (clipped : Real.exp (X 0 r (t r)) / ∑ j, Real.exp (X 0 r j) < 1e-6) :
    HasDerivAt (fun s => (softmaxCEForward (X s) t probs loss).2 r) 0 0 ∧
    ∃ p < 1e-6, softmaxCEBackward t (softmaxCEForward (X 0) t probs loss).1 tBin δ din r (t r) =
      din r (t r) + (p - 1) * δ r := by
  constructor
  · have hsum : HasDerivAt (fun s => ∑ j, Real.exp (X s r j)) (∑ j, Real.exp (X 0 r j) * X' r j) 0 :=
      HasDerivAt.fun_sum (u := Finset.univ) (fun j _ => (hX r j).exp)
    have Spos : ∀ s, 0 < ∑ j, Real.exp (X s r j) := fun s =>
      Finset.sum_pos (fun j _ => Real.exp_pos _) Finset.univ_nonempty
    have hq : HasDerivAt (fun s => Real.exp (X s r (t r)) / ∑ j, Real.exp (X s r j)) _ 0 :=
      ((hX r (t r)).exp).fun_div hsum (Spos 0).ne'
    refine (hasDerivAt_const (0 : ℝ) (-1 * Real.log 1e-6)).congr_of_eventuallyEq ?_
    filter_upwards [hq.continuousAt.eventually (gt_mem_nhds clipped)] with s hs
    show -1 * Real.log (min (max (softmaxM (X s) probs r (t r)) 1e-6) 1) = _
    rw [softmaxM_eq, max_eq_right (le_of_lt hs), min_eq_left (by norm_num)]
  · refine ⟨_, clipped, ?_⟩
    show (-1 * (if t r = t r then 1 else 0) + softmaxM (X 0) probs r (t r)) * δ r + din r (t r) = _
    rw [if_pos rfl, softmaxM_eq]
    ring

end

end Verif.Layers
