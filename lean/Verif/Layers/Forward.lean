import Verif.Layers.LstmProps
import Verif.Layers.BatchNorm
import Mathlib.Analysis.SpecialFunctions.Sigmoid

/-!
# The layers compute their documented functions (C61)

The specification of each layer is a formula in the inputs and parameters of one example (and, for
recurrent layers, of the steps before).  Outputs and internals may hold anything before the forward pass.
-/

namespace Verif.Layers

noncomputable section

variable {ρ β φ ψ : Type}

/-! ## Specification -/

/-- The activation functions as in the documentation. -/
def actSpec : Act → ℝ → ℝ
  | .sigmoid, x => 1 / (1 + Real.exp (-x))
  | .rel, x => max x 0
  | .tanh, x => Real.tanh x
  | .linear, x => x
  | .el, x => if 0 ≤ x then x else Real.exp x - 1

/-- The layer's unit `j` is due at step `t`: `t` is a multiple of its clock period. -/
def Due (timing : V ψ) (t : ℕ) (j : ψ) : Prop := ∃ k : ℤ, (t : ℝ) = k * timing j

section spec
variable [Fintype φ] [Fintype ψ]

/-- Simple recurrent network: `outₜ = σ (W xₜ + R outₜ₋₁ + b)`, `out₋₁ = c`; entry `t` is for step `t - 1`. -/
def rnnSpec (a : Act) (p : RnnParams φ ψ) (x : ℕ → φ → ℝ) (c : ψ → ℝ) : ℕ → ψ → ℝ
  | 0 => c
  | t + 1 => fun j =>
      actSpec a ((∑ k, p.W j k * x t k) + (∑ i, p.R j i * rnnSpec a p x c t i) + p.bias j)

open Classical in
/-- Clockwork network: the same, but units that are not due keep their output. -/
def cwSpec (a : Act) (p : RnnParams φ ψ) (timing : V ψ) (x : ℕ → φ → ℝ) (c : ψ → ℝ) : ℕ → ψ → ℝ
  | 0 => c
  | t + 1 => fun j =>
      if Due timing t j then
        actSpec a ((∑ k, p.W j k * x t k) + (∑ i, p.R j i * cwSpec a p timing x c t i) + p.bias j)
      else cwSpec a p timing x c t j

/-- `W x + R y + b` of one gate of an LSTM. -/
def gateSpec (p : LstmParams φ ψ) (q : Gate) (x : φ → ℝ) (y : ψ → ℝ) (j : ψ) : ℝ :=
  (∑ k, p.W q j k * x k) + (∑ i, p.R q j i * y i) + p.b q j

/-- One step of an LSTM with peepholes: from the previous output `y` and cell state `c` to the new ones. -/
def lstmUnit (a : Act) (p : LstmParams φ ψ) (x : φ → ℝ) (y c : ψ → ℝ) (j : ψ) : ℝ × ℝ :=
  let z := actSpec a (gateSpec p .z x y j)
  let i := actSpec .sigmoid (gateSpec p .i x y j + p.pi j * c j)
  let f := actSpec .sigmoid (gateSpec p .f x y j + p.pf j * c j)
  let c' := i * z + f * c j
  let o := actSpec .sigmoid (gateSpec p .o x y j + p.po j * c')
  (o * actSpec a c', c')

/-- The outputs and cell states of an LSTM over time; entry `t` is for step `t - 1`. -/
def lstmSpec (a : Act) (p : LstmParams φ ψ) (x : ℕ → φ → ℝ) (y₀ c₀ : ψ → ℝ) : ℕ → (ψ → ℝ) × (ψ → ℝ)
  | 0 => (y₀, c₀)
  | t + 1 =>
    let s := lstmSpec a p x y₀ c₀ t
    (fun j => (lstmUnit a p (x t) s.1 s.2 j).1, fun j => (lstmUnit a p (x t) s.1 s.2 j).2)

open Classical in
/-- Clockwork LSTM: units that are not due keep output and cell state. -/
def cwLstmSpec (a : Act) (p : LstmParams φ ψ) (timing : V ψ) (x : ℕ → φ → ℝ) (y₀ c₀ : ψ → ℝ) : ℕ → (ψ → ℝ) × (ψ → ℝ)
  | 0 => (y₀, c₀)
  | t + 1 =>
    let s := cwLstmSpec a p timing x y₀ c₀ t
    (fun j => if Due timing t j then (lstmUnit a p (x t) s.1 s.2 j).1 else s.1 j,
     fun j => if Due timing t j then (lstmUnit a p (x t) s.1 s.2 j).2 else s.2 j)

end spec

/-! ## Activation functions -/

/-- **C61 (activation functions).** -/
theorem C61_activation (a : Act) (x : ℝ) : a.f x = actSpec a x := by
  cases a with
  | sigmoid =>
    simp only [Act.f, actSpec]
    split
    · rfl
    · rw [Real.exp_neg]
      have := Real.exp_pos x
      field_simp
      ring
  | rel =>
    simp only [Act.f, actSpec, Activations.rel, Activations.ind]
    split
    · rename_i h; rw [mul_one, max_eq_left h.le]
    · rename_i h; rw [mul_zero, max_eq_right (not_lt.1 h)]
  | tanh => rfl
  | linear => rfl
  | el =>
    simp only [Act.f, actSpec, Activations.ind]
    by_cases h : 0 ≤ x
    · simp [h, not_lt.2 h]
    · simp [h, not_le.1 h]

/-! ## Layers without recurrence -/

/-- **C61 (FullyConnected).** -/
theorem C61_fully_connected [Fintype φ] (a : Act) (x : M ρ φ) (W : M ψ φ) (b : V ψ) (out : M ρ ψ) (r : ρ) (j : ψ) :
    fcForward a x W b out r j = actSpec a ((∑ k, W j k * x r k) + b j) := by
  simp only [fcForward, actF, addMV, dotMM, tr, C61_activation, mul_comm]

/-- **C61 (Elementwise).** -/
theorem C61_elementwise (a : Act) (x out : M ρ φ) (r : ρ) (k : φ) :
    elementwiseForward a x out r k = actSpec a (x r k) := C61_activation a _

/-- **C61 (Highway).** `T` is the transform gate, `1 - T` the carry gate. -/
theorem C61_highway (H T x out : M ρ φ) (r : ρ) (k : φ) :
    highwayForward H T x out r k = H r k * T r k + x r k * (1 - T r k) := by
  simp only [highwayForward, addTT, mulTT, subTT]
  ring

/-- **C61 (NoOp, DeltasScaling).** -/
theorem C61_copy (x out : M ρ φ) : copyForward x out = x := rfl

/-- **C61 (Merge).** The features of the first input, then those of the second. -/
theorem C61_merge (a : M ρ φ) (b : M ρ ψ) (out : M ρ (φ ⊕ ψ)) (r : ρ) :
    (∀ k, mergeForward a b out r (.inl k) = a r k) ∧ ∀ k, mergeForward a b out r (.inr k) = b r k :=
  ⟨fun _ => rfl, fun _ => rfl⟩

/-- **C61 (Mask).** -/
theorem C61_mask (x out : M ρ φ) (r : ρ) (k : φ) :
    (∀ m : V ρ, maskForward x (.column m) out r k = x r k * m r) ∧
    ∀ m : M ρ φ, maskForward x (.full m) out r k = x r k * m r k :=
  ⟨fun _ => rfl, fun _ => rfl⟩

/-- **C61 (Dropout).** In a training pass a feature is zero or scaled by `1 / (1 - p)`, as the drawn mask says; outside training nothing happens. -/
theorem C61_dropout (p : ℝ) (drawn x mask out : M ρ φ) (r : ρ) (k : φ) :
    (drawn r k = 0 → (dropoutForward true p drawn x mask out).2 r k = 0) ∧
    (drawn r k = 1 → (dropoutForward true p drawn x mask out).2 r k = x r k / (1 - p)) ∧
    (dropoutForward false p drawn x mask out).2 r k = x r k := by
  refine ⟨fun h => ?_, fun h => ?_, rfl⟩
  · simp [dropoutForward, mulST, mulTT, copyTo, h]
  · simp only [dropoutForward, mulST, mulTT, copyTo, h, if_true]
    ring

/-- **C61 (Dropout).** The expected output of a training pass over masks that keep a feature with
probability `1 - p` is the input. -/
theorem C61_dropout_mean (p : ℝ) (hp : p ≠ 1) (drop keep x mask out : M ρ φ) (r : ρ) (k : φ)
    (h0 : drop r k = 0) (h1 : keep r k = 1) :
    p * (dropoutForward true p drop x mask out).2 r k + (1 - p) * (dropoutForward true p keep x mask out).2 r k =
      x r k := by
  rw [(C61_dropout p drop x mask out r k).1 h0, (C61_dropout p keep x mask out r k).2.1 h1]
  have : (1 - p) ≠ 0 := sub_ne_zero.2 hp.symm
  field_simp
  ring

/-- **C61 (SquaredError).** -/
theorem C61_squared_error (x t y diff loss : M ρ φ) (r : ρ) (k : φ) :
    (squaredErrorForward x t y diff loss).1 r k = x r k ∧
    (squaredErrorForward x t y diff loss).2.2 r k = (x r k - t r k) ^ 2 / 2 := by
  refine ⟨rfl, ?_⟩
  simp only [squaredErrorForward, mulST, mulTT, subTT]
  ring

/-- **C61 (SquaredDifference).** -/
theorem C61_squared_difference (a b diff out : M ρ φ) (r : ρ) (k : φ) :
    (squaredDiffForward a b diff out).2 r k = (a r k - b r k) ^ 2 := by
  simp only [squaredDiffForward, mulTT, subTT]
  ring

/-- **C61 (L1Decay).** -/
theorem C61_l1 [Fintype φ] (x tmp : M ρ φ) (out : V ρ) (r : ρ) : (l1Forward x tmp out).2 r = ∑ k, |x r k| := rfl

/-- **C61 (L2Decay).** -/
theorem C61_l2 [Fintype φ] (x tmp : M ρ φ) (out : V ρ) (r : ρ) : (l2Forward x tmp out).2 r = (∑ k, x r k ^ 2) / 2 := by
  simp only [l2Forward, sumT1, mulST, mulTT, Finset.sum_div]
  exact Finset.sum_congr rfl fun k _ => by ring

/-- **C61 (Loss).** -/
theorem C61_loss [Fintype ρ] [Fintype φ] (importance batchSize : ℝ) (x : M ρ φ) (loss : ℝ) :
    lossForward importance batchSize x loss = importance * (∑ r, ∑ k, x r k) / batchSize := by
  simp only [lossForward, sumTAll]
  ring

/-- **C61 (SoftmaxCE).** The probabilities are the softmax of the inputs; the loss is the negative log probability of the
target, cut off at `1e-6`. -/
theorem C61_softmax_ce [Fintype φ] [Nonempty φ] (x : M ρ φ) (t : ρ → φ) (probs : M ρ φ) (loss : V ρ) (r : ρ) :
    (∀ k, (softmaxCEForward x t probs loss).1 r k = Real.exp (x r k) / ∑ j, Real.exp (x r j)) ∧
    (softmaxCEForward x t probs loss).2 r = -Real.log (max (Real.exp (x r (t r)) / ∑ j, Real.exp (x r j)) 1e-6) := by
  have hp : ∀ k, (softmaxCEForward x t probs loss).1 r k = Real.exp (x r k) / ∑ j, Real.exp (x r j) :=
    fun k => softmaxM_eq x probs r k
  refine ⟨hp, ?_⟩
  have e : (softmaxCEForward x t probs loss).2 r =
      -1 * Real.log (min (max ((softmaxCEForward x t probs loss).1 r (t r)) 1e-6) 1) := rfl
  rw [e, hp, neg_one_mul, min_eq_left]
  refine max_le ?_ (by norm_num)
  rw [div_le_one (Finset.sum_pos (fun j _ => Real.exp_pos _) Finset.univ_nonempty)]
  exact Finset.single_le_sum (f := fun j => Real.exp (x r j)) (fun j _ => (Real.exp_pos _).le) (Finset.mem_univ _)

/-- The binary cross entropy of probability `p` for target `t`, with logarithms cut off at `1e-6`. -/
def binaryCE (p t : ℝ) : ℝ := -(t * Real.log (max p 1e-6) + (1 - t) * Real.log (max (1 - p) 1e-6))

/-- **C61 (SigmoidCE).** -/
theorem C61_sigmoid_ce (x t prob loss : M ρ φ) (r : ρ) (k : φ) :
    (sigmoidCEForward x t prob loss).1 r k = actSpec .sigmoid (x r k) ∧
    (sigmoidCEForward x t prob loss).2 r k = binaryCE (actSpec .sigmoid (x r k)) (t r k) := by
  have hp : (sigmoidCEForward x t prob loss).1 r k = actSpec .sigmoid (x r k) := C61_activation .sigmoid _
  refine ⟨hp, ?_⟩
  set y := actSpec .sigmoid (x r k) with hy
  have h0 : 0 < Real.exp (-x r k) := Real.exp_pos _
  have y1 : y ≤ 1 := by
    rw [hy]; simp only [actSpec]
    rw [div_le_one (by linarith)]; linarith
  have y0 : 0 ≤ y := by
    rw [hy]; simp only [actSpec]; positivity
  have e : (sigmoidCEForward x t prob loss).2 r k = -1 * ((1 - t r k) *
      Real.log (min (max (1 - (sigmoidCEForward x t prob loss).1 r k) 1e-6) 1) + t r k *
      Real.log (min (max ((sigmoidCEForward x t prob loss).1 r k) 1e-6) 1)) := rfl
  rw [e, hp, min_eq_left (max_le (by linarith) (by norm_num)), min_eq_left (max_le y1 (by norm_num)), binaryCE]
  ring

/-- **C61 (BinomialCrossEntropy).** For inputs that are probabilities. -/
theorem C61_binomial_ce [Fintype φ] (y t cee : M ρ φ) (out : V ρ) (r : ρ) (h : ∀ k, 0 ≤ y r k ∧ y r k ≤ 1) :
    (binomialCEForward y t cee out).2 r = ∑ k, binaryCE (y r k) (t r k) := by
  have e : (binomialCEForward y t cee out).2 r = -1 * ∑ k, ((1 - t r k) *
      Real.log (min (max (1 - y r k) 1e-6) 1) + t r k * Real.log (min (max (y r k) 1e-6) 1)) := rfl
  rw [e, Finset.mul_sum]
  refine Finset.sum_congr rfl fun k _ => ?_
  have hk := h k
  rw [min_eq_left (max_le (by linarith) (by norm_num)), min_eq_left (max_le hk.2 (by norm_num)), binaryCE]
  ring

/-- **C61 (BatchNorm, training).** -/
theorem C61_batch_norm [Fintype ρ] (decay eps : ℝ) (x : M ρ φ) (gamma beta : V φ) (st : BnState ρ φ) (r : ρ) (k : φ) :
    (bnForward true decay eps x gamma beta st).out r k =
      gamma k * ((x r k - mean x k) / Real.sqrt (variance x k + eps)) + beta k := by
  rw [bn_out, bn_xHat]
  ring

/-! ## Recurrent layers -/

section recurrent
variable [Fintype φ] [Fintype ψ]

/-- **C61 (Recurrent).** Row `N` of the outputs, the context, is the output before the first step. -/
theorem C61_recurrent (a : Act) (N : ℕ) (x : ℕ → M β φ) (p : RnnParams φ ψ) (st : ℕ → RnnRow β ψ) (b : β) :
    ∀ t < N, (rnnForward a N x p st t).out b = rnnSpec a p (fun t => x t b) ((st N).out b) (t + 1) := by
  obtain ⟨h1, h2⟩ := scanFwd_spec N (rnnStep a p) (rnnPre N x p st)
  have hc : (rnnForward a N x p st N).out = (st N).out := by
    show (scanFwd N (rnnStep a p) (rnnPre N x p st) N).out = _
    rw [h2 N le_rfl]; simp [rnnPre]
  have prev : ∀ t < N, (∀ s < t, (rnnForward a N x p st s).out b = rnnSpec a p (fun t => x t b) ((st N).out b) (s + 1)) →
      (rnnForward a N x p st (prevRow N t)).out b = rnnSpec a p (fun t => x t b) ((st N).out b) t := by
    intro t ht ih
    cases t with
    | zero => rw [prevRow_zero, hc]; rfl
    | succ t => rw [prevRow_succ]; exact ih t (Nat.lt_succ_self t)
  intro t
  induction t using Nat.strong_induction_on with
  | _ t ih =>
    intro ht
    have hp := prev t ht (fun s hs => ih s hs (hs.trans ht))
    funext j
    have e := h1 t ht
    change rnnForward a N x p st t = rnnStep a p t (rnnPre N x p st t) (rnnForward a N x p st (prevRow N t)) at e
    rw [e]
    simp only [rnnStep, actF, dotAddMM, tr, rnnPre, if_pos ht, addMV, dotMM, C61_activation, rnnSpec, ← hp]
    congr 1
    simp only [mul_comm]
    ring

theorem cwHolds_iff (timing : V ψ) (t : ℕ) (j : ψ) (h : timing j ≠ 0) : cwHolds timing t j ↔ ¬ Due timing t j := by
  unfold cwHolds fmod Due
  rw [if_neg h, not_iff_not, Option.some.injEq, sub_eq_zero]
  constructor
  · intro e
    by_cases hs : 0 ≤ (t : ℝ) / timing j
    · rw [if_pos hs] at e
      exact ⟨⌊(t : ℝ) / timing j⌋, by rw [mul_comm]; exact e⟩
    · rw [if_neg hs] at e
      exact ⟨⌈(t : ℝ) / timing j⌉, by rw [mul_comm]; exact e⟩
  · rintro ⟨k, hk⟩
    have e : (t : ℝ) / timing j = k := by rw [hk]; field_simp
    rw [e]
    split <;> simp [hk, mul_comm]

theorem due_zero (timing : V ψ) (j : ψ) : Due timing 0 j := ⟨0, by simp⟩

/-- **C61 (Clockwork).** For clock periods that are not 0. -/
theorem C61_clockwork (a : Act) (N : ℕ) (x : ℕ → M β φ) (p : RnnParams φ ψ) (timing : V ψ) (ht0 : ∀ j, timing j ≠ 0)
    (st : ℕ → RnnRow β ψ) (b : β) :
    ∀ t < N, (cwForward a N x p timing st t).out b = cwSpec a p timing (fun t => x t b) ((st N).out b) (t + 1) := by
  obtain ⟨h1, h2⟩ := scanFwd_spec N (cwStep a p timing) (rnnPre N x p st)
  have hc : (cwForward a N x p timing st N).out = (st N).out := by
    show (scanFwd N (cwStep a p timing) (rnnPre N x p st) N).out = _
    rw [h2 N le_rfl]; simp [rnnPre]
  intro t
  induction t using Nat.strong_induction_on with
  | _ t ih =>
    intro ht
    have hp : (cwForward a N x p timing st (prevRow N t)).out b =
        cwSpec a p timing (fun t => x t b) ((st N).out b) t := by
      cases t with
      | zero => rw [prevRow_zero, hc]; rfl
      | succ t => rw [prevRow_succ]; exact ih t (Nat.lt_succ_self t) (by omega)
    funext j
    have e := h1 t ht
    change cwForward a N x p timing st t =
      cwStep a p timing t (rnnPre N x p st t) (cwForward a N x p timing st (prevRow N t)) at e
    rw [e]
    have key : actF a (dotAddMM (cwForward a N x p timing st (prevRow N t)).out (tr p.R) (rnnPre N x p st t).Ha)
        (rnnPre N x p st t).out b j =
        actSpec a ((∑ k, p.W j k * x t b k) +
          (∑ i, p.R j i * cwSpec a p timing (fun t => x t b) ((st N).out b) t i) + p.bias j) := by
      simp only [actF, dotAddMM, tr, rnnPre, if_pos ht, addMV, dotMM, C61_activation, ← hp]
      congr 1
      simp only [mul_comm]
      ring
    simp only [cwStep, cwSpec]
    by_cases h0 : t > 0
    · rw [if_pos h0, copyToIf]
      by_cases hd : Due timing t j
      · rw [if_neg (by rw [cwHolds_iff timing t j (ht0 j)]; exact fun h => h hd), if_pos hd]
        exact key
      · rw [if_pos ((cwHolds_iff timing t j (ht0 j)).2 hd), if_neg hd, hp]
    · rw [if_neg h0]
      have : t = 0 := by omega
      subst this
      rw [if_pos (due_zero timing j)]
      exact key

theorem lstmStep_spec (a : Act) (N : ℕ) (x : ℕ → M β φ) (p : LstmParams φ ψ) (st : ℕ → LstmRow β ψ) (prev : LstmRow β ψ)
    (t : ℕ) (ht : t < N) (b : β) (j : ψ) :
    ((lstmStep a p (lstmPre N x p st t) prev).y b j, (lstmStep a p (lstmPre N x p st t) prev).Ca b j) =
      lstmUnit a p (x t b) (prev.y b) (prev.Ca b) j := by
  simp only [lstmStep, lstmPre, if_pos ht, lstmUnit, gateSpec, actF, dotAddMM, dotMM, tr, addMV, mulAddMV, mulTT, mulAddTT,
    C61_activation]
  have s1 : ∀ q, (∑ k, x t b k * p.W q j k) = ∑ k, p.W q j k * x t b k := fun q =>
    Finset.sum_congr rfl fun k _ => mul_comm _ _
  have s2 : ∀ q, (∑ k, prev.y b k * p.R q j k) = ∑ k, p.R q j k * prev.y b k := fun q =>
    Finset.sum_congr rfl fun k _ => mul_comm _ _
  have g : ∀ q (c : ℝ), ((∑ k, p.W q j k * x t b k) + ∑ k, p.R q j k * prev.y b k) + c + p.b q j =
      (∑ k, p.W q j k * x t b k) + (∑ k, p.R q j k * prev.y b k) + p.b q j + c := by
    intro q c; ring
  simp only [s1, s2, g, mul_comm _ (p.pi j), mul_comm _ (p.pf j), mul_comm _ (p.po j)]

/-- **C61 (Lstm).** Row `N` of outputs and cell states, the context, is what they were before the first step. -/
theorem C61_lstm (a : Act) (N : ℕ) (x : ℕ → M β φ) (p : LstmParams φ ψ) (st : ℕ → LstmRow β ψ) (b : β) :
    ∀ t < N, ((lstmForward a N x p st t).y b, (lstmForward a N x p st t).Ca b) =
      lstmSpec a p (fun t => x t b) ((st N).y b) ((st N).Ca b) (t + 1) := by
  obtain ⟨h1, h2⟩ := scanFwd_spec N (fun _ => lstmStep a p) (lstmPre N x p st)
  have hc : lstmForward a N x p st N = st N := by
    show scanFwd N (fun _ => lstmStep a p) (lstmPre N x p st) N = _
    rw [h2 N le_rfl]; simp [lstmPre]
  intro t
  induction t using Nat.strong_induction_on with
  | _ t ih =>
    intro ht
    have hp : ((lstmForward a N x p st (prevRow N t)).y b, (lstmForward a N x p st (prevRow N t)).Ca b) =
        lstmSpec a p (fun t => x t b) ((st N).y b) ((st N).Ca b) t := by
      cases t with
      | zero => rw [prevRow_zero, hc]; rfl
      | succ t => rw [prevRow_succ]; exact ih t (Nat.lt_succ_self t) (by omega)
    have e := h1 t ht
    change lstmForward a N x p st t = lstmStep a p (lstmPre N x p st t) (lstmForward a N x p st (prevRow N t)) at e
    have hs := lstmStep_spec a N x p st (lstmForward a N x p st (prevRow N t)) t ht b
    rw [e, lstmSpec, ← hp]
    exact Prod.ext (funext fun j => congrArg Prod.fst (hs j)) (funext fun j => congrArg Prod.snd (hs j))

/-- **C61 (ClockworkLstm).** For clock periods that are not 0. -/
theorem C61_clockwork_lstm (a : Act) (N : ℕ) (x : ℕ → M β φ) (p : LstmParams φ ψ) (timing : V ψ)
    (ht0 : ∀ j, timing j ≠ 0) (st : ℕ → LstmRow β ψ) (b : β) :
    ∀ t < N, ((cwLstmForward a N x p timing st t).y b, (cwLstmForward a N x p timing st t).Ca b) =
      cwLstmSpec a p timing (fun t => x t b) ((st N).y b) ((st N).Ca b) (t + 1) := by
  obtain ⟨h1, h2⟩ := scanFwd_spec N (cwLstmStep a p timing) (lstmPre N x p st)
  have hc : cwLstmForward a N x p timing st N = st N := by
    show scanFwd N (cwLstmStep a p timing) (lstmPre N x p st) N = _
    rw [h2 N le_rfl]; simp [lstmPre]
  intro t
  induction t using Nat.strong_induction_on with
  | _ t ih =>
    intro ht
    have hp : ((cwLstmForward a N x p timing st (prevRow N t)).y b, (cwLstmForward a N x p timing st (prevRow N t)).Ca b) =
        cwLstmSpec a p timing (fun t => x t b) ((st N).y b) ((st N).Ca b) t := by
      cases t with
      | zero => rw [prevRow_zero, hc]; rfl
      | succ t => rw [prevRow_succ]; exact ih t (Nat.lt_succ_self t) (by omega)
    have e := h1 t ht
    change cwLstmForward a N x p timing st t =
      cwLstmStep a p timing t (lstmPre N x p st t) (cwLstmForward a N x p timing st (prevRow N t)) at e
    have hs := lstmStep_spec a N x p st (cwLstmForward a N x p timing st (prevRow N t)) t ht b
    rw [e, cwLstmSpec, ← hp]
    simp only [cwLstmStep]
    by_cases h0 : t > 0
    · rw [if_pos h0]
      refine Prod.ext (funext fun j => ?_) (funext fun j => ?_)
      · simp only [copyToIf]
        by_cases hd : Due timing t j
        · rw [if_neg (by rw [cwHolds_iff timing t j (ht0 j)]; exact fun h => h hd), if_pos hd]
          exact congrArg Prod.fst (hs j)
        · rw [if_pos ((cwHolds_iff timing t j (ht0 j)).2 hd), if_neg hd]
      · simp only [copyToIf]
        by_cases hd : Due timing t j
        · rw [if_neg (by rw [cwHolds_iff timing t j (ht0 j)]; exact fun h => h hd), if_pos hd]
          exact congrArg Prod.snd (hs j)
        · rw [if_pos ((cwHolds_iff timing t j (ht0 j)).2 hd), if_neg hd]
    · rw [if_neg h0]
      have : t = 0 := by omega
      subst this
      simp only [due_zero, if_true]
      exact Prod.ext (funext fun j => congrArg Prod.fst (hs j)) (funext fun j => congrArg Prod.snd (hs j))

end recurrent

/-! ## Concrete cases -/

/-- A network with one unit that counts its inputs: `W = R = 1`, bias 0, linear. -/
example : (rnnForward .linear 3 (fun t (_ _ : Unit) => (t : ℝ)) ⟨fun _ _ => 1, fun _ _ => 1, fun _ => 0⟩
    (fun _ => ⟨fun _ _ => 7, fun _ _ => 5⟩) 2).out () () = 8 := by
  rw [C61_recurrent _ _ _ _ _ _ _ (by norm_num)]
  simp [rnnSpec, actSpec]
  norm_num

/-- With clock period 2 the unit is not due at step 1: it keeps the value of step 0. -/
example : (cwForward .linear 2 (fun _ (_ _ : Unit) => 1) ⟨fun _ _ => 1, fun _ _ => 1, fun _ => 0⟩ (fun _ => 2)
    (fun _ => ⟨fun _ _ => 7, fun _ _ => 5⟩) 1).out () () = 6 := by
  rw [C61_clockwork _ _ _ _ _ (by intro _; norm_num) _ _ _ (by norm_num)]
  have h1 : ¬ Due (fun _ : Unit => (2 : ℝ)) 1 () := by
    rintro ⟨k, hk⟩
    have hk' : ((1 : ℕ) : ℝ) = k * 2 := hk
    have : (1 : ℤ) = k * 2 := by exact_mod_cast hk'
    omega
  simp [cwSpec, h1, due_zero, actSpec]
  norm_num

end

end Verif.Layers
