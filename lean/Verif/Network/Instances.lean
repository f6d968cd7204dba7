import Verif.Network.Vec
import Verif.Layers.Props
import Verif.Layers.PropsLoss
import Verif.Layers.BatchNorm
import Verif.Layers.RecurrentGrad
import Verif.Layers.LstmProps

/-!
# The layers of the library as layers of a network

For each: what numbers it reads and writes, its two passes (the models of `Layers/`), that its
outputs do not depend on old contents (`Fresh`, for C20) and that its backward pass is the
derivative (`Right`, for C21).  The output deltas that FullyConnected and SquaredDifference change in place
are not read again by any layer; this change is left out here.
-/

namespace Verif.Network

open Verif.Layers

noncomputable section

variable {ρ φ ψ β ι κ : Type}

/-- An array of two dimensions as a matrix, and back. -/
def mt (f : ι × κ → ℝ) : M ι κ := fun i k => f (i, k)
def fl (m : M ι κ) : ι × κ → ℝ := fun p => m p.1 p.2

@[simp] theorem mt_fl (m : M ι κ) : mt (fl m) = m := rfl
@[simp] theorem fl_mt (f : ι × κ → ℝ) : fl (mt f) = f := rfl

theorem sum_mt [Fintype ι] [Fintype κ] (f g : ι × κ → ℝ) : ∑ p, f p * g p = inner (mt f) (mt g) := by
  rw [Fintype.sum_prod_type]
  rfl

theorem sum_fl_sub [Fintype ι] [Fintype κ] (m : M ι κ) (f g : ι × κ → ℝ) :
    ∑ p, (fl m p - f p) * g p = inner (m - mt f) (mt g) := by
  rw [Fintype.sum_prod_type]
  rfl

theorem moves_mt {X : ℝ → ι × κ → ℝ} {X' : ι × κ → ℝ} (h : ∀ a, HasDerivAt (fun t => X t a) (X' a) 0) :
    Moves (fun t => mt (X t)) (mt X') := fun i k => h (i, k)

/-! ## FullyConnected -/

/-- Inputs, weights, bias. -/
abbrev FcI (ρ φ ψ : Type) := (ρ × φ) ⊕ ((ψ × φ) ⊕ ψ)

def fcLayer [Fintype ρ] [Fintype φ] [Fintype ψ] (a : Act) : VLayer (FcI ρ φ ψ) (ρ × ψ) Empty Empty where
  F := fun _ i o k => (fl (fcForward a (mt (i ∘ .inl)) (mt (i ∘ .inr ∘ .inl)) (i ∘ .inr ∘ .inr) (mt o)), k)
  B := fun _ i o _ δO δI =>
    let r := fcBackward a (mt (i ∘ .inl)) (mt (i ∘ .inr ∘ .inl)) (mt o) (mt (δI ∘ .inl)) (mt δO)
      (mt (δI ∘ .inr ∘ .inl)) (δI ∘ .inr ∘ .inr)
    Sum.elim (fl r.inDeltas) (Sum.elim (fl r.dW) r.dbias)
  isLoss := false
  over := Sum.elim (fun _ => false) (fun _ => true)

section
variable [Fintype ρ] [Fintype φ] [Fintype ψ]

/-- **C20 (FullyConnected).** -/
theorem C20_fully_connected (a : Act) : (fcLayer (ρ := ρ) (φ := φ) (ψ := ψ) a).Fresh := fun _ _ _ _ _ _ => rfl

/-- **C21 (FullyConnected).** -/
theorem C21_fully_connected (a : Act) (p : Empty → ℝ) (i : FcI ρ φ ψ → ℝ)
    (smooth : ∀ r j, a.Smooth (∑ k, i (.inl (r, k)) * i (.inr (.inl (j, k))) + i (.inr (.inr j)))) :
    (fcLayer (ρ := ρ) (φ := φ) (ψ := ψ) a).Right p i := by
  rintro X X' rfl hX o k δO δI hover
  have key := C22_fully_connected a (fun t => mt (X t ∘ .inl)) (mt (X' ∘ .inl)) (fun t => mt (X t ∘ .inr ∘ .inl))
    (mt (X' ∘ .inr ∘ .inl)) (fun t => X t ∘ .inr ∘ .inr) (X' ∘ .inr ∘ .inr) (fun r k => hX _) (fun j k => hX _)
    (fun j => hX _) (mt o) (mt δO) (mt (δI ∘ .inl)) (mt (δI ∘ .inr ∘ .inl)) (δI ∘ .inr ∘ .inr) smooth
  have e : ∀ t, ∑ b, (if (fcLayer (ρ := ρ) (φ := φ) (ψ := ψ) a).isLoss then 1 else δO b) *
      ((fcLayer a).F p (X t) o k).1 b = inner (mt δO) (fcForward a (mt (X t ∘ .inl)) (mt (X t ∘ .inr ∘ .inl))
        (X t ∘ .inr ∘ .inr) (mt o)) := by
    intro t
    rw [← mt_fl (fcForward _ _ _ _ _), ← sum_mt]
    rfl
  simp only [e]
  refine key.congr_deriv ?_
  rw [Fintype.sum_sum_type, Fintype.sum_sum_type]
  have z : ∀ b, δI (.inr b) = 0 := fun b => hover (.inr b) rfl
  rw [← add_assoc]
  congr 1
  · congr 1
    · exact (sum_fl_sub _ _ _).symm
    · rw [← mt_fl (FcBack.dW _), ← sum_mt]
      refine Finset.sum_congr rfl fun b _ => ?_
      rw [z, sub_zero]
      rfl
  · refine Finset.sum_congr rfl fun b _ => ?_
    rw [z, sub_zero]
    rfl

/-! ## Elementwise -/

def elementwiseLayer (a : Act) : VLayer (ρ × φ) (ρ × φ) Empty Empty where
  F := fun _ i o k => (fl (elementwiseForward a (mt i) (mt o)), k)
  B := fun _ _ o _ δO δI => fl (elementwiseBackward a (mt o) (mt δI) (mt δO))
  isLoss := false
  over := fun _ => false

omit [Fintype ρ] [Fintype φ] in
/-- **C20 (Elementwise).** -/
theorem C20_elementwise (a : Act) : (elementwiseLayer (ρ := ρ) (φ := φ) a).Fresh := fun _ _ _ _ _ _ => rfl

/-- **C21 (Elementwise).** -/
theorem C21_elementwise (a : Act) (p : Empty → ℝ) (i : ρ × φ → ℝ) (smooth : ∀ b, a.Smooth (i b)) :
    (elementwiseLayer (ρ := ρ) (φ := φ) a).Right p i := by
  rintro X X' rfl hX o k δO δI _
  have key := C22_elementwise a (fun t => mt (X t)) (mt X') (moves_mt hX) (mt o) (mt δO) (mt δI)
    (fun r k => smooth (r, k))
  have e : ∀ t, ∑ b, (if (elementwiseLayer (ρ := ρ) (φ := φ) a).isLoss then 1 else δO b) *
      ((elementwiseLayer a).F p (X t) o k).1 b = inner (mt δO) (elementwiseForward a (mt (X t)) (mt o)) := by
    intro t
    rw [← mt_fl (elementwiseForward _ _ _), ← sum_mt]
    rfl
  simp only [e]
  exact key.congr_deriv (sum_fl_sub _ _ _).symm

/-! ## Highway -/

/-- Inputs `H`, `T`, `x`. -/
abbrev HighwayI (ρ φ : Type) := (ρ × φ) ⊕ ((ρ × φ) ⊕ (ρ × φ))

def highwayLayer : VLayer (HighwayI ρ φ) (ρ × φ) Empty Empty where
  F := fun _ i o k => (fl (highwayForward (mt (i ∘ .inl)) (mt (i ∘ .inr ∘ .inl)) (mt (i ∘ .inr ∘ .inr)) (mt o)), k)
  B := fun _ i _ _ δO δI =>
    let r := highwayBackward (mt (i ∘ .inl)) (mt (i ∘ .inr ∘ .inl)) (mt (i ∘ .inr ∘ .inr)) (mt δO) (mt (δI ∘ .inl))
      (mt (δI ∘ .inr ∘ .inl)) (mt (δI ∘ .inr ∘ .inr))
    Sum.elim (fl r.1) (Sum.elim (fl r.2.1) (fl r.2.2))
  isLoss := false
  over := fun _ => false

omit [Fintype ρ] [Fintype φ] in
/-- **C20 (Highway).** -/
theorem C20_highway : (highwayLayer (ρ := ρ) (φ := φ)).Fresh := fun _ _ _ _ _ _ => rfl

/-- **C21 (Highway).** -/
theorem C21_highway (p : Empty → ℝ) (i : HighwayI ρ φ → ℝ) : (highwayLayer (ρ := ρ) (φ := φ)).Right p i := by
  rintro X X' rfl hX o k δO δI _
  have key := C22_highway (fun t => mt (X t ∘ .inl)) (fun t => mt (X t ∘ .inr ∘ .inl)) (fun t => mt (X t ∘ .inr ∘ .inr))
    (mt (X' ∘ .inl)) (mt (X' ∘ .inr ∘ .inl)) (mt (X' ∘ .inr ∘ .inr)) (fun r k => hX _) (fun j k => hX _)
    (fun j k => hX _) (mt o) (mt δO) (mt (δI ∘ .inl)) (mt (δI ∘ .inr ∘ .inl)) (mt (δI ∘ .inr ∘ .inr))
  have e : ∀ t, ∑ b, (if (highwayLayer (ρ := ρ) (φ := φ)).isLoss then 1 else δO b) *
      (highwayLayer.F p (X t) o k).1 b = inner (mt δO) (highwayForward (mt (X t ∘ .inl)) (mt (X t ∘ .inr ∘ .inl))
        (mt (X t ∘ .inr ∘ .inr)) (mt o)) := by
    intro t
    rw [← mt_fl (highwayForward _ _ _ _), ← sum_mt]
    rfl
  simp only [e]
  refine key.congr_deriv ?_
  rw [Fintype.sum_sum_type, Fintype.sum_sum_type, ← add_assoc]
  exact congrArg₂ _ (congrArg₂ _ (sum_fl_sub _ _ _).symm (sum_fl_sub _ _ _).symm) (sum_fl_sub _ _ _).symm

/-! ## NoOp -/

def noopLayer : VLayer (ρ × φ) (ρ × φ) Empty Empty where
  F := fun _ i o k => (fl (copyForward (mt i) (mt o)), k)
  B := fun _ _ _ _ δO δI => fl (noopBackward (mt δO) (mt δI))
  isLoss := false
  over := fun _ => false

omit [Fintype ρ] [Fintype φ] in
/-- **C20 (NoOp).** -/
theorem C20_noop : (noopLayer (ρ := ρ) (φ := φ)).Fresh := fun _ _ _ _ _ _ => rfl

/-- **C21 (NoOp).** -/
theorem C21_noop (p : Empty → ℝ) (i : ρ × φ → ℝ) : (noopLayer (ρ := ρ) (φ := φ)).Right p i := by
  rintro X X' rfl hX o k δO δI _
  have key := C22_noop (fun t => mt (X t)) (mt X') (moves_mt hX) (mt o) (mt δO) (mt δI)
  have e : ∀ t, ∑ b, (if (noopLayer (ρ := ρ) (φ := φ)).isLoss then 1 else δO b) *
      (noopLayer.F p (X t) o k).1 b = inner (mt δO) (copyForward (mt (X t)) (mt o)) := by
    intro t
    rw [← mt_fl (copyForward _ _), ← sum_mt]
    rfl
  simp only [e]
  exact key.congr_deriv (sum_fl_sub _ _ _).symm

/-! ## Merge -/

def mergeLayer : VLayer ((ρ × φ) ⊕ (ρ × ψ)) (ρ × (φ ⊕ ψ)) Empty Empty where
  F := fun _ i o k => (fl (mergeForward (mt (i ∘ .inl)) (mt (i ∘ .inr)) (mt o)), k)
  B := fun _ _ _ _ δO δI =>
    let r := mergeBackward (mt δO) (mt (δI ∘ .inl)) (mt (δI ∘ .inr))
    Sum.elim (fl r.1) (fl r.2)
  isLoss := false
  over := fun _ => false

omit [Fintype ρ] [Fintype φ] [Fintype ψ] in
/-- **C20 (Merge).** -/
theorem C20_merge : (mergeLayer (ρ := ρ) (φ := φ) (ψ := ψ)).Fresh := fun _ _ _ _ _ _ => rfl

/-- **C21 (Merge).** -/
theorem C21_merge (p : Empty → ℝ) (i : (ρ × φ) ⊕ (ρ × ψ) → ℝ) :
    (mergeLayer (ρ := ρ) (φ := φ) (ψ := ψ)).Right p i := by
  rintro X X' rfl hX o k δO δI _
  have key := C22_merge (fun t => mt (X t ∘ .inl)) (mt (X' ∘ .inl)) (fun t => mt (X t ∘ .inr)) (mt (X' ∘ .inr))
    (fun r k => hX _) (fun r k => hX _) (mt o) (mt δO) (mt (δI ∘ .inl)) (mt (δI ∘ .inr))
  have e : ∀ t, ∑ b, (if (mergeLayer (ρ := ρ) (φ := φ) (ψ := ψ)).isLoss then 1 else δO b) *
      (mergeLayer.F p (X t) o k).1 b = inner (mt δO) (mergeForward (mt (X t ∘ .inl)) (mt (X t ∘ .inr)) (mt o)) := by
    intro t
    rw [← mt_fl (mergeForward _ _ _), ← sum_mt]
    rfl
  simp only [e]
  refine key.congr_deriv ?_
  rw [Fintype.sum_sum_type]
  exact congrArg₂ _ (sum_fl_sub _ _ _).symm (sum_fl_sub _ _ _).symm

/-! ## Mask -/

/-- With a mask of one number per row; the mask gets no deltas. -/
def maskLayer : VLayer (ρ × φ) (ρ × φ) Empty ρ where
  F := fun p i o k => (fl (maskForward (mt i) (.column p) (mt o)), k)
  B := fun p _ _ _ δO δI => fl (maskBackward (.column p) (mt δO) (mt δI))
  isLoss := false
  over := fun _ => false

omit [Fintype ρ] [Fintype φ] in
/-- **C20 (Mask).** -/
theorem C20_mask : (maskLayer (ρ := ρ) (φ := φ)).Fresh := fun _ _ _ _ _ _ => rfl

/-- **C21 (Mask).** -/
theorem C21_mask (p : ρ → ℝ) (i : ρ × φ → ℝ) : (maskLayer (ρ := ρ) (φ := φ)).Right p i := by
  rintro X X' rfl hX o k δO δI _
  have key := C22_mask (fun t => mt (X t)) (mt X') (moves_mt hX) (.column p) (mt o) (mt δO) (mt δI)
  have e : ∀ t, ∑ b, (if (maskLayer (ρ := ρ) (φ := φ)).isLoss then 1 else δO b) *
      (maskLayer.F p (X t) o k).1 b = inner (mt δO) (maskForward (mt (X t)) (.column p) (mt o)) := by
    intro t
    rw [← mt_fl (maskForward _ _ _), ← sum_mt]
    rfl
  simp only [e]
  exact key.congr_deriv (sum_fl_sub _ _ _).symm

/-! ## SquaredDifference -/

def squaredDiffLayer : VLayer ((ρ × φ) ⊕ (ρ × φ)) (ρ × φ) (ρ × φ) Empty where
  F := fun _ i o k =>
    let r := squaredDiffForward (mt (i ∘ .inl)) (mt (i ∘ .inr)) (mt k) (mt o)
    (fl r.2, fl r.1)
  B := fun _ _ _ k δO δI =>
    let r := squaredDiffBackward (mt k) (mt δO) (mt (δI ∘ .inl)) (mt (δI ∘ .inr))
    Sum.elim (fl r.1) (fl r.2)
  isLoss := false
  over := fun _ => false

omit [Fintype ρ] [Fintype φ] in
/-- **C20 (SquaredDifference).** -/
theorem C20_squared_difference : (squaredDiffLayer (ρ := ρ) (φ := φ)).Fresh := fun _ _ _ _ _ _ => rfl

/-- **C21 (SquaredDifference).** -/
theorem C21_squared_difference (p : Empty → ℝ) (i : (ρ × φ) ⊕ (ρ × φ) → ℝ) :
    (squaredDiffLayer (ρ := ρ) (φ := φ)).Right p i := by
  rintro X X' rfl hX o k δO δI _
  have key := C22_squared_difference (fun t => mt (X t ∘ .inl)) (fun t => mt (X t ∘ .inr)) (mt (X' ∘ .inl))
    (mt (X' ∘ .inr)) (fun r k => hX _) (fun r k => hX _) (mt k) (mt o) (mt δO) (mt (δI ∘ .inl)) (mt (δI ∘ .inr))
  have e : ∀ t, ∑ b, (if (squaredDiffLayer (ρ := ρ) (φ := φ)).isLoss then 1 else δO b) *
      (squaredDiffLayer.F p (X t) o k).1 b =
      inner (mt δO) (squaredDiffForward (mt (X t ∘ .inl)) (mt (X t ∘ .inr)) (mt k) (mt o)).2 := by
    intro t
    rw [← mt_fl (squaredDiffForward _ _ _ _).2, ← sum_mt]
    rfl
  simp only [e]
  refine key.congr_deriv ?_
  rw [Fintype.sum_sum_type]
  exact congrArg₂ _ (sum_fl_sub _ _ _).symm (sum_fl_sub _ _ _).symm

/-! ## SquaredError -/

/-- Output `loss`; the predictions, which are a copy of the input, and the difference are kept as internals here:
the layer ignores the deltas of its output `predictions`. -/
def squaredErrorLayer : VLayer (ρ × φ) (ρ × φ) ((ρ × φ) ⊕ (ρ × φ)) (ρ × φ) where
  F := fun p i o k =>
    let r := squaredErrorForward (mt i) (mt p) (mt (k ∘ .inl)) (mt (k ∘ .inr)) (mt o)
    (fl r.2.2, Sum.elim (fl r.1) (fl r.2.1))
  B := fun _ _ _ k δO δI => fl (squaredErrorBackward (mt (k ∘ .inr)) (mt δO) (mt δI))
  isLoss := false
  over := fun _ => false

omit [Fintype ρ] [Fintype φ] in
/-- **C20 (SquaredError).** -/
theorem C20_squared_error : (squaredErrorLayer (ρ := ρ) (φ := φ)).Fresh := fun _ _ _ _ _ _ => rfl

/-- **C21 (SquaredError).** -/
theorem C21_squared_error (p : ρ × φ → ℝ) (i : ρ × φ → ℝ) : (squaredErrorLayer (ρ := ρ) (φ := φ)).Right p i := by
  rintro X X' rfl hX o k δO δI _
  have key := C22_squared_error (fun t => mt (X t)) (mt X') (moves_mt hX) (mt p) (mt (k ∘ .inl)) (mt (k ∘ .inr)) (mt o)
    (mt δO) (mt δI)
  have e : ∀ t, ∑ b, (if (squaredErrorLayer (ρ := ρ) (φ := φ)).isLoss then 1 else δO b) *
      (squaredErrorLayer.F p (X t) o k).1 b =
      inner (mt δO) (squaredErrorForward (mt (X t)) (mt p) (mt (k ∘ .inl)) (mt (k ∘ .inr)) (mt o)).2.2 := by
    intro t
    rw [← mt_fl (squaredErrorForward _ _ _ _ _).2.2, ← sum_mt]
    rfl
  simp only [e]
  exact key.congr_deriv (sum_fl_sub _ _ _).symm

/-! ## SoftmaxCE -/

/-- Output `loss`; the probabilities are kept as internals here: the layer ignores the deltas of its output
`predictions`.  `dec` turns the number of the targets array into a class. -/
def softmaxCELayer [Nonempty φ] [DecidableEq φ] (dec : ℝ → φ) : VLayer (ρ × φ) ρ (ρ × φ) ρ where
  F := fun p i o k =>
    let r := softmaxCEForward (mt i) (fun r => dec (p r)) (mt k) o
    (r.2, fl r.1)
  B := fun p _ _ k δO δI => fl (softmaxCEBackward (fun r => dec (p r)) (mt k) (fun _ _ => 0) δO (mt δI))
  isLoss := false
  over := fun _ => false

omit [Fintype ρ] in
/-- **C20 (SoftmaxCE).** -/
theorem C20_softmax_ce [Nonempty φ] [DecidableEq φ] (dec : ℝ → φ) : (softmaxCELayer (ρ := ρ) (φ := φ) dec).Fresh :=
  fun _ _ _ _ _ _ => rfl

/-- **C21 (SoftmaxCE).**  Where nothing is clipped. -/
theorem C21_softmax_ce [Nonempty φ] [DecidableEq φ] (dec : ℝ → φ) (p : ρ → ℝ) (i : ρ × φ → ℝ)
    (range : ∀ r, 1e-6 < Real.exp (i (r, dec (p r))) / ∑ j, Real.exp (i (r, j))) :
    (softmaxCELayer (ρ := ρ) (φ := φ) dec).Right p i := by
  rintro X X' rfl hX o k δO δI _
  have key := C22_softmax_ce (fun t => mt (X t)) (mt X') (moves_mt hX) (fun r => dec (p r)) (mt k) (fun _ _ => 0)
    (mt δI) o δO range
  have e : ∀ t, ∑ b, (if (softmaxCELayer (ρ := ρ) (φ := φ) dec).isLoss then 1 else δO b) *
      ((softmaxCELayer dec).F p (X t) o k).1 b =
      innerV δO (softmaxCEForward (mt (X t)) (fun r => dec (p r)) (mt k) o).2 := fun t => rfl
  simp only [e]
  exact key.congr_deriv (sum_fl_sub _ _ _).symm

/-! ## SigmoidCE -/

def sigmoidCELayer : VLayer (ρ × φ) (ρ × φ) (ρ × φ) (ρ × φ) where
  F := fun p i o k =>
    let r := sigmoidCEForward (mt i) (mt p) (mt k) (mt o)
    (fl r.2, fl r.1)
  B := fun p _ _ k δO δI => fl (sigmoidCEBackward (mt p) (mt k) (fun _ _ => 0) (mt δO) (mt δI))
  isLoss := false
  over := fun _ => false

omit [Fintype ρ] [Fintype φ] in
/-- **C20 (SigmoidCE).** -/
theorem C20_sigmoid_ce : (sigmoidCELayer (ρ := ρ) (φ := φ)).Fresh := fun _ _ _ _ _ _ => rfl

/-- **C21 (SigmoidCE).**  Where nothing is clipped. -/
theorem C21_sigmoid_ce (p : ρ × φ → ℝ) (i : ρ × φ → ℝ)
    (range : ∀ b, 1e-6 < 1 / (1 + Real.exp (-(i b))) ∧ 1 / (1 + Real.exp (-(i b))) < 1 - 1e-6) :
    (sigmoidCELayer (ρ := ρ) (φ := φ)).Right p i := by
  rintro X X' rfl hX o k δO δI _
  have key := C22_sigmoid_ce (fun t => mt (X t)) (mt X') (moves_mt hX) (mt p) (mt k) (mt o) (fun _ _ => 0) (mt δO) (mt δI)
    (fun r k => range (r, k))
  have e : ∀ t, ∑ b, (if (sigmoidCELayer (ρ := ρ) (φ := φ)).isLoss then 1 else δO b) *
      (sigmoidCELayer.F p (X t) o k).1 b = inner (mt δO) (sigmoidCEForward (mt (X t)) (mt p) (mt k) (mt o)).2 := by
    intro t
    rw [← mt_fl (sigmoidCEForward _ _ _ _).2, ← sum_mt]
    rfl
  simp only [e]
  exact key.congr_deriv (sum_fl_sub _ _ _).symm

/-! ## BinomialCrossEntropy -/

def binomialCELayer : VLayer (ρ × φ) ρ (ρ × φ) (ρ × φ) where
  F := fun p i o k =>
    let r := binomialCEForward (mt i) (mt p) (mt k) o
    (r.2, fl r.1)
  B := fun p i _ _ δO δI => fl (binomialCEBackward (mt i) (mt p) (fun _ _ => 0) δO (mt δI))
  isLoss := false
  over := fun _ => false

omit [Fintype ρ] in
/-- **C20 (BinomialCrossEntropy).** -/
theorem C20_binomial_ce : (binomialCELayer (ρ := ρ) (φ := φ)).Fresh := fun _ _ _ _ _ _ => rfl

/-- **C21 (BinomialCrossEntropy).**  Where nothing is clipped. -/
theorem C21_binomial_ce (p : ρ × φ → ℝ) (i : ρ × φ → ℝ) (range : ∀ b, 1e-6 < i b ∧ i b < 1 - 1e-6)
    (range' : ∀ b, 1e-6 ≤ i b * (1 - i b)) : (binomialCELayer (ρ := ρ) (φ := φ)).Right p i := by
  rintro X X' rfl hX o k δO δI _
  have key := C22_binomial_ce (fun t => mt (X t)) (mt X') (moves_mt hX) (mt p) (mt k) (fun _ _ => 0) (mt δI) o δO
    (fun r k => range (r, k)) (fun r k => range' (r, k))
  have e : ∀ t, ∑ b, (if (binomialCELayer (ρ := ρ) (φ := φ)).isLoss then 1 else δO b) *
      (binomialCELayer.F p (X t) o k).1 b = innerV δO (binomialCEForward (mt (X t)) (mt p) (mt k) o).2 := fun t => rfl
  simp only [e]
  exact key.congr_deriv (sum_fl_sub _ _ _).symm

/-! ## L1Decay and L2Decay -/

def l1Layer : VLayer (ρ × φ) ρ (ρ × φ) Empty where
  F := fun _ i o k =>
    let r := l1Forward (mt i) (mt k) o
    (r.2, fl r.1)
  B := fun _ i _ k δO δI => fl (l1Backward (mt i) (mt k) δO (mt δI))
  isLoss := false
  over := fun _ => false

def l2Layer : VLayer (ρ × φ) ρ (ρ × φ) Empty where
  F := fun _ i o k =>
    let r := l2Forward (mt i) (mt k) o
    (r.2, fl r.1)
  B := fun _ i _ k δO δI => fl (l2Backward (mt i) (mt k) δO (mt δI))
  isLoss := false
  over := fun _ => false

omit [Fintype ρ] in
/-- **C20 (L1Decay).** -/
theorem C20_l1 : (l1Layer (ρ := ρ) (φ := φ)).Fresh := fun _ _ _ _ _ _ => rfl

omit [Fintype ρ] in
/-- **C20 (L2Decay).** -/
theorem C20_l2 : (l2Layer (ρ := ρ) (φ := φ)).Fresh := fun _ _ _ _ _ _ => rfl

/-- **C21 (L1Decay).**  Where no input is zero. -/
theorem C21_l1 (p : Empty → ℝ) (i : ρ × φ → ℝ) (ne : ∀ b, i b ≠ 0) : (l1Layer (ρ := ρ) (φ := φ)).Right p i := by
  rintro X X' rfl hX o k δO δI _
  have key := C22_l1 (fun t => mt (X t)) (mt X') (moves_mt hX) (fun r k => ne (r, k)) (mt k) (mt δI) o δO
  have e : ∀ t, ∑ b, (if (l1Layer (ρ := ρ) (φ := φ)).isLoss then 1 else δO b) *
      (l1Layer.F p (X t) o k).1 b = innerV δO (l1Forward (mt (X t)) (mt k) o).2 := fun t => rfl
  simp only [e]
  exact key.congr_deriv (sum_fl_sub _ _ _).symm

/-- **C21 (L2Decay).** -/
theorem C21_l2 (p : Empty → ℝ) (i : ρ × φ → ℝ) : (l2Layer (ρ := ρ) (φ := φ)).Right p i := by
  rintro X X' rfl hX o k δO δI _
  have key := C22_l2 (fun t => mt (X t)) (mt X') (moves_mt hX) (mt k) (mt δI) o δO
  have e : ∀ t, ∑ b, (if (l2Layer (ρ := ρ) (φ := φ)).isLoss then 1 else δO b) *
      (l2Layer.F p (X t) o k).1 b = innerV δO (l2Forward (mt (X t)) (mt k) o).2 := fun t => rfl
  simp only [e]
  exact key.congr_deriv (sum_fl_sub _ _ _).symm

/-! ## Loss -/

def lossLayer (importance batchSize : ℝ) : VLayer (ρ × φ) Unit Empty Empty where
  F := fun _ i o k => (fun _ => lossForward importance batchSize (mt i) (o ()), k)
  B := fun _ _ _ _ _ δI => fl (lossBackward importance batchSize (mt δI))
  isLoss := true
  over := fun _ => false

/-- **C20 (Loss).** -/
theorem C20_loss (importance batchSize : ℝ) : (lossLayer (ρ := ρ) (φ := φ) importance batchSize).Fresh :=
  fun _ _ _ _ _ _ => rfl

/-- **C21 (Loss).** -/
theorem C21_loss (importance batchSize : ℝ) (p : Empty → ℝ) (i : ρ × φ → ℝ) :
    (lossLayer (ρ := ρ) (φ := φ) importance batchSize).Right p i := by
  rintro X X' rfl hX o k δO δI _
  have key := C22_loss importance batchSize (fun t => mt (X t)) (mt X') (moves_mt hX) (o ()) (mt δI)
  have e : ∀ t, ∑ b, (if (lossLayer (ρ := ρ) (φ := φ) importance batchSize).isLoss then 1 else δO b) *
      ((lossLayer importance batchSize).F p (X t) o k).1 b = lossForward importance batchSize (mt (X t)) (o ()) := by
    intro t
    simp [lossLayer]
  simp only [e]
  exact key.congr_deriv (sum_fl_sub _ _ _).symm

end

end

end Verif.Network
