import Verif.Conv.Model
import Mathlib.Tactic.Ring
import Mathlib.Tactic.Linarith

/-!
# Property C56: output shapes of convolution and pooling

The part of `setup` of `Convolution2DLayerImpl` (convolution_layer_2d.py:31-76) and
`Pooling2DLayerImpl` (pooling_layer_2d.py:28-72) that computes the output shape.  The type
checks of the keyword arguments are not modelled: sizes are integers.
-/

namespace Verif.Conv

/-! ### Model -/

/-- Exceptions of `setup`. -/
inductive SetupError
  | assertion
  | zeroDivision
deriving DecidableEq, Repr

/-- `(in + 2 * padding - kernel) // stride + 1` (convolution_layer_2d.py:58-61,
pooling_layer_2d.py:52-55). -/
def outSize (inp padding kernel stride : Int) : Except SetupError Int :=
  if stride = 0 then .error .zeroDivision
  else .ok (Int.fdiv (inp + 2 * padding - kernel) stride + 1)

/-- `Convolution2DLayerImpl.setup` (convolution_layer_2d.py:41-62). -/
def convShape (inShape : List Int) (padding k0 k1 s0 s1 filters : Int) : Except SetupError (Int × Int × Int) :=
  if padding < 0 then .error .assertion
  else if s0 < 0 ∨ s1 < 0 then .error .assertion
  else match inShape with
    | [h, w, _] => match outSize h padding k0 s0 with
      | .error e => .error e
      | .ok oh => match outSize w padding k1 s1 with
        | .error e => .error e
        | .ok ow => .ok (oh, ow, filters)
    | _ => .error .assertion

/-- `Pooling2DLayerImpl.setup` (pooling_layer_2d.py:36-60). -/
def poolShape (inShape : List Int) (padding k0 k1 s0 s1 : Int) : Except SetupError (Int × Int × Int) :=
  if padding < 0 then .error .assertion
  else if s0 < 0 ∨ s1 < 0 then .error .assertion
  else match inShape with
    | [h, w, c] => match outSize h padding k0 s0 with
      | .error e => .error e
      | .ok oh => match outSize w padding k1 s1 with
        | .error e => .error e
        | .ok ow => if 0 < oh ∧ 0 < ow then .ok (oh, ow, c) else .error .assertion
    | _ => .error .assertion

/-! ### Properties -/

/-- The window at position `n` (with the given stride) fits into the padded side of length
`inp + 2 * padding`. -/
def Fits (inp padding kernel stride : Int) (n : Nat) : Prop := (n : Int) * stride + kernel ≤ inp + 2 * padding

/-- **C56 (number of windows).** The computed size is exactly the number of window positions that
fit into the padded image: position `n` is one of the first `size` positions if and only if
its window fits. -/
theorem C56_positions (inp padding kernel stride : Int) (hs : 0 < stride) :
    ∃ size, outSize inp padding kernel stride = .ok size ∧
      ∀ n : Nat, (n : Int) < size ↔ Fits inp padding kernel stride n := by
  refine ⟨_, by unfold outSize; rw [if_neg (by omega)], ?_⟩
  intro n
  unfold Fits
  rw [Int.lt_add_one_iff, Int.fdiv_eq_ediv_of_nonneg _ (le_of_lt hs), Int.le_ediv_iff_mul_le hs]
  constructor <;> intro h <;> linarith

/-- **C56 (windows lie in the padded image).** Every window of the output starts inside the
padded image (at least at `-padding`) and ends inside it. -/
theorem C56_inside (inp padding kernel stride size : Int) (hs : 0 < stride)
    (h : outSize inp padding kernel stride = .ok size) (n : Nat) (hn : (n : Int) < size) :
    -padding ≤ (n : Int) * stride - padding ∧ (n : Int) * stride - padding + kernel ≤ inp + padding := by
  obtain ⟨size', h1, h2⟩ := C56_positions inp padding kernel stride hs
  rw [h] at h1
  cases h1
  have h3 := (h2 n).1 hn
  unfold Fits at h3
  have : 0 ≤ (n : Int) * stride := mul_nonneg (by omega) (le_of_lt hs)
  exact ⟨by linarith, by linarith⟩

/-- **C56 (shape).** With strides that are not zero a convolution layer can be created, and its
output shape consists of the numbers of window positions and the number of filters. -/
theorem C56_conv (h w c padding k0 k1 s0 s1 filters : Int) (hp : 0 ≤ padding) (h0 : 0 < s0) (h1 : 0 < s1) :
    ∃ oh ow, convShape [h, w, c] padding k0 k1 s0 s1 filters = .ok (oh, ow, filters) ∧
      (∀ n : Nat, (n : Int) < oh ↔ Fits h padding k0 s0 n) ∧ ∀ n : Nat, (n : Int) < ow ↔ Fits w padding k1 s1 n := by
  obtain ⟨oh, e1, q1⟩ := C56_positions h padding k0 s0 h0
  obtain ⟨ow, e2, q2⟩ := C56_positions w padding k1 s1 h1
  refine ⟨oh, ow, ?_, q1, q2⟩
  unfold convShape
  rw [if_neg (by omega), if_neg (by omega)]
  simp only [e1, e2]

/-- **C56 (shape, pooling).** A pooling layer with strides that are not zero can be created exactly
if a window fits in both directions; its output shape consists of the numbers of window
positions and the number of channels. -/
theorem C56_pool (h w c padding k0 k1 s0 s1 : Int) (hp : 0 ≤ padding) (h0 : 0 < s0) (h1 : 0 < s1) :
    (Fits h padding k0 s0 0 ∧ Fits w padding k1 s1 0 →
      ∃ oh ow, poolShape [h, w, c] padding k0 k1 s0 s1 = .ok (oh, ow, c) ∧
        (∀ n : Nat, (n : Int) < oh ↔ Fits h padding k0 s0 n) ∧
        ∀ n : Nat, (n : Int) < ow ↔ Fits w padding k1 s1 n) ∧
    (¬ (Fits h padding k0 s0 0 ∧ Fits w padding k1 s1 0) →
      poolShape [h, w, c] padding k0 k1 s0 s1 = .error .assertion) := by
  obtain ⟨oh, e1, q1⟩ := C56_positions h padding k0 s0 h0
  obtain ⟨ow, e2, q2⟩ := C56_positions w padding k1 s1 h1
  have r1 := q1 0
  have r2 := q2 0
  simp only [Nat.cast_zero] at r1 r2
  constructor
  · rintro ⟨f1, f2⟩
    refine ⟨oh, ow, ?_, q1, q2⟩
    unfold poolShape
    rw [if_neg (by omega), if_neg (by omega)]
    simp only [e1, e2]
    rw [if_pos ⟨r1.2 f1, r2.2 f2⟩]
  · intro hf
    unfold poolShape
    rw [if_neg (by omega), if_neg (by omega)]
    simp only [e1, e2]
    rw [if_neg]
    rintro ⟨g1, g2⟩
    exact hf ⟨r1.1 g1, r2.1 g2⟩

/-- **C56 (stride zero).** A stride of zero passes the assertions and fails with a
`ZeroDivisionError`, for convolution and pooling. -/
theorem C56_zero_stride (h w c padding k0 k1 s0 s1 filters : Int) (hp : 0 ≤ padding) (h0 : 0 ≤ s0) (h1 : 0 ≤ s1)
    (hz : s0 = 0 ∨ s1 = 0) : convShape [h, w, c] padding k0 k1 s0 s1 filters = .error .zeroDivision ∧
      poolShape [h, w, c] padding k0 k1 s0 s1 = .error .zeroDivision := by
  unfold convShape poolShape
  simp only [if_neg (show ¬ padding < 0 by omega), if_neg (show ¬ (s0 < 0 ∨ s1 < 0) by omega)]
  by_cases hs0 : s0 = 0
  · simp [outSize, hs0]
  · have : s1 = 0 := by omega
    simp [outSize, hs0, this]

/-- **C56 (no check).** Unlike pooling, a convolution layer can be created although no window
fits; its declared height is then zero or negative. -/
theorem C56_conv_no_check (h w c padding k0 k1 s0 s1 filters : Int) (hp : 0 ≤ padding) (h0 : 0 < s0) (h1 : 0 < s1)
    (hk : h + 2 * padding < k0) :
    ∃ oh ow, convShape [h, w, c] padding k0 k1 s0 s1 filters = .ok (oh, ow, filters) ∧ oh ≤ 0 := by
  obtain ⟨oh, ow, e, q, _⟩ := C56_conv h w c padding k0 k1 s0 s1 filters hp h0 h1
  refine ⟨oh, ow, e, ?_⟩
  by_contra hc
  have := (q 0).1 (by simpa using hc)
  unfold Fits at this
  simp at this
  omega

/-- **C56 (same in the forward pass).** The numbers of rows and columns of patches that `im2col`
computes are the declared output height and width. -/
theorem C56_im2col (H W C KH KW p sh sw filters : Nat) (hs : sh ≠ 0 ∧ sw ≠ 0) (oh ow : Int)
    (h : convShape [H, W, C] p KH KW sh sw filters = .ok (oh, ow, filters)) :
    (Geom.mk H W C KH KW p p p p sh sw).hc = oh.toNat ∧ (Geom.mk H W C KH KW p p p p sh sw).wc = ow.toNat := by
  unfold convShape at h
  rw [if_neg (by omega), if_neg (by omega)] at h
  simp only [outSize] at h
  rw [if_neg (by omega), if_neg (by omega)] at h
  simp only [Except.ok.injEq, Prod.mk.injEq] at h
  obtain ⟨rfl, rfl, _⟩ := h
  constructor
  · simp only [Geom.hc]
    congr 3; ring
  · simp only [Geom.wc]
    congr 3; ring

/-! ### Non-vacuity -/

example : convShape [28, 28, 1] 2 5 5 2 2 16 = .ok (14, 14, 16) := by decide
example : poolShape [28, 28, 16] 0 3 3 2 2 = .ok (13, 13, 16) := by decide
example : poolShape [2, 28, 16] 0 3 3 2 2 = .error .assertion := by decide
example : convShape [2, 28, 1] 0 5 5 1 1 16 = .ok (-2, 24, 16) := by decide
example : convShape [28, 28, 1] 0 5 5 0 1 16 = .error .zeroDivision := by decide

end Verif.Conv
