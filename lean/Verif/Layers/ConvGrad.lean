import Verif.Conv.Props
import Verif.Layers.Ops
import Mathlib.Analysis.Calculus.Deriv.Add
import Mathlib.Analysis.Calculus.Deriv.Mul

/-!
# Gradient of Convolution2D (C22)

The layer applies `conv2d_forward_batch` and the activation function; its backward pass
multiplies the output deltas by the derivative of the activation and calls
`conv2d_backward_batch`.  Images are flat arrays, `X s i` is image `i` at "time" `s` of the motion.
-/

namespace Verif.Layers

open Verif.Conv Verif.Numeric Finset

noncomputable section

/-- One image of `Convolution2DLayerImpl.forward_pass` (convolution_layer_2d.py:77-91); the
images of a batch are treated one by one and all in the same way (numpy_handler.py:157-171). -/
def convLayerForward (a : Act) (g : Geom) (w bias : ℕ → ℝ) (img : Arr ℝ) : Option (ℕ → ℕ → ℝ) :=
  (convForward g w bias img).map (fun o p f => a.f (o p f))

/-- `Convolution2DLayerImpl.backward_pass` (convolution_layer_2d.py:93-111); for each image the
inputs, the outputs, the output deltas and the input deltas. -/
def convLayerBackward (a : Act) (g : Geom) (nf : ℕ) (w : ℕ → ℝ)
    (imgs : List (Arr ℝ × (ℕ → ℕ → ℝ) × (ℕ → ℕ → ℝ) × Arr ℝ)) (old : Back ℝ) : Option (Back ℝ × List (Arr ℝ)) :=
  convBackwardAll g nf w
    (imgs.map (fun e => (e.1, fun p f => a.d (e.2.1 p f) (e.2.2.1 p f), e.2.2.2))) old

/-- Pixels of the padded image are linear in the image. -/
theorem pixel_hasDerivAt (g : Geom) (X : ℝ → Arr ℝ) (X' : Arr ℝ)
    (hX : ∀ j, HasDerivAt (fun s => (X s).at' j) (X'.at' j) 0) (y x : ℤ) (c : ℕ) :
    HasDerivAt (fun s => pixel g (X s) y x c) (pixel g X' y x c) 0 := by
  unfold pixel
  split
  · exact hX _
  · exact hasDerivAt_const _ _

/-- A pixel of the padded image as a sum over the pixels of the image. -/
theorem pixel_sum_yx (g : Geom) (img : Arr ℝ) (Y X : ℤ) (c : ℕ) :
    pixel g img Y X c = ∑ y ∈ range g.H, ∑ x ∈ range g.W,
      if Y = y ∧ X = x then img.at' ((y * g.W + x) * g.C + c) else 0 := by
  unfold pixel
  by_cases hin : 0 ≤ Y ∧ Y < g.H ∧ 0 ≤ X ∧ X < g.W
  · rw [if_pos hin]
    rw [sum_eq_single Y.toNat, sum_eq_single X.toNat]
    · rw [if_pos ⟨by omega, by omega⟩]
    · intro d _ hd
      rw [if_neg]; rintro ⟨_, h⟩; omega
    · intro h; exact absurd (mem_range.2 (by omega)) h
    · intro d _ hd
      refine sum_eq_zero fun x _ => ?_
      rw [if_neg]; rintro ⟨h, _⟩; omega
    · intro h; exact absurd (mem_range.2 (by omega)) h
  · rw [if_neg hin]
    symm
    refine sum_eq_zero fun y hy => sum_eq_zero fun x hx => ?_
    rw [mem_range] at hx hy
    rw [if_neg]; rintro ⟨h1, h2⟩; omega

theorem conv_part_W (g : Geom) (nf : ℕ) (d : ℕ → ℕ → ℝ) (img : Arr ℝ) (w' : ℕ → ℝ) :
    ∑ h ∈ range g.hc, ∑ w ∈ range g.wc, ∑ f ∈ range nf, d (h * g.wc + w) f *
      (∑ kh ∈ range g.KH, ∑ kw ∈ range g.KW, ∑ c ∈ range g.C,
        pixel g img ((h : ℤ) * g.sh - g.pt + kh) ((w : ℤ) * g.sw - g.pl + kw) c * w' (g.weight f kh kw c)) =
    ∑ f ∈ range nf, ∑ kh ∈ range g.KH, ∑ kw ∈ range g.KW, ∑ c ∈ range g.C,
      gradW g img d f kh kw c * w' (g.weight f kh kw c) := by
  have e1 : ∀ h, ∑ w ∈ range g.wc, ∑ f ∈ range nf, d (h * g.wc + w) f *
      (∑ kh ∈ range g.KH, ∑ kw ∈ range g.KW, ∑ c ∈ range g.C,
        pixel g img ((h : ℤ) * g.sh - g.pt + kh) ((w : ℤ) * g.sw - g.pl + kw) c * w' (g.weight f kh kw c)) =
      ∑ f ∈ range nf, ∑ kh ∈ range g.KH, ∑ kw ∈ range g.KW, ∑ c ∈ range g.C, ∑ w ∈ range g.wc,
        d (h * g.wc + w) f *
        pixel g img ((h : ℤ) * g.sh - g.pt + kh) ((w : ℤ) * g.sw - g.pl + kw) c * w' (g.weight f kh kw c) := by
    intro h
    rw [sum_comm]
    refine sum_congr rfl fun f _ => ?_
    simp only [mul_sum]
    rw [sum_comm]
    refine sum_congr rfl fun kh _ => ?_
    rw [sum_comm]
    refine sum_congr rfl fun kw _ => ?_
    rw [sum_comm]
    refine sum_congr rfl fun c _ => sum_congr rfl fun w _ => by ring
  rw [sum_congr rfl fun h _ => e1 h, sum_comm]
  refine sum_congr rfl fun f _ => ?_
  rw [sum_comm]
  refine sum_congr rfl fun kh _ => ?_
  rw [sum_comm]
  refine sum_congr rfl fun kw _ => ?_
  rw [sum_comm]
  refine sum_congr rfl fun c _ => ?_
  unfold gradW
  simp only [sum_mul]

theorem conv_part_b (g : Geom) (nf : ℕ) (d : ℕ → ℕ → ℝ) (b' : ℕ → ℝ) :
    ∑ h ∈ range g.hc, ∑ w ∈ range g.wc, ∑ f ∈ range nf, d (h * g.wc + w) f * b' f =
    ∑ f ∈ range nf, gradB g d f * b' f := by
  unfold gradB
  simp only [sum_mul]
  rw [sum_comm (s := range nf)]
  refine sum_congr rfl fun h _ => ?_
  rw [sum_comm]

theorem conv_part_X (g : Geom) (nf : ℕ) (d : ℕ → ℕ → ℝ) (img : Arr ℝ) (weights : ℕ → ℝ) :
    ∑ h ∈ range g.hc, ∑ w ∈ range g.wc, ∑ f ∈ range nf, d (h * g.wc + w) f *
      (∑ kh ∈ range g.KH, ∑ kw ∈ range g.KW, ∑ c ∈ range g.C,
        pixel g img ((h : ℤ) * g.sh - g.pt + kh) ((w : ℤ) * g.sw - g.pl + kw) c * weights (g.weight f kh kw c)) =
    ∑ y ∈ range g.H, ∑ x ∈ range g.W, ∑ c ∈ range g.C,
      gradX g nf weights d y x c * img.at' ((y * g.W + x) * g.C + c) := by
  have e1 : ∀ h w, ∑ f ∈ range nf, d (h * g.wc + w) f *
      (∑ kh ∈ range g.KH, ∑ kw ∈ range g.KW, ∑ c ∈ range g.C,
        pixel g img ((h : ℤ) * g.sh - g.pt + kh) ((w : ℤ) * g.sw - g.pl + kw) c * weights (g.weight f kh kw c)) =
      ∑ kh ∈ range g.KH, ∑ kw ∈ range g.KW, ∑ c ∈ range g.C, ∑ y ∈ range g.H, ∑ x ∈ range g.W,
        (if (h : ℤ) * g.sh - g.pt + kh = y ∧ (w : ℤ) * g.sw - g.pl + kw = x then
          ∑ f ∈ range nf, d (h * g.wc + w) f * weights (g.weight f kh kw c) else 0) *
          img.at' ((y * g.W + x) * g.C + c) := by
    intro h w
    simp only [mul_sum]
    rw [sum_comm]
    refine sum_congr rfl fun kh _ => ?_
    rw [sum_comm]
    refine sum_congr rfl fun kw _ => ?_
    rw [sum_comm]
    refine sum_congr rfl fun c _ => ?_
    have e2 : ∀ f, d (h * g.wc + w) f *
        (pixel g img ((h : ℤ) * g.sh - g.pt + kh) ((w : ℤ) * g.sw - g.pl + kw) c * weights (g.weight f kh kw c)) =
        (d (h * g.wc + w) f * weights (g.weight f kh kw c)) *
        pixel g img ((h : ℤ) * g.sh - g.pt + kh) ((w : ℤ) * g.sw - g.pl + kw) c := fun f => by ring
    rw [sum_congr rfl fun f _ => e2 f, ← sum_mul, pixel_sum_yx]
    simp only [mul_sum]
    refine sum_congr rfl fun y _ => sum_congr rfl fun x _ => ?_
    split <;> simp
  rw [sum_congr rfl fun h _ => sum_congr rfl fun w _ => e1 h w]
  have e3 : ∀ (F : ℕ → ℕ → ℕ → ℕ → ℕ → ℕ → ℕ → ℝ),
      ∑ h ∈ range g.hc, ∑ w ∈ range g.wc, ∑ kh ∈ range g.KH, ∑ kw ∈ range g.KW, ∑ c ∈ range g.C,
        ∑ y ∈ range g.H, ∑ x ∈ range g.W, F h w kh kw c y x =
      ∑ y ∈ range g.H, ∑ x ∈ range g.W, ∑ c ∈ range g.C, ∑ h ∈ range g.hc, ∑ w ∈ range g.wc,
        ∑ kh ∈ range g.KH, ∑ kw ∈ range g.KW, F h w kh kw c y x := by
    intro F
    simp only [← sum_product']
    refine sum_nbij' (fun q => (q.2.2.2.2.2.1, q.2.2.2.2.2.2, q.2.2.2.2.1, q.1, q.2.1, q.2.2.1, q.2.2.2.1))
      (fun q => (q.2.2.2.1, q.2.2.2.2.1, q.2.2.2.2.2.1, q.2.2.2.2.2.2, q.2.2.1, q.1, q.2.1)) ?_ ?_ ?_ ?_ ?_
    · intro q hq; simp only [mem_product] at hq ⊢; tauto
    · intro q hq; simp only [mem_product] at hq ⊢; tauto
    · intro q _; rfl
    · intro q _; rfl
    · intro q _; rfl
  rw [e3]
  refine sum_congr rfl fun y _ => sum_congr rfl fun x _ => sum_congr rfl fun c _ => ?_
  unfold gradX
  simp only [sum_mul]

/-- The velocity of an output before the activation. -/
theorem conv_pre_hasDerivAt (g : Geom) (hs : g.sh ≠ 0 ∧ g.sw ≠ 0) (W : ℝ → ℕ → ℝ) (W' : ℕ → ℝ) (b : ℝ → ℕ → ℝ)
    (b' : ℕ → ℝ) (X : ℝ → Arr ℝ) (X' : Arr ℝ) (hi : ∀ s, (X s).size = g.H * g.W * g.C)
    (hX : ∀ j, HasDerivAt (fun s => (X s).at' j) (X'.at' j) 0) (hW : ∀ j, HasDerivAt (fun s => W s j) (W' j) 0)
    (hb : ∀ j, HasDerivAt (fun s => b s j) (b' j) 0) :
    ∃ out : ℝ → ℕ → ℕ → ℝ, (∀ s, convForward g (W s) (b s) (X s) = some (out s)) ∧
      ∀ h w f, h < g.hc → w < g.wc → HasDerivAt (fun s => out s (h * g.wc + w) f)
        ((∑ kh ∈ range g.KH, ∑ kw ∈ range g.KW, ∑ c ∈ range g.C,
          pixel g X' ((h : ℤ) * g.sh - g.pt + kh) ((w : ℤ) * g.sw - g.pl + kw) c * W 0 (g.weight f kh kw c)) +
        (∑ kh ∈ range g.KH, ∑ kw ∈ range g.KW, ∑ c ∈ range g.C,
          pixel g (X 0) ((h : ℤ) * g.sh - g.pt + kh) ((w : ℤ) * g.sw - g.pl + kw) c * W' (g.weight f kh kw c)) +
        b' f) 0 := by
  choose out h1 h2 using fun s => C47_forward g hs (W s) (b s) (X s) (hi s)
  refine ⟨out, h1, ?_⟩
  intro h w f hh hw
  rw [show (fun s => out s (h * g.wc + w) f) = _ from funext fun s => h2 s h w f hh hw]
  refine HasDerivAt.add ?_ (hb f)
  refine (HasDerivAt.fun_sum fun kh _ => HasDerivAt.fun_sum fun kw _ => HasDerivAt.fun_sum fun c _ =>
    (pixel_hasDerivAt g X X' hX _ _ c).mul (hW _)).congr_deriv ?_
  simp only [sum_add_distrib]

/-- Forward and backward pass of Convolution2D; `o i` are the outputs of image `i` the backward pass finds. -/
theorem conv_layer_grad (a : Act) (g : Geom) (hs : g.sh ≠ 0 ∧ g.sw ≠ 0) (nf n : ℕ)
    (W : ℝ → ℕ → ℝ) (W' : ℕ → ℝ) (b : ℝ → ℕ → ℝ) (b' : ℕ → ℝ) (X : ℝ → ℕ → Arr ℝ) (X' : ℕ → Arr ℝ)
    (hi : ∀ s i, (X s i).size = g.H * g.W * g.C)
    (hX : ∀ i j, HasDerivAt (fun s => (X s i).at' j) ((X' i).at' j) 0)
    (hW : ∀ j, HasDerivAt (fun s => W s j) (W' j) 0) (hb : ∀ j, HasDerivAt (fun s => b s j) (b' j) 0)
    (smooth : ∀ i < n, ∀ out, convForward g (W 0) (b 0) (X 0 i) = some out →
      ∀ h w f, h < g.hc → w < g.wc → f < nf → a.Smooth (out (h * g.wc + w) f))
    (δ : ℕ → ℕ → ℕ → ℝ) (din : ℕ → Arr ℝ) (hd : ∀ i, (din i).size = g.H * g.W * g.C) (old : Back ℝ) :
    ∃ out : ℝ → ℕ → ℕ → ℕ → ℝ, (∀ s i, convLayerForward a g (W s) (b s) (X s i) = some (out s i)) ∧
      ∀ o : ℕ → ℕ → ℕ → ℝ, (∀ i < n, ∀ h w f, h < g.hc → w < g.wc → f < nf →
        o i (h * g.wc + w) f = out 0 i (h * g.wc + w) f) →
      ∃ (back : Back ℝ) (dout : ℕ → Arr ℝ),
      convLayerBackward a g nf (W 0) ((List.range n).map fun i => (X 0 i, o i, δ i, din i)) old =
        some (back, (List.range n).map dout) ∧
      HasDerivAt (fun s => ∑ i ∈ range n, ∑ h ∈ range g.hc, ∑ w ∈ range g.wc, ∑ f ∈ range nf,
          δ i (h * g.wc + w) f * out s i (h * g.wc + w) f)
        ((∑ i ∈ range n, ∑ y ∈ range g.H, ∑ x ∈ range g.W, ∑ c ∈ range g.C,
            ((dout i).at' ((y * g.W + x) * g.C + c) - (din i).at' ((y * g.W + x) * g.C + c)) *
              (X' i).at' ((y * g.W + x) * g.C + c)) +
          (∑ f ∈ range nf, ∑ kh ∈ range g.KH, ∑ kw ∈ range g.KW, ∑ c ∈ range g.C,
            back.dw (g.weight f kh kw c) * W' (g.weight f kh kw c)) +
          ∑ f ∈ range nf, back.db f * b' f) 0 := by
  choose pre h1 h2 using fun i => conv_pre_hasDerivAt g hs W W' b b' (fun s => X s i) (X' i) (fun s => hi s i)
    (hX i) hW hb
  refine ⟨fun s i p f => a.f (pre i s p f), ?_, ?_⟩
  · intro s i
    unfold convLayerForward
    rw [h1 i s]
    rfl
  intro o ho
  let d : ℕ → ℕ → ℕ → ℝ := fun i p f => a.d (o i p f) (δ i p f)
  obtain ⟨back, ds, h3, h4, h5, h6⟩ := C47_backward g hs nf (W 0)
    ((List.range n).map fun i => (X 0 i, d i, din i)) (by
      intro e he
      obtain ⟨i, _, rfl⟩ := List.mem_map.1 he
      exact ⟨hi 0 i, hd i⟩) old
  have hlen : ds.length = n := by have := h6.length_eq; simpa using this.symm
  have hds : ds = (List.range n).map fun i => ds.getD i ⟨0, fun _ => 0⟩ := by
    refine List.ext_getElem (by simp [hlen]) fun i h _ => ?_
    simp [List.getD_eq_getElem?_getD, h]
  refine ⟨back, fun i => ds.getD i ⟨0, fun _ => 0⟩, ?_, ?_⟩
  · unfold convLayerBackward
    rw [← hds, ← h3, List.map_map]
    rfl
  have hsum : ∀ F : ℕ → ℝ, ((List.range n).map F).sum = ∑ i ∈ range n, F i := fun F => by
    rw [Finset.sum_range, ← List.sum_ofFn]
    congr 1
    refine List.ext_getElem (by simp) fun i _ _ => by simp
  have hder : ∀ i < n, ∀ h w f, h < g.hc → w < g.wc → f < nf →
      HasDerivAt (fun s => δ i (h * g.wc + w) f * a.f (pre i s (h * g.wc + w) f))
        (d i (h * g.wc + w) f *
          ((∑ kh ∈ range g.KH, ∑ kw ∈ range g.KW, ∑ c ∈ range g.C,
            pixel g (X' i) ((h : ℤ) * g.sh - g.pt + kh) ((w : ℤ) * g.sw - g.pl + kw) c * W 0 (g.weight f kh kw c)) +
          (∑ kh ∈ range g.KH, ∑ kw ∈ range g.KW, ∑ c ∈ range g.C,
            pixel g (X 0 i) ((h : ℤ) * g.sh - g.pt + kh) ((w : ℤ) * g.sw - g.pl + kw) c * W' (g.weight f kh kw c)) +
          b' f)) 0 := by
    intro i hi' h w f hh hw hf
    have := ((a.hasDerivAt (smooth i hi' _ (h1 i 0) h w f hh hw hf)).comp (0 : ℝ) (h2 i h w f hh hw)).const_mul
      (δ i (h * g.wc + w) f)
    refine this.congr_deriv ?_
    show _ = a.d (o i (h * g.wc + w) f) _ * _
    rw [ho i hi' h w f hh hw hf, Act.d_linear a _ (δ i (h * g.wc + w) f)]
    ring
  refine (HasDerivAt.fun_sum fun i hi' => HasDerivAt.fun_sum fun h hh => HasDerivAt.fun_sum fun w hw =>
    HasDerivAt.fun_sum fun f hf => hder i (mem_range.1 hi') h w f (mem_range.1 hh) (mem_range.1 hw)
      (mem_range.1 hf)).congr_deriv ?_
  simp only [mul_add, sum_add_distrib]
  rw [sum_congr rfl fun i _ => conv_part_X g nf (d i) (X' i) (W 0),
    sum_congr rfl fun i _ => conv_part_W g nf (d i) (X 0 i) W', sum_congr rfl fun i _ => conv_part_b g nf (d i) b']
  congr 1
  · congr 1
    · refine sum_congr rfl fun i hi' => sum_congr rfl fun y hy => sum_congr rfl fun x hx => sum_congr rfl fun c hc => ?_
      rw [mem_range] at hi' hy hx hc
      have := List.forall₂_iff_get.1 h6
      have := this.2 i (by simpa using hi') (by omega) y x c hy hx hc
      simp only [List.get_eq_getElem, List.getElem_map, List.getElem_range] at this
      rw [List.getD_eq_getElem?_getD, List.getElem?_eq_getElem (by omega : i < ds.length), Option.getD_some, this,
        add_sub_cancel_left]
    · rw [sum_comm]
      refine sum_congr rfl fun f _ => ?_
      rw [sum_comm]
      refine sum_congr rfl fun kh hkh => ?_
      rw [sum_comm]
      refine sum_congr rfl fun kw hkw => ?_
      rw [sum_comm]
      refine sum_congr rfl fun c hc => ?_
      rw [mem_range] at hkh hkw hc
      rw [h4 f kh kw c hkh hkw hc, List.map_map, hsum, sum_mul]
      rfl
  · rw [sum_comm]
    refine sum_congr rfl fun f _ => ?_
    rw [h5 f, List.map_map, hsum, sum_mul]
    rfl

/-- **C22 (Convolution2D).**  Forward and backward passes stay within their arrays.  The input
deltas are added; the gradients of the weights and of the bias are *overwritten* (see C55) with
the right derivative. -/
theorem C22_convolution (a : Act) (g : Geom) (hs : g.sh ≠ 0 ∧ g.sw ≠ 0) (nf n : ℕ)
    (W : ℝ → ℕ → ℝ) (W' : ℕ → ℝ) (b : ℝ → ℕ → ℝ) (b' : ℕ → ℝ) (X : ℝ → ℕ → Arr ℝ) (X' : ℕ → Arr ℝ)
    (hi : ∀ s i, (X s i).size = g.H * g.W * g.C)
    (hX : ∀ i j, HasDerivAt (fun s => (X s i).at' j) ((X' i).at' j) 0)
    (hW : ∀ j, HasDerivAt (fun s => W s j) (W' j) 0) (hb : ∀ j, HasDerivAt (fun s => b s j) (b' j) 0)
    (smooth : ∀ i < n, ∀ out, convForward g (W 0) (b 0) (X 0 i) = some out →
      ∀ h w f, h < g.hc → w < g.wc → f < nf → a.Smooth (out (h * g.wc + w) f))
    (δ : ℕ → ℕ → ℕ → ℝ) (din : ℕ → Arr ℝ) (hd : ∀ i, (din i).size = g.H * g.W * g.C) (old : Back ℝ) :
    ∃ (out : ℝ → ℕ → ℕ → ℕ → ℝ) (back : Back ℝ) (dout : ℕ → Arr ℝ),
      (∀ s i, convLayerForward a g (W s) (b s) (X s i) = some (out s i)) ∧
      convLayerBackward a g nf (W 0) ((List.range n).map fun i => (X 0 i, out 0 i, δ i, din i)) old =
        some (back, (List.range n).map dout) ∧
      HasDerivAt (fun s => ∑ i ∈ range n, ∑ h ∈ range g.hc, ∑ w ∈ range g.wc, ∑ f ∈ range nf,
          δ i (h * g.wc + w) f * out s i (h * g.wc + w) f)
        ((∑ i ∈ range n, ∑ y ∈ range g.H, ∑ x ∈ range g.W, ∑ c ∈ range g.C,
            ((dout i).at' ((y * g.W + x) * g.C + c) - (din i).at' ((y * g.W + x) * g.C + c)) *
              (X' i).at' ((y * g.W + x) * g.C + c)) +
          (∑ f ∈ range nf, ∑ kh ∈ range g.KH, ∑ kw ∈ range g.KW, ∑ c ∈ range g.C,
            back.dw (g.weight f kh kw c) * W' (g.weight f kh kw c)) +
          ∑ f ∈ range nf, back.db f * b' f) 0 := by
  obtain ⟨out, h1, h2⟩ := conv_layer_grad a g hs nf n W W' b b' X X' hi hX hW hb smooth δ din hd old
  obtain ⟨back, dout, h3, h4⟩ := h2 (out 0) fun _ _ _ _ _ _ _ _ => rfl
  exact ⟨out, back, dout, h1, h3, h4⟩

/-! ### Non-vacuity: a 3 × 2 image with 2 channels, windows of 2 × 2, all weights moving -/

example (a : Act) (ha : a ≠ .rel) (w : ℕ → ℝ) (δ : ℕ → ℕ → ℕ → ℝ) :=
  C22_convolution a demoGeom (by decide) 2 3 (fun s j => w j + s * j) (fun j => j)
    (fun _ _ => 1) (fun _ => 0) (fun _ i => ⟨12, fun j => (j : ℝ) + i⟩) (fun _ => ⟨12, fun _ => 0⟩)
    (fun _ _ => by show 12 = _; decide) (fun i j => hasDerivAt_const _ _)
    (fun j => by simpa using ((hasDerivAt_id (0 : ℝ)).mul_const (j : ℝ)).const_add (w j))
    (fun _ => hasDerivAt_const _ _) (fun i _ out _ h w f _ _ _ h' => absurd h' ha) δ
    (fun _ => ⟨12, fun _ => 5⟩) (fun _ => by show 12 = _; decide) ⟨fun _ => 7, fun _ => 7⟩

end

end Verif.Layers
