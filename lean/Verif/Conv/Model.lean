import Verif.Numeric.Loop

/-!
# Convolution: `_cpuop.im2col`, `_cpuop.col2im` and `conv2d_forward_batch`,
`conv2d_backward_batch` of `numpy_handler.py`

Numbers are the elements of a commutative ring instead of floats.  Integers are unbounded
(the C code uses `int`).  The arrays `inputs[i]`, `outputs[i]`, ... are given as flat arrays in
row-major order, which is what `reshape` of a contiguous array does.
-/

namespace Verif.Conv

open Verif.Numeric

variable {α : Type}

/-- Sizes: image height, width, channels; kernel height and width; padding at the top,
left, bottom, right; vertical and horizontal stride. -/
structure Geom where
  H : Nat
  W : Nat
  C : Nat
  KH : Nat
  KW : Nat
  pt : Nat
  pl : Nat
  pb : Nat
  pr : Nat
  sh : Nat
  sw : Nat

/-- `height_col` (_cpuop.pyx:258, 289). -/
def Geom.hc (g : Geom) : Nat := (Int.fdiv ((g.H : Int) + g.pt + g.pb - g.KH) g.sh + 1).toNat

/-- `width_col` (_cpuop.pyx:259, 290). -/
def Geom.wc (g : Geom) : Nat := (Int.fdiv ((g.W : Int) + g.pl + g.pr - g.KW) g.sw + 1).toNat

/-- The assignment of one slice of `channels` numbers (_cpuop.pyx:269-274): copied from the
image if the pixel is inside, otherwise zero. -/
def im2colPixel [Zero α] (g : Geom) (img : Arr α) (ih iw : Int) (colIdx : Int) (col : Arr α) :
    Option (Arr α) :=
  if 0 ≤ ih ∧ ih < g.H ∧ 0 ≤ iw ∧ iw < g.W then
    loop (fun c col => (img.read ((ih * g.W + iw) * g.C + c)).bind (col.write (colIdx + c))) g.C col
  else loop (fun c col => col.write (colIdx + c) 0) g.C col

/-- `im2col` (_cpuop.pyx:251-277).  The state of the loops is `(h_pad, col_idx, flat_col)` and
`(w_pad, col_idx, flat_col)`; a stride of zero raises `ZeroDivisionError`. -/
def im2col [Zero α] (g : Geom) (img col : Arr α) : Option (Arr α) :=
  if g.sh = 0 ∨ g.sw = 0 then none
  else (loop (fun _ (s : Int × Int × Arr α) =>
      (loop (fun _ (r : Int × Int × Arr α) =>
        (loop (fun kh (t : Int × Arr α) =>
          loop (fun kw (t : Int × Arr α) =>
            (im2colPixel g img (s.1 + kh) (r.1 + kw) t.1 t.2).map (fun col => (t.1 + g.C, col)))
            g.KW t)
          g.KH r.2).map (fun t => (r.1 + g.sw, t)))
        g.wc (-(g.pl : Int), s.2)).map (fun r => (s.1 + g.sh, r.2)))
      g.hc (-(g.pt : Int), 0, col)).map (fun s => s.2.2)

/-- The loop over channels of `col2im` (_cpuop.pyx:301-303). -/
def col2imPixel [Add α] (g : Geom) (col : Arr α) (patch colIdx : Int) (img : Arr α) : Option (Arr α) :=
  loop (fun c img => (img.read (patch + c)).bind (fun old => (col.read (colIdx + c)).bind (fun v =>
    img.write (patch + c) (old + v)))) g.C img

/-- `col2im` (_cpuop.pyx:282-309).  The state is `(h_pad, col_idx, flat_in)`,
`(w_pad, col_idx, flat_in)` and `(im_patch_idx, col_idx, flat_in)`. -/
def col2im [Add α] (g : Geom) (col img : Arr α) : Option (Arr α) :=
  if g.sh = 0 ∨ g.sw = 0 then none
  else (loop (fun _ (s : Int × Int × Arr α) =>
      (loop (fun _ (r : Int × Int × Arr α) =>
        (loop (fun kh (t : Int × Int × Arr α) =>
          (loop (fun kw (t : Int × Int × Arr α) =>
            (if 0 ≤ s.1 + kh ∧ s.1 + kh < g.H ∧ 0 ≤ r.1 + kw ∧ r.1 + kw < g.W then
              col2imPixel g col t.1 t.2.1 t.2.2 else some t.2.2).map
              (fun img => (t.1 + g.C, t.2.1 + g.C, img)))
            g.KW t).map (fun t => (t.1 + g.C * ((g.W : Int) - g.KW), t.2)))
          g.KH ((s.1 * g.W + r.1) * g.C, r.2)).map (fun t => (r.1 + g.sw, t.2)))
        g.wc (-(g.pl : Int), s.2)).map (fun r => (s.1 + g.sh, r.2)))
      g.hc (-(g.pt : Int), 0, img)).map (fun s => s.2.2)

/-- Number of output pixels, `num_output_pixels`. -/
def Geom.px (g : Geom) : Nat := g.hc * g.wc

/-- Number of weights per filter, `num_kernel_params`. -/
def Geom.kp (g : Geom) : Nat := g.KH * g.KW * g.C

variable [CommRing α]

/-- One image of `conv2d_forward_batch` (numpy_handler.py:149-171): `im2col` into an array of
zeros, the matrix product with the transposed weights, and the bias.  Weights are a flat
array of `num_filters * num_kernel_params` numbers, the result is indexed by output pixel and
filter. -/
def convForward (g : Geom) (w bias : Nat → α) (img : Arr α) : Option (Nat → Nat → α) :=
  (im2col g img ⟨g.px * g.kp, fun _ => 0⟩).map (fun col p f =>
    (∑ k ∈ Finset.range g.kp, col.at' (p * g.kp + k) * w (f * g.kp + k)) + bias f)

/-- What `conv2d_backward_batch` changes for the images processed so far: `dparams`, `dbias`
and the input deltas of each image. -/
structure Back (α : Type) where
  dw : Nat → α
  db : Nat → α

/-- One image of `conv2d_backward_batch` (numpy_handler.py:125-147): the gradients with the
contributions of the image added, and its new input deltas.  `col` is the work array, overwritten
by the product of the output deltas with the weights (142). -/
def convBackward (g : Geom) (nf : Nat) (w : Nat → α) (img : Arr α) (delta : Nat → Nat → α)
    (b : Back α) (inDelta : Arr α) (col0 : Arr α) : Option (Back α × Arr α × Arr α) :=
  (im2col g img col0).bind (fun col =>
    let b' : Back α :=
      ⟨fun i => b.dw i + ∑ p ∈ Finset.range g.px, delta p (i / g.kp) * col.at' (p * g.kp + i % g.kp),
       fun f => b.db f + ∑ p ∈ Finset.range g.px, delta p f⟩
    let col' : Arr α := ⟨col.size, fun j => ∑ f ∈ Finset.range nf, delta (j / g.kp) f * w (f * g.kp + j % g.kp)⟩
    (col2im g col' inDelta).map (fun d => (b', d, col')))

/-- The loop over the images of `conv2d_backward_batch` (numpy_handler.py:118-147): the
gradients start at zero (118-119), the work array is shared by all images. -/
def convBackwardBatch (g : Geom) (nf : Nat) (w : Nat → α) :
    List (Arr α × (Nat → Nat → α) × Arr α) → Back α → Arr α → Option (Back α × List (Arr α))
  | [], b, _ => some (b, [])
  | (img, delta, inDelta) :: rest, b, col =>
    (convBackward g nf w img delta b inDelta col).bind (fun r =>
      (convBackwardBatch g nf w rest r.1 r.2.2).map (fun q => (q.1, r.2.1 :: q.2)))

/-- `conv2d_backward_batch` (numpy_handler.py:110-147): whatever the gradients held before is
discarded. -/
def convBackwardAll (g : Geom) (nf : Nat) (w : Nat → α)
    (imgs : List (Arr α × (Nat → Nat → α) × Arr α)) (_old : Back α) : Option (Back α × List (Arr α)) :=
  convBackwardBatch g nf w imgs ⟨fun _ => 0, fun _ => 0⟩ ⟨g.px * g.kp, fun _ => 0⟩

end Verif.Conv
