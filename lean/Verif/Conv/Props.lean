import Verif.Conv.Lemmas

/-!
# Property C47: convolution

`pixel` (the image surrounded by zeros), `Geom.row`, `Geom.col` (where a window lies) and
`Geom.place` (row-major order of the matrix of patches) are the specification, in
`Conv/Lemmas.lean`.
-/

namespace Verif.Conv

open Verif.Numeric Finset

variable {α : Type}

/-- **C47 (im2col).** With arrays of the right sizes and strides that are not zero, `im2col`
stays within its arrays and writes into the line of output pixel `(h, w)` the window of the
zero-padded image whose upper left corner is `(h * stride - padding, w * stride - padding)`. -/
theorem C47_im2col [Zero α] (g : Geom) (hs : g.sh ≠ 0 ∧ g.sw ≠ 0) (img col : Arr α)
    (hi : img.size = g.H * g.W * g.C) (hc : col.size = g.hc * g.wc * g.KH * g.KW * g.C) :
    ∃ col', im2col g img col = some col' ∧ col'.size = col.size ∧
      ∀ h w kh kw c, h < g.hc → w < g.wc → kh < g.KH → kw < g.KW → c < g.C →
        col'.at' (g.place h w kh kw c) =
          pixel g img ((h : Int) * g.sh - g.pt + kh) ((w : Int) * g.sw - g.pl + kw) c := by
  obtain ⟨col', h1, idx, _, h2, h3⟩ := im2col_inv g hs img hi col hc
  refine ⟨col', h1, h2.trans hc.symm, ?_⟩
  intro h w kh kw c hh hw hkh hkw hcc
  have := h3 (g.num h w kh kw) (num_lt g hh hw hkh hkw) c hcc
  rw [rowOf_num g hw hkh hkw, colOf_num g hw hkh hkw] at this
  exact this

/-- Sum over all patch entries as a sum over output pixels and kernel offsets. -/
theorem sum_num [AddCommMonoid α] (g : Geom) (F : Nat → α) :
    ∑ q ∈ range (g.hc * g.wc * g.KH * g.KW), F q =
      ∑ h ∈ range g.hc, ∑ w ∈ range g.wc, ∑ kh ∈ range g.KH, ∑ kw ∈ range g.KW, F (g.num h w kh kw) := by
  rw [sum_range_mul, sum_range_mul, sum_range_mul]
  rfl

theorem pix_inj {g : Geom} {y x y' x' c c' : Nat} (hx : x < g.W) (hx' : x' < g.W) (hc : c < g.C) (hc' : c' < g.C)
    (h : (y * g.W + x) * g.C + c = (y' * g.W + x') * g.C + c') : y = y' ∧ x = x' ∧ c = c' := by
  have h1 := congrArg (· / g.C) h
  have h2 := congrArg (· % g.C) h
  simp only [div_of hc, div_of hc', mod_of hc, mod_of hc'] at h1 h2
  have h3 := congrArg (· / g.W) h1
  have h4 := congrArg (· % g.W) h1
  simp only [div_of hx, div_of hx', mod_of hx, mod_of hx'] at h3 h4
  exact ⟨h3, h4, h2⟩

/-- The contribution of a patch entry to a pixel. -/
theorem contrib_eq [CommRing α] (g : Geom) (col : Arr α) {y x c : Nat} (hy : y < g.H) (hx : x < g.W) (hc : c < g.C)
    (q : Nat) : contrib g col ((y * g.W + x) * g.C + c) q =
      if g.rowOf q = y ∧ g.colOf q = x then col.at' (q * g.C + c) else 0 := by
  unfold contrib
  by_cases hin : 0 ≤ g.rowOf q ∧ g.rowOf q < g.H ∧ 0 ≤ g.colOf q ∧ g.colOf q < g.W
  · rw [if_pos hin]
    by_cases heq : g.rowOf q = y ∧ g.colOf q = x
    · rw [if_pos heq, heq.1, heq.2]
      simp only [Int.toNat_natCast]
      rw [Finset.sum_eq_single c]
      · rw [if_pos rfl]
      · intro d _ hd
        rw [if_neg (by omega)]
      · intro h; exact absurd (Finset.mem_range.2 hc) h
    · rw [if_neg heq]
      refine Finset.sum_eq_zero (fun d hd => ?_)
      rw [if_neg]
      intro h
      obtain ⟨h1, h2, _⟩ := pix_inj (g := g) (x := (g.colOf q).toNat) (by omega) hx (Finset.mem_range.1 hd) hc h
      exact heq ⟨by omega, by omega⟩
  · rw [if_neg hin, if_neg]
    rintro ⟨h1, h2⟩
    exact hin ⟨by omega, by omega, by omega, by omega⟩

/-- **C47 (col2im).** `col2im` stays within its arrays and adds to every pixel all entries of
the matrix of patches that belong to it. -/
theorem C47_col2im [CommRing α] (g : Geom) (hs : g.sh ≠ 0 ∧ g.sw ≠ 0) (col img : Arr α)
    (hi : img.size = g.H * g.W * g.C) (hc : col.size = g.hc * g.wc * g.KH * g.KW * g.C) :
    ∃ img', col2im g col img = some img' ∧ img'.size = img.size ∧
      ∀ y x c, y < g.H → x < g.W → c < g.C → img'.at' ((y * g.W + x) * g.C + c) =
        img.at' ((y * g.W + x) * g.C + c) +
        ∑ h ∈ range g.hc, ∑ w ∈ range g.wc, ∑ kh ∈ range g.KH, ∑ kw ∈ range g.KW,
          if (h : Int) * g.sh - g.pt + kh = y ∧ (w : Int) * g.sw - g.pl + kw = x then
            col.at' (g.place h w kh kw c) else 0 := by
  obtain ⟨img', h1, idx, _, h2, h3⟩ := col2im_inv g hs col img hi hc
  refine ⟨img', h1, h2.trans hi.symm, ?_⟩
  intro y x c hy hx hcc
  rw [h3, sum_num]
  congr 1
  refine sum_congr rfl (fun h _ => sum_congr rfl (fun w hw => sum_congr rfl (fun kh hkh =>
    sum_congr rfl (fun kw hkw => ?_))))
  rw [mem_range] at hw hkh hkw
  rw [contrib_eq g col hy hx hcc, rowOf_num g hw hkh hkw, colOf_num g hw hkh hkw]
  rfl

/-- A pixel of the padded image, read off the image. -/
theorem pixel_sum [CommRing α] (g : Geom) (img : Arr α) (Y X : Int) {c : Nat} (hc : c < g.C) :
    pixel g img Y X c = ∑ p ∈ range (g.H * g.W * g.C),
      if 0 ≤ Y ∧ Y < g.H ∧ 0 ≤ X ∧ X < g.W ∧ (Y.toNat * g.W + X.toNat) * g.C + c = p then img.at' p else 0 := by
  unfold pixel
  by_cases hin : 0 ≤ Y ∧ Y < g.H ∧ 0 ≤ X ∧ X < g.W
  · rw [if_pos hin, Finset.sum_eq_single ((Y.toNat * g.W + X.toNat) * g.C + c)]
    · rw [if_pos ⟨hin.1, hin.2.1, hin.2.2.1, hin.2.2.2, rfl⟩]
    · intro d _ hd
      rw [if_neg]
      rintro ⟨_, _, _, _, h⟩
      exact hd h.symm
    · intro h
      exact absurd (Finset.mem_range.2 (inside hin hc).1) h
  · rw [if_neg hin]
    symm
    refine Finset.sum_eq_zero (fun d _ => ?_)
    rw [if_neg]
    rintro ⟨h1, h2, h3, h4, _⟩
    exact hin ⟨h1, h2, h3, h4⟩

/-- **C47 (adjoint).** `col2im` is the transpose of `im2col`: for every image `x` and every
matrix of patches `p`, the scalar product of `im2col(x)` with `p` is the scalar product of `x`
with `col2im(p)` (added to zeros). -/
theorem C47_adjoint [CommRing α] (g : Geom) (hs : g.sh ≠ 0 ∧ g.sw ≠ 0) (x p work zeros : Arr α)
    (hx : x.size = g.H * g.W * g.C) (hp : p.size = g.hc * g.wc * g.KH * g.KW * g.C)
    (hw : work.size = g.hc * g.wc * g.KH * g.KW * g.C) (hz : zeros.size = g.H * g.W * g.C)
    (h0 : ∀ i, zeros.at' i = 0) :
    ∃ cx ip, im2col g x work = some cx ∧ col2im g p zeros = some ip ∧
      ∑ j ∈ range (g.hc * g.wc * g.KH * g.KW * g.C), cx.at' j * p.at' j =
      ∑ i ∈ range (g.H * g.W * g.C), x.at' i * ip.at' i := by
  obtain ⟨cx, h1, _, _, _, h2⟩ := im2col_inv g hs x hx work hw
  obtain ⟨ip, h3, _, _, _, h4⟩ := col2im_inv g hs p zeros hz hp
  refine ⟨cx, ip, h1, h3, ?_⟩
  rw [sum_range_mul]
  simp only [h4, h0, zero_add, Finset.mul_sum]
  conv_rhs => rw [Finset.sum_comm]
  refine sum_congr rfl (fun q hq => ?_)
  rw [mem_range] at hq
  have e1 : ∀ c ∈ range g.C, cx.at' (q * g.C + c) * p.at' (q * g.C + c) =
      ∑ i ∈ range (g.H * g.W * g.C), x.at' i *
        (if 0 ≤ g.rowOf q ∧ g.rowOf q < g.H ∧ 0 ≤ g.colOf q ∧ g.colOf q < g.W ∧
          ((g.rowOf q).toNat * g.W + (g.colOf q).toNat) * g.C + c = i then p.at' (q * g.C + c) else 0) := by
    intro c hc
    rw [mem_range] at hc
    rw [h2 q hq c hc, pixel_sum g x _ _ hc, Finset.sum_mul]
    refine sum_congr rfl (fun i _ => ?_)
    split <;> simp
  rw [sum_congr rfl e1, Finset.sum_comm]
  refine sum_congr rfl (fun i _ => ?_)
  rw [← Finset.mul_sum]
  congr 1
  unfold contrib
  by_cases hin : 0 ≤ g.rowOf q ∧ g.rowOf q < g.H ∧ 0 ≤ g.colOf q ∧ g.colOf q < g.W
  · rw [if_pos hin]
    refine sum_congr rfl (fun c _ => ?_)
    by_cases he : ((g.rowOf q).toNat * g.W + (g.colOf q).toNat) * g.C + c = i
    · rw [if_pos ⟨hin.1, hin.2.1, hin.2.2.1, hin.2.2.2, he⟩, if_pos he]
    · rw [if_neg (fun h => he h.2.2.2.2), if_neg he]
  · rw [if_neg hin]
    refine Finset.sum_eq_zero (fun c _ => ?_)
    rw [if_neg]
    rintro ⟨h1, h2, h3, h4, _⟩
    exact hin ⟨h1, h2, h3, h4⟩

/-- Position of a weight: filters, then kernel rows, kernel columns and channels. -/
def Geom.weight (g : Geom) (f kh kw c : Nat) : Nat := ((f * g.KH + kh) * g.KW + kw) * g.C + c

/-- Sum over the weights of a filter. -/
theorem sum_kp [AddCommMonoid α] (g : Geom) (F : Nat → α) :
    ∑ k ∈ range g.kp, F k = ∑ kh ∈ range g.KH, ∑ kw ∈ range g.KW, ∑ c ∈ range g.C,
      F ((kh * g.KW + kw) * g.C + c) := by
  unfold Geom.kp
  rw [sum_range_mul, sum_range_mul]

theorem place_eq (g : Geom) (h w kh kw c : Nat) :
    g.place h w kh kw c = (h * g.wc + w) * g.kp + ((kh * g.KW + kw) * g.C + c) := by
  unfold Geom.place Geom.kp; ring

theorem weight_eq (g : Geom) (f kh kw c : Nat) :
    g.weight f kh kw c = f * g.kp + ((kh * g.KW + kw) * g.C + c) := by
  unfold Geom.weight Geom.kp; ring

/-- **C47 (forward).** `conv2d_forward_batch` computes the convolution: for output pixel
`(h, w)` and filter `f` the sum over the window and all channels of the zero-padded image
times the weights, plus the bias. -/
theorem C47_forward [CommRing α] (g : Geom) (hs : g.sh ≠ 0 ∧ g.sw ≠ 0) (weights bias : Nat → α) (img : Arr α)
    (hi : img.size = g.H * g.W * g.C) :
    ∃ out, convForward g weights bias img = some out ∧
      ∀ h w f, h < g.hc → w < g.wc → out (h * g.wc + w) f =
        (∑ kh ∈ range g.KH, ∑ kw ∈ range g.KW, ∑ c ∈ range g.C,
          pixel g img ((h : Int) * g.sh - g.pt + kh) ((w : Int) * g.sw - g.pl + kw) c *
            weights (g.weight f kh kw c)) + bias f := by
  obtain ⟨col, h1, _, h2⟩ := C47_im2col g hs img ⟨g.px * g.kp, fun _ => 0⟩ hi (size_eq g)
  refine ⟨_, by unfold convForward; rw [h1]; rfl, ?_⟩
  intro h w f hh hw
  simp only
  congr 1
  rw [sum_kp]
  refine sum_congr rfl (fun kh hkh => sum_congr rfl (fun kw hkw => sum_congr rfl (fun c hc => ?_)))
  rw [mem_range] at hkh hkw hc
  rw [← place_eq, ← weight_eq, h2 h w kh kw c hh hw hkh hkw hc]

theorem place_div (g : Geom) {h w kh kw c : Nat} (hkh : kh < g.KH) (hkw : kw < g.KW) (hc : c < g.C) :
    g.place h w kh kw c / g.kp = h * g.wc + w ∧ g.place h w kh kw c % g.kp = (kh * g.KW + kw) * g.C + c := by
  have hlt : (kh * g.KW + kw) * g.C + c < g.kp := lt_mul (lt_mul hkh hkw) hc
  rw [place_eq, div_of hlt, mod_of hlt]
  exact ⟨rfl, rfl⟩

theorem weight_div (g : Geom) {f kh kw c : Nat} (hkh : kh < g.KH) (hkw : kw < g.KW) (hc : c < g.C) :
    g.weight f kh kw c / g.kp = f ∧ g.weight f kh kw c % g.kp = (kh * g.KW + kw) * g.C + c := by
  have hlt : (kh * g.KW + kw) * g.C + c < g.kp := lt_mul (lt_mul hkh hkw) hc
  rw [weight_eq, div_of hlt, mod_of hlt]
  exact ⟨rfl, rfl⟩

/-- What one image adds to the gradient of a weight. -/
def gradW [CommRing α] (g : Geom) (img : Arr α) (delta : Nat → Nat → α) (f kh kw c : Nat) : α :=
  ∑ h ∈ range g.hc, ∑ w ∈ range g.wc, delta (h * g.wc + w) f *
    pixel g img ((h : Int) * g.sh - g.pt + kh) ((w : Int) * g.sw - g.pl + kw) c

/-- What one image adds to the gradient of a bias. -/
def gradB [CommRing α] (g : Geom) (delta : Nat → Nat → α) (f : Nat) : α :=
  ∑ h ∈ range g.hc, ∑ w ∈ range g.wc, delta (h * g.wc + w) f

/-- What is added to the input delta of a pixel. -/
def gradX [CommRing α] (g : Geom) (nf : Nat) (weights : Nat → α) (delta : Nat → Nat → α) (y x c : Nat) : α :=
  ∑ h ∈ range g.hc, ∑ w ∈ range g.wc, ∑ kh ∈ range g.KH, ∑ kw ∈ range g.KW,
    if (h : Int) * g.sh - g.pt + kh = y ∧ (w : Int) * g.sw - g.pl + kw = x then
      ∑ f ∈ range nf, delta (h * g.wc + w) f * weights (g.weight f kh kw c) else 0

theorem convBackward_spec [CommRing α] (g : Geom) (hs : g.sh ≠ 0 ∧ g.sw ≠ 0) (nf : Nat) (weights : Nat → α)
    (img : Arr α) (delta : Nat → Nat → α) (b : Back α) (inDelta col0 : Arr α)
    (hi : img.size = g.H * g.W * g.C) (hd : inDelta.size = g.H * g.W * g.C) (hc0 : col0.size = g.px * g.kp) :
    ∃ b' d col', convBackward g nf weights img delta b inDelta col0 = some (b', d, col') ∧
      col'.size = g.px * g.kp ∧ d.size = inDelta.size ∧
      (∀ f kh kw c, kh < g.KH → kw < g.KW → c < g.C → b'.dw (g.weight f kh kw c) =
        b.dw (g.weight f kh kw c) + gradW g img delta f kh kw c) ∧
      (∀ f, b'.db f = b.db f + gradB g delta f) ∧
      (∀ y x c, y < g.H → x < g.W → c < g.C → d.at' ((y * g.W + x) * g.C + c) =
        inDelta.at' ((y * g.W + x) * g.C + c) + gradX g nf weights delta y x c) := by
  obtain ⟨col, h1, h1s, h2⟩ := C47_im2col g hs img col0 hi (hc0.trans (size_eq g))
  obtain ⟨d, h3, h3s, h4⟩ := C47_col2im g hs
    ⟨col.size, fun j => ∑ f ∈ range nf, delta (j / g.kp) f * weights (f * g.kp + j % g.kp)⟩ inDelta hd
    (by simp only [h1s, hc0, size_eq])
  refine ⟨⟨fun i => b.dw i + ∑ p ∈ range g.px, delta p (i / g.kp) * col.at' (p * g.kp + i % g.kp),
      fun f => b.db f + ∑ p ∈ range g.px, delta p f⟩, d,
    ⟨col.size, fun j => ∑ f ∈ range nf, delta (j / g.kp) f * weights (f * g.kp + j % g.kp)⟩,
    ?_, ?_, h3s, ?_, ?_, ?_⟩
  · unfold convBackward
    rw [h1]
    simp only [Option.bind_some, h3, Option.map_some]
  · simp only [h1s, hc0]
  · intro f kh kw c hkh hkw hc
    obtain ⟨e1, e2⟩ := weight_div g (f := f) hkh hkw hc
    simp only [e1, e2]
    congr 1
    unfold gradW Geom.px
    rw [sum_range_mul]
    refine sum_congr rfl (fun h hh => sum_congr rfl (fun w hw => ?_))
    rw [mem_range] at hh hw
    rw [← place_eq, h2 h w kh kw c hh hw hkh hkw hc]
  · intro f
    simp only [gradB, Geom.px]
    rw [sum_range_mul]
  · intro y x c hy hx hc
    rw [h4 y x c hy hx hc]
    congr 1
    unfold gradX
    refine sum_congr rfl (fun h hh => sum_congr rfl (fun w hw => sum_congr rfl (fun kh hkh =>
      sum_congr rfl (fun kw hkw => ?_))))
    rw [mem_range] at hkh hkw
    obtain ⟨e1, e2⟩ := place_div g (h := h) (w := w) hkh hkw hc
    simp only [e1, e2, weight_eq]

/-- **C47 (backward).** `conv2d_backward_batch` stays within its arrays; afterwards the weight
and bias gradients are the sums over all images of deltas times inputs, whatever they held
before (they are overwritten), and every input delta has been increased by the sum over all
windows that contain the pixel of delta times weight. -/
theorem C47_backward [CommRing α] (g : Geom) (hs : g.sh ≠ 0 ∧ g.sw ≠ 0) (nf : Nat) (weights : Nat → α)
    (imgs : List (Arr α × (Nat → Nat → α) × Arr α))
    (hi : ∀ e ∈ imgs, e.1.size = g.H * g.W * g.C ∧ e.2.2.size = g.H * g.W * g.C) (old : Back α) :
    ∃ b ds, convBackwardAll g nf weights imgs old = some (b, ds) ∧
      (∀ f kh kw c, kh < g.KH → kw < g.KW → c < g.C → b.dw (g.weight f kh kw c) =
        (imgs.map (fun e => gradW g e.1 e.2.1 f kh kw c)).sum) ∧
      (∀ f, b.db f = (imgs.map (fun e => gradB g e.2.1 f)).sum) ∧
      List.Forall₂ (fun e d => ∀ y x c, y < g.H → x < g.W → c < g.C →
        d.at' ((y * g.W + x) * g.C + c) =
          e.2.2.at' ((y * g.W + x) * g.C + c) + gradX g nf weights e.2.1 y x c) imgs ds := by
  have key : ∀ (imgs : List (Arr α × (Nat → Nat → α) × Arr α)),
      (∀ e ∈ imgs, e.1.size = g.H * g.W * g.C ∧ e.2.2.size = g.H * g.W * g.C) →
      ∀ (b0 : Back α) (col : Arr α), col.size = g.px * g.kp →
      ∃ b ds, convBackwardBatch g nf weights imgs b0 col = some (b, ds) ∧
      (∀ f kh kw c, kh < g.KH → kw < g.KW → c < g.C → b.dw (g.weight f kh kw c) =
        b0.dw (g.weight f kh kw c) + (imgs.map (fun e => gradW g e.1 e.2.1 f kh kw c)).sum) ∧
      (∀ f, b.db f = b0.db f + (imgs.map (fun e => gradB g e.2.1 f)).sum) ∧
      List.Forall₂ (fun e d => ∀ y x c, y < g.H → x < g.W → c < g.C →
        d.at' ((y * g.W + x) * g.C + c) =
          e.2.2.at' ((y * g.W + x) * g.C + c) + gradX g nf weights e.2.1 y x c) imgs ds := by
    intro imgs
    induction imgs with
    | nil => intro _ b0 col _; exact ⟨b0, [], rfl, by simp, by simp, .nil⟩
    | cons e rest ih =>
      intro hi b0 col hcol
      obtain ⟨img, delta, inD⟩ := e
      obtain ⟨q1, q2⟩ := hi (img, delta, inD) (by simp)
      obtain ⟨b1, d, col1, h1, h2, _, h3, h4, h5⟩ := convBackward_spec g hs nf weights img delta b0 inD col q1 q2 hcol
      obtain ⟨b2, ds, h6, h7, h8, h9⟩ := ih (fun e he => hi e (by simp [he])) b1 col1 h2
      refine ⟨b2, d :: ds, ?_, ?_, ?_, .cons h5 h9⟩
      · simp only [convBackwardBatch, h1, Option.bind_some, h6, Option.map_some]
      · intro f kh kw c a1 a2 a3
        rw [h7 f kh kw c a1 a2 a3, h3 f kh kw c a1 a2 a3, List.map_cons, List.sum_cons, add_assoc]
      · intro f
        rw [h8 f, h4 f, List.map_cons, List.sum_cons, add_assoc]
  obtain ⟨b, ds, h1, h2, h3, h4⟩ := key imgs hi ⟨fun _ => 0, fun _ => 0⟩ ⟨g.px * g.kp, fun _ => 0⟩ rfl
  refine ⟨b, ds, h1, ?_, ?_, h4⟩
  · intro f kh kw c a1 a2 a3; rw [h2 f kh kw c a1 a2 a3]; simp
  · intro f; rw [h3 f]; simp

/-! ### Non-vacuity -/

/-- A 3 × 2 image with 2 channels, a 2 × 2 kernel, padding 1 and strides 2 and 1. -/
def demoGeom : Geom := ⟨3, 2, 2, 2, 2, 1, 1, 1, 1, 2, 1⟩

/-- Its pixels are numbered 1, 2, .... -/
def demoImg : Arr Int := ⟨12, fun i => i + 1⟩

example : demoGeom.hc = 2 ∧ demoGeom.wc = 3 := by decide
example : demoImg.size = demoGeom.H * demoGeom.W * demoGeom.C := by decide
example : (im2col demoGeom demoImg ⟨48, fun _ => -1⟩).map (fun c => (List.range 48).map c.at') = some
    [0, 0, 0, 0, 0, 0, 1, 2, 0, 0, 0, 0, 1, 2, 3, 4, 0, 0, 0, 0, 3, 4, 0, 0,
     0, 0, 5, 6, 0, 0, 9, 10, 5, 6, 7, 8, 9, 10, 11, 12, 7, 8, 0, 0, 11, 12, 0, 0] := by decide +kernel
example : (convForward demoGeom (fun i => (i : Int)) (fun f => 100 * (f : Int)) demoImg).map (fun o => (o 1 0, o 1 1)) =
    some (60, 240) := by decide +kernel

end Verif.Conv
