import Verif.Gpu.Launch
import Verif.Conv.Props

/-!
# The CUDA kernels behind convolution: `im2col_fp32_kernel` and `col2im_fp32_kernel`
(brainstorm/handlers/pycuda_handler.py:682-762)
-/

namespace Verif.Gpu

open Verif.Numeric Verif.Conv Finset

variable {α : Type}

/-! ## Model -/

/-- The statements of `im2col_fp32_kernel` for an index (pycuda_handler.py:693-709).  The state of the
loops is the pointer `local_data_col` and the statements so far. -/
def im2colBody [Zero α] (g : Geom) (img : Arr α) (index : Nat) : Option (List (Op Unit α)) :=
  let c := index % g.C
  let wOut := index / g.C % g.wc
  let hOut := index / g.C / g.wc
  let hIn := (hOut : Int) * g.sh - g.pt
  let wIn := (wOut : Int) * g.sw - g.pl
  (loop (fun i (s : Int × List (Op Unit α)) =>
    loop (fun j (s : Int × List (Op Unit α)) =>
      (if hIn + i ≥ 0 ∧ wIn + j ≥ 0 ∧ hIn + i < g.H ∧ wIn + j < g.W then
        img.read (((hIn + i) * g.W + (wIn + j)) * g.C + c) else some 0).map
        (fun v => (s.1 + g.C, s.2 ++ [Op.set () s.1 v])))
      g.KW s)
    g.KH ((((hOut * g.wc + wOut) * g.C * g.KH * g.KW + c : Nat) : Int), [])).map (fun s => s.2)

/-- The launch of `im2col_fp32_kernel` (pycuda_handler.py:188-200, 239-250). -/
def im2colLaunch [Zero α] [Add α] (g : Geom) (img : Arr α) : Option (List (List (Instr Unit α))) :=
  gridLaunch (g.px * g.C) (im2colBody g img)

/-- `(w < patch_w) ? 0 : (w - patch_w) / stride_w + 1` (pycuda_handler.py:733, 735). -/
def gatherStart (pos kernel stride : Nat) : Nat := if pos < kernel then 0 else (pos - kernel) / stride + 1

/-- `min(w / stride_w + 1, width_col)` (pycuda_handler.py:734, 736). -/
def gatherEnd (pos stride n : Nat) : Nat := min (pos / stride + 1) n

/-- The statements of `col2im_fp32_kernel` for an index (pycuda_handler.py:728-756). -/
def col2imBody [Zero α] [Add α] (g : Geom) (col : Arr α) (index : Nat) : Option (List (Op Unit α)) :=
  let c := index % g.C
  let w := index / g.C % g.W + g.pl
  let h := index / g.C / g.W + g.pt
  let wStart := gatherStart w g.KW g.sw
  let wEnd := gatherEnd w g.sw g.wc
  let hStart := gatherStart h g.KH g.sh
  let hEnd := gatherEnd h g.sh g.hc
  let channelsCol : Int := g.KH * g.KW * g.C
  let offset : Int := (h * g.KW + w) * g.C + c
  let coeffH : Int := g.wc * channelsCol - g.sh * g.KW * g.C
  let coeffW : Int := channelsCol - g.sw * g.C
  ((List.range' hStart (hEnd - hStart)).foldlM (fun val (hCol : Nat) =>
    (List.range' wStart (wEnd - wStart)).foldlM (fun val (wCol : Nat) =>
      (col.read (offset + hCol * coeffH + wCol * coeffW)).map (fun v => val + v)) val) 0).map
    (fun val => [Op.add () index val])

/-- The launch of `col2im_fp32_kernel` (pycuda_handler.py:215-226). -/
def col2imLaunch [Zero α] [Add α] (g : Geom) (col : Arr α) : Option (List (List (Instr Unit α))) :=
  gridLaunch (g.H * g.W * g.C) (col2imBody g col)

/-- What the GPU's `conv2d_forward_batch` may compute for one image (pycuda_handler.py:237-258): some
execution of `im2col` into zeros, the matrix product with the transposed weights, and the bias.  `culinalg.dot`
and `add_matvec` are taken to be the product and the sum. -/
def GpuForward [CommRing α] (g : Geom) (w bias : Nat → α) (img : Arr α) (out : Nat → Nat → α) : Prop :=
  ∃ P l col, im2colLaunch g img = some P ∧ Interleaves P l ∧
    runOn (fun _ : Unit => (⟨g.px * g.kp, fun _ => 0⟩ : Arr α)) l = some col ∧
    out = fun p f => (∑ k ∈ Finset.range g.kp, (col ()).at' (p * g.kp + k) * w (f * g.kp + k)) + bias f

/-- What the loop over the images of the GPU's `conv2d_backward_batch` may compute
(pycuda_handler.py:185-226); the work array is shared by the images. -/
inductive GpuBackward [CommRing α] (g : Geom) (nf : Nat) (w : Nat → α) :
    List (Arr α × (Nat → Nat → α) × Arr α) → Back α → Arr α → Back α × List (Arr α) → Prop
  | nil (b : Back α) (col : Arr α) : GpuBackward g nf w [] b col (b, [])
  | cons (img : Arr α) (delta : Nat → Nat → α) (inDelta : Arr α) (rest : List (Arr α × (Nat → Nat → α) × Arr α))
      (b : Back α) (col : Arr α) (P : List (List (Instr Unit α))) (l : List (Instr Unit α)) (col1 : Unit → Arr α)
      (Q : List (List (Instr Unit α))) (l' : List (Instr Unit α)) (d : Unit → Arr α) (r : Back α × List (Arr α)) :
      im2colLaunch g img = some P → Interleaves P l → runOn (fun _ => col) l = some col1 →
      col2imLaunch g ⟨col.size, fun j => ∑ f ∈ Finset.range nf, delta (j / g.kp) f * w (f * g.kp + j % g.kp)⟩ = some Q →
      Interleaves Q l' → runOn (fun _ => inDelta) l' = some d →
      GpuBackward g nf w rest
        ⟨fun i => b.dw i + ∑ p ∈ Finset.range g.px, delta p (i / g.kp) * (col1 ()).at' (p * g.kp + i % g.kp),
         fun f => b.db f + ∑ p ∈ Finset.range g.px, delta p f⟩
        ⟨col.size, fun j => ∑ f ∈ Finset.range nf, delta (j / g.kp) f * w (f * g.kp + j % g.kp)⟩ r →
      GpuBackward g nf w ((img, delta, inDelta) :: rest) b col (r.1, d () :: r.2)

/-- `conv2d_backward_batch` on the GPU (pycuda_handler.py:174-226): the gradients are set to zero
first. -/
def GpuBackwardAll [CommRing α] (g : Geom) (nf : Nat) (w : Nat → α)
    (imgs : List (Arr α × (Nat → Nat → α) × Arr α)) (_old : Back α) (r : Back α × List (Arr α)) : Prop :=
  GpuBackward g nf w imgs ⟨fun _ => 0, fun _ => 0⟩ ⟨g.px * g.kp, fun _ => 0⟩ r

/-! ## Lemmas -/

/-- What the pointer walk of `im2col_fp32_kernel` does. -/
def im2colOps [Zero α] (g : Geom) (img : Arr α) (index : Nat) : List (Op Unit α) :=
  (List.range (g.KH * g.KW)).map (fun q => Op.set () (((index / g.C * (g.KH * g.KW) + q) * g.C + index % g.C : Nat) : Int)
    (pixel g img (g.rowOf (index / g.C * (g.KH * g.KW) + q)) (g.colOf (index / g.C * (g.KH * g.KW) + q)) (index % g.C)))

theorem num_div (g : Geom) (p i j : Nat) (hi : i < g.KH) (hj : j < g.KW) :
    (p * (g.KH * g.KW) + (i * g.KW + j)) / g.KW / g.KH = p ∧ (p * (g.KH * g.KW) + (i * g.KW + j)) / g.KW % g.KH = i ∧
    (p * (g.KH * g.KW) + (i * g.KW + j)) % g.KW = j := by
  have e : p * (g.KH * g.KW) + (i * g.KW + j) = (p * g.KH + i) * g.KW + j := by ring
  rw [e, div_of hj, mod_of hj, div_of hi, mod_of hi]
  exact ⟨rfl, rfl, rfl⟩

theorem im2colBody_spec [Zero α] (g : Geom) (img : Arr α) (hi : img.size = g.H * g.W * g.C) (index : Nat)
    (hx : index < g.px * g.C) : im2colBody g img index = some (im2colOps g img index) := by
  have hC : 0 < g.C := by
    rcases Nat.eq_zero_or_pos g.C with h | h
    · rw [h] at hx; omega
    · exact h
  have hc : index % g.C < g.C := Nat.mod_lt _ hC
  set p := index / g.C with hp
  set c := index % g.C with hcd
  let I : Nat → Int × List (Op Unit α) → Prop := fun q s =>
    s = ((((p * (g.KH * g.KW) + q) * g.C + c : Nat) : Int), (List.range q).map (fun q =>
      Op.set () (((p * (g.KH * g.KW) + q) * g.C + c : Nat) : Int)
        (pixel g img (g.rowOf (p * (g.KH * g.KW) + q)) (g.colOf (p * (g.KH * g.KW) + q)) c)))
  unfold im2colBody
  dsimp only
  rw [← hp, ← hcd]
  obtain ⟨s, h1, h2⟩ := loop_inv (f := fun i (s : Int × List (Op Unit α)) =>
    loop (fun j (s : Int × List (Op Unit α)) =>
      (if ((p / g.wc : Nat) : Int) * g.sh - g.pt + i ≥ 0 ∧ ((p % g.wc : Nat) : Int) * g.sw - g.pl + j ≥ 0 ∧
          ((p / g.wc : Nat) : Int) * g.sh - g.pt + i < g.H ∧ ((p % g.wc : Nat) : Int) * g.sw - g.pl + j < g.W then
        img.read (((((p / g.wc : Nat) : Int) * g.sh - g.pt + i) * g.W + (((p % g.wc : Nat) : Int) * g.sw - g.pl + j)) * g.C + c)
        else some 0).map
        (fun v => (s.1 + g.C, s.2 ++ [Op.set () s.1 v])))
      g.KW s) (n := g.KH) (fun i s => I (i * g.KW) s) (by
    intro i s hi' hs
    obtain ⟨s', h1, h2⟩ := loop_inv (f := fun j (s : Int × List (Op Unit α)) =>
      (if ((p / g.wc : Nat) : Int) * g.sh - g.pt + i ≥ 0 ∧ ((p % g.wc : Nat) : Int) * g.sw - g.pl + j ≥ 0 ∧
          ((p / g.wc : Nat) : Int) * g.sh - g.pt + i < g.H ∧ ((p % g.wc : Nat) : Int) * g.sw - g.pl + j < g.W then
        img.read (((((p / g.wc : Nat) : Int) * g.sh - g.pt + i) * g.W + (((p % g.wc : Nat) : Int) * g.sw - g.pl + j)) * g.C + c)
        else some 0).map
        (fun v => (s.1 + g.C, s.2 ++ [Op.set () s.1 v]))) (n := g.KW) (fun j s => I (i * g.KW + j) s) (by
      intro j s hj hs
      have hv : (if ((p / g.wc : Nat) : Int) * g.sh - g.pt + i ≥ 0 ∧ ((p % g.wc : Nat) : Int) * g.sw - g.pl + j ≥ 0 ∧
          ((p / g.wc : Nat) : Int) * g.sh - g.pt + i < g.H ∧ ((p % g.wc : Nat) : Int) * g.sw - g.pl + j < g.W then
        img.read (((((p / g.wc : Nat) : Int) * g.sh - g.pt + i) * g.W + (((p % g.wc : Nat) : Int) * g.sw - g.pl + j)) * g.C + c)
        else some 0) = some (pixel g img (g.rowOf (p * (g.KH * g.KW) + (i * g.KW + j)))
          (g.colOf (p * (g.KH * g.KW) + (i * g.KW + j))) c) := by
        obtain ⟨e1, e2, e3⟩ := num_div g p i j hi' hj
        unfold Geom.rowOf Geom.colOf Geom.row Geom.col pixel
        rw [e1, e2, e3]
        by_cases hin : 0 ≤ ((p / g.wc : Nat) : Int) * g.sh - g.pt + i ∧ ((p / g.wc : Nat) : Int) * g.sh - g.pt + i < g.H ∧
            0 ≤ ((p % g.wc : Nat) : Int) * g.sw - g.pl + j ∧ ((p % g.wc : Nat) : Int) * g.sw - g.pl + j < g.W
        · rw [if_pos ⟨hin.1, hin.2.2.1, hin.2.1, hin.2.2.2⟩, if_pos hin]
          obtain ⟨f1, f2⟩ := inside hin hc
          rw [Arr.read_nat img f2 (by rw [hi]; exact f1)]
        · rw [if_neg (fun h => hin ⟨h.1, h.2.2.1, h.2.1, h.2.2.2⟩), if_neg hin]
      refine ⟨_, by rw [hv]; rfl, ?_⟩
      show I (i * g.KW + j + 1) _
      simp only [I] at hs ⊢
      rw [hs, List.range_succ, List.map_append, List.map_singleton]
      congr 1
      push_cast
      ring) (s := s) hs
    refine ⟨s', h1, ?_⟩
    have : (i + 1) * g.KW = i * g.KW + g.KW := by ring
    rw [this]
    exact h2) (s := ((((p / g.wc * g.wc + p % g.wc) * g.C * g.KH * g.KW + c : Nat) : Int), [])) (by
    simp only [I, Nat.zero_mul, List.range_zero, List.map_nil, Nat.add_zero]
    rw [Nat.div_add_mod']
    congr 2
    ring)
  rw [h1]
  simp only [I] at h2
  rw [h2]
  rfl

theorem im2col_cell {g : Geom} {p p' q q' c c' : Nat} (hq : q < g.KH * g.KW) (hq' : q' < g.KH * g.KW) (hc : c < g.C)
    (hc' : c' < g.C) (h : (p * (g.KH * g.KW) + q) * g.C + c = (p' * (g.KH * g.KW) + q') * g.C + c') :
    p = p' ∧ q = q' ∧ c = c' := by
  have h1 := congrArg (· / g.C) h
  have h2 := congrArg (· % g.C) h
  simp only [div_of hc, div_of hc', mod_of hc, mod_of hc'] at h1 h2
  have h3 := congrArg (· / (g.KH * g.KW)) h1
  have h4 := congrArg (· % (g.KH * g.KW)) h1
  simp only [div_of hq, div_of hq', mod_of hq, mod_of hq'] at h3 h4
  exact ⟨h3, h4, h2⟩

/-! ## Properties -/

/-- **C65.**  Every execution of the GPU's `im2col` writes the patches that the CPU's writes. -/
theorem C65_im2col [AddCommMonoid α] (g : Geom) (hs : g.sh ≠ 0 ∧ g.sw ≠ 0) (img col : Arr α)
    (hi : img.size = g.H * g.W * g.C) (hc : col.size = g.hc * g.wc * g.KH * g.KW * g.C) :
    ∃ P cpu, im2colLaunch g img = some P ∧ im2col g img col = some cpu ∧
      ∀ l, Interleaves P l → ∃ out, runOn (fun _ => col) l = some out ∧
        (out ()).size = cpu.size ∧ ∀ i < col.size, (out ()).at' i = cpu.at' i := by
  obtain ⟨cpu, h1, idx, _, h2, h3⟩ := im2col_inv g hs img hi col hc
  have hC : ∀ t < g.px * g.C, 0 < g.C := by
    intro t ht
    rcases Nat.eq_zero_or_pos g.C with h | h
    · rw [h] at ht; omega
    · exact h
  obtain ⟨P, k1, k2⟩ := gridLaunch_spec (fun _ : Unit => col) (g.px * g.C) (im2colBody g img) (im2colOps g img)
    (fun t ht => im2colBody_spec g img hi t ht)
    (by
      intro t ht p hp
      obtain ⟨q, hq, rfl⟩ := List.mem_map.1 hp
      rw [List.mem_range] at hq
      have hc0 := hC t ht
      have hp : t / g.C < g.px := (Nat.div_lt_iff_lt_mul hc0).2 ht
      have := lt_mul (lt_mul hp hq) (Nat.mod_lt t hc0)
      simp only [Op.cell]
      refine ⟨by omega, ?_⟩
      rw [hc, show g.hc * g.wc * g.KH * g.KW * g.C = g.px * (g.KH * g.KW) * g.C by unfold Geom.px; ring]
      exact_mod_cast this)
    (by
      intro s t hst ht p hp q hq
      left
      obtain ⟨q, hq', rfl⟩ := List.mem_map.1 hq
      obtain ⟨r, hr, rfl⟩ := List.mem_map.1 hp
      rw [List.mem_range] at hq' hr
      have hc0 := hC t ht
      simp only [Op.cell, ne_eq, Prod.mk.injEq, true_and]
      intro h
      obtain ⟨e1, _, e2⟩ := im2col_cell hr hq' (Nat.mod_lt s hc0) (Nat.mod_lt t hc0) (by exact_mod_cast h)
      have f1 := Nat.div_add_mod s g.C
      have f2 := Nat.div_add_mod t g.C
      rw [e1, e2] at f1
      omega)
  refine ⟨P, cpu, k1, h1, fun l hl => ?_⟩
  obtain ⟨out, o1, o2⟩ := k2 l hl
  refine ⟨out, o1, (o2 ()).1.trans (hc.trans h2.symm), fun i hi' => ?_⟩
  have hC0 : 0 < g.C := by
    rcases Nat.eq_zero_or_pos g.C with h | h
    · rw [hc, h] at hi'; omega
    · exact h
  rw [hc] at hi'
  have hQ : i / g.C < g.hc * g.wc * g.KH * g.KW := (Nat.div_lt_iff_lt_mul hC0).2 hi'
  have hKK : 0 < g.KH * g.KW := by
    rcases Nat.eq_zero_or_pos (g.KH * g.KW) with h | h
    · rw [Nat.mul_assoc (g.hc * g.wc), h, Nat.mul_zero] at hQ; exact absurd hQ (Nat.not_lt_zero _)
    · exact h
  have hP : i / g.C / (g.KH * g.KW) < g.px := (Nat.div_lt_iff_lt_mul hKK).2 (by rwa [← Nat.mul_assoc])
  have hval := h3 (i / g.C) hQ (i % g.C) (Nat.mod_lt _ hC0)
  rw [Nat.div_add_mod'] at hval
  rw [hval]
  set p := i / g.C / (g.KH * g.KW) with hpd
  set q := i / g.C % (g.KH * g.KW) with hqd
  have hq : q < g.KH * g.KW := Nat.mod_lt _ hKK
  have hcl : i % g.C < g.C := Nat.mod_lt _ hC0
  have ht : p * g.C + i % g.C < g.px * g.C := lt_mul hP hcl
  have hpq : p * (g.KH * g.KW) + q = i / g.C := Nat.div_add_mod' _ _
  rw [(o2 ()).2 i, foldl_set _ () (i : Int) (pixel g img (g.rowOf (i / g.C)) (g.colOf (i / g.C)) (i % g.C))]
  · rw [List.mem_flatMap]
    refine ⟨p * g.C + i % g.C, List.mem_range.2 ht, ?_⟩
    unfold im2colOps
    rw [div_of hcl, mod_of hcl, List.mem_map]
    refine ⟨q, List.mem_range.2 hq, ?_⟩
    rw [hpq, Nat.div_add_mod']
  · intro x hx hcell
    obtain ⟨t, ht', hx⟩ := List.mem_flatMap.1 hx
    obtain ⟨r, hr, rfl⟩ := List.mem_map.1 hx
    rw [List.mem_range] at hr ht'
    simp only [Op.cell, Prod.mk.injEq, true_and] at hcell
    have he : (t / g.C * (g.KH * g.KW) + r) * g.C + t % g.C = (p * (g.KH * g.KW) + q) * g.C + i % g.C := by
      rw [hpq, Nat.div_add_mod']; exact_mod_cast hcell
    obtain ⟨e1, e2, e3⟩ := im2col_cell hr hq (Nat.mod_lt t hC0) hcl he
    rw [e1, e2, e3, hpq, Nat.div_add_mod']

/-- The output pixels whose window covers a position, in one direction. -/
theorem gather_mem {n s k Y h : Nat} (hs : s ≠ 0) :
    (gatherStart Y k s ≤ h ∧ h < gatherEnd Y s n) ↔ (h < n ∧ h * s ≤ Y ∧ Y < h * s + k) := by
  unfold gatherStart gatherEnd
  have h1 : h < Y / s + 1 ↔ h * s ≤ Y := by
    rw [Nat.lt_succ_iff, Nat.le_div_iff_mul_le (by omega)]
  have h2 : (if Y < k then 0 else (Y - k) / s + 1) ≤ h ↔ Y < h * s + k := by
    split_ifs with hk
    · simp only [Nat.zero_le, true_iff]; omega
    · rw [Nat.succ_le_iff, Nat.div_lt_iff_lt_mul (by omega)]; omega
  rw [h2, lt_min_iff, h1]
  tauto

/-- Summing over the windows that cover a position is summing over all windows and all offsets
that hit the position. -/
theorem gather_sum [AddCommMonoid α] (n s k Y : Nat) (hs : s ≠ 0) (F : Nat → Nat → α) :
    ∑ h ∈ range n, ∑ j ∈ range k, (if h * s + j = Y then F h j else 0) =
      ∑ h ∈ Ico (gatherStart Y k s) (gatherEnd Y s n), F h (Y - h * s) := by
  have e : ∀ h, ∑ j ∈ range k, (if h * s + j = Y then F h j else 0) =
      if h * s ≤ Y ∧ Y < h * s + k then F h (Y - h * s) else 0 := by
    intro h
    split_ifs with hh
    · rw [Finset.sum_eq_single (Y - h * s)]
      · rw [if_pos (by omega)]
      · intro j _ hj; rw [if_neg (by omega)]
      · intro hj; rw [mem_range] at hj; omega
    · refine Finset.sum_eq_zero (fun j hj => ?_)
      rw [mem_range] at hj
      rw [if_neg (by omega)]
  simp only [e]
  rw [← Finset.sum_filter]
  refine Finset.sum_congr ?_ (fun _ _ => rfl)
  ext h
  rw [mem_filter, mem_range, mem_Ico, gather_mem hs]

theorem foldlM_sum [AddCommMonoid α] (a b : Nat) (f : Nat → Option α) (v : Nat → α)
    (h : ∀ k, a ≤ k → k < b → f k = some (v k)) (x : α) :
    (List.range' a (b - a)).foldlM (fun s k => (f k).map (fun w => s + w)) x = some (x + ∑ k ∈ Ico a b, v k) := by
  have key : ∀ m x, a + m ≤ b → (List.range' a m).foldlM (fun s k => (f k).map (fun w => s + w)) x =
      some (x + ∑ k ∈ Ico a (a + m), v k) := by
    intro m
    induction m with
    | zero => intro x _; simp
    | succ m ih =>
      intro x hm
      rw [List.range'_concat, List.foldlM_append, ih x (by omega)]
      simp only [Nat.one_mul, List.foldlM_cons, List.foldlM_nil, Option.bind_eq_bind, Option.bind_some]
      rw [h (a + m) (by omega) (by omega), ← Nat.add_assoc, Finset.sum_Ico_succ_top (by omega), ← add_assoc]
      rfl
  by_cases hab : a ≤ b
  · have := key (b - a) x (by omega)
    rwa [Nat.add_sub_cancel' hab] at this
  · rw [Nat.sub_eq_zero_of_le (by omega), Finset.Ico_eq_empty (by omega)]
    simp

theorem foldlM_sum2 [AddCommMonoid α] (a b a' b' : Nat) (f : Nat → Nat → Option α) (v : Nat → Nat → α)
    (h : ∀ k, a ≤ k → k < b → ∀ k', a' ≤ k' → k' < b' → f k k' = some (v k k')) (x : α) :
    (List.range' a (b - a)).foldlM (fun s k =>
      (List.range' a' (b' - a')).foldlM (fun s k' => (f k k').map (fun w => s + w)) s) x =
      some (x + ∑ k ∈ Ico a b, ∑ k' ∈ Ico a' b', v k k') := by
  rw [← foldlM_sum a b (fun k => some (∑ k' ∈ Ico a' b', v k k')) (fun k => ∑ k' ∈ Ico a' b', v k k')
    (fun _ _ _ => rfl) x]
  have key : ∀ (L : List Nat), (∀ k ∈ L, a ≤ k ∧ k < b) → ∀ x, L.foldlM (fun s k =>
      (List.range' a' (b' - a')).foldlM (fun s k' => (f k k').map (fun w => s + w)) s) x =
      L.foldlM (fun s k => (some (∑ k' ∈ Ico a' b', v k k')).map (fun w => s + w)) x := by
    intro L
    induction L with
    | nil => intro _ x; rfl
    | cons k L ih =>
      intro hL x
      rw [List.foldlM_cons, List.foldlM_cons, foldlM_sum a' b' (f k) (v k)
        (h k (hL k (by simp)).1 (hL k (by simp)).2) x]
      exact ih (fun k hk => hL k (by simp [hk])) _
  refine key _ (fun k hk => ?_) x
  rw [List.mem_range'_1] at hk
  omega

/-- The sum that a thread of `col2im_fp32_kernel` adds to its cell. -/
def col2imVal [AddCommMonoid α] (g : Geom) (col : Arr α) (y x c : Nat) : α :=
  ∑ h ∈ Ico (gatherStart (y + g.pt) g.KH g.sh) (gatherEnd (y + g.pt) g.sh g.hc),
    ∑ w ∈ Ico (gatherStart (x + g.pl) g.KW g.sw) (gatherEnd (x + g.pl) g.sw g.wc),
      col.at' (g.place h w (y + g.pt - h * g.sh) (x + g.pl - w * g.sw) c)

theorem col2imVal_eq [AddCommMonoid α] (g : Geom) (hs : g.sh ≠ 0 ∧ g.sw ≠ 0) (col : Arr α) (y x c : Nat) :
    ∑ h ∈ range g.hc, ∑ w ∈ range g.wc, ∑ kh ∈ range g.KH, ∑ kw ∈ range g.KW,
      (if (h : Int) * g.sh - g.pt + kh = y ∧ (w : Int) * g.sw - g.pl + kw = x then
        col.at' (g.place h w kh kw c) else 0) = col2imVal g col y x c := by
  unfold col2imVal
  rw [← gather_sum g.hc g.sh g.KH (y + g.pt) hs.1 (fun h kh =>
    ∑ w ∈ Ico (gatherStart (x + g.pl) g.KW g.sw) (gatherEnd (x + g.pl) g.sw g.wc),
      col.at' (g.place h w kh (x + g.pl - w * g.sw) c))]
  refine Finset.sum_congr rfl (fun h _ => ?_)
  rw [Finset.sum_comm]
  refine Finset.sum_congr rfl (fun kh _ => ?_)
  rw [← gather_sum g.wc g.sw g.KW (x + g.pl) hs.2 (fun w kw => col.at' (g.place h w kh kw c))]
  have e1 : ((h : Int) * g.sh - g.pt + kh = y) ↔ h * g.sh + kh = y + g.pt := by
    constructor
    · intro e; have : ((h * g.sh + kh : Nat) : Int) = ((y + g.pt : Nat) : Int) := by push_cast; linarith
      exact_mod_cast this
    · intro e; have : ((h * g.sh + kh : Nat) : Int) = ((y + g.pt : Nat) : Int) := by rw [e]
      push_cast at this; linarith
  have e2 : ∀ w kw : Nat, ((w : Int) * g.sw - g.pl + kw = x) ↔ w * g.sw + kw = x + g.pl := by
    intro w kw
    constructor
    · intro e; have : ((w * g.sw + kw : Nat) : Int) = ((x + g.pl : Nat) : Int) := by push_cast; linarith
      exact_mod_cast this
    · intro e; have : ((w * g.sw + kw : Nat) : Int) = ((x + g.pl : Nat) : Int) := by rw [e]
      push_cast at this; linarith
  simp only [e1, e2]
  by_cases hh : h * g.sh + kh = y + g.pt
  · simp [hh]
  · simp [hh]

theorem col2imBody_spec [AddCommMonoid α] (g : Geom) (hs : g.sh ≠ 0 ∧ g.sw ≠ 0) (col : Arr α)
    (hc : col.size = g.hc * g.wc * g.KH * g.KW * g.C) (index : Nat) (hx : index < g.H * g.W * g.C) :
    col2imBody g col index =
      some [Op.add () index (col2imVal g col (index / g.C / g.W) (index / g.C % g.W) (index % g.C))] := by
  have hC : 0 < g.C := by
    rcases Nat.eq_zero_or_pos g.C with h | h
    · rw [h] at hx; omega
    · exact h
  have hcc : index % g.C < g.C := Nat.mod_lt _ hC
  unfold col2imBody
  dsimp only
  set c := index % g.C
  set x := index / g.C % g.W
  set y := index / g.C / g.W
  rw [foldlM_sum2 _ _ _ _ (fun hCol wCol => col.read ((((y + g.pt : Nat) : Int) * g.KW + ((x + g.pl : Nat) : Int)) * g.C + c +
    hCol * (g.wc * ((g.KH : Int) * g.KW * g.C) - g.sh * g.KW * g.C) + wCol * ((g.KH : Int) * g.KW * g.C - g.sw * g.C)))
    (fun h w => col.at' (g.place h w (y + g.pt - h * g.sh) (x + g.pl - w * g.sw) c)) ?_ 0]
  · rw [zero_add]; rfl
  · intro h hh1 hh2 w hw1 hw2
    obtain ⟨a1, a2, a3⟩ := (gather_mem hs.1).1 ⟨hh1, hh2⟩
    obtain ⟨b1, b2, b3⟩ := (gather_mem hs.2).1 ⟨hw1, hw2⟩
    obtain ⟨kh, ekh⟩ := Nat.exists_eq_add_of_le a2
    obtain ⟨kw, ekw⟩ := Nat.exists_eq_add_of_le b2
    have f1 : kh < g.KH := by omega
    have f2 : kw < g.KW := by omega
    have g1 : y + g.pt - h * g.sh = kh := by omega
    have g2 : x + g.pl - w * g.sw = kw := by omega
    rw [g1, g2]
    refine Arr.read_nat col ?_ ?_
    · rw [ekh, ekw]
      unfold Geom.place
      push_cast
      ring
    · rw [hc]
      exact lt_mul (num_lt g a1 b1 f1 f2) hcc

/-- **C65.**  Every execution of the GPU's `col2im` adds to the image what the CPU's adds. -/
theorem C65_col2im [CommRing α] (g : Geom) (hs : g.sh ≠ 0 ∧ g.sw ≠ 0) (col img : Arr α)
    (hi : img.size = g.H * g.W * g.C) (hc : col.size = g.hc * g.wc * g.KH * g.KW * g.C) :
    ∃ P cpu, col2imLaunch g col = some P ∧ col2im g col img = some cpu ∧
      ∀ l, Interleaves P l → ∃ out, runOn (fun _ => img) l = some out ∧
        (out ()).size = cpu.size ∧ ∀ i < img.size, (out ()).at' i = cpu.at' i := by
  obtain ⟨cpu, h1, h2, h3⟩ := C47_col2im g hs col img hi hc
  obtain ⟨P, k1, k2⟩ := gridLaunch_spec (fun _ : Unit => img) (g.H * g.W * g.C) (col2imBody g col)
    (fun index => [Op.add () index (col2imVal g col (index / g.C / g.W) (index / g.C % g.W) (index % g.C))])
    (fun t ht => col2imBody_spec g hs col hc t ht)
    (by
      intro t ht p hp
      rw [List.mem_singleton] at hp
      subst hp
      simp only [Op.cell]
      omega)
    (by
      intro s t hst ht p hp q hq
      rw [List.mem_singleton] at hp hq
      subst hp hq
      left
      simp only [Op.cell, ne_eq, Prod.mk.injEq, true_and]
      omega)
  refine ⟨P, cpu, k1, h1, fun l hl => ?_⟩
  obtain ⟨out, o1, o2⟩ := k2 l hl
  refine ⟨out, o1, (o2 ()).1.trans h2.symm, fun i hi' => ?_⟩
  rw [hi] at hi'
  have hC0 : 0 < g.C := by
    rcases Nat.eq_zero_or_pos g.C with h | h
    · rw [h] at hi'; omega
    · exact h
  have hQ : i / g.C < g.H * g.W := (Nat.div_lt_iff_lt_mul hC0).2 hi'
  have hW0 : 0 < g.W := by
    rcases Nat.eq_zero_or_pos g.W with h | h
    · rw [h, Nat.mul_zero] at hQ; exact absurd hQ (Nat.not_lt_zero _)
    · exact h
  have hy : i / g.C / g.W < g.H := (Nat.div_lt_iff_lt_mul hW0).2 hQ
  have hval := h3 _ _ _ hy (Nat.mod_lt (i / g.C) hW0) (Nat.mod_lt i hC0)
  rw [Nat.div_add_mod', Nat.div_add_mod'] at hval
  rw [hval, col2imVal_eq g hs, (o2 ()).2 i, filter_flatMap _ (i := i) hi' ((), (i : Int))]
  · simp [Op.cell, Op.newVal]
  · intro t ht hti p hp
    rw [List.mem_singleton] at hp
    subst hp
    simp only [Op.cell, ne_eq, Prod.mk.injEq, true_and]
    omega

/-- There is always an execution. -/
theorem exists_interleaving {A : Type} (P : List (List A)) : ∃ l, Interleaves P l := by
  have key : ∀ (P₂ P₁ : List (List A)), (∀ p ∈ P₁, p = []) → ∃ l, Interleaves (P₁ ++ P₂) l := by
    intro P₂
    induction P₂ with
    | nil => intro P₁ h; exact ⟨[], .done _ (by simpa using h)⟩
    | cons p P₂ ih =>
      intro P₁ h
      induction p with
      | nil =>
        obtain ⟨l, hl⟩ := ih (P₁ ++ [[]]) (by
          intro q hq; rcases List.mem_append.1 hq with hq | hq
          · exact h q hq
          · simpa using hq)
        exact ⟨l, by simpa using hl⟩
      | cons x p ihp =>
        obtain ⟨l, hl⟩ := ihp
        exact ⟨x :: l, .step P₁ x p P₂ l hl⟩
  simpa using key P [] (by simp)

/-- **C65.**  The GPU's convolution of an image gives the outputs of the CPU's, whatever the order
in which the threads run; it cannot fail. -/
theorem C65_conv_forward [CommRing α] (g : Geom) (hs : g.sh ≠ 0 ∧ g.sw ≠ 0) (w bias : Nat → α) (img : Arr α)
    (hi : img.size = g.H * g.W * g.C) :
    ∃ cpu, convForward g w bias img = some cpu ∧ (∃ out, GpuForward g w bias img out) ∧
      ∀ out, GpuForward g w bias img out → ∀ p < g.px, ∀ f, out p f = cpu p f := by
  obtain ⟨P, col', h1, h2, h3⟩ := C65_im2col g hs img ⟨g.px * g.kp, fun _ => 0⟩ hi (size_eq g)
  refine ⟨_, by unfold convForward; rw [h2]; rfl, ?_, ?_⟩
  · obtain ⟨l, hl⟩ := exists_interleaving P
    obtain ⟨col, k1, _⟩ := h3 l hl
    exact ⟨_, P, l, col, h1, hl, k1, rfl⟩
  · rintro out ⟨P', l, col, e1, hl, e2, rfl⟩ p hp f
    rw [h1, Option.some.injEq] at e1
    subst e1
    obtain ⟨col2, k1, _, k2⟩ := h3 l hl
    rw [k1, Option.some.injEq] at e2
    subst e2
    dsimp only
    congr 1
    refine Finset.sum_congr rfl (fun k hk => ?_)
    rw [k2 _ (lt_mul hp (mem_range.1 hk))]

/-- **C65.**  The GPU's backward pass of convolution gives the gradients and input deltas of the CPU's,
whatever the order in which the threads run; it cannot fail. -/
theorem C65_conv_backward [CommRing α] (g : Geom) (hs : g.sh ≠ 0 ∧ g.sw ≠ 0) (nf : Nat) (w : Nat → α)
    (imgs : List (Arr α × (Nat → Nat → α) × Arr α))
    (hi : ∀ e ∈ imgs, e.1.size = g.H * g.W * g.C ∧ e.2.2.size = g.H * g.W * g.C) (old : Back α) :
    ∃ cpu, convBackwardAll g nf w imgs old = some cpu ∧ (∃ r, GpuBackwardAll g nf w imgs old r) ∧
      ∀ r, GpuBackwardAll g nf w imgs old r → (∀ i < nf * g.kp, r.1.dw i = cpu.1.dw i) ∧ (∀ f, r.1.db f = cpu.1.db f) ∧
        List.Forall₂ (fun d d' : Arr α => d.size = d'.size ∧ ∀ i < d.size, d.at' i = d'.at' i) r.2 cpu.2 := by
  have key : ∀ (imgs : List (Arr α × (Nat → Nat → α) × Arr α)),
      (∀ e ∈ imgs, e.1.size = g.H * g.W * g.C ∧ e.2.2.size = g.H * g.W * g.C) →
      ∀ (b : Back α) (col : Arr α), col.size = g.px * g.kp →
      ∃ cpu, convBackwardBatch g nf w imgs b col = some cpu ∧
      ∀ b' : Back α, (∀ i < nf * g.kp, b'.dw i = b.dw i) → (∀ f, b'.db f = b.db f) →
      (∃ r, GpuBackward g nf w imgs b' col r) ∧
      ∀ r, GpuBackward g nf w imgs b' col r → (∀ i < nf * g.kp, r.1.dw i = cpu.1.dw i) ∧ (∀ f, r.1.db f = cpu.1.db f) ∧
        List.Forall₂ (fun d d' : Arr α => d.size = d'.size ∧ ∀ i < d.size, d.at' i = d'.at' i) r.2 cpu.2 := by
    intro imgs
    induction imgs with
    | nil =>
      intro _ b col _
      refine ⟨_, rfl, fun b' hb1 hb2 => ⟨⟨_, .nil b' col⟩, ?_⟩⟩
      intro r hr
      cases hr
      exact ⟨hb1, hb2, .nil⟩
    | cons e imgs ih =>
      obtain ⟨img, delta, inDelta⟩ := e
      intro hi b col hcol
      have hi0 := hi _ (List.mem_cons_self)
      obtain ⟨P, c1, p1, p2, p3⟩ := C65_im2col g hs img col hi0.1 (hcol.trans (size_eq g))
      obtain ⟨Q, d1, q1, q2, q3⟩ := C65_col2im g hs
        ⟨col.size, fun j => ∑ f ∈ Finset.range nf, delta (j / g.kp) f * w (f * g.kp + j % g.kp)⟩ inDelta hi0.2
        (hcol.trans (size_eq g))
      have hcs : c1.size = col.size := by
        obtain ⟨l, hl⟩ := exists_interleaving P
        obtain ⟨o, o1, o2, _⟩ := p3 l hl
        unfold runOn at o1
        cases hrun : run (fun a : Unit => ((fun _ : Unit => col) a).size) l (Mem.of (fun _ : Unit => col)) with
        | none => rw [hrun] at o1; cases o1
        | some m => rw [hrun, Option.map_some, Option.some.injEq] at o1; rw [← o2, ← o1]
      obtain ⟨cpu, r1, r2⟩ := ih (fun e he => hi e (List.mem_cons_of_mem _ he))
        ⟨fun i => b.dw i + ∑ p ∈ Finset.range g.px, delta p (i / g.kp) * c1.at' (p * g.kp + i % g.kp),
         fun f => b.db f + ∑ p ∈ Finset.range g.px, delta p f⟩
        ⟨col.size, fun j => ∑ f ∈ Finset.range nf, delta (j / g.kp) f * w (f * g.kp + j % g.kp)⟩ hcol
      refine ⟨(cpu.1, d1 :: cpu.2), ?_, ?_⟩
      · unfold convBackwardBatch convBackward
        rw [p2]
        dsimp only [Option.bind_some]
        rw [hcs, q2]
        dsimp only [Option.map_some, Option.bind_some]
        rw [r1]
        rfl
      · intro b' hb1 hb2
        have hstep : ∀ col1 : Unit → Arr α, (∀ i < col.size, (col1 ()).at' i = c1.at' i) →
            ∀ i < nf * g.kp, b'.dw i + ∑ p ∈ Finset.range g.px, delta p (i / g.kp) * (col1 ()).at' (p * g.kp + i % g.kp) =
              b.dw i + ∑ p ∈ Finset.range g.px, delta p (i / g.kp) * c1.at' (p * g.kp + i % g.kp) := by
          intro col1 hcol1 i hi'
          have hkp : 0 < g.kp := by
            rcases Nat.eq_zero_or_pos g.kp with h | h
            · rw [h] at hi'; omega
            · exact h
          rw [hb1 i hi']
          congr 1
          refine Finset.sum_congr rfl (fun p hp => ?_)
          rw [hcol1 _ (by rw [hcol]; exact lt_mul (mem_range.1 hp) (Nat.mod_lt _ hkp))]
        constructor
        · obtain ⟨l, hl⟩ := exists_interleaving P
          obtain ⟨l', hl'⟩ := exists_interleaving Q
          obtain ⟨o, o1, _, o3⟩ := p3 l hl
          obtain ⟨o', o1', _, _⟩ := q3 l' hl'
          obtain ⟨⟨r, hr⟩, _⟩ := r2 ⟨_, _⟩ (hstep o o3) (fun f => congrArg (· + _) (hb2 f))
          exact ⟨_, .cons img delta inDelta imgs b' col P l o Q l' o' r p1 hl o1 q1 hl' o1' hr⟩
        · intro r hr
          cases hr with
          | cons _ _ _ _ _ _ P' l col1 Q' l' d r x1 hl x2 x3 hl' x4 x5 =>
            rw [p1, Option.some.injEq] at x1
            rw [q1, Option.some.injEq] at x3
            subst x1 x3
            obtain ⟨o, o1, _, o3⟩ := p3 l hl
            obtain ⟨o', o1', o2', o3'⟩ := q3 l' hl'
            rw [o1, Option.some.injEq] at x2
            rw [o1', Option.some.injEq] at x4
            subst x2 x4
            obtain ⟨_, hall⟩ := r2 ⟨_, _⟩ (hstep o o3) (fun f => congrArg (· + _) (hb2 f))
            obtain ⟨y1, y2, y3⟩ := hall r x5
            refine ⟨y1, y2, .cons ⟨o2', fun i hi' => o3' i ?_⟩ y3⟩
            have hd1 : d1.size = inDelta.size := by
              unfold runOn at o1'
              cases hrun : run (fun a : Unit => ((fun _ : Unit => inDelta) a).size) l' (Mem.of (fun _ : Unit => inDelta)) with
              | none => rw [hrun] at o1'; cases o1'
              | some m => rw [hrun, Option.map_some, Option.some.injEq] at o1'; rw [← o2', ← o1']
            omega
  obtain ⟨cpu, h1, h2⟩ := key imgs hi ⟨fun _ => 0, fun _ => 0⟩ ⟨g.px * g.kp, fun _ => 0⟩ rfl
  obtain ⟨h3, h4⟩ := h2 ⟨fun _ => 0, fun _ => 0⟩ (fun _ _ => rfl) (fun _ => rfl)
  exact ⟨cpu, h1, h3, h4⟩

/-! ## Examples -/

/-- The image of the example for C47: the GPU makes the same columns. -/
example : (im2colLaunch demoGeom demoImg).map (fun P =>
      (runOn (fun _ : Unit => (⟨48, fun _ => -1⟩ : Arr Int)) P.flatten).map (fun r => (List.range 48).map (r ()).at')) =
    some ((im2col demoGeom demoImg ⟨48, fun _ => -1⟩).map (fun c => (List.range 48).map c.at')) := by decide +kernel

/-- An image that is too small is an error. -/
example : (im2colLaunch demoGeom (⟨1, fun _ => (5 : Int)⟩)).isNone = true := by decide +kernel

/-- `col2im` adds several columns to the same pixel. -/
example : (col2imLaunch demoGeom (⟨48, fun i => (i : Int)⟩)).map (fun P =>
      (runOn (fun _ : Unit => (⟨demoImg.size, fun _ => 1000⟩ : Arr Int)) P.flatten).map (fun r =>
        (List.range demoImg.size).map (r ()).at')) =
    some ((col2im demoGeom ⟨48, fun i => (i : Int)⟩ ⟨demoImg.size, fun _ => 1000⟩).map (fun d =>
      (List.range demoImg.size).map d.at')) := by decide +kernel

/-- Two threads that add to the same cell without `atomicAdd` may lose an update: the order load, load, store, store. -/
example : let a : Op Unit Int := .add () 0 1
    ∃ l, Interleaves [a.compile 0, a.compile 1] l ∧
      (runOn (fun _ : Unit => (⟨1, fun _ => 0⟩ : Arr Int)) l).map (fun r => (r ()).at' 0) = some 1 := by
  refine ⟨[⟨[.glob () 0], .reg 0, fun l => l.headD 0⟩, ⟨[.glob () 0], .reg 1, fun l => l.headD 0⟩,
    ⟨[.reg 0], .glob () 0, fun l => l.headD 0 + 1⟩, ⟨[.reg 1], .glob () 0, fun l => l.headD 0 + 1⟩], ?_, by decide +kernel⟩
  exact .step [] _ _ _ _ (.step [_] _ _ [] _ (.step [] _ _ _ _ (.step [_] _ _ [] _ (.done _ (by simp)))))

end Verif.Gpu
