import Verif.Network.Instances
import Verif.Layers.ConvGrad
import Verif.Layers.PoolGrad

/-!
# Convolution2D, Pooling2D and Dropout as layers of a network

As in `Instances.lean`: the numbers each layer reads and writes, its two passes (the models of
`Layers/ConvGrad.lean` and `Pool/Model.lean`), `Fresh` for C20 and `Right` for C21.  Images and
weights are numbered in row-major order.
-/

namespace Verif.Network

open Verif.Layers Verif.Numeric Finset

noncomputable section

/-- The first `m` numbers of a buffer; what lies behind is never read. -/
def cells {m : ℕ} (f : Fin m → ℝ) : ℕ → ℝ := fun j => if h : j < m then f ⟨j, h⟩ else 0

theorem cells_val {m : ℕ} (f : Fin m → ℝ) (j : Fin m) : cells f j = f j := by
  unfold cells
  rw [dif_pos j.2]

theorem cells_hasDerivAt {m : ℕ} {X : ℝ → Fin m → ℝ} {X' : Fin m → ℝ}
    (h : ∀ j, HasDerivAt (fun t => X t j) (X' j) 0) (j : ℕ) :
    HasDerivAt (fun t => cells (X t) j) (cells X' j) 0 := by
  unfold cells
  split
  · exact h _
  · exact hasDerivAt_const _ _

/-! ## Convolution2D -/

section conv
open Verif.Conv

/-- `n` images, weights of `nf` filters, bias. -/
abbrev ConvI (g : Geom) (n nf : ℕ) := (Fin n × Fin (g.H * g.W * g.C)) ⊕ (Fin (nf * g.kp) ⊕ Fin nf)

/-- `n` images of `hc * wc` pixels with `nf` channels. -/
abbrev ConvO (g : Geom) (n nf : ℕ) := Fin n × Fin (g.hc * g.wc) × Fin nf

/-- Image `j` of a batch as a flat array. -/
def image (g : Geom) {n : ℕ} (f : Fin n × Fin (g.H * g.W * g.C) → ℝ) (j : ℕ) : Arr ℝ :=
  ⟨g.H * g.W * g.C, fun q => if h : j < n then cells (fun r => f (⟨j, h⟩, r)) q else 0⟩

/-- Outputs or output deltas of image `j`. -/
def outImage (g : Geom) {n nf : ℕ} (f : ConvO g n nf → ℝ) (j : ℕ) : ℕ → ℕ → ℝ := fun p c =>
  if h : j < n ∧ p < g.hc * g.wc ∧ c < nf then f (⟨j, h.1⟩, ⟨p, h.2.1⟩, ⟨c, h.2.2⟩) else 0

/-- `Convolution2DLayerImpl` (convolution_layer_2d.py:77-111).  An error of one of the operations would
leave the buffers as they are. -/
def convLayer (a : Act) (g : Geom) (n nf : ℕ) : VLayer (ConvI g n nf) (ConvO g n nf) Empty Empty where
  F := fun _ i o k => (fun b =>
    match convLayerForward a g (cells (i ∘ .inr ∘ .inl)) (cells (i ∘ .inr ∘ .inr)) (image g (i ∘ .inl) b.1) with
    | none => o b
    | some out => out b.2.1 b.2.2, k)
  B := fun _ i o _ δO δI =>
    match convLayerBackward a g nf (cells (i ∘ .inr ∘ .inl)) ((List.range n).map fun j =>
        (image g (i ∘ .inl) j, outImage g o j, outImage g δO j, image g (δI ∘ .inl) j))
        ⟨cells (δI ∘ .inr ∘ .inl), cells (δI ∘ .inr ∘ .inr)⟩ with
    | none => δI
    | some r => Sum.elim (fun b => (r.2.getD b.1 ⟨0, fun _ => 0⟩).at' b.2)
        (Sum.elim (fun b => r.1.dw b) (fun b => r.1.db b))
  isLoss := false
  over := Sum.elim (fun _ => false) (fun _ => true)

/-- **C20 (Convolution2D).** -/
theorem C20_convolution (a : Act) (g : Geom) (hs : g.sh ≠ 0 ∧ g.sw ≠ 0) (n nf : ℕ) : (convLayer a g n nf).Fresh := by
  intro p i o k o' k'
  funext b
  obtain ⟨out, h, _⟩ := C47_forward g hs (cells (i ∘ .inr ∘ .inl)) (cells (i ∘ .inr ∘ .inr))
    (image g (i ∘ .inl) b.1) rfl
  have h' : convLayerForward a g (cells (i ∘ .inr ∘ .inl)) (cells (i ∘ .inr ∘ .inr)) (image g (i ∘ .inl) b.1) =
      some (fun p f => a.f (out p f)) := by
    unfold convLayerForward
    rw [h]
    rfl
  show (match convLayerForward a g _ _ _ with | none => _ | some out => _) =
    (match convLayerForward a g _ _ _ with | none => _ | some out => _)
  rw [h']

theorem outImage_val (g : Geom) {n nf : ℕ} (f : ConvO g n nf → ℝ) (b : ConvO g n nf) :
    outImage g f b.1 b.2.1 b.2.2 = f b := by
  unfold outImage
  rw [dif_pos ⟨b.1.2, b.2.1.2, b.2.2.2⟩]

theorem image_val (g : Geom) {n : ℕ} (f : Fin n × Fin (g.H * g.W * g.C) → ℝ) (b : Fin n × Fin (g.H * g.W * g.C)) :
    (image g f b.1).at' b.2 = f b := by
  show (if h : (b.1 : ℕ) < n then cells (fun r => f (⟨b.1, h⟩, r)) b.2 else 0) = _
  rw [dif_pos b.1.2, cells_val]

theorem sum_fin {m : ℕ} (F : ℕ → ℝ) : ∑ j : Fin m, F j = ∑ j ∈ range m, F j := (Finset.sum_range F).symm

theorem sum_convO (g : Geom) {n nf : ℕ} (F : ℕ → ℕ → ℕ → ℝ) :
    ∑ b : ConvO g n nf, F b.1 b.2.1 b.2.2 =
      ∑ i ∈ range n, ∑ h ∈ range g.hc, ∑ w ∈ range g.wc, ∑ f ∈ range nf, F i (h * g.wc + w) f := by
  rw [Fintype.sum_prod_type]
  dsimp only
  rw [sum_fin fun i => ∑ q : Fin (g.hc * g.wc) × Fin nf, F i q.1 q.2]
  refine sum_congr rfl fun i _ => ?_
  rw [Fintype.sum_prod_type]
  dsimp only
  rw [sum_fin fun p => ∑ f : Fin nf, F i p f, sum_range_mul]
  refine sum_congr rfl fun h _ => sum_congr rfl fun w _ => ?_
  rw [sum_fin fun f => F i (h * g.wc + w) f]

theorem sum_image (g : Geom) {n : ℕ} (F : ℕ → ℕ → ℝ) :
    ∑ b : Fin n × Fin (g.H * g.W * g.C), F b.1 b.2 =
      ∑ i ∈ range n, ∑ y ∈ range g.H, ∑ x ∈ range g.W, ∑ c ∈ range g.C, F i ((y * g.W + x) * g.C + c) := by
  rw [Fintype.sum_prod_type]
  dsimp only
  rw [sum_fin fun i => ∑ q : Fin (g.H * g.W * g.C), F i q]
  refine sum_congr rfl fun i _ => ?_
  rw [sum_fin fun q => F i q, sum_range_mul, sum_range_mul]

theorem sum_weights (g : Geom) {nf : ℕ} (F : ℕ → ℝ) :
    ∑ b : Fin (nf * g.kp), F b =
      ∑ f ∈ range nf, ∑ kh ∈ range g.KH, ∑ kw ∈ range g.KW, ∑ c ∈ range g.C, F (g.weight f kh kw c) := by
  rw [sum_fin F, sum_range_mul]
  refine sum_congr rfl fun f _ => ?_
  rw [sum_kp g fun k => F (f * g.kp + k)]
  refine sum_congr rfl fun kh _ => sum_congr rfl fun kw _ => sum_congr rfl fun c _ => ?_
  rw [weight_eq]

/-- **C21 (Convolution2D).**  The hypothesis: no output is at a corner of the activation function. -/
theorem C21_convolution (a : Act) (g : Geom) (hs : g.sh ≠ 0 ∧ g.sw ≠ 0) (n nf : ℕ) (p : Empty → ℝ)
    (i : ConvI g n nf → ℝ)
    (smooth : ∀ j < n, ∀ h w f, h < g.hc → w < g.wc → f < nf → a.Smooth
      ((∑ kh ∈ range g.KH, ∑ kw ∈ range g.KW, ∑ c ∈ range g.C,
        pixel g (image g (i ∘ .inl) j) ((h : ℤ) * g.sh - g.pt + kh) ((w : ℤ) * g.sw - g.pl + kw) c *
          cells (i ∘ .inr ∘ .inl) (g.weight f kh kw c)) + cells (i ∘ .inr ∘ .inr) f)) :
    (convLayer a g n nf).Right p i := by
  rintro X X' rfl hX o k δO δI hover
  obtain ⟨out, h1, h2⟩ := conv_layer_grad a g hs nf n (fun t => cells (X t ∘ .inr ∘ .inl)) (cells (X' ∘ .inr ∘ .inl))
    (fun t => cells (X t ∘ .inr ∘ .inr)) (cells (X' ∘ .inr ∘ .inr)) (fun t j => image g (X t ∘ .inl) j)
    (fun j => image g (X' ∘ .inl) j) (fun _ _ => rfl)
    (by
      intro j q
      show HasDerivAt (fun t => if h : j < n then cells (fun r => (X t ∘ .inl) (⟨j, h⟩, r)) q else 0)
        (if h : j < n then cells (fun r => (X' ∘ .inl) (⟨j, h⟩, r)) q else 0) 0
      split
      · exact cells_hasDerivAt (fun r => hX _) q
      · exact hasDerivAt_const _ _)
    (fun j => cells_hasDerivAt (fun r => hX _) j) (fun j => cells_hasDerivAt (fun r => hX _) j)
    (by
      intro j hj out hout h w f hh hw hf
      obtain ⟨out', e1, e2⟩ := C47_forward g hs (cells (X 0 ∘ .inr ∘ .inl)) (cells (X 0 ∘ .inr ∘ .inr))
        (image g (X 0 ∘ .inl) j) rfl
      rw [e1] at hout
      rw [← Option.some.inj hout, e2 h w f hh hw]
      exact smooth j hj h w f hh hw hf)
    (fun j => outImage g δO j) (fun j => image g (δI ∘ .inl) j) (fun _ => rfl)
    ⟨cells (δI ∘ .inr ∘ .inl), cells (δI ∘ .inr ∘ .inr)⟩
  have hF : ∀ t b, ((convLayer a g n nf).F p (X t) o k).1 b = out t b.1 b.2.1 b.2.2 := by
    intro t b
    show (match convLayerForward a g _ _ _ with | none => _ | some out => _) = _
    rw [h1 t b.1]
  obtain ⟨back, dout, h3, h4⟩ := h2 (fun j => outImage g ((convLayer a g n nf).F p (X 0) o k).1 j) (by
    intro j hj h w f hh hw hf
    have hlt : h * g.wc + w < g.hc * g.wc := by
      calc h * g.wc + w < h * g.wc + g.wc := by omega
        _ = (h + 1) * g.wc := by ring
        _ ≤ g.hc * g.wc := Nat.mul_le_mul_right _ hh
    have := outImage_val g ((convLayer a g n nf).F p (X 0) o k).1 (⟨j, hj⟩, ⟨h * g.wc + w, hlt⟩, ⟨f, hf⟩)
    rw [hF] at this
    exact this)
  have hB : (convLayer a g n nf).B p (X 0) ((convLayer a g n nf).F p (X 0) o k).1
      ((convLayer a g n nf).F p (X 0) o k).2 δO δI =
      Sum.elim (fun b : Fin n × Fin (g.H * g.W * g.C) => (((List.range n).map dout).getD b.1 ⟨0, fun _ => 0⟩).at' b.2)
        (Sum.elim (fun b : Fin (nf * g.kp) => back.dw b) (fun b : Fin nf => back.db b)) := by
    show (match convLayerBackward a g nf _ _ _ with | none => _ | some r => _) = _
    rw [h3]
  have e : ∀ t, ∑ b, (if (convLayer a g n nf).isLoss then 1 else δO b) * ((convLayer a g n nf).F p (X t) o k).1 b =
      ∑ i ∈ range n, ∑ h ∈ range g.hc, ∑ w ∈ range g.wc, ∑ f ∈ range nf,
          outImage g δO i (h * g.wc + w) f * out t i (h * g.wc + w) f := by
    intro t
    rw [← sum_convO g (n := n) (nf := nf) fun i p f => outImage g δO i p f * out t i p f]
    refine sum_congr rfl fun b _ => ?_
    rw [hF, outImage_val]
    rfl
  simp only [e]
  refine h4.congr_deriv ?_
  rw [hB, Fintype.sum_sum_type, Fintype.sum_sum_type, ← add_assoc]
  have z : ∀ b, δI (.inr b) = 0 := fun b => hover (.inr b) rfl
  congr 1
  · congr 1
    · rw [← sum_image g fun i q => ((dout i).at' q - (image g (δI ∘ .inl) i).at' q) * (image g (X' ∘ .inl) i).at' q]
      refine sum_congr rfl fun b _ => ?_
      rw [image_val, image_val]
      simp only [Sum.elim_inl, Function.comp_apply, List.getD_eq_getElem?_getD]
      rw [List.getElem?_eq_getElem (by simp)]
      simp
    · rw [← sum_weights g (nf := nf) fun q => back.dw q * cells (X' ∘ .inr ∘ .inl) q]
      refine sum_congr rfl fun b _ => ?_
      rw [cells_val, z, sub_zero]
      rfl
  · rw [← sum_fin fun f => back.db f * cells (X' ∘ .inr ∘ .inr) f]
    refine sum_congr rfl fun b _ => ?_
    rw [cells_val, z, sub_zero]
    rfl

/-! ### Non-vacuity: the geometry of `Conv.demoGeom`, two images, three filters -/

example (p : Empty → ℝ) (i : ConvI demoGeom 2 3 → ℝ) : (convLayer .tanh demoGeom 2 3).Right p i :=
  C21_convolution .tanh demoGeom (by decide) 2 3 p i fun _ _ _ _ _ _ _ _ h => by cases h

end conv

/-! ## Pooling2D -/

section pool
open Verif.Pool

/-- `n` images of `h` rows, `w` columns and `c` channels. -/
abbrev Images (n h w c : ℕ) := Fin n × Fin h × Fin w × Fin c

/-- One channel of one image. -/
def plane {n h w c : ℕ} (f : Images n h w c → ℝ) (j : Fin n) (k : Fin c) : ℕ → ℕ → ℝ := fun y x =>
  if hh : y < h ∧ x < w then f (j, ⟨y, hh.1⟩, ⟨x, hh.2⟩, k) else 0

/-- The geometry of one channel: everything but the channel comes from the layer. -/
def chan (g : Geom) (k : Fin g.nc) : Geom := { g with c := k }

theorem loop_congr {σ : Type} {f f' : ℕ → σ → Option σ} {n : ℕ} (h : ∀ k < n, ∀ s, f k s = f' k s) (s : σ) :
    loop f n s = loop f' n s := by
  induction n with
  | zero => rfl
  | succ n ih =>
    show (loop f n s).bind (f n) = (loop f' n s).bind (f' n)
    rw [ih fun k hk => h k (by omega), show f n = f' n from funext fun s => h n (by omega) s]

/-- Only the entries of `argmax` that exist are read. -/
theorem maxBackward_congr (g : Geom) (load : ℝ → ℤ) (m m' : ℕ → ℕ → ℝ) (δ : ℕ → ℕ → ℝ) (din : Plane ℝ)
    (h : ∀ y < g.OH, ∀ x < g.OW, m y x = m' y x) : maxBackward g load m δ din = maxBackward g load m' δ din := by
  unfold maxBackward
  refine loop_congr (fun y hy d => loop_congr (fun x hx d => ?_) d) din
  rw [h y hy x hx]

/-- `Pooling2DLayerImpl` with type `'avg'` (pooling_layer_2d.py:74-121). -/
def avgPoolLayer (g : Geom) (n : ℕ) : VLayer (Images n g.H g.W g.nc) (Images n g.OH g.OW g.nc) Empty Empty where
  F := fun _ i _ k => (fun b => avgCell (chan g b.2.2.2) (plane i b.1 b.2.2.2) b.2.1 b.2.2.1, k)
  B := fun _ _ _ _ δO δI b =>
    match avgBackward (chan g b.2.2.2) (plane δO b.1 b.2.2.2) ⟨g.H, g.W, plane δI b.1 b.2.2.2⟩ with
    | none => δI b
    | some d => d.at' b.2.1 b.2.2.1
  isLoss := false
  over := fun _ => false

/-- `Pooling2DLayerImpl` with type `'max'`; `argmax` is an internal buffer, that the backward pass reads. -/
def maxPoolLayer (g : Geom) (lo : ℝ) (n : ℕ) (store : ℤ → ℝ) (load : ℝ → ℤ) :
    VLayer (Images n g.H g.W g.nc) (Images n g.OH g.OW g.nc) (Images n g.OH g.OW g.nc) Empty where
  F := fun _ i _ _ =>
    (fun b => (maxCell (chan g b.2.2.2) lo (plane i b.1 b.2.2.2) b.2.1 b.2.2.1).1,
     fun b => store (maxCell (chan g b.2.2.2) lo (plane i b.1 b.2.2.2) b.2.1 b.2.2.1).2)
  B := fun _ _ _ k δO δI b =>
    match maxBackward (chan g b.2.2.2) load (plane k b.1 b.2.2.2) (plane δO b.1 b.2.2.2)
        ⟨g.H, g.W, plane δI b.1 b.2.2.2⟩ with
    | none => δI b
    | some d => d.at' b.2.1 b.2.2.1
  isLoss := false
  over := fun _ => false

/-- **C20 (Pooling2D).** -/
theorem C20_avg_pooling (g : Geom) (n : ℕ) : (avgPoolLayer g n).Fresh := fun _ _ _ _ _ _ => rfl

/-- **C20 (Pooling2D).** -/
theorem C20_max_pooling (g : Geom) (lo : ℝ) (n : ℕ) (store : ℤ → ℝ) (load : ℝ → ℤ) :
    (maxPoolLayer g lo n store load).Fresh := fun _ _ _ _ _ _ => rfl

theorem plane_val {n h w c : ℕ} (f : Images n h w c → ℝ) (b : Images n h w c) :
    plane f b.1 b.2.2.2 b.2.1 b.2.2.1 = f b := by
  unfold plane
  rw [dif_pos ⟨b.2.1.2, b.2.2.1.2⟩]

theorem plane_hasDerivAt {n h w c : ℕ} {X : ℝ → Images n h w c → ℝ} {X' : Images n h w c → ℝ}
    (hX : ∀ b, HasDerivAt (fun t => X t b) (X' b) 0) (j : Fin n) (k : Fin c) (y x : ℕ) :
    HasDerivAt (fun t => plane (X t) j k y x) (plane X' j k y x) 0 := by
  unfold plane
  split
  · exact hX _
  · exact hasDerivAt_const _ _

theorem sum_images {n h w c : ℕ} (F : Fin n → Fin c → ℕ → ℕ → ℝ) :
    ∑ b : Images n h w c, F b.1 b.2.2.2 b.2.1 b.2.2.1 =
      ∑ j : Fin n, ∑ k : Fin c, ∑ y ∈ range h, ∑ x ∈ range w, F j k y x := by
  rw [Fintype.sum_prod_type]
  refine sum_congr rfl fun j _ => ?_
  rw [Fintype.sum_prod_type]
  simp only [Fintype.sum_prod_type]
  rw [sum_congr rfl fun y _ => sum_comm, sum_comm]
  refine sum_congr rfl fun k _ => ?_
  rw [Finset.sum_range]
  refine sum_congr rfl fun y _ => ?_
  rw [Finset.sum_range]

/-- **C21 (Pooling2D, average).** -/
theorem C21_avg_pooling (g : Geom) (n : ℕ) (p : Empty → ℝ) (i : Images n g.H g.W g.nc → ℝ) :
    (avgPoolLayer g n).Right p i := by
  rintro X X' rfl hX o k δO δI -
  choose d h1 h2 using fun (j : Fin n) (c : Fin g.nc) => C22_avg_pooling (chan g c) (fun t => plane (X t) j c)
    (plane X' j c) (plane_hasDerivAt hX j c) (plane δO j c) ⟨g.H, g.W, plane δI j c⟩ rfl rfl
  have e : ∀ t, ∑ b, (if (avgPoolLayer g n).isLoss then 1 else δO b) * ((avgPoolLayer g n).F p (X t) o k).1 b =
      ∑ j : Fin n, ∑ c : Fin g.nc, ∑ y ∈ range g.OH, ∑ x ∈ range g.OW,
        plane δO j c y x * avgCell (chan g c) (plane (X t) j c) y x := by
    intro t
    rw [← sum_images (n := n) (h := g.OH) (w := g.OW) (c := g.nc) fun j c y x =>
      plane δO j c y x * avgCell (chan g c) (plane (X t) j c) y x]
    refine sum_congr rfl fun b _ => ?_
    rw [plane_val]
    rfl
  simp only [e]
  refine (HasDerivAt.fun_sum fun j _ => HasDerivAt.fun_sum fun c _ => h2 j c).congr_deriv ?_
  refine (sum_images (n := n) (h := g.H) (w := g.W) (c := g.nc) fun j c y x =>
    ((d j c).at' y x - plane δI j c y x) * plane X' j c y x).symm.trans ?_
  refine sum_congr rfl fun b _ => ?_
  rw [plane_val, plane_val]
  congr 2
  show _ = (match avgBackward (chan g b.2.2.2) (plane δO b.1 b.2.2.2) ⟨g.H, g.W, plane δI b.1 b.2.2.2⟩ with
    | none => _
    | some d => _)
  rw [h1]

/-- **C21 (Pooling2D, max).**  Every window has a single largest value above `lo`, or lies in the padding. -/
theorem C21_max_pooling (g : Geom) (lo : ℝ) (n : ℕ) (store : ℤ → ℝ) (load : ℝ → ℤ)
    (hexact : ∀ q : ℤ, -1 ≤ q → q < g.H * g.W * g.nc → load (store q) = q)
    (p : Empty → ℝ) (i : Images n g.H g.W g.nc → ℝ)
    (hpeak : ∀ j c, ∀ yo < g.OH, ∀ xo < g.OW, (∃ a b, Peak g lo (plane i j c) yo xo a b) ∨ ∀ y x, ¬ InWindow g yo xo y x) :
    (maxPoolLayer g lo n store load).Right p i := by
  rintro X X' rfl hX o k δO δI -
  choose d h1 h2 using fun (j : Fin n) (c : Fin g.nc) => C22_max_pooling (chan g c) c.2 lo store load hexact
    (fun t => plane (X t) j c) (plane X' j c) (plane_hasDerivAt hX j c) (hpeak j c) (plane δO j c)
    ⟨g.H, g.W, plane δI j c⟩ rfl rfl
  have e : ∀ t, ∑ b, (if (maxPoolLayer g lo n store load).isLoss then 1 else δO b) *
      ((maxPoolLayer g lo n store load).F p (X t) o k).1 b =
      ∑ j : Fin n, ∑ c : Fin g.nc, ∑ y ∈ range g.OH, ∑ x ∈ range g.OW,
        plane δO j c y x * (maxCell (chan g c) lo (plane (X t) j c) y x).1 := by
    intro t
    rw [← sum_images (n := n) (h := g.OH) (w := g.OW) (c := g.nc) fun j c y x =>
      plane δO j c y x * (maxCell (chan g c) lo (plane (X t) j c) y x).1]
    refine sum_congr rfl fun b _ => ?_
    rw [plane_val]
    rfl
  simp only [e]
  refine (HasDerivAt.fun_sum fun j _ => HasDerivAt.fun_sum fun c _ => h2 j c).congr_deriv ?_
  refine (sum_images (n := n) (h := g.H) (w := g.W) (c := g.nc) fun j c y x =>
    ((d j c).at' y x - plane δI j c y x) * plane X' j c y x).symm.trans ?_
  refine sum_congr rfl fun b _ => ?_
  rw [plane_val, plane_val]
  congr 2
  have hk : maxBackward (chan g b.2.2.2) load (plane ((maxPoolLayer g lo n store load).F p (X 0) o k).2 b.1 b.2.2.2)
      (plane δO b.1 b.2.2.2) ⟨g.H, g.W, plane δI b.1 b.2.2.2⟩ = some (d b.1 b.2.2.2) := by
    rw [← h1 b.1 b.2.2.2]
    refine maxBackward_congr _ _ _ _ _ _ fun y hy x hx => ?_
    exact plane_val _ ((b.1, ⟨y, hy⟩, ⟨x, hx⟩, b.2.2.2) : Images n g.OH g.OW g.nc)
  show _ = (match maxBackward (chan g b.2.2.2) load
      (plane ((maxPoolLayer g lo n store load).F p (X 0) o k).2 b.1 b.2.2.2) (plane δO b.1 b.2.2.2)
      ⟨g.H, g.W, plane δI b.1 b.2.2.2⟩ with
    | none => _
    | some d => _)
  rw [hk]

/-! ### Non-vacuity: two images with all pixels of a channel different -/

example (p : Empty → ℝ) : (maxPoolLayer demo (-1) 2 (fun q => (q : ℝ)) Int.floor).Right p
    (fun b => poolImg b.2.1 b.2.2.1) := by
  refine C21_max_pooling _ _ _ _ _ (fun q _ _ => Int.floor_intCast q) _ _ ?_
  intro j c yo hyo xo hxo
  rcases demo_peak yo hyo xo hxo with ⟨a, b, h1, h2, h3⟩ | h
  · have e : ∀ y x, InWindow demo yo xo y x →
        plane (fun b : Images 2 demo.H demo.W demo.nc => poolImg b.2.1 b.2.2.1) j c y x = poolImg y x := by
      intro y x h
      unfold plane
      rw [dif_pos ⟨h.1, h.2.1⟩]
    refine Or.inl ⟨a, b, h1, by rw [e a b h1]; exact h2, fun y x hyx hne => ?_⟩
    rw [e y x hyx, e a b h1]
    exact h3 y x hyx hne
  · exact Or.inr h

end pool

/-! ## Dropout -/

/-- `DropoutLayerImpl` (dropout_layer.py:36-52).  The mask the random numbers of the handler give (C29) is read
like an input without deltas; the mask in use is an internal buffer. -/
def dropoutLayer {ρ φ : Type} (training : Bool) (q : ℝ) : VLayer (ρ × φ) (ρ × φ) (ρ × φ) (ρ × φ) where
  F := fun p i o k =>
    let r := dropoutForward training q (mt p) (mt i) (mt k) (mt o)
    (fl r.2, fl r.1)
  B := fun _ _ _ k δO δI => fl (dropoutBackward (mt k) (mt δO) (mt δI))
  isLoss := false
  over := fun _ => false

/-- **C20 (Dropout).**  Given the random numbers, the outputs do not depend on old contents. -/
theorem C20_dropout {ρ φ : Type} (training : Bool) (q : ℝ) : (dropoutLayer (ρ := ρ) (φ := φ) training q).Fresh := by
  intro p i o k o' k'
  cases training <;> rfl

/-- **C21 (Dropout).**  With drop probability 0 the deltas are the derivative, whatever was drawn; for others see
`C22_dropout_wrong`. -/
theorem C21_dropout_no_drop {ρ φ : Type} [Fintype ρ] [Fintype φ] (p i : ρ × φ → ℝ) :
    (dropoutLayer (ρ := ρ) (φ := φ) true 0).Right p i := by
  rintro X X' rfl hX o k δO δI -
  obtain ⟨d, h1, h2⟩ := C22_dropout_partial 0 (by norm_num) (fun t => mt (X t)) (mt X') (moves_mt hX) (mt p) (mt k)
    (mt o) (mt δO) (mt δI)
  have e : ∀ t, ∑ b, (if (dropoutLayer (ρ := ρ) (φ := φ) true 0).isLoss then 1 else δO b) *
      ((dropoutLayer (ρ := ρ) (φ := φ) true 0).F p (X t) o k).1 b =
      inner (mt δO) (dropoutForward true 0 (mt p) (mt (X t)) (mt k) (mt o)).2 := by
    intro t
    rw [← mt_fl (dropoutForward _ _ _ _ _ _).2, ← sum_mt]
    rfl
  simp only [e]
  refine h1.congr_deriv ?_
  rw [sub_zero, one_mul] at h2
  rw [← h2]
  exact (sum_fl_sub _ _ _).symm

end

end Verif.Network
