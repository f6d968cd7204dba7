import Verif.Memory.LibraryOk
import Verif.Memory.Equations

/-!
# Networks of layers of the library
-/

namespace Verif.Memory

open Verif.Structure Verif.Layout Verif.Buffers Verif.Network Verif.Layers

section
variable {layers : List LayerInfo} {data l : LayerInfo} {T B : ℕ}

/-- What the layer computes (the passes of `Verif.Layers`), and where it has its numbers. -/
noncomputable def LibLayer.placed : LibLayer layers data l T B → Placed layers data l T B
  | .fullyConnected a x y has hx hy own =>
    ⟨_, _, _, _, inferInstance, inferInstance, fcLayer a, fcSlots (T * B) x.featureSize y.featureSize, fcSlots_ok has hx hy own, C20_fully_connected a, fun h => Bool.noConfusion h⟩
  | .elementwise a x has hx =>
    ⟨_, _, _, _, inferInstance, inferInstance, elementwiseLayer a, sameSlots (T * B) x.featureSize, sameSlots_ok rfl (fun _ => rfl) has hx rfl, C20_elementwise a, fun h => Bool.noConfusion h⟩
  | .noOp x has hx =>
    ⟨_, _, _, _, inferInstance, inferInstance, noopLayer, sameSlots (T * B) x.featureSize, sameSlots_ok rfl (fun _ => rfl) has hx rfl, C20_noop, fun h => Bool.noConfusion h⟩
  | .highway h _ x _ has hh ht hx hy eh et ey =>
    ⟨_, _, _, _, inferInstance, inferInstance, highwayLayer, highwaySlots (T * B) x.featureSize, highwaySlots_ok has hh ht hx hy eh et ey, C20_highway, fun h => Bool.noConfusion h⟩
  | .merge R m n _ _ _ has hx hy hz hc =>
    ⟨_, _, _, _, inferInstance, inferInstance, mergeLayer, mergeSlots R m n, mergeSlots_ok has hx hy hz hc, C20_merge, fun h => Bool.noConfusion h⟩
  | .mask R n _ _ has hx hxs hks hd =>
    ⟨_, _, _, _, inferInstance, inferInstance, maskLayer, maskSlots R n, maskSlots_ok has hx hxs hks hd, C20_mask, fun h => Bool.noConfusion h⟩
  | .maskFull x _ has hx hk ek hd =>
    ⟨_, _, _, _, inferInstance, inferInstance, maskFullLayer, maskFullSlots (T * B) x.featureSize, maskFullSlots_ok has hx hk ek hd, C20_mask_full, fun h => Bool.noConfusion h⟩
  | .dropout training q off x has hx hb =>
    ⟨_, _, _, _, inferInstance, inferInstance, dropoutLayer training q, dropoutSlots off (T * B) x.featureSize, dropoutSlots_ok has hx hb, C20_dropout training q, fun h => Bool.noConfusion h⟩
  | .squaredDifference x _ _ _ has hx hy hz hd ey ez ed hb =>
    ⟨_, _, _, _, inferInstance, inferInstance, squaredDiffLayer, squaredDifferenceSlots (T * B) x.featureSize, squaredDifferenceSlots_ok has hx hy hz hd ey ez ed hb, C20_squared_difference, fun h => Bool.noConfusion h⟩
  | .squaredError x _ _ _ _ has hx ht hp hz hd et ep ez ed hb hdata loose =>
    ⟨_, _, _, _, inferInstance, inferInstance, squaredErrorLayer, squaredErrorSlots (T * B) x.featureSize, squaredErrorSlots_ok has hx ht hp hz hd et ep ez ed hb hdata loose, C20_squared_error, fun h => Bool.noConfusion h⟩
  | .sigmoidCE x _ _ _ has hx ht hp hz et ep ez hdata loose =>
    ⟨_, _, _, _, inferInstance, inferInstance, sigmoidCELayer, sigmoidCESlots (T * B) x.featureSize, sigmoidCESlots_ok has hx ht hp hz et ep ez hdata loose, C20_sigmoid_ce, fun h => Bool.noConfusion h⟩
  | .softmaxCE R n dec _ _ _ _ has _ _ hp hz sx st sp sz hdata loose =>
    haveI : Nonempty (Fin n) := ⟨dec 0⟩
    ⟨_, _, _, _, inferInstance, inferInstance, softmaxCELayer dec, softmaxCESlots R n, softmaxCESlots_ok has hp hz sx st sp sz hdata loose, C20_softmax_ce dec, fun h => Bool.noConfusion h⟩
  | .binomialCE x _ _ _ has hx ht hz hc et ez ec hb hdata =>
    ⟨_, _, _, _, inferInstance, inferInstance, binomialCELayer, binomialCESlots (T * B) x.featureSize, binomialCESlots_ok has hx ht hz hc et ez ec hb hdata, C20_binomial_ce, fun h => Bool.noConfusion h⟩
  | .l1Decay x _ has hx hz ez hb =>
    ⟨_, _, _, _, inferInstance, inferInstance, l1Layer, decaySlots (T * B) x.featureSize, decaySlots_ok rfl (fun _ => rfl) has hx hz ez hb, C20_l1, fun h => Bool.noConfusion h⟩
  | .l2Decay x _ has hx hz ez hb =>
    ⟨_, _, _, _, inferInstance, inferInstance, l2Layer, decaySlots (T * B) x.featureSize, decaySlots_ok rfl (fun _ => rfl) has hx hz ez hb, C20_l2, fun h => Bool.noConfusion h⟩
  | .loss importance x has loose =>
    ⟨_, _, _, _, inferInstance, inferInstance, lossLayer importance (lossBatch x B), lossSlots 1 (size x T B), lossSlots_ok has loose, C20_loss importance (lossBatch x B), fun _ => ⟨fun _ _ => rfl⟩⟩
  | .recurrent a n x has hx =>
    ⟨_, _, _, _, inferInstance, inferInstance, rnnLayer T a, rnnSlots T B x.featureSize n, rnnSlots_ok has hx, C20_recurrent T a, fun h => Bool.noConfusion h⟩
  | .clockwork a n x has hx =>
    ⟨_, _, _, _, inferInstance, inferInstance, cwLayer T a, clockworkSlots T B x.featureSize n, clockworkSlots_ok has hx, C20_clockwork T a, fun h => Bool.noConfusion h⟩
  | .lstm a n x has hx =>
    ⟨_, _, _, _, inferInstance, inferInstance, lstmLayer T a, lstmSlots T B x.featureSize n, lstmSlots_ok has hx, C20_lstm T a, fun h => Bool.noConfusion h⟩
  | .clockworkLstm a n x has hx =>
    ⟨_, _, _, _, inferInstance, inferInstance, cwLstmLayer T a, clockworkLstmSlots T B x.featureSize n, clockworkLstmSlots_ok has hx, C20_clockwork_lstm T a, fun h => Bool.noConfusion h⟩
  | .convolution2D a g hs nf _ _ _ has hx hy ex ey ew own =>
    ⟨_, _, _, _, inferInstance, inferInstance, convLayer a g (T * B) nf, convSlots g (T * B) nf, convSlots_ok has hx hy ex ey ew own, C20_convolution a g hs (T * B) nf, fun h => Bool.noConfusion h⟩
  | .avgPooling2D g _ _ has hx hy ex ey =>
    ⟨_, _, _, _, inferInstance, inferInstance, avgPoolLayer g (T * B), avgPoolSlots g (T * B), avgPoolSlots_ok has hx hy ex ey, C20_avg_pooling g (T * B), fun h => Bool.noConfusion h⟩
  | .maxPooling2D g lo store load _ _ _ has hx hy hk ex ey ek hb =>
    ⟨_, _, _, _, inferInstance, inferInstance, maxPoolLayer g lo (T * B) store load, maxPoolSlots g (T * B), maxPoolSlots_ok has hx hy hk ex ey ek hb, C20_max_pooling g lo (T * B) store load, fun h => Bool.noConfusion h⟩

open Conv Pool Finset in
/-- At the numbers `v` that the layer finds, its outputs are differentiable and its backward pass computes the
derivatives: no activation function has a kink there, nothing is clipped, no maximum is attained twice, and so on. -/
def LibLayer.Regular : LibLayer layers data l T B → (Slot ⊕ ℕ → ℝ) → Prop
  | .fullyConnected a x y _ _ _ _, v =>
    let i := fun b => v (.inl ((fcSlots (T * B) x.featureSize y.featureSize).i b))
    ∀ r j, a.Smooth (∑ k, i (.inl (r, k)) * i (.inr (.inl (j, k))) + i (.inr (.inr j)))
  | .elementwise a x _ _, v =>
    let i := fun b => v (.inl ((sameSlots (T * B) x.featureSize).i b))
    ∀ b, a.Smooth (i b)
  | .noOp _ _ _, _ => True
  | .highway _ _ _ _ _ _ _ _ _ _ _ _, _ => True
  | .merge _ _ _ _ _ _ _ _ _ _ _, _ => True
  | .mask _ _ _ _ _ _ _ _ _, _ => True
  | .maskFull _ _ _ _ _ _ _, _ => True
  | .dropout training q _ _ _ _ _, _ => training = true ∧ q = 0
  | .squaredDifference _ _ _ _ _ _ _ _ _ _ _ _ _, _ => True
  | .squaredError _ _ _ _ _ _ _ _ _ _ _ _ _ _ _ _ _ _, _ => True
  | .sigmoidCE x _ _ _ _ _ _ _ _ _ _ _ _ _, v =>
    let i := fun b => v (.inl ((sigmoidCESlots (T * B) x.featureSize).i b))
    ∀ b, 1e-6 < 1 / (1 + Real.exp (-(i b))) ∧ 1 / (1 + Real.exp (-(i b))) < 1 - 1e-6
  | .softmaxCE R n dec _ _ _ _ _ _ _ _ _ _ _ _ _ _ _, v =>
    let i := fun b => v (.inl ((softmaxCESlots R n).i b))
    let p := fun b => v ((softmaxCESlots R n).p b)
    ∀ r, 1e-6 < Real.exp (i (r, dec (p r))) / ∑ j, Real.exp (i (r, j))
  | .binomialCE x _ _ _ _ _ _ _ _ _ _ _ _ _, v =>
    let i := fun b => v (.inl ((binomialCESlots (T * B) x.featureSize).i b))
    ∀ b, (1e-6 < i b ∧ i b < 1 - 1e-6) ∧ 1e-6 ≤ i b * (1 - i b)
  | .l1Decay x _ _ _ _ _ _, v =>
    let i := fun b => v (.inl ((decaySlots (T * B) x.featureSize).i b))
    ∀ b, i b ≠ 0
  | .l2Decay _ _ _ _ _ _ _, _ => True
  | .loss _ _ _ _, _ => True
  | .recurrent a n x _ _, v =>
    let i := fun b => v (.inl ((rnnSlots T B x.featureSize n).i b))
    let p := fun b => v ((rnnSlots T B x.featureSize n).p b)
    0 < T ∧ ∀ t < T, ∀ b j, a.Smooth ((rnnForward a T (tm T (i ∘ .inl)) (rnnP i) (rnnRows T p 0 0) t).Ha b j)
  | .clockwork a n x _ _, v =>
    let i := fun b => v (.inl ((clockworkSlots T B x.featureSize n).i b))
    let p := fun b => v ((clockworkSlots T B x.featureSize n).p b)
    0 < T ∧ ∀ t < T, ∀ b j,
        a.Smooth ((cwForward a T (tm T (i ∘ .inl)) (rnnP i) (p ∘ .inr) (rnnRows T (p ∘ .inl) 0 0) t).Ha b j)
  | .lstm a n x _ _, v =>
    let i := fun b => v (.inl ((lstmSlots T B x.featureSize n).i b))
    let p := fun b => v ((lstmSlots T B x.featureSize n).p b)
    0 < T ∧ (∀ c, p c = 0) ∧ ∀ t < T, ∀ b j,
        a.Smooth ((lstmForward a T (tm T (i ∘ .inl)) (lstmP i) (lstmRows T 0 0 0) t).Za b j) ∧
        a.Smooth ((lstmForward a T (tm T (i ∘ .inl)) (lstmP i) (lstmRows T 0 0 0) t).Ca b j)
  | .clockworkLstm a n x _ _, v =>
    let i := fun b => v (.inl ((clockworkLstmSlots T B x.featureSize n).i b))
    let p := fun b => v ((clockworkLstmSlots T B x.featureSize n).p b)
    0 < T ∧ (∀ c, p (.inl c) = 0) ∧ (∀ j, p (.inr j) ≠ 0) ∧ ∀ t < T, ∀ b j, ¬ keeps (p ∘ .inr) t j →
        a.Smooth ((cwLstmForward a T (tm T (i ∘ .inl)) (lstmP i) (p ∘ .inr) (lstmRows T 0 0 0) t).Za b j) ∧
        a.Smooth ((cwLstmForward a T (tm T (i ∘ .inl)) (lstmP i) (p ∘ .inr) (lstmRows T 0 0 0) t).Ca b j)
  | .convolution2D a g _ nf _ _ _ _ _ _ _ _ _ _, v =>
    let i := fun b => v (.inl ((convSlots g (T * B) nf).i b))
    ∀ j < T * B, ∀ h w f, h < g.hc → w < g.wc → f < nf → a.Smooth
        ((∑ kh ∈ range g.KH, ∑ kw ∈ range g.KW, ∑ c ∈ range g.C,
          pixel g (image g (i ∘ .inl) j) ((h : ℤ) * g.sh - g.pt + kh) ((w : ℤ) * g.sw - g.pl + kw) c *
            Verif.Network.cells (i ∘ .inr ∘ .inl) (g.weight f kh kw c)) + Verif.Network.cells (i ∘ .inr ∘ .inr) f)
  | .avgPooling2D _ _ _ _ _ _ _ _, _ => True
  | .maxPooling2D g lo store load _ _ _ _ _ _ _ _ _ _ _, v =>
    let i := fun b => v (.inl ((maxPoolSlots g (T * B)).i b))
    (∀ q : ℤ, -1 ≤ q → q < g.H * g.W * g.nc → load (store q) = q) ∧
        ∀ j c, ∀ yo < g.OH, ∀ xo < g.OW, (∃ a b, Peak g lo (plane i j c) yo xo a b) ∨ ∀ y x, ¬ InWindow g yo xo y x

theorem LibLayer.regular_right (q : LibLayer layers data l T B) (L : Layout) (m : Mem)
    (h : q.Regular (valueOut (netOf layers L) T B l.name m)) : q.placed.RightAt L m := by
  cases q with
  | fullyConnected a x y has hx hy own =>
    unfold LibLayer.Regular at h
    show VLayer.Right (fcLayer a) (fun c => valueOut (netOf layers L) T B l.name m ((fcSlots (T * B) x.featureSize y.featureSize).p c))
      (fun c => value (netOf layers L) T B l.name m ((fcSlots (T * B) x.featureSize y.featureSize).i c))
    exact C21_fully_connected _ _ _ h
  | elementwise a x has hx =>
    unfold LibLayer.Regular at h
    show VLayer.Right (elementwiseLayer a) (fun c => valueOut (netOf layers L) T B l.name m ((sameSlots (T * B) x.featureSize).p c))
      (fun c => value (netOf layers L) T B l.name m ((sameSlots (T * B) x.featureSize).i c))
    exact C21_elementwise _ _ _ h
  | noOp x has hx =>
    show VLayer.Right (noopLayer) (fun c => valueOut (netOf layers L) T B l.name m ((sameSlots (T * B) x.featureSize).p c))
      (fun c => value (netOf layers L) T B l.name m ((sameSlots (T * B) x.featureSize).i c))
    exact C21_noop _ _
  | highway h1 t x y has hh ht hx hy eh et ey =>
    show VLayer.Right (highwayLayer) (fun c => valueOut (netOf layers L) T B l.name m ((highwaySlots (T * B) x.featureSize).p c))
      (fun c => value (netOf layers L) T B l.name m ((highwaySlots (T * B) x.featureSize).i c))
    exact C21_highway _ _
  | merge R m' n x y z has hx hy hz hc =>
    show VLayer.Right (mergeLayer) (fun c => valueOut (netOf layers L) T B l.name m ((mergeSlots R m' n).p c))
      (fun c => value (netOf layers L) T B l.name m ((mergeSlots R m' n).i c))
    exact C21_merge _ _
  | mask R n x k has hx hxs hks hd =>
    show VLayer.Right (maskLayer) (fun c => valueOut (netOf layers L) T B l.name m ((maskSlots R n).p c))
      (fun c => value (netOf layers L) T B l.name m ((maskSlots R n).i c))
    exact C21_mask _ _
  | maskFull x k has hx hk ek hd =>
    show VLayer.Right (maskFullLayer) (fun c => valueOut (netOf layers L) T B l.name m ((maskFullSlots (T * B) x.featureSize).p c))
      (fun c => value (netOf layers L) T B l.name m ((maskFullSlots (T * B) x.featureSize).i c))
    exact C21_mask_full _ _
  | dropout training q off x has hx hb =>
    obtain ⟨rfl, rfl⟩ := h
    show VLayer.Right (dropoutLayer true 0) (fun c => valueOut (netOf layers L) T B l.name m ((dropoutSlots off (T * B) x.featureSize).p c))
      (fun c => value (netOf layers L) T B l.name m ((dropoutSlots off (T * B) x.featureSize).i c))
    exact C21_dropout_no_drop _ _
  | squaredDifference x y z d has hx hy hz hd ey ez ed hb =>
    show VLayer.Right (squaredDiffLayer) (fun c => valueOut (netOf layers L) T B l.name m ((squaredDifferenceSlots (T * B) x.featureSize).p c))
      (fun c => value (netOf layers L) T B l.name m ((squaredDifferenceSlots (T * B) x.featureSize).i c))
    exact C21_squared_difference _ _
  | squaredError x t p z d has hx ht hp hz hd et ep ez ed hb hdata loose =>
    show VLayer.Right (squaredErrorLayer) (fun c => valueOut (netOf layers L) T B l.name m ((squaredErrorSlots (T * B) x.featureSize).p c))
      (fun c => value (netOf layers L) T B l.name m ((squaredErrorSlots (T * B) x.featureSize).i c))
    exact C21_squared_error _ _
  | sigmoidCE x t p z has hx ht hp hz et ep ez hdata loose =>
    unfold LibLayer.Regular at h
    show VLayer.Right (sigmoidCELayer) (fun c => valueOut (netOf layers L) T B l.name m ((sigmoidCESlots (T * B) x.featureSize).p c))
      (fun c => value (netOf layers L) T B l.name m ((sigmoidCESlots (T * B) x.featureSize).i c))
    exact C21_sigmoid_ce _ _ h
  | softmaxCE R n dec x t p z has hx ht hp hz sx st sp sz hdata loose =>
    haveI : Nonempty (Fin n) := ⟨dec 0⟩
    unfold LibLayer.Regular at h
    show VLayer.Right (softmaxCELayer dec) (fun c => valueOut (netOf layers L) T B l.name m ((softmaxCESlots R n).p c))
      (fun c => value (netOf layers L) T B l.name m ((softmaxCESlots R n).i c))
    exact C21_softmax_ce _ _ _ h
  | binomialCE x t z c has hx ht hz hc et ez ec hb hdata =>
    unfold LibLayer.Regular at h
    show VLayer.Right (binomialCELayer) (fun c => valueOut (netOf layers L) T B l.name m ((binomialCESlots (T * B) x.featureSize).p c))
      (fun c => value (netOf layers L) T B l.name m ((binomialCESlots (T * B) x.featureSize).i c))
    exact C21_binomial_ce _ _ (fun b => (h b).1) (fun b => (h b).2)
  | l1Decay x z has hx hz ez hb =>
    unfold LibLayer.Regular at h
    show VLayer.Right (l1Layer) (fun c => valueOut (netOf layers L) T B l.name m ((decaySlots (T * B) x.featureSize).p c))
      (fun c => value (netOf layers L) T B l.name m ((decaySlots (T * B) x.featureSize).i c))
    exact C21_l1 _ _ h
  | l2Decay x z has hx hz ez hb =>
    show VLayer.Right (l2Layer) (fun c => valueOut (netOf layers L) T B l.name m ((decaySlots (T * B) x.featureSize).p c))
      (fun c => value (netOf layers L) T B l.name m ((decaySlots (T * B) x.featureSize).i c))
    exact C21_l2 _ _
  | loss importance x has loose =>
    show VLayer.Right (lossLayer importance (lossBatch x B)) (fun c => valueOut (netOf layers L) T B l.name m ((lossSlots 1 (size x T B)).p c))
      (fun c => value (netOf layers L) T B l.name m ((lossSlots 1 (size x T B)).i c))
    exact C21_loss _ _ _ _
  | recurrent a n x has hx =>
    unfold LibLayer.Regular at h
    show VLayer.Right (rnnLayer T a) (fun c => valueOut (netOf layers L) T B l.name m ((rnnSlots T B x.featureSize n).p c))
      (fun c => value (netOf layers L) T B l.name m ((rnnSlots T B x.featureSize n).i c))
    exact C21_recurrent T h.1 _ _ _ h.2
  | clockwork a n x has hx =>
    unfold LibLayer.Regular at h
    show VLayer.Right (cwLayer T a) (fun c => valueOut (netOf layers L) T B l.name m ((clockworkSlots T B x.featureSize n).p c))
      (fun c => value (netOf layers L) T B l.name m ((clockworkSlots T B x.featureSize n).i c))
    exact C21_clockwork T h.1 _ _ _ h.2
  | lstm a n x has hx =>
    obtain ⟨h0, h1, h2⟩ := h
    have e : (fun c => valueOut (netOf layers L) T B l.name m ((lstmSlots T B x.featureSize n).p c)) = 0 := funext h1
    show VLayer.Right (lstmLayer T a) (fun c => valueOut (netOf layers L) T B l.name m ((lstmSlots T B x.featureSize n).p c))
      (fun c => value (netOf layers L) T B l.name m ((lstmSlots T B x.featureSize n).i c))
    rw [e]
    exact C21_lstm T h0 a _ h2
  | clockworkLstm a n x has hx =>
    obtain ⟨h0, h1, h2, h3⟩ := h
    have e : (fun c => valueOut (netOf layers L) T B l.name m ((clockworkLstmSlots T B x.featureSize n).p c)) =
        Sum.elim (0 : (Fin B × Fin n) ⊕ (Fin B × Fin n) → ℝ) (fun j => valueOut (netOf layers L) T B l.name m ((clockworkLstmSlots T B x.featureSize n).p (.inr j))) := by
      funext c
      rcases c with c | c
      · exact h1 c
      · rfl
    show VLayer.Right (cwLstmLayer T a) (fun c => valueOut (netOf layers L) T B l.name m ((clockworkLstmSlots T B x.featureSize n).p c))
      (fun c => value (netOf layers L) T B l.name m ((clockworkLstmSlots T B x.featureSize n).i c))
    rw [e]
    exact C21_clockwork_lstm T h0 a _ h2 _ h3
  | convolution2D a g hs nf x y w has hx hy ex ey ew own =>
    unfold LibLayer.Regular at h
    show VLayer.Right (convLayer a g (T * B) nf) (fun c => valueOut (netOf layers L) T B l.name m ((convSlots g (T * B) nf).p c))
      (fun c => value (netOf layers L) T B l.name m ((convSlots g (T * B) nf).i c))
    exact C21_convolution _ _ hs _ _ _ _ h
  | avgPooling2D g x y has hx hy ex ey =>
    show VLayer.Right (avgPoolLayer g (T * B)) (fun c => valueOut (netOf layers L) T B l.name m ((avgPoolSlots g (T * B)).p c))
      (fun c => value (netOf layers L) T B l.name m ((avgPoolSlots g (T * B)).i c))
    exact C21_avg_pooling _ _ _ _
  | maxPooling2D g lo store load x y k has hx hy hk ex ey ek hb =>
    unfold LibLayer.Regular at h
    show VLayer.Right (maxPoolLayer g lo (T * B) store load) (fun c => valueOut (netOf layers L) T B l.name m ((maxPoolSlots g (T * B)).p c))
      (fun c => value (netOf layers L) T B l.name m ((maxPoolSlots g (T * B)).i c))
    exact C21_max_pooling _ _ _ _ _ h.1 _ _ h.2

end

end Verif.Memory
