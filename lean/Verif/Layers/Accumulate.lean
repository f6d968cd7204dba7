import Verif.Layers.Props
import Verif.Layers.BatchNorm
import Verif.Layers.RecurrentGrad
import Verif.Layers.ClockworkLstm
import Verif.Layers.ConvGrad

/-!
# Parameters used by further layers (C55)

A parameter can be connected to further layers, for example to an `L2Decay` layer followed by
a `Loss`.  These come later in the order of the layers, so their backward passes run first, and their
contribution is in the gradient buffer when the layer that owns the parameter runs.
`ℓ s` is the loss of these further layers along the motion of the parameters; that the old gradient
is right for it is the hypothesis, that the new gradient is right for the sum is the claim.
-/

namespace Verif.Layers

open Verif.Conv Verif.Numeric

noncomputable section

variable {ρ β φ ψ : Type} [Fintype ρ] [Fintype β] [Fintype φ] [Fintype ψ]

omit [Fintype ρ] [Fintype φ] in
theorem inner_sub' {ι κ : Type} [Fintype ι] [Fintype κ] (a b c : M ι κ) : inner (a - b) c = inner a c - inner b c := by
  unfold inner
  simp only [Pi.sub_apply, sub_mul, Finset.sum_sub_distrib]

omit [Fintype ρ] [Fintype φ] in
theorem innerV_sub' {κ : Type} [Fintype κ] (a b c : V κ) : innerV (a - b) c = innerV a c - innerV b c := by
  unfold innerV
  simp only [Pi.sub_apply, sub_mul, Finset.sum_sub_distrib]

/-- **C55 (Recurrent).** -/
theorem C55_recurrent (a : Act) (N : ℕ) (hN : 0 < N) (X : ℝ → ℕ → M β φ) (X' : ℕ → M β φ)
    (hX : ∀ t < N, Moves (fun s => X s t) (X' t)) (p : ℝ → RnnParams φ ψ) (p' : RnnParams φ ψ) (hp : RnnMoves p p')
    (st : ℕ → RnnRow β ψ) (stb : ℕ → RnnBackRow β ψ) (δ : ℕ → M β ψ) (dinputs : ℕ → M β φ) (grads : RnnParams φ ψ)
    (smooth : ∀ t < N, ∀ b j, a.Smooth ((rnnForward a N (X 0) (p 0) st t).Ha b j))
    (ℓ : ℝ → ℝ) (hℓ : HasDerivAt ℓ (inner grads.W p'.W + inner grads.R p'.R + innerV grads.bias p'.bias) 0) :
    let back := rnnBackward a N (X 0) (p 0) (rnnForward a N (X 0) (p 0) st) δ stb dinputs grads
    HasDerivAt (fun s => ∑ t ∈ Finset.range N, inner (δ t) (rnnForward a N (X s) (p s) st t).out + ℓ s)
      ((∑ t ∈ Finset.range N, inner (back.dinputs t - dinputs t) (X' t)) + inner back.grads.W p'.W +
        inner back.grads.R p'.R + innerV back.grads.bias p'.bias) 0 := by
  intro back
  refine ((C22_recurrent a N hN X X' hX p p' hp st stb δ dinputs grads smooth).add hℓ).congr_deriv ?_
  rw [inner_sub', inner_sub', innerV_sub']
  ring

/-- **C55 (Clockwork).** -/
theorem C55_clockwork (a : Act) (N : ℕ) (hN : 0 < N) (X : ℝ → ℕ → M β φ) (X' : ℕ → M β φ)
    (hX : ∀ t < N, Moves (fun s => X s t) (X' t)) (p : ℝ → RnnParams φ ψ) (p' : RnnParams φ ψ) (hp : RnnMoves p p')
    (timing : V ψ)
    (st : ℕ → RnnRow β ψ) (stb : ℕ → RnnBackRow β ψ) (δ : ℕ → M β ψ) (dinputs : ℕ → M β φ) (grads : RnnParams φ ψ)
    (smooth : ∀ t < N, ∀ b j, a.Smooth ((cwForward a N (X 0) (p 0) timing st t).Ha b j))
    (ℓ : ℝ → ℝ) (hℓ : HasDerivAt ℓ (inner grads.W p'.W + inner grads.R p'.R + innerV grads.bias p'.bias) 0) :
    let back := cwBackward a N (X 0) (p 0) timing (cwForward a N (X 0) (p 0) timing st) δ stb dinputs grads
    HasDerivAt (fun s => ∑ t ∈ Finset.range N, inner (δ t) (cwForward a N (X s) (p s) timing st t).out + ℓ s)
      ((∑ t ∈ Finset.range N, inner (back.dinputs t - dinputs t) (X' t)) + inner back.grads.W p'.W +
        inner back.grads.R p'.R + innerV back.grads.bias p'.bias) 0 := by
  intro back
  refine ((C22_clockwork a N hN X X' hX p p' hp timing st stb δ dinputs grads smooth).add hℓ).congr_deriv ?_
  rw [inner_sub', inner_sub', innerV_sub']
  ring

/-- What gradients say about a motion of the parameters of an LSTM. -/
def lstmInner (g p' : LstmParams φ ψ) : ℝ :=
  (∑ q, (inner (g.W q) (p'.W q) + inner (g.R q) (p'.R q) + innerV (g.b q) (p'.b q))) +
    innerV g.pi p'.pi + innerV g.pf p'.pf + innerV g.po p'.po

theorem lstmInner_sub (G g p' : LstmParams φ ψ) :
    (∑ q, (inner (G.W q - g.W q) (p'.W q) + inner (G.R q - g.R q) (p'.R q) + innerV (G.b q - g.b q) (p'.b q))) +
      innerV (G.pi - g.pi) p'.pi + innerV (G.pf - g.pf) p'.pf + innerV (G.po - g.po) p'.po =
    lstmInner G p' - lstmInner g p' := by
  unfold lstmInner
  simp only [inner_sub', innerV_sub', Finset.sum_add_distrib, Finset.sum_sub_distrib]
  ring

/-- **C55 (Lstm).**  For zero context, see C22. -/
theorem C55_lstm (a : Act) (N : ℕ) (hN : 0 < N) (X : ℝ → ℕ → M β φ) (X' : ℕ → M β φ)
    (hX : ∀ t < N, Moves (fun s => X s t) (X' t)) (p : ℝ → LstmParams φ ψ) (p' : LstmParams φ ψ) (hp : LstmMoves p p')
    (st : ℕ → LstmRow β ψ) (ctxY : (st N).y = 0) (ctxC : (st N).Ca = 0)
    (stb : ℕ → LstmBackRow β ψ) (cleared : ∀ q, (stb N).da q = 0)
    (δ : ℕ → M β ψ) (dx : ℕ → M β φ) (grads : LstmParams φ ψ)
    (smooth : ∀ t < N, ∀ b j, a.Smooth ((lstmForward a N (X 0) (p 0) st t).Za b j) ∧
      a.Smooth ((lstmForward a N (X 0) (p 0) st t).Ca b j))
    (ℓ : ℝ → ℝ) (hℓ : HasDerivAt ℓ (lstmInner grads p') 0) :
    let back := lstmBackward a N (X 0) (p 0) (lstmForward a N (X 0) (p 0) st) δ stb dx grads
    HasDerivAt (fun s => ∑ t ∈ Finset.range N, inner (δ t) (lstmForward a N (X s) (p s) st t).y + ℓ s)
      ((∑ t ∈ Finset.range N, inner (back.dx t - dx t) (X' t)) + lstmInner back.grads p') 0 := by
  intro back
  refine ((C22_lstm_partial a N hN X X' hX p p' hp st ctxY ctxC stb cleared δ dx grads smooth).add hℓ).congr_deriv ?_
  have := lstmInner_sub back.grads grads p'
  linarith

/-- **C55 (ClockworkLstm).**  For zero context and timings, see C22. -/
theorem C55_clockwork_lstm (a : Act) (N : ℕ) (hN : 0 < N) (X : ℝ → ℕ → M β φ) (X' : ℕ → M β φ)
    (hX : ∀ t < N, Moves (fun s => X s t) (X' t)) (p : ℝ → LstmParams φ ψ) (p' : LstmParams φ ψ) (hp : LstmMoves p p')
    (timing : V ψ) (htiming : ∀ j, timing j ≠ 0)
    (st : ℕ → LstmRow β ψ) (ctxY : (st N).y = 0) (ctxC : (st N).Ca = 0)
    (stb : ℕ → LstmBackRow β ψ) (cleared : ∀ q, (stb N).da q = 0)
    (δ : ℕ → M β ψ) (dx : ℕ → M β φ) (grads : LstmParams φ ψ)
    (smooth : ∀ t < N, ∀ b j, ¬ keeps timing t j → a.Smooth ((cwLstmForward a N (X 0) (p 0) timing st t).Za b j) ∧
      a.Smooth ((cwLstmForward a N (X 0) (p 0) timing st t).Ca b j))
    (ℓ : ℝ → ℝ) (hℓ : HasDerivAt ℓ (lstmInner grads p') 0) :
    let back := cwLstmBackward a N (X 0) (p 0) timing (cwLstmForward a N (X 0) (p 0) timing st) δ stb dx grads
    HasDerivAt (fun s => ∑ t ∈ Finset.range N, inner (δ t) (cwLstmForward a N (X s) (p s) timing st t).y + ℓ s)
      ((∑ t ∈ Finset.range N, inner (back.dx t - dx t) (X' t)) + lstmInner back.grads p') 0 := by
  intro back
  refine ((C22_clockwork_lstm_partial a N hN X X' hX p p' hp timing htiming st ctxY ctxC stb cleared δ dx grads
    smooth).add hℓ).congr_deriv ?_
  have := lstmInner_sub back.grads grads p'
  linarith

omit [Fintype β] [Fintype ψ] in
/-- **C55 (BatchNorm).** -/
theorem C55_batch_norm [Nonempty ρ] (decay eps : ℝ) (heps : 0 < eps) (X : ℝ → M ρ φ) (X' : M ρ φ) (hX : Moves X X')
    (gamma beta : ℝ → V φ) (gamma' beta' : V φ) (hg : MovesV gamma gamma') (hb : MovesV beta beta')
    (st : BnState ρ φ) (δ din : M ρ φ) (dgamma dbeta : V φ)
    (ℓ : ℝ → ℝ) (hℓ : HasDerivAt ℓ (innerV dgamma gamma' + innerV dbeta beta') 0) :
    let back := bnBackward (gamma 0) (bnForward true decay eps (X 0) (gamma 0) (beta 0) st) δ din dgamma dbeta
    HasDerivAt (fun s => inner δ (bnForward true decay eps (X s) (gamma s) (beta s) st).out + ℓ s)
      (inner (back.inDeltas - din) X' + innerV back.dgamma gamma' + innerV back.dbeta beta') 0 := by
  intro back
  refine ((C22_batch_norm decay eps heps X X' hX gamma beta gamma' beta' hg hb st δ din dgamma dbeta).add
    hℓ).congr_deriv ?_
  rw [innerV_sub', innerV_sub']
  ring

omit [Fintype β] in
/-- **C55 (FullyConnected), negation.**  The layer discards what the gradient buffers hold.  So whenever
the loss of the further layers does change along the motion, the computed gradient is not the
derivative of the sum. -/
theorem C55_fully_connected_wrong (a : Act) (X : ℝ → M ρ φ) (X' : M ρ φ) (W : ℝ → M ψ φ) (W' : M ψ φ)
    (b : ℝ → V ψ) (b' : V ψ) (hX : Moves X X') (hW : Moves W W') (hb : MovesV b b') (out δ : M ρ ψ)
    (din : M ρ φ) (dW : M ψ φ) (db : V ψ) (smooth : ∀ r j, a.Smooth (∑ k, X 0 r k * W 0 j k + b 0 j))
    (ℓ : ℝ → ℝ) (hℓ : HasDerivAt ℓ (inner dW W' + innerV db b') 0) (hne : inner dW W' + innerV db b' ≠ 0) :
    let back := fcBackward a (X 0) (W 0) (fcForward a (X 0) (W 0) (b 0) out) din δ dW db
    ¬ HasDerivAt (fun s => inner δ (fcForward a (X s) (W s) (b s) out) + ℓ s)
      (inner (back.inDeltas - din) X' + inner back.dW W' + innerV back.dbias b') 0 := by
  intro back h
  have h1 := (C22_fully_connected a X X' W W' b b' hX hW hb out δ din dW db smooth).add hℓ
  have := h1.unique h
  exact hne (by linarith)

omit [Fintype β] in
/-- **C55 (FullyConnected with L2Decay), negation.**  Connect the weights to an `L2Decay` layer whose outputs all
have the delta 1.  Unless all weights are zero, the gradient that `backward_pass` leaves is
not the derivative of the loss with the decay: there is a direction in which it is wrong. -/
theorem C55_l2_wrong (a : Act) (X : M ρ φ) (W : M ψ φ) (hW : W ≠ 0) (b : V ψ) (out δ : M ρ ψ) (din : M ρ φ) (db : V ψ)
    (tmp : M ψ φ) (o2 : V ψ) (smooth : ∀ r j, a.Smooth (∑ k, X r k * W j k + b j)) :
    ∃ (Wm : ℝ → M ψ φ) (W' : M ψ φ), Wm 0 = W ∧ Moves Wm W' ∧
      let dW := l2Backward W (l2Forward W tmp o2).1 (fun _ => 1) 0
      let back := fcBackward a X W (fcForward a X W b out) din δ dW db
      ¬ HasDerivAt (fun s => inner δ (fcForward a X (Wm s) b out) + innerV (fun _ => 1) (l2Forward (Wm s) tmp o2).2)
        (inner back.dW W') 0 := by
  refine ⟨fun s => fun j k => W j k + s * W j k, W, by funext j k; simp, ?_, ?_⟩
  · intro j k
    simpa using ((hasDerivAt_id (0 : ℝ)).mul_const (W j k)).const_add (W j k)
  intro dW back
  have hm : Moves (fun s => fun j k => W j k + s * W j k) W := by
    intro j k
    simpa using ((hasDerivAt_id (0 : ℝ)).mul_const (W j k)).const_add (W j k)
  have e0 : (fun j k => W j k + (0 : ℝ) * W j k) = W := by funext j k; simp
  have hℓ := C22_l2 (fun s => fun j k => W j k + s * W j k) W hm tmp 0 o2 (fun _ => 1)
  simp only [e0, sub_zero] at hℓ
  have key := C55_fully_connected_wrong a (fun _ => X) (fun _ _ => 0) (fun s => fun j k => W j k + s * W j k) W
    (fun _ => b) (fun _ => 0) (Moves.const X) hm (fun _ => hasDerivAt_const _ _) out δ din dW db
    (by simpa using smooth) (fun s => innerV (fun _ => 1) (l2Forward (fun j k => W j k + s * W j k) tmp o2).2)
    (by simpa [innerV] using hℓ) ?_
  · simp only [e0] at key
    intro h
    refine key (h.congr_deriv ?_)
    show inner back.dW W = inner _ (fun _ _ => 0) + inner back.dW W + innerV _ (fun _ => 0)
    simp [inner, innerV]
  · have e1 : ∀ j k, dW j k = W j k := by
      intro j k
      show W j k * 1 + 0 = W j k
      ring
    have hpos : 0 < inner dW W := by
      obtain ⟨j, hj⟩ : ∃ j, W j ≠ 0 := by
        by_contra hno
        push Not at hno
        exact hW (funext hno)
      obtain ⟨k, hk⟩ : ∃ k, W j k ≠ 0 := by
        by_contra hno
        push Not at hno
        exact hj (funext hno)
      unfold inner
      simp only [e1]
      refine Finset.sum_pos' (fun j _ => Finset.sum_nonneg fun k _ => mul_self_nonneg _) ⟨j, Finset.mem_univ _, ?_⟩
      exact Finset.sum_pos' (fun k _ => mul_self_nonneg _) ⟨k, Finset.mem_univ _, mul_self_pos.2 hk⟩
    simp only [innerV, mul_zero, Finset.sum_const_zero, add_zero]
    exact hpos.ne'

/-- **C55 (Convolution2D), negation.**  The layer discards what the gradient buffers hold, `old`.  So
whenever the loss of the further layers, for which `old` is right, does change along the motion, the
computed gradient is not the derivative of the sum. -/
theorem C55_convolution_wrong (a : Act) (g : Geom) (hs : g.sh ≠ 0 ∧ g.sw ≠ 0) (nf n : ℕ)
    (W : ℝ → ℕ → ℝ) (W' : ℕ → ℝ) (b : ℝ → ℕ → ℝ) (b' : ℕ → ℝ) (X : ℝ → ℕ → Arr ℝ) (X' : ℕ → Arr ℝ)
    (hi : ∀ s i, (X s i).size = g.H * g.W * g.C)
    (hX : ∀ i j, HasDerivAt (fun s => (X s i).at' j) ((X' i).at' j) 0)
    (hW : ∀ j, HasDerivAt (fun s => W s j) (W' j) 0) (hb : ∀ j, HasDerivAt (fun s => b s j) (b' j) 0)
    (smooth : ∀ i < n, ∀ out, convForward g (W 0) (b 0) (X 0 i) = some out →
      ∀ h w f, h < g.hc → w < g.wc → f < nf → a.Smooth (out (h * g.wc + w) f))
    (δ : ℕ → ℕ → ℕ → ℝ) (din : ℕ → Arr ℝ) (hd : ∀ i, (din i).size = g.H * g.W * g.C) (old : Back ℝ)
    (ℓ : ℝ → ℝ) (v : ℝ) (hv : v = (∑ f ∈ Finset.range nf, ∑ kh ∈ Finset.range g.KH, ∑ kw ∈ Finset.range g.KW,
      ∑ c ∈ Finset.range g.C, old.dw (g.weight f kh kw c) * W' (g.weight f kh kw c)) +
        ∑ f ∈ Finset.range nf, old.db f * b' f) (hℓ : HasDerivAt ℓ v 0) (hne : v ≠ 0) :
    ∃ (out : ℝ → ℕ → ℕ → ℕ → ℝ) (back : Back ℝ) (dout : ℕ → Arr ℝ),
      (∀ s i, convLayerForward a g (W s) (b s) (X s i) = some (out s i)) ∧
      convLayerBackward a g nf (W 0) ((List.range n).map fun i => (X 0 i, out 0 i, δ i, din i)) old =
        some (back, (List.range n).map dout) ∧
      ¬ HasDerivAt (fun s => (∑ i ∈ Finset.range n, ∑ h ∈ Finset.range g.hc, ∑ w ∈ Finset.range g.wc,
          ∑ f ∈ Finset.range nf, δ i (h * g.wc + w) f * out s i (h * g.wc + w) f) + ℓ s)
        ((∑ i ∈ Finset.range n, ∑ y ∈ Finset.range g.H, ∑ x ∈ Finset.range g.W, ∑ c ∈ Finset.range g.C,
            ((dout i).at' ((y * g.W + x) * g.C + c) - (din i).at' ((y * g.W + x) * g.C + c)) *
              (X' i).at' ((y * g.W + x) * g.C + c)) +
          (∑ f ∈ Finset.range nf, ∑ kh ∈ Finset.range g.KH, ∑ kw ∈ Finset.range g.KW, ∑ c ∈ Finset.range g.C,
            back.dw (g.weight f kh kw c) * W' (g.weight f kh kw c)) +
          ∑ f ∈ Finset.range nf, back.db f * b' f) 0 := by
  obtain ⟨out, back, dout, h1, h2, h3⟩ := C22_convolution a g hs nf n W W' b b' X X' hi hX hW hb smooth δ din hd old
  refine ⟨out, back, dout, h1, h2, fun h => hne ?_⟩
  have := (h3.add hℓ).unique h
  linarith

/-! ### Non-vacuity -/

/-- The layer loss of a decay on the recurrent weights is an `ℓ` as in `C55_recurrent`. -/
example (p : ℝ → RnnParams φ ψ) (p' : RnnParams φ ψ) (hp : RnnMoves p p') (tmp : M ψ ψ) (o2 : V ψ) :
    let grads : RnnParams φ ψ := ⟨0, l2Backward (p 0).R (l2Forward (p 0).R tmp o2).1 (fun _ => 1) 0, 0⟩
    HasDerivAt (fun s => innerV (fun _ => 1) (l2Forward (p s).R tmp o2).2)
      (inner grads.W p'.W + inner grads.R p'.R + innerV grads.bias p'.bias) 0 := by
  have h := C22_l2 (fun s => (p s).R) p'.R hp.R tmp 0 o2 (fun _ => 1)
  refine h.congr_deriv ?_
  simp [inner, innerV]

/-- Non-zero weights exist, and a linear layer meets the hypotheses of `C55_l2_wrong`. -/
example := C55_l2_wrong (ρ := Fin 3) (φ := Fin 2) (ψ := Fin 2) .linear (fun r k => r + k) (fun j k => if j = k then 2 else 0)
  (by intro h; simpa using congrFun (congrFun h 0) 0) (fun _ => 1) 0 (fun _ _ => 1) 0 0 0 0
  (fun _ _ h => by cases h)

end

end Verif.Layers
