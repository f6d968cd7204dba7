import Verif.Layers.Ops

/-!
# Layers without recurrence (brainstorm/layers/)

Each forward pass is a function of the arrays it is given, in the order of the operations of
the code; outputs and internals are passed with their old contents.  Each backward pass is
a function of these and of the deltas and gradients as they are before it.
`ρ` indexes the rows (time and batch, flattened), `φ`, `ψ` features.
-/

namespace Verif.Layers

noncomputable section

variable {ρ φ ψ : Type}

/-! ## FullyConnected -/

/-- `FullyConnectedLayerImpl.forward_pass` (fully_connected_layer.py:52-62). -/
def fcForward [Fintype φ] (a : Act) (inputs : M ρ φ) (W : M ψ φ) (bias : V ψ) (outputs : M ρ ψ) : M ρ ψ :=
  let outputs := dotMM inputs (tr W) outputs
  let outputs := addMV outputs bias outputs
  actF a outputs outputs

structure FcBack (ρ φ ψ : Type) where
  inDeltas : M ρ φ
  dW : M ψ φ
  dbias : V ψ

/-- `FullyConnectedLayerImpl.backward_pass` (fully_connected_layer.py:64-78). -/
def fcBackward [Fintype ρ] [Fintype ψ] (a : Act) (inputs : M ρ φ) (W : M ψ φ) (outputs : M ρ ψ)
    (inDeltas : M ρ φ) (outDeltas : M ρ ψ) (dW : M ψ φ) (dbias : V ψ) : FcBack ρ φ ψ :=
  let outDeltas := actD a outputs outDeltas outDeltas
  ⟨dotAddMM outDeltas W inDeltas, dotMM (tr outDeltas) inputs dW, sumT0 outDeltas dbias⟩

/-! ## Elementwise -/

/-- `ElementwiseLayerImpl.forward_pass` (elementwise_layer.py:30-32). -/
def elementwiseForward (a : Act) (inputs outputs : M ρ φ) : M ρ φ := actF a inputs outputs

/-- `ElementwiseLayerImpl.backward_pass` (elementwise_layer.py:34-40). -/
def elementwiseBackward (a : Act) (outputs inDeltas outDeltas : M ρ φ) : M ρ φ :=
  let tmp : M ρ φ := fun _ _ => 0
  let tmp := actD a outputs outDeltas tmp
  addTT inDeltas tmp inDeltas

/-! ## Highway -/

/-- `HighwayLayerImpl.forward_pass` (highway_layer.py:40-51). -/
def highwayForward (H T x y : M ρ φ) : M ρ φ :=
  let tmp : M ρ φ := fun _ _ => 0
  let tmp := subTT H x tmp
  let tmp := mulTT T tmp tmp
  addTT tmp x y

/-- `HighwayLayerImpl.backward_pass` (highway_layer.py:53-71): the new `(dH, dT, dx)`. -/
def highwayBackward (H T x dy dH dT dx : M ρ φ) : M ρ φ × M ρ φ × M ρ φ :=
  let tmp : M ρ φ := fun _ _ => 1
  let tmp := subTT tmp T tmp
  let dx := mulAddTT tmp dy dx
  let dH := mulAddTT T dy dH
  let tmp := subTT H x tmp
  let dT := mulAddTT tmp dy dT
  (dH, dT, dx)

/-! ## NoOp and DeltasScaling -/

/-- `NoOpLayerImpl.forward_pass` and `DeltasScalingLayerImpl.forward_pass`
(noop_layer.py:28-29, deltas_scaling_layer.py:37-38). -/
def copyForward (inputs outputs : M ρ φ) : M ρ φ := copyTo inputs outputs

/-- `NoOpLayerImpl.backward_pass` (noop_layer.py:31-34). -/
def noopBackward (outDeltas inDeltas : M ρ φ) : M ρ φ := addTT outDeltas inDeltas inDeltas

/-- `DeltasScalingLayerImpl.backward_pass` (deltas_scaling_layer.py:40-43). -/
def scalingBackward (factor : ℝ) (outDeltas inDeltas : M ρ φ) : M ρ φ := mulAddST factor outDeltas inDeltas

/-! ## Merge -/

/-- `merge_tt` (numpy_handler.py:221-225): columns of the first input, then of the second; the columns
are indexed by the disjoint sum.  (That this is the concatenation along the last axis is
`C50_merge`.) -/
def mergeForward (a : M ρ φ) (b : M ρ ψ) (_out : M ρ (φ ⊕ ψ)) : M ρ (φ ⊕ ψ) :=
  fun r => Sum.elim (a r) (b r)

/-- `split_add_tt` (numpy_handler.py:251-256). -/
def mergeBackward (x : M ρ (φ ⊕ ψ)) (outA : M ρ φ) (outB : M ρ ψ) : M ρ φ × M ρ ψ :=
  (fun r k => outA r k + x r (.inl k), fun r k => outB r k + x r (.inr k))

/-! ## Mask -/

/-- The mask, flattened by `flatten_buffer` (mask_layer.py:44-47) like the input: either one column
(mask of feature shape `(1,)`, or the input's with last dimension 1) or of the shape of the input. -/
inductive Mask (ρ φ : Type)
  | column (m : V ρ)
  | full (m : M ρ φ)

/-- `mult_mv` with the mask (numpy_handler.py:236-237), broadcasting a column. -/
def mulMask (x : M ρ φ) (mask : Mask ρ φ) (out : M ρ φ) : M ρ φ :=
  match mask with
  | .column m => mulMC x m out
  | .full m => mulTT x m out

/-- `MaskLayerImpl.forward_pass` (mask_layer.py:49-56); `ρ` and `φ` are the two flattened
dimensions. -/
def maskForward (inputs : M ρ φ) (mask : Mask ρ φ) (out : M ρ φ) : M ρ φ := mulMask inputs mask out

/-- `MaskLayerImpl.backward_pass` (mask_layer.py:58-67). -/
def maskBackward (mask : Mask ρ φ) (outDeltas inDeltas : M ρ φ) : M ρ φ :=
  let tmp : M ρ φ := fun _ _ => 0
  let tmp := mulMask outDeltas mask tmp
  addTT tmp inDeltas inDeltas

/-! ## Dropout -/

/-- `DropoutLayerImpl.forward_pass` (dropout_layer.py:36-47): new mask and outputs. `drawn` is the mask of 0 and 1
drawn by `generate_probability_mask`. -/
def dropoutForward (training : Bool) (p : ℝ) (drawn inputs mask outputs : M ρ φ) : M ρ φ × M ρ φ :=
  if training then
    let mask := copyTo drawn mask
    let outputs := mulTT inputs mask outputs
    (mask, mulST (1 / (1 - p)) outputs outputs)
  else (mask, copyTo inputs outputs)

/-- `DropoutLayerImpl.backward_pass` (dropout_layer.py:49-52). -/
def dropoutBackward (mask outDeltas inDeltas : M ρ φ) : M ρ φ := mulAddTT outDeltas mask inDeltas

/-! ## SquaredError and SquaredDifference -/

/-- `SquaredErrorLayerImpl.forward_pass` (squared_error_layer.py:56-69): predictions, diff
and loss. -/
def squaredErrorForward (x t y diff loss : M ρ φ) : M ρ φ × M ρ φ × M ρ φ :=
  let y := copyTo x y
  let diff := subTT x t diff
  let loss := mulTT diff diff loss
  let loss := mulST 0.5 loss loss
  (y, diff, loss)

/-- `SquaredErrorLayerImpl.backward_pass` (squared_error_layer.py:71-79). -/
def squaredErrorBackward (diff dloss dx : M ρ φ) : M ρ φ := mulAddTT dloss diff dx

/-- `SquaredDifferenceLayerImpl.forward_pass` (squared_difference_layer.py:42-52): diff and
outputs. -/
def squaredDiffForward (a b diff outputs : M ρ φ) : M ρ φ × M ρ φ :=
  let diff := subTT a b diff
  (diff, mulTT diff diff outputs)

/-- `SquaredDifferenceLayerImpl.backward_pass` (squared_difference_layer.py:54-67). -/
def squaredDiffBackward (diff outDeltas da db : M ρ φ) : M ρ φ × M ρ φ :=
  let tmp : M ρ φ := fun _ _ => 0
  let outDeltas := mulST 2 outDeltas outDeltas
  let da := mulAddTT outDeltas diff da
  let tmp := mulST (-1) diff tmp
  (da, mulAddTT outDeltas tmp db)

/-! ## L1 and L2 decay -/

/-- `L1DecayLayerImpl.forward_pass` (l1_decay.py:35-50): tmp and loss. -/
def l1Forward [Fintype φ] (inputs tmp : M ρ φ) (outputs : V ρ) : M ρ φ × V ρ :=
  let tmp := absT inputs tmp
  (tmp, sumT1 tmp outputs)

/-- `L1DecayLayerImpl.backward_pass` (l1_decay.py:52-69). -/
def l1Backward (inputs tmp : M ρ φ) (outDeltas : V ρ) (inDeltas : M ρ φ) : M ρ φ :=
  let tmp := signT inputs tmp
  let tmp := mulMC tmp outDeltas tmp
  addTT tmp inDeltas inDeltas

/-- `L2DecayLayerImpl.forward_pass` (l2_decay.py:37-53): tmp and loss. -/
def l2Forward [Fintype φ] (inputs tmp : M ρ φ) (outputs : V ρ) : M ρ φ × V ρ :=
  let tmp := mulTT inputs inputs tmp
  let tmp := mulST 0.5 tmp tmp
  (tmp, sumT1 tmp outputs)

/-- `L2DecayLayerImpl.backward_pass` (l2_decay.py:55-71). -/
def l2Backward (inputs tmp : M ρ φ) (outDeltas : V ρ) (inDeltas : M ρ φ) : M ρ φ :=
  let tmp := mulMC inputs outDeltas tmp
  addTT tmp inDeltas inDeltas

/-! ## Loss -/

/-- `LossLayerImpl.forward_pass` (loss_layer.py:38-49). -/
def lossForward [Fintype ρ] [Fintype φ] (importance batchSize : ℝ) (inputs : M ρ φ) (loss : ℝ) : ℝ :=
  let loss := sumTAll inputs loss
  importance / batchSize * loss

/-- `LossLayerImpl.backward_pass` (loss_layer.py:51-58). -/
def lossBackward (importance batchSize : ℝ) (inDeltas : M ρ φ) : M ρ φ :=
  addST (importance / batchSize) inDeltas inDeltas

/-! ## Softmax, sigmoid and binomial cross entropy -/

/-- `np.amax` of a row. -/
def rowMax [Fintype φ] [Nonempty φ] (row : V φ) : ℝ := Finset.univ.sup' Finset.univ_nonempty row

/-- `softmax_m` (numpy_handler.py:292-295). -/
def softmaxM [Fintype φ] [Nonempty φ] (m _out : M ρ φ) : M ρ φ :=
  fun r => let e : V φ := fun k => Real.exp (m r k - rowMax (m r)); fun k => e k / ∑ j, e j

/-- `index_m_by_v` (numpy_handler.py:202-203). -/
def indexMByV (m : M ρ φ) (v : ρ → φ) (_out : V ρ) : V ρ := fun r => m r (v r)

/-- `binarize_v` (numpy_handler.py:99-101). -/
def binarizeV [DecidableEq φ] (v : ρ → φ) (_out : M ρ φ) : M ρ φ := fun r k => if k = v r then 1 else 0

/-- `SoftmaxCELayerImpl.forward_pass` (softmax_ce_layer.py:65-89): predictions and loss. The
targets are indices of classes. -/
def softmaxCEForward [Fintype φ] [Nonempty φ] (inputs : M ρ φ) (targets : ρ → φ) (probs : M ρ φ) (loss : V ρ) :
    M ρ φ × V ρ :=
  let probs := softmaxM inputs probs
  let loss : V ρ := fun r => loss r * 0
  let loss := indexMByV probs targets loss
  let loss : V ρ := fun r => min (max (loss r) 1e-6) 1
  let loss : V ρ := fun r => Real.log (loss r)
  (probs, mulSV (-1) loss loss)

/-- `SoftmaxCELayerImpl.backward_pass` (softmax_ce_layer.py:91-114). -/
def softmaxCEBackward [DecidableEq φ] (targets : ρ → φ) (probs tBin : M ρ φ) (dloss : V ρ) (dinputs : M ρ φ) : M ρ φ :=
  let tBin := binarizeV targets tBin
  let tBin := mulST (-1) tBin tBin
  let tBin := addTT tBin probs tBin
  let tBin := mulMC tBin dloss tBin
  addTT tBin dinputs dinputs

/-- `SigmoidCELayerImpl.forward_pass` (sigmoid_ce_layer.py:58-85): predictions and loss. -/
def sigmoidCEForward (inputs targets prob loss : M ρ φ) : M ρ φ × M ρ φ :=
  let prob := actF .sigmoid inputs prob
  let tmp : M ρ φ := fun _ _ => 1
  let loss := subTT tmp prob loss
  let tmp := subTT tmp targets tmp
  let loss := clipT loss 1e-6 1 loss
  let loss := logT loss loss
  let tmp := mulTT tmp loss tmp
  let loss := clipT prob 1e-6 1 loss
  let loss := logT loss loss
  let loss := mulTT targets loss loss
  let loss := addTT tmp loss loss
  (prob, mulST (-1) loss loss)

/-- `SigmoidCELayerImpl.backward_pass` (sigmoid_ce_layer.py:87-100). -/
def sigmoidCEBackward (targets prob dcee dloss dinputs : M ρ φ) : M ρ φ :=
  let dcee := subTT prob targets dcee
  let dcee := mulTT dcee dloss dcee -- `mult_mv` with arrays of the same shape
  addTT dcee dinputs dinputs

/-- `BinomialCrossEntropyLayerImpl.forward_pass` (binomial_cross_entropy_layer.py:59-86): cee
and the loss. -/
def binomialCEForward [Fintype φ] (y t cee : M ρ φ) (ceeSum : V ρ) : M ρ φ × V ρ :=
  let tmp : M ρ φ := fun _ _ => 1
  let cee := subTT tmp y cee
  let tmp := subTT tmp t tmp
  let cee := clipT cee 1e-6 1 cee
  let cee := logT cee cee
  let tmp := mulTT tmp cee tmp
  let cee := clipT y 1e-6 1 cee
  let cee := logT cee cee
  let cee := mulTT t cee cee
  let cee := addTT tmp cee cee
  let ceeSum := sumT1 cee ceeSum
  (cee, mulSV (-1) ceeSum ceeSum)

/-- `BinomialCrossEntropyLayerImpl.backward_pass` (binomial_cross_entropy_layer.py:88-116). For
inputs with one feature dimension: `broadcast_t` rejects others. -/
def binomialCEBackward (y t ceed : M ρ φ) (ceedSum : V ρ) (yd : M ρ φ) : M ρ φ :=
  let tmp : M ρ φ := fun _ _ => 0
  let ceed := mulTT y y ceed
  let ceed := subTT y ceed ceed
  let ceed := clipT ceed 1e-6 1 ceed
  let tmp := subTT y t tmp
  let ceed := divTT tmp ceed ceed
  let tmp : M ρ φ := fun r _ => ceedSum r
  let ceed := mulTT ceed tmp ceed
  addTT ceed yd yd

/-! ## Batch normalisation -/

/-- What a forward pass of batch normalisation leaves: the parameters `mu` and `sigma`, the
internals and the outputs. -/
structure BnState (ρ φ : Type) where
  mu : V φ
  sigma : V φ
  sigmaB : V φ
  centered : M ρ φ
  xHat : M ρ φ
  out : M ρ φ

/-- `BatchNormLayerImpl.forward_pass` (batch_normalization_layer.py:54-105). -/
def bnForward [Fintype ρ] (training : Bool) (decay epsilon : ℝ) (inputs : M ρ φ) (gamma beta : V φ)
    (st : BnState ρ φ) : BnState ρ φ :=
  let m : ℝ := Fintype.card ρ
  if training then
    let muB := sumT0 inputs st.sigmaB
    let muB := mulSV (-1 / m) muB muB
    let mu := mulSV decay st.mu st.mu
    let mu := mulAddSV (1 - decay) muB mu
    let centered := addMV inputs muB st.centered
    let centered2 := mulTT centered centered st.xHat
    let sigma2 := sumT0 centered2 muB
    let sigma2 := mulSV (1 / m) sigma2 sigma2
    let sigma2 : V φ := fun k => sigma2 k + epsilon
    let sigmaB := sqrtV sigma2 sigma2
    let sigma := mulSV decay st.sigma st.sigma
    let sigma := mulAddSV (1 - decay) sigmaB sigma
    let xHat := divMV centered sigmaB centered2
    let out := mulMV xHat gamma st.out
    let out := addMV out beta out
    ⟨mu, sigma, sigmaB, centered, xHat, out⟩
  else
    let centered := addMV inputs st.mu st.centered
    let xHat := divMV centered st.sigma st.xHat
    let out := mulMV xHat gamma st.out
    let out := addMV out beta out
    ⟨st.mu, st.sigma, st.sigmaB, centered, xHat, out⟩

structure BnBack (ρ φ : Type) where
  dgamma : V φ
  dbeta : V φ
  inDeltas : M ρ φ

/-- `BatchNormLayerImpl.backward_pass` (batch_normalization_layer.py:107-152). -/
def bnBackward [Fintype ρ] (gamma : V φ) (st : BnState ρ φ) (outDeltas inDeltas : M ρ φ) (dgamma dbeta : V φ) :
    BnBack ρ φ :=
  let m : ℝ := Fintype.card ρ
  let bigTmp : M ρ φ := fun _ _ => 0
  let smallTmp : V φ := fun _ => 0
  let bigTmp := mulTT outDeltas st.xHat bigTmp
  let smallTmp := sumT0 bigTmp smallTmp
  let dgamma := addVV smallTmp dgamma dgamma
  let smallTmp := mulSV (1 / m) smallTmp smallTmp
  let bigTmp := mulMV st.xHat smallTmp bigTmp
  let smallTmp := sumT0 outDeltas smallTmp
  let dbeta := addVV smallTmp dbeta dbeta
  let smallTmp := mulSV (1 / m) smallTmp smallTmp
  let bigTmp := subTT outDeltas bigTmp bigTmp
  let bigTmp := subMV bigTmp smallTmp bigTmp
  let smallTmp := divVV gamma st.sigmaB smallTmp
  let bigTmp := mulMV bigTmp smallTmp bigTmp
  ⟨dgamma, dbeta, addTT bigTmp inDeltas inDeltas⟩

end

end Verif.Layers
