import Verif.Memory.Arrays
import Verif.Network.Instances
import Verif.Network.Recurrent
import Verif.Network.ConvPool
import Verif.Network.FullMask

/-!
# Where the layers of the library find their numbers

`LibLayer` lists the layers of the library together with the shapes of their arrays.  Except for `Loss`, `Merge`, the
convolution and pooling layers, and the recurrent layers, the layers work on arrays of two dimensions into which
`flatten_time`, `flatten_time_and_features` or `flatten_all_but_last` turn the arrays without copying; the order of the
entries stays the same.
-/

namespace Verif.Memory

open Verif.Structure Verif.Layout Verif.Buffers Verif.Network Verif.Layers

/-! ### Specification -/

/-- Parameters of one or two dimensions. -/
def vec (n : ℕ) : Struct := ⟨[.n n], 0, false⟩
def mm (n m : ℕ) : Struct := ⟨[.n n, .n m], 0, false⟩

/-- Outputs and internals of recurrent layers, with one context row. -/
def rec1 (n : ℕ) : Struct := ⟨[.T, .B, .n n], 1, false⟩

/-- The inputs of a layer, the outputs of a layer. -/
abbrev inArr {ι : Type} {n : ℕ} (x : String) (e : ι ≃ Fin n) : ι → Slot := arr (str "inputs") (str x) e
abbrev outArr {ι : Type} {n : ℕ} (x : String) (e : ι ≃ Fin n) : ι → Slot := arr (str "outputs") (str x) e
abbrev parArr {ι : Type} {n : ℕ} (x : String) (e : ι ≃ Fin n) : ι → Slot := arr (str "parameters") (str x) e
abbrev intArr {ι : Type} {n : ℕ} (x : String) (e : ι ≃ Fin n) : ι → Slot := arr (str "internals") (str x) e

/-- FullyConnected (fully_connected_layer.py:52-92). -/
def fcSlots (R m n : ℕ) : Slots (FcI (Fin R) (Fin m) (Fin n)) (Fin R × Fin n) Empty Empty where
  i := Sum.elim (inArr "default" (mat R m)) (Sum.elim (parArr "W" (mat n m)) (parArr "bias" (Equiv.refl _)))
  o := outArr "default" (mat R n)
  k := Empty.elim
  p := Empty.elim

/-- Layers that have one input and one output of the same shape: Elementwise (elementwise_layer.py:30-41), NoOp
(noop_layer.py:28-36). -/
def sameSlots (R n : ℕ) : Slots (Fin R × Fin n) (Fin R × Fin n) Empty Empty where
  i := inArr "default" (mat R n)
  o := outArr "default" (mat R n)
  k := Empty.elim
  p := Empty.elim

/-- Highway (highway_layer.py:40-71). -/
def highwaySlots (R n : ℕ) : Slots (HighwayI (Fin R) (Fin n)) (Fin R × Fin n) Empty Empty where
  i := Sum.elim (inArr "H" (mat R n)) (Sum.elim (inArr "T" (mat R n)) (inArr "x" (mat R n)))
  o := outArr "default" (mat R n)
  k := Empty.elim
  p := Empty.elim

/-- Merge (merge_layer.py:46-63): the rows of the output are rows of the two inputs one behind the other. -/
def mergeSlots (R m n : ℕ) : Slots ((Fin R × Fin m) ⊕ (Fin R × Fin n)) (Fin R × (Fin m ⊕ Fin n)) Empty Empty where
  i := Sum.elim (inArr "inputs_1" (mat R m)) (inArr "inputs_2" (mat R n))
  o := outArr "default" ((Equiv.prodCongr (Equiv.refl _) finSumFinEquiv).trans (mat R (m + n)))
  k := Empty.elim
  p := Empty.elim

/-- Mask (mask_layer.py:44-66) with one number per row. -/
def maskSlots (R n : ℕ) : Slots (Fin R × Fin n) (Fin R × Fin n) Empty (Fin R) where
  i := inArr "default" (mat R n)
  o := outArr "default" (mat R n)
  k := Empty.elim
  p := fun a => .inl (inArr "mask" (Equiv.refl _) a)

/-- Mask with a mask of the shape of the input. -/
def maskFullSlots (R n : ℕ) : Slots (Fin R × Fin n) (Fin R × Fin n) Empty (Fin R × Fin n) where
  i := inArr "default" (mat R n)
  o := outArr "default" (mat R n)
  k := Empty.elim
  p := fun a => .inl (inArr "mask" (mat R n) a)

/-- Dropout (dropout_layer.py:36-52); the random numbers of the handler lie outside of the buffer. -/
def dropoutSlots (off R n : ℕ) : Slots (Fin R × Fin n) (Fin R × Fin n) (Fin R × Fin n) (Fin R × Fin n) where
  i := inArr "default" (mat R n)
  o := outArr "default" (mat R n)
  k := intArr "mask" (mat R n)
  p := fun a => .inr (off + mat R n a)

/-- SquaredDifference (squared_difference_layer.py:42-78). -/
def squaredDifferenceSlots (R n : ℕ) : Slots ((Fin R × Fin n) ⊕ (Fin R × Fin n)) (Fin R × Fin n) (Fin R × Fin n) Empty where
  i := Sum.elim (inArr "inputs_1" (mat R n)) (inArr "inputs_2" (mat R n))
  o := outArr "default" (mat R n)
  k := intArr "diff" (mat R n)
  p := Empty.elim

/-- SquaredError (squared_error_layer.py:56-90). -/
def squaredErrorSlots (R n : ℕ) :
    Slots (Fin R × Fin n) (Fin R × Fin n) ((Fin R × Fin n) ⊕ (Fin R × Fin n)) (Fin R × Fin n) where
  i := inArr "default" (mat R n)
  o := outArr "loss" (mat R n)
  k := Sum.elim (outArr "predictions" (mat R n)) (intArr "diff" (mat R n))
  p := fun a => .inl (inArr "targets" (mat R n) a)

/-- SigmoidCE (sigmoid_ce_layer.py:58-105). -/
def sigmoidCESlots (R n : ℕ) : Slots (Fin R × Fin n) (Fin R × Fin n) (Fin R × Fin n) (Fin R × Fin n) where
  i := inArr "default" (mat R n)
  o := outArr "loss" (mat R n)
  k := outArr "predictions" (mat R n)
  p := fun a => .inl (inArr "targets" (mat R n) a)

/-- SoftmaxCE (softmax_ce_layer.py:65-120). -/
def softmaxCESlots (R n : ℕ) : Slots (Fin R × Fin n) (Fin R) (Fin R × Fin n) (Fin R) where
  i := inArr "default" (mat R n)
  o := outArr "loss" (Equiv.refl _)
  k := outArr "predictions" (mat R n)
  p := fun a => .inl (inArr "targets" (Equiv.refl _) a)

/-- BinomialCrossEntropy (binomial_cross_entropy_layer.py:59-105). -/
def binomialCESlots (R n : ℕ) : Slots (Fin R × Fin n) (Fin R) (Fin R × Fin n) (Fin R × Fin n) where
  i := inArr "default" (mat R n)
  o := outArr "default" (Equiv.refl _)
  k := intArr "cee" (mat R n)
  p := fun a => .inl (inArr "targets" (mat R n) a)

/-- L1Decay (l1_decay.py:35-62) and L2Decay (l2_decay.py:37-65). -/
def decaySlots (R n : ℕ) : Slots (Fin R × Fin n) (Fin R) (Fin R × Fin n) Empty where
  i := inArr "default" (mat R n)
  o := outArr "loss" (Equiv.refl _)
  k := intArr "tmp" (mat R n)
  p := Empty.elim

/-- Loss (loss_layer.py:38-58). -/
def lossSlots (R n : ℕ) : Slots (Fin R × Fin n) Unit Empty Empty where
  i := inArr "default" (mat R n)
  o := outArr "loss" finOneEquiv.symm
  k := Empty.elim
  p := Empty.elim

/-- Recurrent (recurrent_layer.py:51-112). -/
def rnnSlots (T B m n : ℕ) : Slots (RnnI T (Fin B) (Fin m) (Fin n)) (Fin T × Fin B × Fin n) (Fin T × Fin B × Fin n)
    (Fin B × Fin n) where
  i := Sum.elim (inArr "default" (cube T B m)) (Sum.elim (parArr "W" (mat n m)) (Sum.elim (parArr "R" (mat n n))
    (parArr "bias" (Equiv.refl _))))
  o := outArr "default" (cube T B n)
  k := intArr "Ha" (cube T B n)
  p := fun a => .inl (tail (str "outputs") (str "default") (T * (B * n)) (mat B n) a)

/-- Clockwork (clockwork_layer.py:55-146). -/
def clockworkSlots (T B m n : ℕ) : Slots (RnnI T (Fin B) (Fin m) (Fin n)) (Fin T × Fin B × Fin n) (Fin T × Fin B × Fin n)
    ((Fin B × Fin n) ⊕ Fin n) where
  i := (rnnSlots T B m n).i
  o := (rnnSlots T B m n).o
  k := (rnnSlots T B m n).k
  p := Sum.elim (rnnSlots T B m n).p (fun a => .inl (parArr "timing" (Equiv.refl _) a))

/-- Arrays whose names depend on the gate. -/
def fam {γ ι : Type} {n : ℕ} (cat : Name) (names : γ → Name) (e : ι ≃ Fin n) : γ × ι → Slot := fun q => ⟨cat, names q.1, e q.2⟩

def gateW : Gate → Name
  | .z => str "Wz"
  | .i => str "Wi"
  | .f => str "Wf"
  | .o => str "Wo"

def gateR : Gate → Name
  | .z => str "Rz"
  | .i => str "Ri"
  | .f => str "Rf"
  | .o => str "Ro"

def gateB : Gate → Name
  | .z => str "bz"
  | .i => str "bi"
  | .f => str "bf"
  | .o => str "bo"

def lstmName : LstmInt → Name
  | .Za => str "Za"
  | .Zb => str "Zb"
  | .Ia => str "Ia"
  | .Ib => str "Ib"
  | .Fa => str "Fa"
  | .Fb => str "Fb"
  | .Oa => str "Oa"
  | .Ob => str "Ob"
  | .Ca => str "Ca"
  | .Cb => str "Cb"

/-- Lstm (lstm_layer.py:90-260). -/
def lstmSlots (T B m n : ℕ) : Slots (LstmI T (Fin B) (Fin m) (Fin n)) (Fin T × Fin B × Fin n)
    (LstmInt × Fin T × Fin B × Fin n) ((Fin B × Fin n) ⊕ (Fin B × Fin n)) where
  i := Sum.elim (inArr "default" (cube T B m)) (Sum.elim (fam (str "parameters") gateW (mat n m))
    (Sum.elim (fam (str "parameters") gateR (mat n n)) (Sum.elim (fam (str "parameters") gateB (Equiv.refl _))
      (Sum.elim (parArr "pi" (Equiv.refl _)) (Sum.elim (parArr "pf" (Equiv.refl _)) (parArr "po" (Equiv.refl _)))))))
  o := outArr "default" (cube T B n)
  k := fam (str "internals") lstmName (cube T B n)
  p := Sum.elim (fun a => .inl (tail (str "outputs") (str "default") (T * (B * n)) (mat B n) a))
    (fun a => .inl (tail (str "internals") (str "Ca") (T * (B * n)) (mat B n) a))

/-- ClockworkLstm (clockwork_lstm_layer.py:97-290). -/
def clockworkLstmSlots (T B m n : ℕ) : Slots (LstmI T (Fin B) (Fin m) (Fin n)) (Fin T × Fin B × Fin n)
    (LstmInt × Fin T × Fin B × Fin n) (((Fin B × Fin n) ⊕ (Fin B × Fin n)) ⊕ Fin n) where
  i := (lstmSlots T B m n).i
  o := (lstmSlots T B m n).o
  k := (lstmSlots T B m n).k
  p := Sum.elim (lstmSlots T B m n).p (fun a => .inl (parArr "timing" (Equiv.refl _) a))

/-- Convolution2D (convolution_layer_2d.py:78-118). -/
def convSlots (g : Conv.Geom) (N nf : ℕ) : Slots (ConvI g N nf) (ConvO g N nf) Empty Empty where
  i := Sum.elim (inArr "default" (mat N (g.H * g.W * g.C))) (Sum.elim (parArr "W" (Equiv.refl _)) (parArr "bias" (Equiv.refl _)))
  o := outArr "default" (cube N (g.hc * g.wc) nf)
  k := Empty.elim
  p := Empty.elim

/-- Entry `(y, x, c)` of image `j`. -/
def pixels (N h w c : ℕ) : Images N h w c ≃ Fin (N * (h * (w * c))) :=
  (Equiv.prodCongr (Equiv.refl _) (cube h w c)).trans (mat N (h * (w * c)))

/-- Pooling2D of type `avg` (pooling_layer_2d.py:74-102). -/
def avgPoolSlots (g : Pool.Geom) (N : ℕ) : Slots (Images N g.H g.W g.nc) (Images N g.OH g.OW g.nc) Empty Empty where
  i := inArr "default" (pixels N g.H g.W g.nc)
  o := outArr "default" (pixels N g.OH g.OW g.nc)
  k := Empty.elim
  p := Empty.elim

/-- Pooling2D of type `max` (pooling_layer_2d.py:74-102). -/
def maxPoolSlots (g : Pool.Geom) (N : ℕ) :
    Slots (Images N g.H g.W g.nc) (Images N g.OH g.OW g.nc) (Images N g.OH g.OW g.nc) Empty where
  i := inArr "default" (pixels N g.H g.W g.nc)
  o := outArr "default" (pixels N g.OH g.OW g.nc)
  k := intArr "argmax" (pixels N g.OH g.OW g.nc)
  p := Empty.elim

/-- The factor of the batch size in Loss (loss_layer.py:29-32, 39-42): the length of the axis `B`, if there is one. -/
def lossBatch (s : Struct) (B : ℕ) : ℝ := if s.bufferType = 0 then 1 else B

/-- The LSTM has these parameters (lstm_layer.py:38-55). -/
def lstmPars (m n : ℕ) : List (Name × Struct) :=
  [(str "Wz", mm n m), (str "Wi", mm n m), (str "Wf", mm n m), (str "Wo", mm n m),
   (str "pi", mm 1 n), (str "pf", mm 1 n), (str "po", mm 1 n),
   (str "Rz", mm n n), (str "Ri", mm n n), (str "Rf", mm n n), (str "Ro", mm n n),
   (str "bz", vec n), (str "bi", vec n), (str "bf", vec n), (str "bo", vec n)]

/-- The LSTM uses these internals in the forward pass (lstm_layer.py:57-72). -/
def lstmInts (n : ℕ) : List (Name × Struct) :=
  [(str "Za", rec1 n), (str "Zb", rec1 n), (str "Ia", rec1 n), (str "Ib", rec1 n), (str "Fa", rec1 n), (str "Fb", rec1 n),
   (str "Oa", rec1 n), (str "Ob", rec1 n), (str "Ca", rec1 n), (str "Cb", rec1 n)]

/-- The output `x` is not connected. -/
def Loose (l : LayerInfo) (x : String) : Prop := ∀ o ∈ l.outgoing, o.kind = .outputs → o.buffer ≠ str x

/-- No parameter of the layer is connected. -/
def OwnParams (l : LayerInfo) : Prop := ∀ o ∈ l.outgoing, o.kind ≠ .parameters

/-- A layer of the library: its type with the shapes that its arrays have.  Without the following, the backward pass does
not compute derivatives: the outputs `predictions` of cost layers are not connected (their deltas are ignored), targets and
masks are data, the parameters of a fully connected layer are not inputs of other layers (their gradients are
overwritten), and losses are not connected. -/
inductive LibLayer (layers : List LayerInfo) (data l : LayerInfo) (T B : ℕ) : Type
  | fullyConnected (a : Act) (x y : Struct)
      (has : Has l [(str "default", x)] [(str "default", y)] [(str "W", mm y.featureSize x.featureSize), (str "bias", vec y.featureSize)] [])
      (hx : Seq x) (hy : Seq y) (own : OwnParams l)
  | elementwise (a : Act) (x : Struct) (has : Has l [(str "default", x)] [(str "default", x)] [] []) (hx : Seq x)
  | noOp (x : Struct) (has : Has l [(str "default", x)] [(str "default", x)] [] []) (hx : Seq x)
  | highway (h t x y : Struct) (has : Has l [(str "H", h), (str "T", t), (str "x", x)] [(str "default", y)] [] [])
      (hh : Seq h) (ht : Seq t) (hx : Seq x) (hy : Seq y)
      (eh : h.featureSize = x.featureSize) (et : t.featureSize = x.featureSize) (ey : y.featureSize = x.featureSize)
  | merge (R m n : ℕ) (x y z : Struct) (has : Has l [(str "inputs_1", x), (str "inputs_2", y)] [(str "default", z)] [] [])
      (hx : size x T B = R * m) (hy : size y T B = R * n) (hz : size z T B = R * (m + n)) (hc : z.contextSize = 0)
  | mask (R n : ℕ) (x k : Struct) (has : Has l [(str "default", x), (str "mask", k)] [(str "default", x)] [] [])
      (hx : Seq x) (hxs : size x T B = R * n) (hks : size k T B = R) (data : OnlyData layers data l (str "mask"))
  | maskFull (x k : Struct) (has : Has l [(str "default", x), (str "mask", k)] [(str "default", x)] [] [])
      (hx : Seq x) (hk : Seq k) (ek : k.featureSize = x.featureSize) (data : OnlyData layers data l (str "mask"))
  | dropout (training : Bool) (q : ℝ) (off : ℕ) (x : Struct)
      (has : Has l [(str "default", x)] [(str "default", x)] [] [(str "mask", x)]) (hx : Seq x) (hb : x.backwardOnly = false)
  | squaredDifference (x y z d : Struct)
      (has : Has l [(str "inputs_1", x), (str "inputs_2", y)] [(str "default", z)] [] [(str "diff", d)])
      (hx : Seq x) (hy : Seq y) (hz : Seq z) (hd : Seq d) (ey : y.featureSize = x.featureSize)
      (ez : z.featureSize = x.featureSize) (ed : d.featureSize = x.featureSize) (hb : d.backwardOnly = false)
  | squaredError (x t p z d : Struct)
      (has : Has l [(str "default", x), (str "targets", t)] [(str "predictions", p), (str "loss", z)] [] [(str "diff", d)])
      (hx : Seq x) (ht : Seq t) (hp : Seq p) (hz : Seq z) (hd : Seq d) (et : t.featureSize = x.featureSize)
      (ep : p.featureSize = x.featureSize) (ez : z.featureSize = x.featureSize) (ed : d.featureSize = x.featureSize)
      (hb : d.backwardOnly = false) (data : OnlyData layers data l (str "targets")) (loose : Loose l "predictions")
  | sigmoidCE (x t p z : Struct)
      (has : Has l [(str "default", x), (str "targets", t)] [(str "predictions", p), (str "loss", z)] [] [])
      (hx : Seq x) (ht : Seq t) (hp : Seq p) (hz : Seq z) (et : t.featureSize = x.featureSize)
      (ep : p.featureSize = x.featureSize) (ez : z.featureSize = x.featureSize)
      (data : OnlyData layers data l (str "targets")) (loose : Loose l "predictions")
  | softmaxCE (R n : ℕ) (dec : ℝ → Fin n) (x t p z : Struct)
      (has : Has l [(str "default", x), (str "targets", t)] [(str "predictions", p), (str "loss", z)] [] [])
      (hx : Seq x) (ht : Seq t) (hp : Seq p) (hz : Seq z) (sx : size x T B = R * n) (st : size t T B = R)
      (sp : size p T B = R * n) (sz : size z T B = R)
      (data : OnlyData layers data l (str "targets")) (loose : Loose l "predictions")
  | binomialCE (x t z c : Struct)
      (has : Has l [(str "default", x), (str "targets", t)] [(str "default", z)] [] [(str "cee", c)])
      (hx : Seq x) (ht : Seq t) (hz : Seq z) (hc : Seq c) (et : t.featureSize = x.featureSize) (ez : z.featureSize = 1)
      (ec : c.featureSize = x.featureSize) (hb : c.backwardOnly = false) (data : OnlyData layers data l (str "targets"))
  | l1Decay (x z : Struct) (has : Has l [(str "default", x)] [(str "loss", z)] [] [(str "tmp", x)])
      (hx : Seq x) (hz : Seq z) (ez : z.featureSize = 1) (hb : x.backwardOnly = false)
  | l2Decay (x z : Struct) (has : Has l [(str "default", x)] [(str "loss", z)] [] [(str "tmp", x)])
      (hx : Seq x) (hz : Seq z) (ez : z.featureSize = 1) (hb : x.backwardOnly = false)
  | loss (importance : ℝ) (x : Struct) (has : Has l [(str "default", x)] [(str "loss", vec 1)] [] []) (loose : Loose l "loss")
  | recurrent (a : Act) (n : ℕ) (x : Struct)
      (has : Has l [(str "default", x)] [(str "default", rec1 n)]
        [(str "W", mm n x.featureSize), (str "R", mm n n), (str "bias", vec n)] [(str "Ha", rec1 n)]) (hx : Seq x)
  | clockwork (a : Act) (n : ℕ) (x : Struct)
      (has : Has l [(str "default", x)] [(str "default", rec1 n)]
        [(str "W", mm n x.featureSize), (str "R", mm n n), (str "bias", vec n), (str "timing", vec n)] [(str "Ha", rec1 n)])
      (hx : Seq x)
  | lstm (a : Act) (n : ℕ) (x : Struct)
      (has : Has l [(str "default", x)] [(str "default", rec1 n)] (lstmPars x.featureSize n) (lstmInts n)) (hx : Seq x)
  | clockworkLstm (a : Act) (n : ℕ) (x : Struct)
      (has : Has l [(str "default", x)] [(str "default", rec1 n)] (lstmPars x.featureSize n ++ [(str "timing", vec n)]) (lstmInts n))
      (hx : Seq x)
  | convolution2D (a : Act) (g : Conv.Geom) (hs : g.sh ≠ 0 ∧ g.sw ≠ 0) (nf : ℕ) (x y w : Struct)
      (has : Has l [(str "default", x)] [(str "default", y)] [(str "W", w), (str "bias", vec nf)] [])
      (hx : Seq x) (hy : Seq y) (ex : x.featureSize = g.H * g.W * g.C) (ey : y.featureSize = g.hc * g.wc * nf)
      (ew : size w T B = nf * g.kp) (own : OwnParams l)
  | avgPooling2D (g : Pool.Geom) (x y : Struct) (has : Has l [(str "default", x)] [(str "default", y)] [] [])
      (hx : Seq x) (hy : Seq y) (ex : x.featureSize = g.H * g.W * g.nc) (ey : y.featureSize = g.OH * g.OW * g.nc)
  | maxPooling2D (g : Pool.Geom) (lo : ℝ) (store : ℤ → ℝ) (load : ℝ → ℤ) (x y k : Struct)
      (has : Has l [(str "default", x)] [(str "default", y)] [] [(str "argmax", k)])
      (hx : Seq x) (hy : Seq y) (hk : Seq k) (ex : x.featureSize = g.H * g.W * g.nc) (ey : y.featureSize = g.OH * g.OW * g.nc)
      (ek : k.featureSize = g.OH * g.OW * g.nc) (hb : k.backwardOnly = false)

end Verif.Memory
