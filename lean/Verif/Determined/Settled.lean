import Verif.Memory.LibraryProps

/-! # Proofs for C81: the backward pass of a layer does not depend on old contents of its arrays -/

namespace Verif.Determined

open Verif.Structure Verif.Layout Verif.Buffers Verif.Network Verif.Layers Verif.Memory

/-- After the forward pass, what the backward pass computes does not depend on what outputs and internals held before the forward
pass. -/
def Settled {I O K P : Type} (L : VLayer I O K P) : Prop := ∀ p i o k o' k' δO δI,
  L.B p i (L.F p i o k).1 (L.F p i o k).2 δO δI = L.B p i (L.F p i o' k').1 (L.F p i o' k').2 δO δI

theorem settled_of {I O K P : Type} {L : VLayer I O K P} (h : ∀ p i o k o' k', L.F p i o k = L.F p i o' k') : Settled L := by
  intro p i o k o' k' δO δI
  rw [h p i o k o' k']

section
variable {β φ ψ : Type} [Fintype β] [Fintype φ] [Fintype ψ]

theorem settled_rnn (N : ℕ) (a : Act) : Settled (rnnLayer (β := β) (φ := φ) (ψ := ψ) N a) := by
  refine settled_of fun p i o k o' k' => ?_
  have h := fun t ht => rnn_fresh_rows N a p (tm N (i ∘ .inl)) (rnnP i) o k o' k' t ht
  exact Prod.ext (funext fun q => congrArg (fun r => RnnRow.out r q.2.1 q.2.2) (h q.1 q.1.2))
    (funext fun q => congrArg (fun r => RnnRow.Ha r q.2.1 q.2.2) (h q.1 q.1.2))

theorem settled_cw (N : ℕ) (a : Act) : Settled (cwLayer (β := β) (φ := φ) (ψ := ψ) N a) := by
  refine settled_of fun p i o k o' k' => ?_
  have h := fun t ht => cw_fresh_rows N a (p ∘ .inl) (p ∘ .inr) (tm N (i ∘ .inl)) (rnnP i) o k o' k' t ht
  exact Prod.ext (funext fun q => congrArg (fun r => RnnRow.out r q.2.1 q.2.2) (h q.1 q.1.2))
    (funext fun q => congrArg (fun r => RnnRow.Ha r q.2.1 q.2.2) (h q.1 q.1.2))

theorem settled_lstm (N : ℕ) (a : Act) : Settled (lstmLayer (β := β) (φ := φ) (ψ := ψ) N a) := by
  refine settled_of fun p i o k o' k' => ?_
  have h := fun t ht => lstm_fresh_rows N a p (tm N (i ∘ .inl)) (lstmP i) o o' k k' t ht
  exact Prod.ext (funext fun q => congrArg (fun r => LstmRow.y r q.2.1 q.2.2) (h q.1 q.1.2))
    (funext fun q => congrArg (fun r => lstmInt r q.1 q.2.2.1 q.2.2.2) (h q.2.1 q.2.1.2))

theorem settled_cwLstm (N : ℕ) (a : Act) : Settled (cwLstmLayer (β := β) (φ := φ) (ψ := ψ) N a) := by
  refine settled_of fun p i o k o' k' => ?_
  have h := fun t ht => cwLstm_fresh_rows N a (p ∘ .inl) (p ∘ .inr) (tm N (i ∘ .inl)) (lstmP i) o o' k k' t ht
  exact Prod.ext (funext fun q => congrArg (fun r => LstmRow.y r q.2.1 q.2.2) (h q.1 q.1.2))
    (funext fun q => congrArg (fun r => lstmInt r q.1 q.2.2.1 q.2.2.2) (h q.2.1 q.2.1.2))

end

theorem settled_conv (a : Act) (g : Conv.Geom) (hs : g.sh ≠ 0 ∧ g.sw ≠ 0) (n nf : ℕ) : Settled (convLayer a g n nf) := by
  intro p i o k o' k' δO δI
  have h := C20_convolution a g hs n nf p i o k o' k'
  show (convLayer a g n nf).B p i _ k δO δI = (convLayer a g n nf).B p i _ k' δO δI
  rw [h]
  rfl

section
variable {layers : List LayerInfo} {data l : LayerInfo} {T B : ℕ}

/-- The layer is in training mode, if that makes a difference. -/
def InTraining : LibLayer layers data l T B → Prop
  | .dropout training _ _ _ _ _ _ => training = true
  | _ => True

theorem settled (q : LibLayer layers data l T B) (h : InTraining q) : Settled q.placed.V := by
  cases q with
  | fullyConnected a x y has hx hy own => intro p i o k o' k' δO δI; rfl
  | elementwise a x has hx => intro p i o k o' k' δO δI; rfl
  | noOp x has hx => intro p i o k o' k' δO δI; rfl
  | highway h1 t x y has hh ht hx hy eh et ey => intro p i o k o' k' δO δI; rfl
  | merge R m' n x y z has hx hy hz hc => intro p i o k o' k' δO δI; rfl
  | mask R n x k has hx hxs hks hd => intro p i o k o' k' δO δI; rfl
  | maskFull x k has hx hk ek hd => intro p i o k o' k' δO δI; rfl
  | dropout training q off x has hx hb =>
    obtain rfl : training = true := h
    intro p i o k o' k' δO δI; rfl
  | squaredDifference x y z d has hx hy hz hd ey ez ed hb => intro p i o k o' k' δO δI; rfl
  | squaredError x t p z d has hx ht hp hz hd et ep ez ed hb hdata loose => intro p i o k o' k' δO δI; rfl
  | sigmoidCE x t p z has hx ht hp hz et ep ez hdata loose => intro p i o k o' k' δO δI; rfl
  | softmaxCE R n dec x t p z has hx ht hp hz sx st sp sz hdata loose => intro p i o k o' k' δO δI; rfl
  | binomialCE x t z c has hx ht hz hc et ez ec hb hdata => intro p i o k o' k' δO δI; rfl
  | l1Decay x z has hx hz ez hb => intro p i o k o' k' δO δI; rfl
  | l2Decay x z has hx hz ez hb => intro p i o k o' k' δO δI; rfl
  | loss importance x has loose => intro p i o k o' k' δO δI; rfl
  | recurrent a n x has hx => exact settled_rnn T a
  | clockwork a n x has hx => exact settled_cw T a
  | lstm a n x has hx => exact settled_lstm T a
  | clockworkLstm a n x has hx => exact settled_cwLstm T a
  | convolution2D a g hs nf x y w has hx hy ex ey ew own => exact settled_conv a g hs (T * B) nf
  | avgPooling2D g x y has hx hy ex ey => intro p i o k o' k' δO δI; rfl
  | maxPooling2D g lo store load x y k has hx hy hk ex ey ek hb => intro p i o k o' k' δO δI; rfl

end

end Verif.Determined
