import Verif.Network.Model

/-!
# Running a network on its memory (network.py:405-446)

`Verif.Network.Model` gives every cell a value and a delta.  Here there is only the memory of the network: the
full buffer, in which values and deltas lie at different addresses, as `BufferManager` has laid them out.
-/

namespace Verif.Memory

/-- The full buffer. -/
abbrev Mem := ℕ → ℝ

/-- A layer of a network: the addresses it deals with, and its two passes. -/
structure MLayer where
  /-- inputs and parameters for which the backward pass computes deltas -/
  ins : Finset ℕ
  /-- outputs, without the context, and without outputs whose deltas the layer ignores -/
  outs : Finset ℕ
  /-- internals and what else only this layer uses: context rows of the deltas, outputs whose deltas it ignores -/
  own : Set ℕ
  /-- what is read without computing deltas for it: targets, masks, the context, random numbers -/
  fixed : Set ℕ
  /-- outputs that are losses: the layer treats their delta as 1 -/
  losses : Finset ℕ
  /-- parameters whose gradients are overwritten instead of increased -/
  over : Finset ℕ
  /-- `layer.forward_pass(self.buffer[layer_name])` -/
  fwd : Mem → Mem
  /-- `layer.backward_pass(self.buffer[layer_name])` -/
  bwd : Mem → Mem

/-- The loop of `Network.forward_pass` (network.py:429-430); the context has been applied before, the layers are
all but the first one, which is the Input layer. -/
def forward (layers : List MLayer) (m : Mem) : Mem := layers.foldl (fun m l => l.fwd m) m

open Classical in
/-- `clear_backward_buffers` (buffers.py:147-150): the addresses `back` of the hubs that are used in the backward
pass only are set to zero. -/
noncomputable def clear (back : Set ℕ) (m : Mem) : Mem := fun a => if a ∈ back then 0 else m a

/-- `Network.backward_pass` without the gradient modifiers (network.py:432-445). -/
noncomputable def backward (back : Set ℕ) (layers : List MLayer) (m : Mem) : Mem :=
  layers.reverse.foldl (fun m l => l.bwd m) (clear back m)

/-- `get_loss_values()['total_loss']` (network.py:447-475): the sum of the loss outputs. -/
def totalLoss (layers : List MLayer) (m : Mem) : ℝ := (layers.map fun l => ∑ c ∈ l.losses, m c).sum

/-! ## What is expected of a layer -/

/-- The forward pass of a layer keeps to its arrays. -/
structure MLayer.HonestForward (l : MLayer) : Prop where
  /-- The forward pass writes outputs and internals. -/
  fwd_writes : ∀ m a, a ∉ l.outs → a ∉ l.own → l.fwd m a = m a
  /-- The outputs depend on the inputs, the parameters and the context. -/
  fwd_reads : ∀ m m' : Mem, (∀ a, a ∈ l.ins ∨ a ∈ l.fixed → m a = m' a) → ∀ a ∈ l.outs, l.fwd m a = l.fwd m' a

/-- The passes of a layer keep to its arrays.  `dual` tells the address of the delta of an entry. -/
structure MLayer.Honest (l : MLayer) (dual : ℕ → ℕ) : Prop extends l.HonestForward where
  /-- The backward pass writes internals and the deltas of inputs, parameters and outputs. -/
  bwd_writes : ∀ m a, a ∉ l.own → (∀ c, c ∈ l.ins ∨ c ∈ l.outs → a ≠ dual c) → l.bwd m a = m a
  /-- The deltas it writes depend on the arrays of the layer. -/
  bwd_reads : ∀ m m' : Mem, (∀ a, a ∈ l.ins ∨ a ∈ l.fixed ∨ a ∈ l.outs ∨ a ∈ l.own → m a = m' a) →
    (∀ c, c ∈ l.ins ∨ c ∈ l.outs → m (dual c) = m' (dual c)) →
    ∀ c, c ∈ l.ins ∨ c ∈ l.outs → l.bwd m (dual c) = l.bwd m' (dual c)

/-- The backward pass is the derivative of the forward pass at the memory `m0`: when the entries that the layer
reads move, its outputs move, and the sum of output deltas times velocities is the sum over the inputs and
parameters of what the backward pass adds to the delta times the velocity.  This must hold for every memory in
which the values are those after the forward pass and the backward-only internals have been cleared, whatever the
deltas are.  Deltas of losses count as 1; gradients that will be overwritten must be zero. -/
def MLayer.Differentiates (l : MLayer) (dual : ℕ → ℕ) (back : Set ℕ) (m0 : Mem) : Prop :=
  ∀ (S : ℝ → Mem) (S' : ℕ → ℝ), S 0 = m0 → (∀ c ∈ l.ins, HasDerivAt (fun t => S t c) (S' c) 0) →
    (∀ c ∈ l.fixed, ∀ t, S t c = m0 c) →
    ∃ v : ℕ → ℝ, (∀ c ∈ l.outs, HasDerivAt (fun t => l.fwd (S t) c) (v c) 0) ∧
      ∀ m : Mem, (∀ a, a ∉ back → m a = l.fwd m0 a) → (∀ a ∈ l.own, a ∈ back → m a = 0) →
        (∀ c ∈ l.losses, m (dual c) = 0) → (∀ c ∈ l.over, m (dual c) = 0) →
        ∑ c ∈ l.outs, (if c ∈ l.losses then 1 else m (dual c)) * v c =
          ∑ c ∈ l.ins, (l.bwd m (dual c) - m (dual c)) * S' c

/-- All layers differentiate at the memory they see in a forward pass that starts with `m`. -/
def AllDifferentiate (dual : ℕ → ℕ) (back : Set ℕ) : List MLayer → Mem → Prop
  | [], _ => True
  | l :: rest, m => l.Differentiates dual back m ∧ AllDifferentiate dual back rest (l.fwd m)

end Verif.Memory
