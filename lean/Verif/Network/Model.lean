import Mathlib.Analysis.Calculus.Deriv.Add
import Mathlib.Analysis.Calculus.Deriv.Mul

/-!
# Running a network (network.py:405-446)

A cell is one number of the buffers.  A layer works on views of the buffers; a connected input
*is* the output it is connected to (C08, C10), so two layers that are connected share cells.  Every
cell has a value and a delta: the delta of an output or input is in the output or input deltas,
which are laid out in the same way (`get_backward_connection`, layout.py:297-316), the delta of a parameter is its
gradient.  That the memory of a network really is of this kind is C71 and C72 (`Verif.Memory`).
-/

namespace Verif.Network

/-- A layer in a network: the cells it deals with, and its two passes on the whole memory. -/
structure Layer (C : Type) where
  /-- inputs and parameters for which the backward pass computes deltas -/
  ins : Finset C
  /-- outputs -/
  outs : Finset C
  /-- internals -/
  scratch : Set C
  /-- what is read without computing deltas for it: targets, masks, the context, random numbers -/
  fixed : Set C
  /-- outputs that are losses: the layer treats their delta as 1 -/
  losses : Finset C
  /-- parameters whose gradients are overwritten instead of increased -/
  over : Finset C
  /-- `layer.forward_pass(self.buffer[layer_name])` -/
  fwd : (C → ℝ) → (C → ℝ)
  /-- `layer.backward_pass(self.buffer[layer_name])`, on the values and the deltas -/
  bwd : (C → ℝ) → (C → ℝ) → (C → ℝ)

variable {C : Type}

/-- The loop of `Network.forward_pass` (network.py:429-430); the context has been applied before,
the layers are all but the first one, which is the Input layer. -/
def forwardPass (layers : List (Layer C)) (s : C → ℝ) : C → ℝ := layers.foldl (fun s l => l.fwd s) s

/-- `Network.backward_pass` without the gradient modifiers (network.py:432-445): the deltas are cleared,
then the layers run in reverse order. -/
def backwardPass (layers : List (Layer C)) (s : C → ℝ) (_δ : C → ℝ) : C → ℝ :=
  layers.reverse.foldl (fun δ l => l.bwd s δ) (fun _ => 0)

/-- `get_loss_values()['total_loss']` (network.py:447-475): the sum of the loss outputs. -/
def totalLoss (layers : List (Layer C)) (s : C → ℝ) : ℝ := (layers.map fun l => ∑ c ∈ l.losses, s c).sum

/-! ## What is expected of a layer -/

/-- The forward pass writes outputs and internals only, and what it writes to the outputs depends on
what the layer is said to read. -/
structure Layer.Honest (l : Layer C) : Prop where
  writes : ∀ s c, c ∉ l.outs → c ∉ l.scratch → l.fwd s c = s c
  reads : ∀ s s', (∀ c, c ∈ l.ins ∨ c ∈ l.fixed → s c = s' c) → ∀ c ∈ l.outs, l.fwd s c = l.fwd s' c

/-- The backward pass changes deltas of the layer's own cells only, and depends on the layer's
own values only. -/
structure Layer.HonestBack (l : Layer C) : Prop where
  writes : ∀ s δ c, c ∉ l.ins → c ∉ l.outs → c ∉ l.scratch → l.bwd s δ c = δ c
  reads : ∀ s s' δ, (∀ c, c ∈ l.ins ∨ c ∈ l.fixed ∨ c ∈ l.outs ∨ c ∈ l.scratch → s c = s' c) →
    ∀ c ∈ l.ins, l.bwd s δ c = l.bwd s' δ c

/-- The backward pass is the derivative of the forward pass at the values `s0`: when the cells that the
layer reads move, its outputs move, and the sum of output deltas times velocities is the sum over the inputs and
parameters of what the backward pass adds to the delta times the velocity.  Deltas of losses
count as 1; gradients that will be overwritten must be zero. -/
def Layer.Differentiates [DecidableEq C] (l : Layer C) (s0 : C → ℝ) : Prop :=
  ∀ (S : ℝ → C → ℝ) (S' : C → ℝ), S 0 = s0 → (∀ c ∈ l.ins, HasDerivAt (fun t => S t c) (S' c) 0) →
    (∀ c ∈ l.fixed, ∀ t, S t c = s0 c) →
    ∃ v : C → ℝ, (∀ c ∈ l.outs, HasDerivAt (fun t => l.fwd (S t) c) (v c) 0) ∧
      ∀ δ : C → ℝ, (∀ c ∈ l.losses, δ c = 0) → (∀ c ∈ l.over, δ c = 0) →
        ∑ c ∈ l.outs, (if c ∈ l.losses then 1 else δ c) * v c =
          ∑ c ∈ l.ins, (l.bwd (l.fwd s0) δ c - δ c) * S' c

/-- All layers differentiate at the values they see in a forward pass that starts with `s`. -/
def AllDifferentiate [DecidableEq C] : List (Layer C) → (C → ℝ) → Prop
  | [], _ => True
  | l :: rest, s => l.Differentiates s ∧ AllDifferentiate rest (l.fwd s)

/-- Cells of a layer that are written. -/
def Layer.written (l : Layer C) (c : C) : Prop := c ∈ l.outs ∨ c ∈ l.scratch

/-- All cells of a layer. -/
def Layer.uses (l : Layer C) (c : C) : Prop := c ∈ l.ins ∨ c ∈ l.fixed ∨ c ∈ l.outs ∨ c ∈ l.scratch

/-- The layers are in topological order, `A` are the cells that exist before: parameters
and the outputs of the Input layer.  Every layer reads cells of `A` and outputs of earlier layers
and writes new cells, which no layer before it uses.  Losses are not read by other layers, and neither are
parameters whose gradients are overwritten.  Cells that are read without computing deltas are not
computed by other layers. -/
def Wired [DecidableEq C] : Finset C → List (Layer C) → Prop
  | _, [] => True
  | A, l :: rest =>
    l.ins ⊆ A ∧ (∀ c, l.written c → c ∉ A ∧ c ∉ l.fixed) ∧ (∀ c ∈ l.outs, c ∉ l.scratch) ∧
    l.losses ⊆ l.outs ∧ l.over ⊆ l.ins ∧
    (∀ m ∈ rest, (∀ c, m.written c → ¬ l.uses c) ∧ (∀ c, l.written c → c ∉ m.fixed) ∧ (∀ c ∈ l.losses, c ∉ m.ins) ∧
      ∀ c ∈ l.over, c ∉ m.ins) ∧
    Wired (A ∪ l.outs) rest

end Verif.Network
