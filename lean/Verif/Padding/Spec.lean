import Verif.Sequence.Spec

/-!
# Specification for C87: steps that are masked out
-/

namespace Verif.Padding

open Verif.Structure Verif.Layout Verif.Buffers Verif.Memory Verif.Session Verif.Sequence
open Verif.Architecture (Arch)
open Verif.EndToEnd (HasType)

/-- `A` compares a sequence of the batch `w` with the same sequence of the shorter batch `b`. -/
structure First (w b : Batch) (A : Align) : Prop where
  whole : A.T = w.T ∧ A.B = w.B
  short : A.T' = b.T ∧ A.B' = b.B
  seq : A.b = A.b'
  steps : A.o = 0 ∧ A.n = b.T

/-- The batch `b` consists of the first steps of the sequences of the batch `w`, and in all later steps the array `x`, the mask, contains
zeros only. -/
structure Shortened (data : LayerInfo) (x : Name) (w b : Batch) : Prop where
  good : w.Good data ∧ b.Good data
  size : b.B = w.B ∧ 0 < w.B
  steps : b.T ≤ w.T
  same : ∀ A, First w b A → SameData A data w b
  masked : ∀ s xs, (x, s) ∈ data.outShapes → (x, xs) ∈ w.data → ∀ i, b.T * w.B * s.featureSize ≤ i → xs.getD i 0 = 0

/-- What has a time axis comes to Loss layers from Mask layers only, and their mask is the output `x` of the Input layer. -/
def MaskedBy (a : Arch) (layers : List LayerInfo) (data : LayerInfo) (x : Name) : Prop :=
  ∀ l ∈ layers, HasType a l.name (str "Loss") →
    (∀ e ∈ l.inShapes, e.2.bufferType ≠ 2) ∨
    ∀ k ∈ layers, ∀ o ∈ k.outgoing, o.endLayer = l.name → HasType a k.name (str "Mask") ∧
      ∀ k' ∈ layers, ∀ o' ∈ k'.outgoing, o'.endLayer = k.name → o'.endInput = str "mask" → k' = data ∧ o'.buffer = x

end Verif.Padding
