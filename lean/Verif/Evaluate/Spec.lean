import Verif.Evaluate.Model
import Verif.Sequence.Spec

/-!
# Specification for C79: data that are cut into batches
-/

namespace Verif.Evaluate

open Verif.Structure Verif.Layout Verif.Buffers Verif.Memory Verif.Session Verif.Sequence
open Verif.Architecture (Arch)
open Verif.EndToEnd (HasType)

/-- `A` compares a sequence of the batch `w` with its place in the batch `b`, before which came the batches `done`. -/
structure Part (w : Batch) (done : List Batch) (b : Batch) (A : Align) : Prop where
  whole : A.T = w.T ∧ A.B = w.B
  part : A.T' = b.T ∧ A.B' = b.B
  seq : A.b = (done.map Batch.B).sum + A.b'
  steps : A.o = 0 ∧ A.n = w.T

/-- The sequences of `w` are distributed over the batches `bs`, one after the other. -/
structure Cut (data : LayerInfo) (w : Batch) (bs : List Batch) : Prop where
  good : w.Good data ∧ ∀ b ∈ bs, b.Good data
  steps : ∀ b ∈ bs, b.T = w.T
  some : bs ≠ [] ∧ ∀ b ∈ bs, 0 < b.B
  sum : (bs.map Batch.B).sum = w.B
  same : ∀ done b later, bs = done ++ b :: later → ∀ A, Part w done b A → SameData A data w b

/-- `n` is the name of an output, with axes for time and batch, of a layer that is not a Loss layer. -/
def Output (a : Arch) (layers : List LayerInfo) (n : Name) (s : Struct) : Prop :=
  ∃ l ∈ layers, ∃ x, ¬ HasType a l.name (str "Loss") ∧ (x, s) ∈ l.outShapes ∧ s.bufferType = 2 ∧ n = path l.name (str "outputs") x

/-- One list of numbers for each step of each sequence, and nothing for a context: what scorers can work with. -/
def Flat (s : Struct) : Prop := s.shape.length = 3 ∧ s.contextSize = 0

/-- The scorers of the library. -/
def Scorer (useMask : Bool) (score : List (Scoring.Row ℝ) → ℝ) : Prop :=
  score = Scoring.accuracy useMask ∨ (∃ threshold columns, score = Scoring.hamming threshold columns useMask) ∨ score = Scoring.squaredError useMask

end Verif.Evaluate
