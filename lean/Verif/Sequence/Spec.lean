import Verif.EndToEnd.Spec
import Verif.Memory.Formulas
import Verif.Session.Spec

/-!
# Specification for C78: steps of sequences in two batches

Two passes are compared: one over `T` steps of `B` sequences and one over `T'` steps of `B'` sequences.  Steps `o`, `o + 1`, ...
of sequence `b` of the first pass are compared with steps `0`, `1`, ... of sequence `b'` of the second one.
-/

namespace Verif.Sequence

open Verif.Structure Verif.Layout Verif.Buffers Verif.Memory Verif.Session

/-- Which steps of which sequences are compared. -/
structure Align where
  (T B b : ℕ)
  (T' B' b' : ℕ)
  /-- The first step in the first pass, and the number of steps. -/
  (o n : ℕ)
  steps : o + n ≤ T
  steps' : n ≤ T'
  seq : b < B
  seq' : b' < B'

/-- Rows of arrays that are compared: the row of the sequence at a step, that of the sequence if the array has no axis for time,
the only one if it has no axis for sequences either. -/
def Align.Rows (A : Align) (s : Struct) (r r' : ℕ) : Prop :=
  match s.bufferType with
  | 0 => r = 0 ∧ r' = 0
  | 1 => r = A.b ∧ r' = A.b'
  | _ => ∃ t < A.n, r = (A.o + t) * A.B + A.b ∧ r' = t * A.B' + A.b'

/-- Arrays of the shape `s`, whose entries are `e` and `e'` in row-major order, have the same rows. -/
def Align.Same (A : Align) (s : Struct) (e e' : ℕ → ℝ) : Prop :=
  ∀ r r', A.Rows s r r' → ∀ k < s.featureSize, e (r * s.featureSize + k) = e' (r' * s.featureSize + k)

/-- The rows before the first steps that are compared are the same; before step 0, this is the context, row `T`. -/
def Align.SameBefore (A : Align) (s : Struct) (e e' : ℕ → ℝ) : Prop :=
  ∀ k < s.featureSize, e ((rowBefore A.T A.o * A.B + A.b) * s.featureSize + k) = e' ((A.T' * A.B' + A.b') * s.featureSize + k)

/-- The data of the two batches are the same in these steps of the sequences. -/
def SameData (A : Align) (data : LayerInfo) (b b' : Batch) : Prop :=
  ∀ x s xs xs', (x, s) ∈ data.outShapes → (x, xs) ∈ b.data → (x, xs') ∈ b'.data →
    A.Same s (fun j => xs.getD j 0) (fun j => xs'.getD j 0)

/-- The outputs of the layer, as they can be read in the two states, are the same in these steps of the sequences. -/
def SameOutputs (A : Align) (l : LayerInfo) (st st' : State ℝ) : Prop :=
  ∀ x s, (x, s) ∈ l.outShapes → ∃ xs xs', st.read (path l.name (str "outputs") x) = some xs ∧
    st'.read (path l.name (str "outputs") x) = some xs' ∧ A.Same s (fun j => xs.getD j 0) (fun j => xs'.getD j 0)

/-- `A` compares a sequence of the batch `w` with the same sequence of the piece `b`, before which came the pieces `done`. -/
structure Piece (w : Batch) (done : List Batch) (b : Batch) (A : Align) : Prop where
  whole : A.T = w.T ∧ A.B = w.B
  part : A.T' = b.T ∧ A.B' = b.B
  seq : A.b = A.b'
  start : A.o = (done.map Batch.T).sum
  len : A.n = b.T

/-- The data are not in a buffer that has context rows (because a recurrent layer is connected to the same input as they are);
otherwise `clear_context` erases the last step of the data (C18). -/
def DataAlone (layers : List LayerInfo) (L : Layout) (data : LayerInfo) : Prop :=
  ∀ x s e h, (x, s) ∈ data.outShapes → Dict.get? (netOf layers L).layout (path data.name (str "outputs") x) = some e →
    (netOf layers L).hubs[e.hub]? = some h → h.ctx = 0

end Verif.Sequence
