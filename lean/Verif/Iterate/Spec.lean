import Verif.Iterate.Model
import Verif.Evaluate.Spec
import Verif.Data.Spec

/-!
# Specification for C86: data for a network
-/

namespace Verif.Iterate

open Verif.Structure Verif.Layout Verif.Session Verif.Data

/-- Numpy arrays for the outputs of the Input layer, which have axes for time and batch; there may be further arrays. -/
structure FitsInput (input : LayerInfo) (d : Dict Name (Arr (List ℝ))) : Prop where
  keys : (Dict.keys d).Nodup
  regular : ∀ e ∈ d, e.2.Regular
  sequences : ∀ e ∈ d, 0 < e.2.seqs
  shapes : ∀ e ∈ input.outShapes, e.2.bufferType = 2 ∧ e.2.contextSize = 0
  arrays : ∀ e ∈ input.outShapes, ∃ x, Dict.get? d e.1 = some x ∧ ∀ r ∈ x.rows, ∀ v ∈ r, v.length = e.2.featureSize

/-- The iterator does not shorten batches: `cut_according_to` is None, or the name of an array that is not there (such as 'mask', the
default, if there is no mask). -/
def Uncut (d : Dict Name (Arr (List ℝ))) (cut : Data.Cut) : Prop :=
  cut = .nothing ∨ ∃ c, cut = .name c ∧ Dict.get? d c = none

end Verif.Iterate
