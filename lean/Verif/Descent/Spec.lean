import Verif.Constrained.Spec

/-!
# Specification for C84: the periods of clockwork layers
-/

namespace Verif.Descent

open Verif.Structure Verif.Layout Verif.Constrained

/-- Entry `i` of the array of all parameters is the period of a unit of a clockwork layer. -/
def IsPeriod (layers : List LayerInfo) (L : Layout) (i : ℕ) : Prop :=
  ∃ l ∈ layers, ∃ s, (str "timing", s) ∈ l.paramShapes ∧ ∃ j < s.featureSize, i = startOf L l.name (str "timing") + j

/-- The periods of no layer are connected to other layers (for example to a regularization). -/
def FreePeriods (layers : List LayerInfo) : Prop := ∀ l ∈ layers, ∀ o ∈ l.outgoing, o.kind = .parameters → o.buffer ≠ str "timing"

end Verif.Descent
