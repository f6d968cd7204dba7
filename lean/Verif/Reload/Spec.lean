import Verif.Reload.Model

/-!
# Specification for C83: what can be read in two networks
-/

namespace Verif.Reload

open Verif.Structure Verif.Layout Verif.Buffers

/-- What `initialize` may assign: to parameters of layers, arrays of their sizes. -/
def Initial (layers : List LayerInfo) (initial : List (Name × List ℝ)) : Prop :=
  ∀ d ∈ initial, ∃ l ∈ layers, ∃ x s, (x, s) ∈ l.paramShapes ∧ d.1 = path l.name (str "parameters") x ∧ d.2.length = s.featureSize

/-- In the two networks, `get` returns the same for all parameters of all layers, and for all parameters together. -/
def SameParameters (layers : List LayerInfo) (st st' : State ℝ) : Prop :=
  (∃ θ, st.read (str "parameters") = some θ ∧ st'.read (str "parameters") = some θ) ∧
  ∀ l ∈ layers, ∀ x s, (x, s) ∈ l.paramShapes → ∃ xs, st.read (path l.name (str "parameters") x) = some xs ∧
    st'.read (path l.name (str "parameters") x) = some xs

/-- In the two networks, `get` returns the same for all outputs of all layers. -/
def SameOutputs (layers : List LayerInfo) (st st' : State ℝ) : Prop :=
  ∀ l ∈ layers, ∀ x s, (x, s) ∈ l.outShapes → ∃ xs, st.read (path l.name (str "outputs") x) = some xs ∧
    st'.read (path l.name (str "outputs") x) = some xs

end Verif.Reload
