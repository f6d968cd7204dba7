import Verif.Session.Spec
import Verif.Architecture.Spec

/-!
# Specification for C92: what lies before a layer
-/

namespace Verif.Locality

open Verif.Structure Verif.Architecture Verif.Layout Verif.Buffers

/-- A chain of connections, maybe without any, leads from the layer `k` to the layer `n`. -/
def Upstream (a : Arch) (k n : Name) : Prop := Relation.ReflTransGen (Feeds a) k n

/-- In the two networks, `get` returns the same for the parameters of all layers before `n`, and of `n`. -/
def SameBefore (a : Arch) (layers : List LayerInfo) (n : Name) (st st' : State ℝ) : Prop :=
  ∀ k ∈ layers, Upstream a k.name n → ∀ x s, (x, s) ∈ k.paramShapes →
    st.read (path k.name (str "parameters") x) = st'.read (path k.name (str "parameters") x)

/-- Two batches have the same data under each name that is connected to `n` or to a layer before `n`. -/
def SameData (a : Arch) (input n : Name) (d d' : List (Name × List ℝ)) : Prop :=
  ∀ c, HasConnection a c → c.startLayer = input → Upstream a c.endLayer n → ∀ xs, (c.outputName, xs) ∈ d ↔ (c.outputName, xs) ∈ d'

/-- A chain of connections leads from the layer `k` to the input `x` of the layer `n`. -/
def LeadsTo (a : Arch) (k n x : Name) : Prop := ∃ c, HasConnection a c ∧ Upstream a k c.startLayer ∧ c.endLayer = n ∧ c.inputName = x

/-- In the two networks, `get` returns the same for the parameters of all layers before the input `x` of `n`. -/
def SameBeforeInput (a : Arch) (layers : List LayerInfo) (n x : Name) (st st' : State ℝ) : Prop :=
  ∀ k ∈ layers, LeadsTo a k.name n x → ∀ y s, (y, s) ∈ k.paramShapes →
    st.read (path k.name (str "parameters") y) = st'.read (path k.name (str "parameters") y)

/-- Two batches have the same data under each name that is connected to the input `x` of `n` or to a layer before it. -/
def SameDataInput (a : Arch) (input n x : Name) (d d' : List (Name × List ℝ)) : Prop :=
  ∀ c, HasConnection a c → c.startLayer = input → (c.endLayer = n ∧ c.inputName = x) ∨ LeadsTo a c.endLayer n x →
    ∀ xs, (c.outputName, xs) ∈ d ↔ (c.outputName, xs) ∈ d'

end Verif.Locality
