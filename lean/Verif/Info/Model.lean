import Verif.Setup.Ready
import Verif.Buffers.Network

/-!
# `get_network_info` (tools.py:296-328)
-/

namespace Verif.Info

open Verif.Structure Verif.Layout Verif.Buffers Verif.Instantiate

/-- What is written about a layer (tools.py:308-326): its name, the names and shapes of its parameters, their number, and the names and
feature shapes of its inputs and outputs.  The formatting of the text is left out. -/
structure LayerReport where
  name : Name
  parameters : List (Name × List ℕ)
  count : ℕ
  inputs : List (Name × List Tok)
  outputs : List (Name × List Tok)

/-- The loop over the parameters of a layer (tools.py:310-314): `keys` are the names in the order in which the view enumerates them; the size of an
array is the product of its shape. -/
def parameterLoop (vs : List (Name × View)) (layer : Name) : List Name → ℕ → Option (List (Name × List ℕ) × ℕ)
  | [], num => some ([], num)
  | x :: xs, num => match Dict.get? vs (path layer (str "parameters") x) with
    | none => none
    | some v => (parameterLoop vs layer xs (num + v.shape.prod)).map fun r => ((x, v.shape) :: r.1, r.2)

/-- The loop over the layers (tools.py:307-326).  `BufferView.keys` (buffer_views.py:35-36) are the keys of a dictionary, which older versions of
Python enumerate in any order: `keys l`. -/
def layerLoop {K : Type} (keys : Name → List Name) (vs : List (Name × View)) : List (LayerObj K) → Option (List LayerReport)
  | [] => some []
  | l :: ls => match parameterLoop vs l.name (keys l.name) 0 with
    | none => none
    | some (ps, num) => (layerLoop keys vs ls).map fun rs =>
      ⟨l.name, ps, num, l.inShapes.map fun e => (e.1, e.2.featureShape), l.shapes.outs.map fun e => (e.1, e.2.featureShape)⟩ :: rs

/-- `get_network_info` (tools.py:296-328): the total number of parameters and what is written about the layers. -/
def getNetworkInfo {K V : Type} (keys : Name → List Name) (layers : Dict Name (LayerObj K)) (st : State V) : Option (ℕ × List LayerReport) :=
  match st.views with
  | none => none
  | some (_, vs) => match Dict.get? vs (str "parameters") with
    | none => none
    | some v => (layerLoop keys vs (layers.map Prod.snd)).map fun rs => (v.shape.prod, rs)

end Verif.Info
