import Verif.Constrained.Model
import Verif.Session.Spec

/-!
# Specification for C80: what modifiers do to the vector of all parameters
-/

namespace Verif.Constrained

open Verif.Structure Verif.Layout Verif.Buffers Verif.Memory Verif.Session

/-- Where a parameter of a layer begins in the array of all parameters. -/
def startOf (L : Layout) (layer view : Name) : ℕ := ((L.get (path layer (str "parameters") view)).map fun e => e.2.1).getD 0

/-- The entries of a parameter with structure `s` in the array `x` of all parameters (or gradients). -/
def part (L : Layout) (layer view : Name) (s : Struct) (x : List ℝ) : List ℝ := (x.drop (startOf L layer view)).take s.featureSize

/-- The shape of a parameter. -/
def shapeS (s : Struct) : List ℕ := s.featureShape.map Tok.size

/-- The modifiers installed for a parameter of a layer. -/
def Mods.at (mods : Mods) (layer view : Name) : List Modifier := (Dict.get? mods (layer, view)).getD []

/-- Modifiers act on an array of the given shape one after the other; `p` are the parameters that belong to the array. -/
noncomputable def inTurn (call : Call) (shape : List ℕ) (p : List ℝ) : List Modifier → List ℝ → Option (List Modifier × List ℝ)
  | [], x => some ([], x)
  | m :: ms, x => (call shape p x m).bind fun r => (inTurn call shape p ms r.2).map fun q => (r.1 :: q.1, q.2)

/-- The modifiers `mods` act on the array `x` of all parameters or gradients: each parameter of each layer is changed by the modifiers
that are installed for it, one after the other, and not otherwise.  `θ` are the parameters (for gradient modifiers); `mods'` and `x'` are
the modifiers and the array afterwards. -/
def Modified (call : Call) (layers : List LayerInfo) (L : Layout) (mods : Mods) (θ x : List ℝ) (mods' : Mods) (x' : List ℝ) : Prop :=
  ∀ l ∈ layers, ∀ e ∈ l.paramShapes,
    inTurn call (shapeS e.2) (part L l.name e.1 e.2 θ) (mods.at l.name e.1) (part L l.name e.1 e.2 x) =
      some (mods'.at l.name e.1, part L l.name e.1 e.2 x')

/-- A modifier that can be called on arrays of the given shape: masks and weights have the right size, and there is a row to be
constrained. -/
def Modifier.Fits (shape : List ℕ) : Modifier → Prop
  | .clipValues _ _ => True
  | .constrainL2Norm _ _ => shape.length < 2 ∨ 0 < shape.headD 0
  | .maskValues mask => mask.length = shape.prod
  | .freezeValues weights => ∀ w, weights = some w → w.length = shape.prod
  | .l1Decay _ => True
  | .l2Decay _ => True

/-- Modifiers that can be installed: a dictionary, for parameters of layers of the network, with modifiers that fit; the gradient
modifiers of the library are only installed for gradients. -/
structure Mods.Good (mods : Mods) (gradients : Bool) (layers : List LayerInfo) : Prop where
  keys : (Dict.keys mods).Nodup
  views : ∀ e ∈ mods, ∃ l ∈ layers, ∃ v ∈ l.paramShapes, e.1 = (l.name, v.1) ∧
    ∀ m ∈ e.2, m.Fits (shapeS v.2) ∧ (m.isGradient = true → gradients = true)

/-- The stepper does to the network only what its interface allows: passes, assignments to arrays, and so on. -/
def Proper (net : Net) {S : Type} (run : Constrained.Stepper S) : Prop := ∀ rnd s s', Reachable net s.1 → run rnd s = some s' → Reachable net s'.1

/-- Row `i` of an array of the given shape with entries `x` in the order of C: the entries with first index `i`. -/
def row (shape : List ℕ) (x : List ℝ) (i : ℕ) : Fin (shape.tail.prod) → ℝ := fun j => x.getD (i * shape.tail.prod + j) 0

end Verif.Constrained
