import Verif.References.Initialize
import Verif.SaveLoad.Naturality

/-!
# Saving and loading networks: `Network.save_as_hdf5`, `from_hdf5` and `__new_from_description__`
(brainstorm/structure/network.py:69-102, 513-535)

A file holds the description of the network and the parameter vector.  Of the description the
architecture and the initializers are modelled (the handler and the modifiers are not).
Architectures are abstract: `views arch` are the parameter views of the network built from it
(`from_architecture` is a function of the architecture, see `C07` and `C59`).  JSON and HDF5 are
assumed to give back what was stored.
-/

namespace Verif.SaveLoad

open Verif.References

/-- The description of an initializer: class and arguments, no identity and no random state. -/
inductive InitDesc
  | number (x : Int)
  | object (kind : Nat)
  | sparse (kind : Nat) (sub : InitDesc)
  | lstmOpt (a b c d : InitDesc)
deriving DecidableEq, Repr

/-- `get_description` (describable.py:161-203) for an initializer. -/
def describeInit : Init → InitDesc
  | .number x => .number x
  | .object _ k => .object k
  | .sparse _ k sub => .sparse k (describeInit sub)
  | .lstmOpt _ a b c d => .lstmOpt (describeInit a) (describeInit b) (describeInit c) (describeInit d)

/-- `create_from_description` (describable.py:206-234): new objects, numbered from `n` on; the
second component is the next free number. -/
def createInit : Nat → InitDesc → Init × Nat
  | n, .number x => (.number x, n)
  | n, .object k => (.object n k, n + 1)
  | n, .sparse k sub => let r := createInit (n + 1) sub; (.sparse n k r.1, r.2)
  | n, .lstmOpt a b c d =>
    let ra := createInit (n + 1) a
    let rb := createInit ra.2 b
    let rc := createInit rb.2 c
    let rd := createInit rc.2 d
    (.lstmOpt n ra.1 rb.1 rc.1 rd.1, rd.2)

mutual
/-- The same for a dictionary of initializers. -/
def createRefs : Nat → Ref InitDesc → Ref Init × Nat
  | n, .val d => let r := createInit n d; (.val r.1, r.2)
  | n, .dict es => let r := createEntries n es; (.dict r.1, r.2)
/-- For its entries. -/
def createEntries : Nat → List (Name × Ref InitDesc) → List (Name × Ref Init) × Nat
  | n, [] => ([], n)
  | n, (k, d) :: es =>
    let r := createRefs n d
    let rs := createEntries r.2 es
    ((k, r.1) :: rs.1, rs.2)
end

/-- A network, as far as modelled: `initializers` is the description of the references given to the
last `initialize`, `{}` before (network.py:114, 243). -/
structure Net (Arch P : Type) where
  arch : Arch
  initializers : Ref InitDesc
  params : P

/-- The content of a file. -/
structure File (Arch P : Type) where
  arch : Arch
  initializers : Ref InitDesc
  parameters : P

variable {Arch P G Arr : Type}

/-- `save_as_hdf5` (network.py:513-535). -/
def save (net : Net Arch P) : File Arch P := ⟨net.arch, net.initializers, net.params⟩

/-- Whether an initializer accepts a shape, given by class (`ok`). -/
def accepts (sys : Sys G Arr) (ok : Nat → Shape → Bool) : InitDesc → Shape → Bool
  | .number _, _ => true
  | .object k, sh => ok k sh
  | .sparse k sub, sh => sys.sparseOk k sh && accepts sys ok sub sh
  | .lstmOpt a b c d, sh => match sys.quarter sh with
    | none => false
    | some q => accepts sys ok a q && accepts sys ok b q && accepts sys ok c q && accepts sys ok d q

/-- Whether evaluating an initializer that was created from a description raises an
`AttributeError`.  `Uniform` overrides `__init_from_description__` without creating `self.rnd`
(initializers.py:387-392), which stays `None` (describable.py:114-115); `uniform` tells which
classes do that. -/
def crashes (sys : Sys G Arr) (ok : Nat → Shape → Bool) (uniform : Nat → Bool) : InitDesc → Shape → Bool
  | .number _, _ => false
  | .object k, _ => uniform k
  | .sparse k sub, sh => sys.sparseOk k sh && crashes sys ok uniform sub sh
  | .lstmOpt a b c d, sh => match sys.quarter sh with
    | none => false
    | some q => crashes sys ok uniform a q || (accepts sys ok a q && (crashes sys ok uniform b q ||
        (accepts sys ok b q && (crashes sys ok uniform c q || (accepts sys ok c q && crashes sys ok uniform d q)))))

/-- The same for an initializer with its fallback (initializers.py:401-411). -/
def crashesAt (sys : Sys G Arr) (ok : Nat → Shape → Bool) (uniform : Nat → Bool) (i : Init) (fb : Option Init) (sh : Shape) : Bool :=
  crashes sys ok uniform (describeInit i) sh ||
    (!accepts sys ok (describeInit i) sh && match fb with
      | none => false
      | some f => crashes sys ok uniform (describeInit f) sh)

/-- `Network.initialize` (network.py:241-274) with initializers created from a description, as far
as it can fail.  (Which of several errors comes first is not modelled.) -/
def initializesAgain (sys : Sys G Arr) (ok : Nat → Shape → Bool) (uniform : Nat → Bool) (ps : Params) (refs : Ref Init) (rnd : G) (st : Store G) : Bool :=
  match resolve ps.tree refs with
  | .error _ => false
  | .ok (vals, fbs) =>
    decide ((initNetwork sys ps refs none rnd st).err = none) &&
      !ps.visit.any (fun x => match (vals.at [x.1, x.2.1]).getD [] with
        | i :: _ => crashesAt sys ok uniform i ((fbs.at [x.1, x.2.1]).getD []).head? x.2.2
        | [] => false)

/-- `from_hdf5` (network.py:81-102): build the network, initialize it with the saved initializers
and overwrite the parameters.  `none` is an exception. -/
def load (sys : Sys G Arr) (ok : Nat → Shape → Bool) (uniform : Nat → Bool) (views : Arch → Params) (file : File Arch P) (rnd : G) (st : Store G) :
    Option (Net Arch P) :=
  let refs := (createRefs 0 file.initializers).1
  if initializesAgain sys ok uniform (views file.arch) refs rnd st then
    some ⟨file.arch, refs.map describeInit, file.parameters⟩
  else none

/-! ### Specification -/

mutual
/-- All initializers mentioned by the references. -/
def allVals {V : Type} : Ref V → List V
  | .val v => [v]
  | .dict es => allValsList es
/-- For entries. -/
def allValsList {V : Type} : List (Name × Ref V) → List V
  | [] => []
  | (_, r) :: es => allVals r ++ allValsList es
end

/-- No initializer object is mentioned twice. -/
def Unshared (refs : Ref Init) : Prop :=
  ∀ (i j : Nat) (x : Init), (allVals refs)[i]? = some x → (allVals refs)[j]? = some x → i = j ∨ ∃ n, x = .number n

/-- An initializer contains a `Uniform`. -/
def hasUniform (uniform : Nat → Bool) : Init → Bool
  | .number _ => false
  | .object _ k => uniform k
  | .sparse _ _ sub => hasUniform uniform sub
  | .lstmOpt _ a b c d => hasUniform uniform a || hasUniform uniform b || hasUniform uniform c || hasUniform uniform d

end Verif.SaveLoad
