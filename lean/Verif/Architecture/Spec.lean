import Verif.Architecture.Model
import Mathlib.Logic.Relation

/-!
# What an architecture says, independent of the functions that process it
-/

namespace Verif.Architecture

/-- A Python identifier made of ASCII letters, digits and underscores. -/
def IsIdentifier (n : Name) : Prop :=
  ∃ c rest, n = c :: rest ∧ isIdentStart c = true ∧ ∀ d ∈ rest, isIdentChar d = true

/-- The text `s` names input `inp` of layer `l`: either `l.inp`, or just `l`
(or `l.`), which stands for the input `default`.  The layer name is the part
before the first dot. -/
def Denotes (s : Name) (l inp : Name) : Prop :=
  '.' ∉ l ∧
  ((s = l ++ '.' :: inp ∧ inp ≠ []) ∨ ((s = l ∨ s = l ++ ['.']) ∧ inp = str "default"))

/-- The architecture contains the connection `c`. -/
def HasConnection (a : Arch) (c : Connection) : Prop :=
  ∃ d, (c.startLayer, d) ∈ a ∧
    ((∃ l, d.outgoing = .list l ∧ c.outputName = str "default" ∧
        ∃ s ∈ l, Denotes s c.endLayer c.inputName) ∨
     (∃ m l, d.outgoing = .dict m ∧ (c.outputName, l) ∈ m ∧
        ∃ s ∈ l, Denotes s c.endLayer c.inputName))

/-- Layer `x` feeds layer `y`. -/
def Feeds (a : Arch) (x y : Name) : Prop :=
  ∃ c, HasConnection a c ∧ c.startLayer = x ∧ c.endLayer = y

/-- No layer feeds itself through a chain of connections. -/
def Acyclic (a : Arch) : Prop := ∀ x, ¬ Relation.TransGen (Feeds a) x x

/-- Every connection ends at a layer of the architecture. -/
def Closed (a : Arch) : Prop := ∀ c, HasConnection a c → c.endLayer ∈ Dict.keys a

/-- Every layer lists its connections as a list or a dictionary. -/
def HasOutgoing (a : Arch) : Prop :=
  ∀ n d, (n, d) ∈ a → (∃ l, d.outgoing = .list l) ∨ (∃ m, d.outgoing = .dict m)

/-- The architectures that are accepted. -/
structure WellFormed (a : Arch) : Prop where
  types : ∀ n d, (n, d) ∈ a → ∃ t, d.type = .string t
  outgoing : HasOutgoing a
  names : ∀ n ∈ Dict.keys a, n ≠ str "default" ∧ n ≠ str "fallback" ∧
    (IsIdentifier n ∨ ∃ m, IsIdentifier m ∧ n = m ++ ['\n'])
  closed : Closed a
  input : ∃ d, (str "Input", d) ∈ a ∧ d.type = .string (str "Input")
  noInputIncoming : ∀ c, HasConnection a c → c.endLayer ≠ str "Input"

/-- There is a chain of `k` connections starting at layer `x`. -/
def Chain (a : Arch) : Nat → Name → Prop
  | 0, _ => True
  | k + 1, x => ∃ y, Feeds a x y ∧ Chain a k y

/-- The longest chain of connections starting at `x` has `h` connections
(distance of `x` from the end of the network). -/
def Height (a : Arch) (x : Name) (h : Nat) : Prop := Chain a h x ∧ ¬ Chain a (h + 1) x

/-- Same connection list up to order. -/
inductive SameOut : OutEntry → OutEntry → Prop
  | list {l l' : List Name} : l.Perm l' → SameOut (.list l) (.list l')
  | dict {d m d' : Dict Name (List Name)} : d.Perm m →
      List.Forall₂ (fun x y => x.1 = y.1 ∧ x.2.Perm y.2) m d' → SameOut (.dict d) (.dict d')

/-- Two dictionaries describe the same architecture: the same layers with the
same types and connections, listed in any order. -/
def SameArch (a b : Arch) : Prop :=
  ∃ m : Arch, a.Perm m ∧ List.Forall₂
    (fun x y => x.1 = y.1 ∧ x.2.type = y.2.type ∧ SameOut x.2.outgoing y.2.outgoing) m b

end Verif.Architecture
