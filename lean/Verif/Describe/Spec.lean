import Verif.Describe.Model

/-! # Specification for descriptions -/

namespace Verif.Describe

/-- Equality of JSON values: dictionaries are compared without regard to order. -/
inductive Same : Desc → Desc → Prop
  | atom (a : Atom) : Same (.atom a) (.atom a)
  | list (l l' : List Desc) : l.length = l'.length → (∀ (i : Nat) (x y : Desc), l[i]? = some x → l'[i]? = some y → Same x y) →
      Same (.list l) (.list l')
  | dict (es es' : List (Name × Desc)) : (∀ k, Dict.get? es k = none ↔ Dict.get? es' k = none) →
      (∀ k x y, Dict.get? es k = some x → Dict.get? es' k = some y → Same x y) → Same (.dict es) (.dict es')

/-- Two values have the same description. -/
def Alike (env : Env) (v w : Val) : Prop :=
  ∀ d, describe env v = some d → ∃ d', describe env w = some d' ∧ Same d d'

/-- What `__init_from_description__` may do to an attribute that is described. -/
structure Keeps (env : Env) (c : Class) (k : Name) (attrs attrs' : List (Name × Val)) : Prop where
  none : Dict.get? attrs k = none → Dict.get? attrs' k = none
  some : ∀ v, Dict.get? attrs k = some v → ∃ v', Dict.get? attrs' k = some v' ∧ Alike env v v' ∧
    isDefault env c k v' = isDefault env c k v

/-- Assumptions on the classes: no attribute is called `@type`, `__default_values__` is a dictionary
whose values equal themselves, and
`__init_from_description__` changes undescribed attributes only, up to the description of the
others. -/
structure Env.Wf (env : Env) : Prop where
  undescribed : ∀ name c, env.cls name = some c → isUndescribed c typeKey = false
  defaults : ∀ name c, env.cls name = some c → Dict.get? c.defaults typeKey = none
  distinct : ∀ name c, env.cls name = some c → (Dict.keys c.defaults).Nodup
  refl : ∀ name c k d, env.cls name = some c → Dict.get? c.defaults k = some d → env.eq d d = true
  nodup : ∀ name c attrs, env.cls name = some c → (Dict.keys attrs).Nodup → (Dict.keys (c.init attrs)).Nodup
  keeps : ∀ name c attrs k, env.cls name = some c → isUndescribed c k = false → (Dict.keys attrs).Nodup →
    Keeps env c k attrs (c.init attrs)

/-- Values as they can occur: dictionaries have distinct keys, none of which is `@type`,
and the array of an `ArrayInitializer` has a dimension. -/
inductive Val.Wf : Val → Prop
  | atom (a : Atom) : Wf (.atom a)
  | list (l : List Val) : (∀ v ∈ l, Wf v) → Wf (.list l)
  | tuple (l : List Val) : (∀ v ∈ l, Wf v) → Wf (.tuple l)
  | array (shape : List Nat) (data : List Atom) : Wf (.array shape data)
  | arrayInit (n : Nat) (shape : List Nat) (data : List Atom) : Wf (.arrayInit (n :: shape) data)
  | dict (es : List (Name × Val)) : (Dict.keys es).Nodup → typeKey ∉ Dict.keys es → (∀ p ∈ es, Wf p.2) → Wf (.dict es)
  | obj (name : Name) (attrs : List (Name × Val)) : (Dict.keys attrs).Nodup → typeKey ∉ Dict.keys attrs → (∀ p ∈ attrs, Wf p.2) →
      Wf (.obj name attrs)
  | other (id : Nat) : Wf (.other id)

/-- A value without objects is *basic*. -/
inductive Val.Basic : Val → Prop
  | atom (a : Atom) : Basic (.atom a)
  | list (l : List Val) : (∀ v ∈ l, Basic v) → Basic (.list l)
  | tuple (l : List Val) : (∀ v ∈ l, Basic v) → Basic (.tuple l)
  | array (shape : List Nat) (data : List Atom) : Basic (.array shape data)
  | dict (es : List (Name × Val)) : (Dict.keys es).Nodup → typeKey ∉ Dict.keys es → (∀ p ∈ es, Basic p.2) → Basic (.dict es)

/-- An array as nested lists: entry `i` of the outermost list is the subarray with first index
`i`. -/
def nested : List Nat → List Atom → Val
  | [], data => .atom (data.headD .none)
  | n :: shape, data => .list ((List.range n).map (fun i => nested shape (data.drop (i * shape.prod))))

mutual
/-- Tuples and arrays as lists. -/
def Val.lists : Val → Val
  | .atom a => .atom a
  | .list l => .list (listsList l)
  | .tuple l => .list (listsList l)
  | .array shape data => nested shape data
  | .dict es => .dict (listsDict es)
  | .obj name attrs => .obj name attrs
  | .arrayInit shape data => .arrayInit shape data
  | .other id => .other id

/-- For lists. -/
def listsList : List Val → List Val
  | [] => []
  | v :: vs => v.lists :: listsList vs

/-- For dictionaries. -/
def listsDict : List (Name × Val) → List (Name × Val)
  | [] => []
  | (k, v) :: es => (k, v.lists) :: listsDict es
end

end Verif.Describe
