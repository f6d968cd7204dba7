import Verif.Base.Dict
import Verif.Utils.Names

/-!
# Descriptions: `brainstorm/describable.py`
-/

namespace Verif.Describe

/-- Values whose description is the value itself (describable.py:197-200).  Floats are opaque. -/
inductive Atom
  | none
  | bool (b : Bool)
  | int (i : Int)
  | float (bits : Nat)
  | str (s : Name)
deriving DecidableEq, Repr

/-- Python values.  Attributes and dictionary keys are strings. -/
inductive Val
  | atom (a : Atom)
  | list (l : List Val)
  | tuple (l : List Val)
  /-- a numpy array: shape and entries in row-major order -/
  | array (shape : List Nat) (data : List Atom)
  | dict (es : List (Name × Val))
  /-- an object of a `Describable` class with its `__dict__` -/
  | obj (cls : Name) (attrs : List (Name × Val))
  /-- an `ArrayInitializer`, which describes itself as its array (initializers.py:40-56) -/
  | arrayInit (shape : List Nat) (data : List Atom)
  /-- anything else, which has no description (describable.py:201-203) -/
  | other (id : Nat)

/-- Descriptions: JSON values. -/
inductive Desc
  | atom (a : Atom)
  | list (l : List Desc)
  | dict (es : List (Name × Desc))

/-- A class that inherits from `Describable` with the merged `__undescribed__` and
`__default_values__` of its ancestors (describable.py:142-158, 237-240) and what its
`__init_from_description__` does to the attributes (describable.py:128-140).  Simplification: default values are atoms, as
they are in all classes of brainstorm. -/
structure Class where
  undescribed : List (Name × Val)
  defaults : List (Name × Atom)
  init : List (Name × Val) → List (Name × Val)

/-- The classes by name (`get_inheritors`, utils.py:55-67; names are assumed to be unique) and
Python's `==` on atoms. -/
structure Env where
  cls : Name → Option Class
  eq : Atom → Atom → Bool

/-- The key of the class name. -/
def typeKey : Name := str "@type"

/-- `defaultlist[member] == value` (describable.py:80); other values than atoms and arrays without
dimensions are not equal to an atom.  Simplification: for arrays with dimensions numpy compares the
entries, which raises or, for a single entry, compares that entry; this is not modelled. -/
def isDefault (env : Env) (c : Class) (k : Name) : Val → Bool
  | .atom a => match Dict.get? c.defaults k with
    | some d => env.eq d a
    | none => false
  | .array [] data => match Dict.get? c.defaults k with
    | some d => env.eq d (data.headD .none)
    | none => false
  | _ => false

/-- `member in ignorelist` (describable.py:78). -/
def isUndescribed (c : Class) (k : Name) : Bool := Dict.has c.undescribed k

/-- `ndarray.tolist()`. -/
def tolist : List Nat → List Atom → Desc
  | [], data => .atom (data.headD .none)
  | n :: shape, data => .list ((List.range n).map (fun i => tolist shape (data.drop (i * shape.prod))))

mutual
/-- `get_description` (describable.py:161-203) and `__describe__` (63-91).  `none` is the
`TypeError`. -/
def describe (env : Env) : Val → Option Desc
  | .atom a => some (.atom a)
  | .list l => (describeList env l).map .list
  | .tuple l => (describeList env l).map .list
  | .array shape data => some (tolist shape data)
  | .arrayInit shape data => some (tolist shape data)
  | .dict es => (describeDict env es).map .dict
  | .obj name attrs => match env.cls name with
    | none => none
    | some c => (describeMembers env c attrs).map (fun es => .dict (Dict.set es typeKey (.atom (.str name))))
  | .other _ => none

/-- The loop over a list or tuple (describable.py:178-186). -/
def describeList (env : Env) : List Val → Option (List Desc)
  | [] => some []
  | v :: vs => match describe env v, describeList env vs with
    | some d, some ds => some (d :: ds)
    | _, _ => none

/-- The loop over a dictionary (describable.py:189-196). -/
def describeDict (env : Env) : List (Name × Val) → Option (List (Name × Desc))
  | [] => some []
  | (k, v) :: es => match describe env v, describeDict env es with
    | some d, some ds => some ((k, d) :: ds)
    | _, _ => none

/-- The loop over the attributes (describable.py:77-88). -/
def describeMembers (env : Env) (c : Class) : List (Name × Val) → Option (List (Name × Desc))
  | [] => some []
  | (k, v) :: es =>
    if isUndescribed c k || isDefault env c k v then describeMembers env c es
    else match describe env v, describeMembers env c es with
      | some d, some ds => some ((k, d) :: ds)
      | _, _ => none
end

/-- `instance.__dict__[member] = …` for all members of a dictionary. -/
def setAll (attrs : List (Name × Val)) (es : List (Name × Val)) : List (Name × Val) := es.foldl (fun a p => Dict.set a p.1 p.2) attrs

/-- The attributes of an instance created from a description (describable.py:114-123). -/
def build (c : Class) (members : List (Name × Val)) : List (Name × Val) :=
  setAll (setAll (setAll [] c.undescribed) (c.defaults.map (fun p => (p.1, Val.atom p.2)))) members

mutual
/-- `create_from_description` (describable.py:206-234) and `__new_from_description__` (93-126), for
classes that do not override it.  `none` is the `TypeError`. -/
def create (env : Env) : Desc → Option Val
  | .atom a => some (.atom a)
  | .list l => (createList env l).map .list
  | .dict es => match createDict env es with
    | none => none
    | some vs => match Dict.get? es typeKey with
      | none => some (.dict vs)
      | some (.atom (.str name)) => match env.cls name with
        | none => none
        | some c => some (.obj name (c.init (build c vs)))
      | some _ => none

/-- The loop over a list (describable.py:232). -/
def createList (env : Env) : List Desc → Option (List Val)
  | [] => some []
  | d :: ds => match create env d, createList env ds with
    | some v, some vs => some (v :: vs)
    | _, _ => none

/-- The loops over the members (describable.py:120-123, 225-226). -/
def createDict (env : Env) : List (Name × Desc) → Option (List (Name × Val))
  | [] => some []
  | (k, d) :: es =>
    if k = typeKey then createDict env es
    else match create env d, createDict env es with
      | some v, some vs => some ((k, v) :: vs)
      | _, _ => none
end

end Verif.Describe
