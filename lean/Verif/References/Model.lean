import Verif.Base.Dict
import Verif.References.Wildcard

/-!
# Resolving view references: `brainstorm/structure/view_references.py:27-157`

Structures and references are nested dictionaries.  Python sets of values are lists without
order; values are compared with `=`.  Lists and arrays given as values count as one value, as
in the code (a list is stored as a tuple).
-/

namespace Verif.References

/-- A nested dictionary with leaves. -/
inductive Tree (A : Type)
  | leaf (a : A)
  | node (es : List (Name × Tree A))

/-- References: a value or a dictionary. -/
inductive Ref (V : Type)
  | val (v : V)
  | dict (es : List (Name × Ref V))

/-- Failures: `NetworkValidationError` for a reference without match, the assertion for malformed
references, `TypeError` when a dictionary is put into a set, the assertion about defaults, and
lack of fuel (never happens, see `applyRefs_fuel`). -/
inductive Err
  | noMatch
  | badRef
  | unhashable
  | defaults
  | fuel
deriving DecidableEq, Repr

/-- `Node` (view_references.py:68). -/
structure Cell (V : Type) where
  content : List V
  defaults : List V
  fallback : List V

variable {A B V : Type} [DecidableEq V]

mutual
/-- Apply a function to all leaves of a nested dictionary. -/
def Tree.mapM (f : A → Except Err B) : Tree A → Except Err (Tree B)
  | .leaf a => (f a).map Tree.leaf
  | .node es => (mapKidsM f es).map Tree.node
/-- The same for the entries of a dictionary. -/
def mapKidsM (f : A → Except Err B) : List (Name × Tree A) → Except Err (List (Name × Tree B))
  | [] => .ok []
  | (k, t) :: rest => match t.mapM f with
    | .error e => .error e
    | .ok t' => (mapKidsM f rest).map (fun rest' => (k, t') :: rest')
end

/-- `empty_dict_from` (view_references.py:71-86). -/
def emptyDict (t : Tree A) : Except Err (Tree (Cell V)) := t.mapM (fun _ => .ok ⟨[], [], []⟩)

/-- `add_or_update` (view_references.py:89-95): add a value to a set (`none`: nothing to add); a
dictionary cannot be added. -/
def addTo (r : Option (Ref V)) (s : List V) : Except Err (List V) :=
  match r with
  | none => .ok s
  | some (.val v) => .ok (s.insert v)
  | some (.dict _) => .error .unhashable

/-- The body of `append_to_all_leaves` for one leaf (view_references.py:106-112). -/
def addCell (content default fallback : Option (Ref V)) (c : Cell V) : Except Err (Cell V) :=
  match addTo content c.content with
  | .error e => .error e
  | .ok cs => match addTo default c.defaults with
    | .error e => .error e
    | .ok ds => match addTo fallback c.fallback with
      | .error e => .error e
      | .ok fs => .ok ⟨cs, ds, fs⟩

/-- `append_to_all_leaves` (view_references.py:98-112). -/
def appendAll (content default fallback : Option (Ref V)) (t : Tree (Cell V)) : Except Err (Tree (Cell V)) :=
  t.mapM (addCell content default fallback)

/-- The special keys skipped at view_references.py:48. -/
def special (r : Name) : Bool := r = str "default" || r = str "fallback"

/-- The loop of `get_key_to_references_mapping` (view_references.py:47-60) as far as it can fail. -/
def checkRefs (keys : List Name) : List Name → Except Err Unit
  | [] => .ok ()
  | r :: rest =>
    if special r then checkRefs keys rest
    else if ¬ isValidLayerName (unstar r) then .error .badRef
    else if keys.any (fun k => refMatches r k = some true) then checkRefs keys rest
    else .error .noMatch

/-- The references a key is mapped to by `get_key_to_references_mapping`
(view_references.py:47-65). -/
def refsOf (refs : List Name) (key : Name) : List Name :=
  let l := refs.filter (fun r => !special r && decide (refMatches r key = some true))
  if l = [] ∧ str "default" ∈ refs then [str "default"] else l

/-- The loop over the keys of a dictionary. -/
def mapEntries (g : Name → Tree A → Except Err (Tree A)) : List (Name × Tree A) → Except Err (List (Name × Tree A))
  | [] => .ok []
  | (k, t) :: rest => match g k t with
    | .error e => .error e
    | .ok t' => (mapEntries g rest).map (fun rest' => (k, t') :: rest')

/-- The loop `for ref in refs` (view_references.py:122-124): `f ref` changes the subtree in
place. -/
def foldRefs {R : Type} (f : R → Tree A → Except Err (Tree A)) : List R → Tree A → Except Err (Tree A)
  | [], t => .ok t
  | r :: rs, t => match f r t with
    | .error e => .error e
    | .ok t' => foldRefs f rs t'

/-- `apply_references_recursively` (view_references.py:115-131); every recursive call descends one
level into the references, so a fuel above their depth suffices. -/
def applyRefs : Nat → Tree (Cell V) → Ref V → Option (Ref V) → Option (Ref V) → Except Err (Tree (Cell V))
  | 0, _, _, _, _ => .error .fuel
  | fuel + 1, .node ks, .dict es, parentDefault, parentFallback =>
    let default := (Dict.get? es (str "default")).or parentDefault
    let fallback := (Dict.get? es (str "fallback")).or parentFallback
    match checkRefs (Dict.keys ks) (Dict.keys es) with
    | .error e => .error e
    | .ok _ => (mapEntries (fun k t =>
        let refs := refsOf (Dict.keys es) k
        if refs = [] then appendAll none default fallback t
        else foldRefs (fun r t => match Dict.get? es r with
          | none => .error .fuel
          | some sub => applyRefs fuel t sub default fallback) refs t) ks).map Tree.node
  | _ + 1, t, ref, parentDefault, parentFallback => appendAll (some ref) parentDefault parentFallback t

/-- `evaluate_defaults` for one leaf (view_references.py:137-143). -/
def evalCell (c : Cell V) : Except Err (List V) :=
  if c.content = [] then (if c.defaults.length ≤ 1 then .ok c.defaults else .error .defaults)
  else .ok c.content

mutual
/-- Depth of references. -/
def Ref.depth : Ref V → Nat
  | .val _ => 1
  | .dict es => depthList es + 1
/-- Maximal depth of the entries. -/
def depthList : List (Name × Ref V) → Nat
  | [] => 0
  | (_, r) :: rest => max r.depth (depthList rest)
end

/-- `resolve_references` (view_references.py:154-157). -/
def resolve (t : Tree A) (refs : Ref V) : Except Err (Tree (List V) × Tree (List V)) :=
  match emptyDict t with
  | .error e => .error e
  | .ok t₀ => match applyRefs refs.depth t₀ refs none none with
    | .error e => .error e
    | .ok t₁ => match t₁.mapM evalCell with
      | .error e => .error e
      | .ok vals => match t₁.mapM (fun c => .ok c.fallback) with
        | .error e => .error e
        | .ok fbs => .ok (vals, fbs)

/-! ### Specification -/

/-- The leaf at a path. -/
def Tree.at : Tree A → List Name → Option A
  | .leaf a, [] => some a
  | .leaf _, _ :: _ => none
  | .node _, [] => none
  | .node es, k :: p => match Dict.get? es k with
    | none => none
    | some t => t.at p

/-- In the dictionary `es` the pattern `r` with entry `sub` applies to `key`: it is an ordinary
pattern matching the key, or it is `default` and no ordinary pattern matches. -/
inductive Applies (es : List (Name × Ref V)) (key : Name) : Ref V → Prop
  | pattern (r : Name) (sub : Ref V) : special r = false → refMatches r key = some true →
      Dict.get? es r = some sub → Applies es key sub
  | default (sub : Ref V) : (∀ r ∈ Dict.keys es, special r = false → refMatches r key ≠ some true) →
      Dict.get? es (str "default") = some sub → Applies es key sub

/-- The references give the value `v` to the leaf at the path: a value applies to everything below,
a dictionary gives what its entries that apply to the next key give. -/
inductive Gives : Ref V → List Name → V → Prop
  | val (v : V) (path : List Name) : Gives (.val v) path v
  | entry (es : List (Name × Ref V)) (key : Name) (path : List Name) (sub : Ref V) (v : V) :
      Applies es key sub → Gives sub path v → Gives (.dict es) (key :: path) v

/-- The leaf at the path inherits the value `v` under the special key `sp` (`default` or
`fallback`), `inh` being what is inherited from outside: the innermost dictionary passed on the way
that has such an entry determines it. -/
inductive Inherits (sp : Name) : Ref V → Option (Ref V) → List Name → V → Prop
  | val (w v : V) (path : List Name) : Inherits sp (.val w) (some (.val v)) path v
  | entry (es : List (Name × Ref V)) (inh : Option (Ref V)) (key : Name) (path : List Name) (sub : Ref V) (v : V) :
      Applies es key sub → Inherits sp sub ((Dict.get? es sp).or inh) path v → Inherits sp (.dict es) inh (key :: path) v
  | missing (es : List (Name × Ref V)) (inh : Option (Ref V)) (key : Name) (path : List Name) (v : V) :
      (∀ sub, ¬ Applies es key sub) → (Dict.get? es sp).or inh = some (.val v) → Inherits sp (.dict es) inh (key :: path) v

/-- Some pattern met on the way matches no key. -/
inductive Dangling : Tree A → Ref V → Prop
  | here (ks : List (Name × Tree A)) (es : List (Name × Ref V)) (r : Name) : r ∈ Dict.keys es → special r = false →
      (∀ k ∈ Dict.keys ks, refMatches r k ≠ some true) → Dangling (.node ks) (.dict es)
  | deeper (ks : List (Name × Tree A)) (es : List (Name × Ref V)) (key : Name) (t : Tree A) (sub : Ref V) :
      Dict.get? ks key = some t → Applies es key sub → Dangling t sub → Dangling (.node ks) (.dict es)

end Verif.References
