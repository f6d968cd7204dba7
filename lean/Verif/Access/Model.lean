import Verif.Layout.Create
import Verif.Utils.Paths

/-!
# Access to buffers by name: `brainstorm/structure/buffer_views.py` and its users

A `BufferView` is a Python object: a list whose attributes are stored in its own dictionary, next to the attributes the class
itself needs.  Objects live in a heap, because `adjust` changes them in place and users may keep them.  Looking up an attribute
finds the object's own dictionary before the methods of the class, so that a buffer can hide a method.  Arrays are values of
an arbitrary type; exceptions are `none`.
-/

namespace Verif.Access

open Verif.Paths Verif.Layout

variable {A E : Type}

/-- Values of attributes: an array, a reference to a `BufferView`, `None`, or a tuple or set of names. -/
inductive Val (A : Type)
  | arr (a : A)
  | ref (p : Nat)
  | none
  | names (ns : List Name)
deriving DecidableEq

/-- A `BufferView`: the elements of the list and the dictionary of the object. -/
structure Obj (A : Type) where
  items : List (Val A)
  attrs : Dict Name (Val A)

/-- The objects by address. -/
abbrev Heap (A : Type) := List (Obj A)

/-- The attributes of the class itself (buffer_views.py:15-17). -/
def fullName : Name := str "_full_buffer"
@[inherit_doc fullName] def namesName : Name := str "_buffer_names"
@[inherit_doc fullName] def keysName : Name := str "_keys"

/-- `self.__dict__[n] = b` for all pairs. -/
def setAll (attrs : Dict Name (Val A)) : List (Name × Val A) → Dict Name (Val A)
  | [] => attrs
  | (n, b) :: rest => setAll (Dict.set attrs n b) rest

/-- `BufferView.__init__` (buffer_views.py:10-19). -/
def mkView (names : List Name) (buffers : List (Val A)) (full : Val A) : Option (Obj A) :=
  if buffers.length = names.length then
    some ⟨buffers, setAll [(fullName, full), (namesName, .names names), (keysName, .names names)] (names.zip buffers)⟩
  else none

/-- The loop of `adjust` (buffer_views.py:24-26). -/
def adjustLoop : Nat → List (Name × Val A) → Obj A → Option (Obj A)
  | _, [], o => some o
  | i, (n, b) :: rest, o =>
    if i < o.items.length then adjustLoop (i + 1) rest ⟨o.items.set i b, Dict.set o.attrs n b⟩ else none

/-- `BufferView.adjust` (buffer_views.py:21-27), called as a method: it must not be hidden by a buffer of that name, and the
names must be the old ones. -/
def adjust (h : Heap A) (p : Nat) (names : List Name) (buffers : List (Val A)) (full : Val A) : Option (Heap A) :=
  match h[p]? with
  | none => none
  | some o =>
    if Dict.has o.attrs (str "adjust") then none
    else match Dict.get? o.attrs namesName with
      | some (.names ns) =>
        if ns = names then
          (adjustLoop 0 (names.zip buffers) ⟨o.items, Dict.set o.attrs fullName full⟩).map (fun o' => h.set p o')
        else none
      | _ => none

/-- `BufferView._asdict` and `BufferView.items` (buffer_views.py:29-33), called as methods; a dictionary made of pairs with
distinct names is the list of these pairs. -/
def items (h : Heap A) : Val A → Option (List (Name × Val A))
  | .ref p => match h[p]? with
    | none => none
    | some o =>
      if Dict.has o.attrs (str "items") || Dict.has o.attrs (str "_asdict") then none
      else match Dict.get? o.attrs namesName with
        | some (.names ns) => some (ns.zip o.items)
        | _ => none
  | _ => none

/-- `BufferView.__contains__` (buffer_views.py:53-54).  If the attribute was hidden by another view, that view is asked (one
level of this is modelled). -/
def contains (h : Heap A) (o : Obj A) (item : Name) : Option Bool :=
  match Dict.get? o.attrs namesName with
  | some (.names ns) => some (decide (item ∈ ns))
  | some (.ref q) => match h[q]? with
    | none => none
    | some o' => match Dict.get? o'.attrs namesName with
      | some (.names ns) => some (decide (item ∈ ns))
      | _ => none
  | _ => none

/-- `item in self._keys` (buffer_views.py:44). -/
def hasKey (h : Heap A) (o : Obj A) (item : Name) : Option Bool :=
  match Dict.get? o.attrs keysName with
  | some (.names ns) => some (decide (item ∈ ns))
  | some (.ref q) => match h[q]? with
    | none => none
    | some o' => contains h o' item
  | _ => none

/-- `BufferView.__getitem__` (buffer_views.py:41-51) for a name without a dot. -/
def getPlain (h : Heap A) (v : Val A) (item : Name) : Option (Val A) :=
  match v with
  | .ref p => match h[p]? with
    | none => none
    | some o => match hasKey h o item with
      | some true => Dict.get? o.attrs item
      | _ => none
  | _ => none

/-- The loop of `get_by_path` (utils.py:121-130). -/
def walk (h : Heap A) : Val A → List Name → Option (Val A)
  | v, [] => some v
  | v, p :: ps => match getPlain h v p with
    | none => none
    | some w => walk h w ps

/-- `BufferView.__getitem__` (buffer_views.py:41-51) for any string. -/
def getItem (h : Heap A) (v : Val A) (item : Name) : Option (Val A) :=
  match v with
  | .ref p => match h[p]? with
    | none => none
    | some o => match hasKey h o item with
      | none => none
      | some true => Dict.get? o.attrs item
      | some false => if '.' ∈ item then walk h (.ref p) (splitDot item) else none
  | _ => none

/-- `view[i]` (buffer_views.py:42-43) for `0 ≤ i`. -/
def getIndex (h : Heap A) (v : Val A) (i : Nat) : Option (Val A) :=
  match v with
  | .ref p => (h[p]?).bind (fun o => o.items[i]?)
  | _ => none

/-- `view.name` for a name that is not a method. -/
def getAttr (h : Heap A) (v : Val A) (n : Name) : Option (Val A) :=
  match v with
  | .ref p => (h[p]?).bind (fun o => Dict.get? o.attrs n)
  | _ => none

/-- `Network.get` (network.py:118-145) up to the copy: the array at a path. -/
def netGet (h : Heap A) (root : Val A) (path : Name) : Option A :=
  match getItem h root path with
  | some (.arr a) => some a
  | _ => none

mutual
/-- A node of the layout (layout.py:208-283): an array, or a view that may have an array of its own. -/
inductive LTree (E : Type)
  | array (e : E)
  | view (full : Option E) (cs : LForest E)
/-- The named children of a node in the order of their `@index`. -/
inductive LForest (E : Type)
  | nil
  | cons (n : Name) (t : LTree E) (rest : LForest E)
end

/-- The names of the children. -/
def LForest.names : LForest E → List Name
  | .nil => []
  | .cons n _ rest => n :: rest.names

/-- `if existing_view:` (buffers.py:29, 37): an empty view counts as false. -/
def existing (h : Heap A) : Option (Val A) → Option (Option Nat)
  | none => some none
  | some (.ref p) => match h[p]? with
    | none => none
    | some o => some (if o.items = [] then none else some p)
  | _ => none

mutual
/-- `create_buffer_views_from_layout` (buffers.py:14-44); `mk` makes the array of a node from the current buffers. -/
def create (mk : E → A) (h : Heap A) : LTree E → Option (Val A) → Option (Heap A × Val A)
  | .array e, _ => some (h, .arr (mk e))
  | .view full cs, ex =>
    match existing h ex with
    | none => none
    | some none => match createAll mk h cs none with
      | none => none
      | some (h', vs) => match mkView cs.names vs ((full.map (fun e => Val.arr (mk e))).getD .none) with
        | none => none
        | some o => some (h' ++ [o], .ref h'.length)
    | some (some p) => match createAll mk h cs (some p) with
      | none => none
      | some (h', vs) => match adjust h' p cs.names vs ((full.map (fun e => Val.arr (mk e))).getD .none) with
        | none => none
        | some h'' => some (h'', .ref p)
/-- The loop over the children (buffers.py:25-36). -/
def createAll (mk : E → A) (h : Heap A) : LForest E → Option Nat → Option (Heap A × List (Val A))
  | .nil, _ => some (h, [])
  | .cons _ t rest, none => match create mk h t none with
    | none => none
    | some (h', v) => match createAll mk h' rest none with
      | none => none
      | some (h'', vs) => some (h'', v :: vs)
  | .cons n t rest, some p => match (h[p]?).bind (fun o => contains h o n) with
    | some true => match getItem h (.ref p) n with
      | none => none
      | some x => match create mk h t (some x) with
        | none => none
        | some (h', v) => match createAll mk h' rest (some p) with
          | none => none
          | some (h'', vs) => some (h'', v :: vs)
    | _ => none
end

/-- What `self.handler.get_numpy_copy(self.views.parameters)` and `set_from_numpy(self.views.parameters, ...)` ask for: an
array (numpy_handler.py:60-65). -/
def parametersArray (h : Heap A) (root : Val A) : Option A :=
  match getAttr h root (str "parameters") with
  | some (.arr a) => some a
  | _ => none

/-- `Network.__init__` as far as views go (network.py:103-116): `BufferManager.__init__` creates views (buffers.py:56-66), and
`set_handler` (buffers.py:101-113) creates them once more and copies the parameters. -/
def mkNet (mk : E → A) (h : Heap A) (t : LTree E) : Option (Heap A × Val A) :=
  match create mk h t none with
  | none => none
  | some (h1, root1) => match parametersArray h1 root1 with
    | none => none
    | some _ => match create mk h1 t none with
      | none => none
      | some (h2, root2) => match parametersArray h2 root2 with
        | none => none
        | some _ => some (h2, root2)

/-- `BufferManager.resize` to other sizes (buffers.py:68-99), as far as views go: `mk` makes the arrays for the new sizes. -/
def resize (mk : E → A) (h : Heap A) (t : LTree E) (root : Val A) : Option (Heap A × Val A) :=
  match parametersArray h root with
  | none => none
  | some _ => match create mk h t (some root) with
    | none => none
    | some (h', root') => match parametersArray h' root' with
      | none => none
      | some _ => some (h', root')

/-- Any number of changes of the sizes. -/
def resizes (t : LTree E) : List (E → A) → Heap A × Val A → Option (Heap A × Val A)
  | [], s => some s
  | mk :: rest, s => match resize mk s.1 t s.2 with
    | none => none
    | some s' => resizes t rest s'

/-- A list of children. -/
def LForest.ofList : List (Name × LTree E) → LForest E
  | [] => .nil
  | (n, t) :: rest => .cons n t (ofList rest)

/-- The layout of one layer (layout.py:225-283); an array is identified by its path. -/
def layerTree (l : LayerInfo) : LForest Name :=
  .ofList ((layerCats l).map (fun c => (c.1, .view none (.ofList (c.2.2.map (fun e => (e.1, .array (path l.name c.1 e.1))))))))

/-- The layout of a network (layout.py:208-222) with the slices added by `layout_hubs` (150-159) and `create_layout` (136-147):
a layer called `parameters` or `gradients` replaces the array of that name and gets its slice. -/
def netTree (layers : List LayerInfo) : LTree Name :=
  .view none (.ofList (
    (([str "parameters", str "gradients"].filter (fun n => decide (n ∉ layers.map LayerInfo.name))).map (fun n => (n, LTree.array n))) ++
    layers.map (fun l => (l.name,
      .view (if l.name = str "parameters" ∨ l.name = str "gradients" then some l.name else none) (layerTree l)))))

end Verif.Access
