import Verif.References.Initialize

/-!
# Installing and applying value modifiers: `brainstorm/structure/network.py:276-357, 490-511` and
`brainstorm/structure/view_references.py:160-199`

Modifier objects have identity: references name objects by address, `deepcopy` makes a new object.
-/

namespace Verif.Modifiers

open Verif.References

/-- What ends up in the sets of `resolve_references`: a modifier object, or a list of them (stored as a tuple,
view_references.py:92-93). -/
inductive Entry
  | one (a : Nat)
  | many (as : List Nat)
deriving DecidableEq, Repr

/-- The objects named by an entry, in order. -/
def Entry.objs : Entry → List Nat
  | .one a => [a]
  | .many as => as

/-- A modifier object (value_modifiers.py:11-28, 31-48): its own data `data` and the attributes `layer_name` and `view_name`. -/
structure Obj (M : Type) where
  data : M
  layerName : Name
  viewName : Name

/-- All modifier objects; the addresses from `next` on are unused. -/
structure Heap (M : Type) where
  next : Nat
  obj : Nat → Obj M

variable {M Val Seed G : Type}

/-- `copy_modifier_for` (view_references.py:176-180). -/
def copyFor (h : Heap M) (a : Nat) (layer view : Name) : Heap M × Nat :=
  (⟨h.next + 1, fun i => if i = h.next then ⟨(h.obj a).data, layer, view⟩ else h.obj i⟩, h.next)

/-- The list comprehension over one list of modifiers (view_references.py:191-192). -/
def copyAll (h : Heap M) (layer view : Name) : List Nat → Heap M × List Nat
  | [] => (h, [])
  | a :: as =>
    let r := copyFor h a layer view
    let q := copyAll r.1 layer view as
    (q.1, r.2 :: q.2)

/-- The loop over the set of one view (view_references.py:188-195); the list is the set in the order in which it is iterated. -/
def copyEntries (h : Heap M) (layer view : Name) : List Entry → Heap M × List Nat
  | [] => (h, [])
  | e :: es =>
    let r := match e with
      | .many as => copyAll h layer view as
      | .one a => let c := copyFor h a layer view; (c.1, [c.2])
    let q := copyEntries r.1 layer view es
    (q.1, r.2 ++ q.2)

/-- The loop over the views of a layer (view_references.py:187-196).  `order` is the iteration order of a set. -/
def copyViews (order : List Entry → List Entry) (h : Heap M) (layer : Name) :
    List (Name × List Entry) → Heap M × List (Name × List Nat)
  | [] => (h, [])
  | (v, es) :: rest =>
    let r := copyEntries h layer v (order es)
    let q := copyViews order r.1 layer rest
    (q.1, (v, r.2) :: q.2)

/-- Installed modifiers: layer, view, addresses. -/
abbrev Installed := List (Name × List (Name × List Nat))

/-- `order_and_copy_modifiers` (view_references.py:183-199). -/
def orderAndCopy (order : List Entry → List Entry) (h : Heap M) : List (Name × List (Name × List Entry)) → Heap M × Installed
  | [] => (h, [])
  | (l, vs) :: rest =>
    let r := copyViews order h l vs
    let q := orderAndCopy order r.1 rest
    (q.1, (l, r.2) :: q.2)

/-- `prune_view_references` (view_references.py:160-173). -/
def prune {V : Type} : List (Name × List (Name × List V)) → List (Name × List (Name × List V))
  | [] => []
  | (l, vs) :: rest =>
    let kept := vs.filter (fun v => !v.2.isEmpty)
    if kept.isEmpty then prune rest else (l, kept) :: prune rest

/-- A nested dictionary of two levels as nested lists. -/
def levels {V : Type} : Tree V → List (Name × List (Name × V))
  | .leaf _ => []
  | .node es => es.map (fun e => (e.1, match e.2 with
    | .leaf _ => []
    | .node vs => vs.filterMap (fun v => match v.2 with
      | .leaf x => some (v.1, x)
      | .node _ => none)))

/-- Failures: of `resolve_references`, and the assertion that no fallback is given (network.py:312-313, 352-353). -/
inductive MErr
  | resolve (e : Err)
  | fallback
deriving DecidableEq, Repr

/-- `set_weight_modifiers` (network.py:304-315) and `set_gradient_modifiers` (network.py:344-356), from the merged references
on: parameters and gradients have the same structure. -/
def setModifiers (order : List Entry → List Entry) (ps : Params) (refs : Ref Entry) (h : Heap M) :
    Except MErr (Heap M × Installed) :=
  match resolve ps.tree refs with
  | .error e => .error (.resolve e)
  | .ok (mods, fallback) =>
    if prune (levels fallback) = [] then .ok (orderAndCopy order h (prune (levels mods)))
    else .error .fallback

/-- What modifiers do when called, and how seeds are drawn.  `value` is `ValueModifier.__call__`, `gradient` is
`GradientModifier.__call__`; they may change the object and overwrite the view. -/
structure Sys (M Val Seed G : Type) where
  isGradient : M → Bool
  value : M → Seed → Val → M × Val
  gradient : M → Seed → Val → Val → M × Val
  generateSeed : G → Seed × G

/-- The network, as far as modifiers are concerned: the objects, the views (parameters or gradients), and the random state. -/
structure Net (M Val G : Type) where
  heap : Heap M
  view : Name → Name → Val
  rnd : G

/-- Set one view. -/
def setView (w : Name → Name → Val) (l v : Name) (x : Val) : Name → Name → Val :=
  fun l' v' => if l' = l ∧ v' = v then x else w l' v'

/-- Set the data of one object. -/
def Heap.put (h : Heap M) (a : Nat) (m : M) : Heap M :=
  ⟨h.next, fun i => if i = a then ⟨m, (h.obj i).layerName, (h.obj i).viewName⟩ else h.obj i⟩

/-- One modifier call on one view: seed the modifier, then call it (network.py:494-496, 502-510). -/
def callOne (sys : Sys M Val Seed G) (call : M → Seed → Val → M × Val) (l v : Name) (s : Net M Val G) (a : Nat) :
    Net M Val G :=
  let r := sys.generateSeed s.rnd
  let q := call (s.heap.obj a).data r.1 (s.view l v)
  ⟨s.heap.put a q.1, setView s.view l v q.2, r.2⟩

/-- The three loops of `apply_weight_modifiers` and `apply_gradient_modifiers` (network.py:491-493, 499-501). -/
def applyAll (sys : Sys M Val Seed G) (call : Name → Name → M → Seed → Val → M × Val) (inst : Installed) (s : Net M Val G) :
    Net M Val G :=
  inst.foldl (fun s lv => lv.2.foldl (fun s va => va.2.foldl (callOne sys (call lv.1 va.1) lv.1 va.1) s) s) s

/-- `apply_weight_modifiers` (network.py:490-496).  Simplification: all installed modifiers are `ValueModifier`s. -/
def applyWeights (sys : Sys M Val Seed G) (inst : Installed) (s : Net M Val G) : Net M Val G :=
  applyAll sys (fun _ _ => sys.value) inst s

/-- The call of one gradient modifier (network.py:503-510). -/
def gradCall (sys : Sys M Val Seed G) (params : Name → Name → Val) (l v : Name) (m : M) (seed : Seed) (g : Val) : M × Val :=
  if sys.isGradient m then sys.gradient m seed (params l v) g else sys.value m seed g

/-- `apply_gradient_modifiers` (network.py:498-510). -/
def applyGradients (sys : Sys M Val Seed G) (inst : Installed) (params : Name → Name → Val) (s : Net M Val G) : Net M Val G :=
  applyAll sys (gradCall sys params) inst s

/-! ### Specification -/

/-- The modifiers `ms` act on one view, one after the other, in the order of the list. -/
def inTurn (call : M → Seed → Val → M × Val) : List M → List Seed → Val → List M × Val
  | m :: ms, s :: ss, x =>
    let q := inTurn call ms ss (call m s x).2
    ((call m s x).1 :: q.1, q.2)
  | _, _, x => ([], x)

/-- The seed number `n` of those the random state gives from now on (`generate_seed`, randomness.py:60-64). -/
def Sys.seedNo (sys : Sys M Val Seed G) : G → Nat → Seed
  | g, 0 => (sys.generateSeed g).1
  | g, n + 1 => sys.seedNo (sys.generateSeed g).2 n

/-- The references name the entry `e` for `layer.view` (C24). -/
def Names (refs : Ref Entry) (l v : Name) (e : Entry) : Prop :=
  Gives refs [l, v] e ∨ ((∀ w, ¬ Gives refs [l, v] w) ∧ Inherits (str "default") refs none [l, v] e)

/-- The addresses of the modifiers installed for `layer.view`. -/
def Installed.at (inst : Installed) (l v : Name) : List Nat := (Dict.get? ((Dict.get? inst l).getD []) v).getD []

/-- All references are to existing objects. -/
def Known (refs : Ref Entry) (h : Heap M) : Prop := ∀ l v e, Names refs l v e → ∀ a ∈ e.objs, a < h.next

end Verif.Modifiers
