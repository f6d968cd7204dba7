import Verif.References.Errors
import Verif.Utils.NameOrder
import Mathlib.Data.List.Sort

/-!
# `Network.initialize` (brainstorm/structure/network.py:162-274) and `evaluate_initializer`
(brainstorm/initializers.py:401-418)

The random generators and the arithmetic of the initializers are parameters.  Every initializer
object has its own random state `self.rnd`; `Store` gives the states by object identity.
-/

namespace Verif.References

/-- Initializers: numbers and objects.  `object` stands for the initializers that draw from their
own random state only (initializers.py:40-215, 254-312, 374-396; `kind` stands for class and
arguments), `sparse` for `SparseInputs`/`SparseOutputs` (315-371) and `lstmOpt` for `LstmOptInit`
(218-251). -/
inductive Init
  | number (x : Int)
  | object (id : Nat) (kind : Nat)
  | sparse (id : Nat) (kind : Nat) (sub : Init)
  | lstmOpt (id : Nat) (a b c d : Init)
deriving DecidableEq, Repr

/-- A shape. -/
abbrev Shape := List Nat

/-- External operations: numpy's generator, and what the initializers do with it.  `G` is the state
of a generator, `Arr` an array. -/
structure Sys (G Arr : Type) where
  /-- A generator from a seed (also `set_seed`, randomness.py:44-52). -/
  ofSeed : Nat → G
  /-- `generate_seed` (randomness.py:60-64). -/
  generateSeed : G → Nat × G
  /-- The array full of a number (initializers.py:415-416). -/
  full : Int → Shape → Arr
  /-- `__call__` of an `object`; `none` is an `InitializationError`. -/
  draw : Nat → Shape → G → Option Arr × G
  /-- The shape checks of the sparse initializers. -/
  sparseOk : Nat → Shape → Bool
  /-- Multiplying with a random connection mask. -/
  mask : Nat → Shape → Arr → G → Arr × G
  /-- The shape of a quarter, if the first dimension is divisible by four. -/
  quarter : Shape → Option Shape
  /-- Stack four quarters. -/
  stack : Arr → Arr → Arr → Arr → Arr

variable {G Arr : Type}

/-- The random states of the initializer objects. -/
abbrev Store (G : Type) := Nat → G

/-- Assign the state of one object. -/
def Store.put (st : Store G) (id : Nat) (g : G) : Store G := fun i => if i = id then g else st i

/-- `if seed is not None: initializer.rnd.set_seed(seed)` (initializers.py:403-404). -/
def Store.reseed (sys : Sys G Arr) (st : Store G) (id : Nat) (seed : Option Nat) : Store G := match seed with
  | none => st
  | some s => st.put id (sys.ofSeed s)

/-- `evaluate_initializer` without fallback (initializers.py:401-418); `none` is an
`InitializationError`.  Sub-initializers of the sparse initializers are evaluated without seed
(initializers.py:334, 363), those of `LstmOptInit` with a generated one (initializers.py:241-250). -/
def evalOne (sys : Sys G Arr) : Init → Shape → Option Nat → Store G → Option Arr × Store G
  | .number x, sh, _, st => (some (sys.full x sh), st)
  | .object id k, sh, seed, st =>
    let st := st.reseed sys id seed
    let r := sys.draw k sh (st id)
    (r.1, st.put id r.2)
  | .sparse id k sub, sh, seed, st =>
    let st := st.reseed sys id seed
    if sys.sparseOk k sh then
      match evalOne sys sub sh none st with
      | (none, st) => (none, st)
      | (some x, st) =>
        let r := sys.mask k sh x (st id)
        (some r.1, st.put id r.2)
    else (none, st)
  | .lstmOpt id a b c d, sh, seed, st =>
    let st := st.reseed sys id seed
    match sys.quarter sh with
    | none => (none, st)
    | some q =>
      let s1 := sys.generateSeed (st id)
      match evalOne sys a q (some s1.1) (st.put id s1.2) with
      | (none, st) => (none, st)
      | (some xa, st) =>
        let s2 := sys.generateSeed (st id)
        match evalOne sys b q (some s2.1) (st.put id s2.2) with
        | (none, st) => (none, st)
        | (some xb, st) =>
          let s3 := sys.generateSeed (st id)
          match evalOne sys c q (some s3.1) (st.put id s3.2) with
          | (none, st) => (none, st)
          | (some xc, st) =>
            let s4 := sys.generateSeed (st id)
            match evalOne sys d q (some s4.1) (st.put id s4.2) with
            | (none, st) => (none, st)
            | (some xd, st) => (some (sys.stack xa xb xc xd), st)

/-- `evaluate_initializer` (initializers.py:401-418) with fallback and seed. -/
def evaluate (sys : Sys G Arr) (init : Init) (sh : Shape) (fb : Option Init) (seed : Nat) (st : Store G) :
    Option Arr × Store G :=
  match evalOne sys init sh (some seed) st with
  | (some x, st) => (some x, st)
  | (none, st) => match fb with
    | none => (none, st)
    | some f => evalOne sys f sh (some seed) st

/-- Shapes of the parameters: layers, views, shapes. -/
abbrev Params := List (Name × List (Name × Shape))

/-- As a nested dictionary. -/
def Params.tree (ps : Params) : Tree Shape := .node (ps.map (fun p => (p.1, .node (p.2.map (fun v => (v.1, .leaf v.2))))))

/-- The order in which the views are visited: `sorted(all_parameters.items())` and
`sorted(views.items())` (network.py:249, 252). -/
def Params.visit (ps : Params) : List (Name × Name × Shape) :=
  (sortBy (fun a b => nameLe a.1 b.1) ps).flatMap (fun p =>
    (sortBy (fun a b => nameLe a.1 b.1) p.2).map (fun v => (p.1, v.1, v.2)))

/-- Failures of `initialize`. -/
inductive IErr
  | resolve (e : Err)
  | multiple
  | missing
  | fallbacks
  | init
deriving DecidableEq, Repr

/-- Errors raised as `NetworkValidationError`. -/
def IErr.isValidation : IErr → Bool
  | .resolve .noMatch => true
  | .multiple => true
  | .missing => true
  | .fallbacks => true
  | _ => false

/-- The views written so far (in order) and the error, if any. -/
structure InitResult (G Arr : Type) where
  writes : List ((Name × Name) × Arr)
  err : Option IErr
  store : Store G

/-- The loops of `initialize` (network.py:249-274).  A view without entry in the resolved
dictionaries does not occur (`C24_values`). -/
def initLoop (sys : Sys G Arr) (vals fbs : Tree (List Init)) : List (Name × Name × Shape) → G → Store G → InitResult G Arr
  | [], _, st => ⟨[], none, st⟩
  | (l, v, sh) :: rest, g, st =>
    match (vals.at [l, v]).getD [], (fbs.at [l, v]).getD [] with
    | _ :: _ :: _, _ => ⟨[], some .multiple, st⟩
    | [], _ => ⟨[], some .missing, st⟩
    | [_], _ :: _ :: _ => ⟨[], some .fallbacks, st⟩
    | [i], fb =>
      let s := sys.generateSeed g
      match evaluate sys i sh fb.head? s.1 st with
      | (none, st) => ⟨[], some .init, st⟩
      | (some x, st) =>
        let r := initLoop sys vals fbs rest s.2 st
        ⟨((l, v), x) :: r.writes, r.err, r.store⟩

/-- `Network.initialize` (network.py:241-274) from the merged references on: `rnd` is the state of
the network's generator, used only if no seed is given (randomness.py:66-80).  Lists and arrays are
initializer objects (network.py:561-566). -/
def initNetwork (sys : Sys G Arr) (ps : Params) (refs : Ref Init) (seed : Option Nat) (rnd : G) (st : Store G) :
    InitResult G Arr :=
  match resolve ps.tree refs with
  | .error e => ⟨[], some (.resolve e), st⟩
  | .ok (vals, fbs) =>
    let g := sys.ofSeed (match seed with | some s => s | none => (sys.generateSeed rnd).1)
    initLoop sys vals fbs ps.visit g st

/-! ### Specification -/

/-- `i` is the one value the references resolve to at `path`. -/
def ResolvesTo (refs : Ref Init) (path : List Name) (i : Init) : Prop :=
  ∀ w, (Gives refs path w ∨ ((∀ x, ¬ Gives refs path x) ∧ Inherits (str "default") refs none path w)) ↔ w = i

/-- `fb` is the fallback at `path`, if any. -/
def FallsBackTo (refs : Ref Init) (path : List Name) (fb : Option Init) : Prop :=
  ∀ w, Inherits (str "fallback") refs none path w ↔ fb = some w

/-- The seeds drawn one after the other. -/
def seedNo (sys : Sys G Arr) : G → Nat → Nat
  | g, 0 => (sys.generateSeed g).1
  | g, n + 1 => seedNo sys (sys.generateSeed g).2 n

/-- Strict order on names. -/
def nameLt (a b : Name) : Prop := nameLe a b = true ∧ a ≠ b

/-- Views are ordered by layer name, then by view name. -/
def ViewLt (a b : Name × Name × Shape) : Prop := nameLt a.1 b.1 ∨ (a.1 = b.1 ∧ nameLt a.2.1 b.2.1)

/-- The dictionaries have distinct keys. -/
def Params.Distinct (ps : Params) : Prop := (ps.map Prod.fst).Nodup ∧ ∀ p ∈ ps, (p.2.map Prod.fst).Nodup

/-- `(layer, view, shape)` is one of the parameter views. -/
def Params.HasView (ps : Params) (x : Name × Name × Shape) : Prop := ∃ vs, (x.1, vs) ∈ ps ∧ (x.2.1, x.2.2) ∈ vs

/-- Initializers all of whose random states are reseeded when they are evaluated: everything but
the sparse initializers with a random sub-initializer. -/
def Init.reseeded : Init → Bool
  | .number _ => true
  | .object _ _ => true
  | .sparse _ _ (.number _) => true
  | .sparse _ _ _ => false
  | .lstmOpt _ a b c d => a.reseeded && b.reseeded && c.reseeded && d.reseeded

/-- References with the same content, up to the order of dictionaries. -/
inductive Ref.Same {V : Type} : Ref V → Ref V → Prop
  | val (v : V) : Same (.val v) (.val v)
  | dict (es es' : List (Name × Ref V)) : (∀ k, Dict.get? es k = none ↔ Dict.get? es' k = none) →
      (∀ k r r', Dict.get? es k = some r → Dict.get? es' k = some r' → Same r r') → Same (.dict es) (.dict es')

end Verif.References
