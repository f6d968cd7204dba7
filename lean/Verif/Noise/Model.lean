import Verif.Utils.Names
import Verif.Base.Dict
import Mathlib.Data.Real.Basic

/-!
# Iterators that add noise (brainstorm/data_iterators.py:40-140)

An array is its shape with its entries in C order.  The random generator of an iterator is a stream of numbers and the number
of those already used: `rnd.standard_normal(shape)` and `rnd.rand(*shape)` take as many as the array has entries, in C order.
Another iterator is what it announces (`data_shapes`) and the batches it gives.  Aliasing of the arrays is the subject of C32
(`Data/Heap.lean`) and left out here: both iterators put new arrays into the dictionaries.
-/

namespace Verif.Noise

/-- A numpy array. -/
structure NArr where
  shape : List Nat
  vals : List ℝ

/-- An array has as many entries as its shape says. -/
def NArr.Ok (a : NArr) : Prop := a.vals.length = a.shape.prod

/-- A batch of named data. -/
abbrev Batch := Dict Name NArr

/-- `set(d.keys()) != set(e.keys())`, as a test for equality. -/
def sameKeys {A B : Type} (d : Dict Name A) (e : Dict Name B) : Bool :=
  (Dict.keys d).all (fun k => decide (k ∈ Dict.keys e)) && (Dict.keys e).all (fun k => decide (k ∈ Dict.keys d))

/-- The checks in `AddGaussianNoise.__init__` (data_iterators.py:64-78) and `AddSaltNPepper.__init__` (114-128): `main` are the
standard deviations or probabilities, `second` the means or ratios if given, `shapes` what the other iterator announces. -/
def accepts {S : Type} (shapes : Dict Name S) (main : Dict Name ℝ) (second : Option (Dict Name ℝ)) : Bool :=
  (match second with
   | none => true
   | some d => sameKeys d main) &&
  (Dict.keys main).all (fun k => Dict.has shapes k)

/-- `mean_dict.get(key, 0.0)` and `ratio_dict.get(key, 0.5)`, where a missing dictionary is empty (data_iterators.py:76, 84,
126, 134). -/
def getOr (second : Option (Dict Name ℝ)) (k : Name) (dflt : ℝ) : ℝ := (Dict.get? (second.getD []) k).getD dflt

/-- The next `n` numbers of the generator. -/
def drawn (draws : Nat → ℝ) (pos n : Nat) : List ℝ := (List.range n).map (fun i => draws (pos + i))

/-- `data[key] + std * self.rnd.standard_normal(data[key].shape) + mean` (data_iterators.py:85-86). -/
def gaussian (std mean : ℝ) (z : List ℝ) (a : NArr) : NArr :=
  ⟨a.shape, List.zipWith (fun x r => x + std * r + mean) a.vals z⟩

/-- `d[cond(r)] = v`: an assignment to the entries selected by the random numbers. -/
noncomputable def assignIf (cond : ℝ → Prop) (v : ℝ) (r : List ℝ) (a : NArr) : NArr :=
  open Classical in ⟨a.shape, List.zipWith (fun x q => if cond q then v else x) a.vals r⟩

/-- Salt, then pepper, on a copy (data_iterators.py:135-138). -/
noncomputable def saltPepper (pr ratio : ℝ) (r : List ℝ) (a : NArr) : NArr :=
  assignIf (fun q => q ≤ pr * (1 - ratio)) 0 r (assignIf (fun q => q ≥ 1 - pr * ratio) 1 r a)

/-- The loop over the items of one batch (data_iterators.py:83-86, 133-139): `f` makes the new array from the random numbers
and the old one; `none` is a `KeyError`. -/
noncomputable def overItems (draws : Nat → ℝ) (f : Name → ℝ → List ℝ → NArr → NArr) :
    Dict Name ℝ → Nat → Batch → Option (Batch × Nat)
  | [], pos, data => some (data, pos)
  | (key, v) :: rest, pos, data =>
    match Dict.get? data key with
    | none => none
    | some a => overItems draws f rest (pos + a.shape.prod) (Dict.set data key (f key v (drawn draws pos a.shape.prod) a))

/-- The loop over the batches of the other iterator (data_iterators.py:82, 87, 132, 140). -/
noncomputable def overBatches (draws : Nat → ℝ) (f : Name → ℝ → List ℝ → NArr → NArr) (main : Dict Name ℝ) :
    Nat → List Batch → Option (List Batch)
  | _, [] => some []
  | pos, data :: rest => (overItems draws f main pos data).bind (fun r => (overBatches draws f main r.2 rest).map (r.1 :: ·))

/-- `AddGaussianNoise.__call__` (data_iterators.py:81-87). -/
noncomputable def addGaussianNoise (draws : Nat → ℝ) (std : Dict Name ℝ) (mean : Option (Dict Name ℝ)) (pos : Nat)
    (batches : List Batch) : Option (List Batch) :=
  overBatches draws (fun k s z a => gaussian s (getOr mean k 0) z a) std pos batches

/-- `AddSaltNPepper.__call__` (data_iterators.py:131-140). -/
noncomputable def addSaltNPepper (draws : Nat → ℝ) (prob : Dict Name ℝ) (ratio : Option (Dict Name ℝ)) (pos : Nat)
    (batches : List Batch) : Option (List Batch) :=
  overBatches draws (fun k p r a => saltPepper p (getOr ratio k (1 / 2)) r a) prob pos batches

end Verif.Noise
