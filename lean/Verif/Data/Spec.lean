import Verif.Data.Model

/-! # What one pass over the data should give (C30, C31) -/

namespace Verif.Data

/-- The index lists `parts` cover `0, …, n-1` exactly once in consecutive runs of
`bs` (one run possibly shorter); `ordered` asks for the original order, with the
short run at the end. -/
structure CoversOnce (n bs : Nat) (ordered : Bool) (parts : List (List Nat)) : Prop where
  once : parts.flatten.Perm (List.range n)
  inOrder : ordered = true → parts.flatten = List.range n
  consecutive : ∀ p ∈ parts, ∃ s, p = List.range' s p.length
  nonempty : ∀ p ∈ parts, p ≠ []
  atMost : ∀ p ∈ parts, p.length ≤ bs
  oneShort : (parts.filter (fun p => decide (p.length ≠ bs))).length ≤ 1
  shortLast : ordered = true → ∀ p ∈ parts.dropLast, p.length = bs

/-- The sequences with indices `p` of an array, cut after `stop` steps. -/
def Arr.pick {α : Type} (a : Arr α) (p : List Nat) (stop : Nat) : Arr α :=
  ⟨a.rank, p.length, (a.rows.take stop).map (fun r => p.filterMap (fun i => r[i]?))⟩

/-- Every row has an entry for each sequence. -/
def Arr.Regular {α : Type} (a : Arr α) : Prop := ∀ r ∈ a.rows, r.length = a.seqs

/-- The mask is non-zero for sequence `i` at time `t`. -/
def Arr.Unmasked {α : Type} (nonzero : α → Option Bool) (mask : Arr α) (t i : Nat) : Prop :=
  ∃ r x, mask.rows[t]? = some r ∧ r[i]? = some x ∧ nonzero x = some true

end Verif.Data
