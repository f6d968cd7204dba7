import Verif.Layout.Model

/-! Specification vocabulary for the layout of one hub. -/

namespace Verif.Layout

open Verif.Structure

/-- The elements of `l` with property `P` stand next to each other, without gap. -/
def Consecutive {α : Type} (P : α → Prop) (l : List α) : Prop :=
  ∃ pre mid post, l = pre ++ mid ++ post ∧ (∀ x ∈ mid, P x) ∧ ∀ x ∈ pre ++ post, ¬ P x

/-- The sources, in the order `order`, can feed every sink from one gapless
block. -/
def FeedsContiguously (conns : List (Name × Name)) (sinks : List Name) (order : List Item) : Prop :=
  ∀ t ∈ sinks, Consecutive (fun s => (s, t) ∈ conns) (order.flatMap Item.flat)

/-- Position `f` of the hub lies in the slice `[lo, hi)`. -/
def Inside (f : Nat) (slice : Nat × Nat) : Prop := slice.1 ≤ f ∧ f < slice.2

end Verif.Layout
