import Verif.Evaluate.Spec
import Mathlib.Data.List.Perm.Basic
import Mathlib.Algebra.BigOperators.Group.List.Basic

/-!
# C79: tables cut into parts
-/

namespace Verif.Evaluate

open Verif.Session

variable {α : Type}

/-- Columns `lo`, ..., `lo + n - 1` of a table with `T` rows, row by row. -/
def blk (f : ℕ → ℕ → α) (T lo n : ℕ) : List α := (List.range T).flatMap fun t => (List.range n).map fun q => f t (lo + q)

theorem blk_add (f : ℕ → ℕ → α) (T lo a b : ℕ) : (blk f T lo (a + b)).Perm (blk f T lo a ++ blk f T (lo + a) b) := by
  refine List.Perm.trans (List.Perm.of_eq ?_) (List.flatMap_append_perm (List.range T) _ _).symm
  unfold blk
  congr 1
  funext t
  rw [List.range_add, List.map_append, List.map_map]
  congr 1
  refine List.map_congr_left fun q _ => ?_
  simp only [Function.comp, Nat.add_assoc]

theorem range_mul (T B : ℕ) (g : ℕ → α) : (List.range (T * B)).map g = blk (fun t q => g (t * B + q)) T 0 B := by
  unfold blk
  induction T with
  | zero => simp
  | succ T ih =>
    rw [Nat.add_mul, Nat.one_mul, List.range_add, List.map_append, ih, List.range_succ, List.flatMap_append]
    simp [Function.comp_def]

/-- The columns of all parts together are those of the table. -/
theorem parts_perm {β : Type} (R : Batch → β → Prop) (F : Batch → β → List α) (f : ℕ → ℕ → α) (T : ℕ) : ∀ (bs : List Batch) (sts : List β) (lo : ℕ),
    List.Forall₂ R bs sts →
    (∀ done b later, bs = done ++ b :: later → ∀ st, R b st → F b st = blk f T (lo + (done.map Batch.B).sum) b.B) →
    (((bs.zip sts).map fun x => F x.1 x.2).flatten).Perm (blk f T lo (bs.map Batch.B).sum)
  | [], _, lo, h, _ => by
    cases h
    simp [blk]
  | b :: bs, _, lo, h, hF => by
    cases h with
    | @cons _ st _ sts h1 h2 =>
    rw [List.zip_cons_cons, List.map_cons, List.flatten_cons, List.map_cons, List.sum_cons]
    have e := hF [] b bs rfl st h1
    simp only [List.map_nil, List.sum_nil, Nat.add_zero] at e
    rw [e]
    refine List.Perm.trans (List.Perm.append_left _ (parts_perm R F f T bs sts (lo + b.B) h2 ?_)) (blk_add f T lo _ _).symm
    intro done b' later e' st' hst'
    rw [hF (b :: done) b' later (by rw [e']; rfl) st' hst', List.map_cons, List.sum_cons, Nat.add_assoc]

end Verif.Evaluate
