import Verif.Layers.Props
import Mathlib.Logic.Function.Basic
import Mathlib.Algebra.BigOperators.Intervals

/-!
# Loops over time

The arrays of a recurrent layer have one row (batch × features) per time step and one context
row, the last one.  Rows are indexed by natural numbers; a run over `N` steps uses rows `0 … N - 1` and row `N` as
context.  All arrays of a layer together are a function from row numbers to records.
-/

namespace Verif.Layers

/-- Row `t - 1` of an array with `N + 1` rows: index -1 is the last row, the context. -/
def prevRow (N t : ℕ) : ℕ := if t = 0 then N else t - 1

/-- A forward loop `for t in range(N)` that sets row `t` from row `t` and row `t - 1`. -/
def scanFwd {α : Type} (N : ℕ) (F : ℕ → α → α → α) (buf : ℕ → α) : ℕ → α :=
  (List.range N).foldl (fun buf t => Function.update buf t (F t (buf t) (buf (prevRow N t)))) buf

/-- A backward loop `for t in range(N - 1, -1, -1)` that sets row `t` from row `t` and row `t + 1`. -/
def scanBwd {α : Type} (N : ℕ) (F : ℕ → α → α → α) (buf : ℕ → α) : ℕ → α :=
  (List.range N).reverse.foldl (fun buf t => Function.update buf t (F t (buf t) (buf (t + 1)))) buf

theorem prevRow_zero (N : ℕ) : prevRow N 0 = N := rfl
theorem prevRow_succ (N t : ℕ) : prevRow N (t + 1) = t := rfl

/-- After the forward loop every row below `N` results from its old contents and the final
contents of the row before; other rows are unchanged. -/
theorem scanFwd_spec {α : Type} (N : ℕ) (F : ℕ → α → α → α) (buf : ℕ → α) :
    (∀ t < N, scanFwd N F buf t = F t (buf t) (scanFwd N F buf (prevRow N t))) ∧
    ∀ t, N ≤ t → scanFwd N F buf t = buf t := by
  have key : ∀ k, k ≤ N → ∀ r, r = (List.range k).foldl (fun buf t => Function.update buf t (F t (buf t) (buf (prevRow N t)))) buf →
      (∀ t < k, r t = F t (buf t) (r (prevRow N t))) ∧ ∀ t, k ≤ t → r t = buf t := by
    intro k
    induction k with
    | zero => intro _ r hr; subst hr; exact ⟨by intro t ht; omega, fun t _ => rfl⟩
    | succ k ih =>
      intro hk r hr
      obtain ⟨i1, i2⟩ := ih (by omega) _ rfl
      rw [List.range_succ, List.foldl_append, List.foldl_cons, List.foldl_nil] at hr
      set q := (List.range k).foldl (fun buf t => Function.update buf t (F t (buf t) (buf (prevRow N t)))) buf with hq
      have hne : ∀ t, t ≠ k → r t = q t := fun t ht => by rw [hr, Function.update_of_ne ht]
      have hself : r k = F k (q k) (q (prevRow N k)) := by rw [hr, Function.update_self]
      have hp : ∀ t, t ≤ k → prevRow N t ≠ k := by
        intro t ht
        unfold prevRow
        split <;> omega
      constructor
      · intro t ht
        rcases Nat.lt_succ_iff_lt_or_eq.1 ht with h | h
        · rw [hne t (by omega), hne _ (hp t (by omega)), i1 t h]
        · subst h
          rw [hself, hne _ (hp t le_rfl), i2 t le_rfl]
      · intro t ht
        rw [hne t (by omega), i2 t (by omega)]
  exact key N le_rfl _ rfl

/-- After the backward loop every row below `N` results from its old contents and the final
contents of the row after it; other rows are unchanged. -/
theorem scanBwd_spec {α : Type} (N : ℕ) (F : ℕ → α → α → α) (buf : ℕ → α) :
    (∀ t < N, scanBwd N F buf t = F t (buf t) (scanBwd N F buf (t + 1))) ∧
    ∀ t, N ≤ t → scanBwd N F buf t = buf t := by
  unfold scanBwd
  induction N generalizing buf with
  | zero => exact ⟨by intro t ht; omega, fun t _ => rfl⟩
  | succ k ih =>
    rw [List.range_succ, List.reverse_append, List.reverse_singleton, List.singleton_append, List.foldl_cons]
    obtain ⟨i1, i2⟩ := ih (Function.update buf k (F k (buf k) (buf (k + 1))))
    constructor
    · intro t ht
      rcases Nat.lt_succ_iff_lt_or_eq.1 ht with h | h
      · rw [i1 t h, Function.update_of_ne (by omega)]
      · subst h
        rw [i2 t le_rfl, i2 (t + 1) (by omega), Function.update_self, Function.update_of_ne (by omega)]
    · intro t ht
      rw [i2 t (by omega), Function.update_of_ne (by omega)]

/-- Telescoping over time. -/
theorem sum_telescope (N : ℕ) (L B u : ℕ → ℝ) (h : ∀ t < N, L t = B t + u t - u (t + 1)) (h0 : u 0 = 0) (hN : u N = 0) :
    ∑ t ∈ Finset.range N, L t = ∑ t ∈ Finset.range N, B t := by
  have : ∀ t ∈ Finset.range N, L t = B t + (u t - u (t + 1)) := by
    intro t ht
    rw [h t (Finset.mem_range.1 ht)]
    ring
  rw [Finset.sum_congr rfl this, Finset.sum_add_distrib, Finset.sum_range_sub', h0, hN]
  ring

end Verif.Layers
