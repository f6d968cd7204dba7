import Mathlib.Algebra.BigOperators.Group.Finset.Basic
import Mathlib.Algebra.BigOperators.Ring.Finset
import Mathlib.Algebra.BigOperators.Intervals

/-!
# Counting loops and flat arrays

`_cpuop.pyx` is compiled with `boundscheck(False)`, so an access outside an array is
undefined behaviour.  In the model such an access makes the whole computation `none`; that a
function returns `some` therefore says that it stays within its arrays.
-/

namespace Verif.Numeric

/-- `for k in range(n): s = f(k, s)`, where `f` may fail. -/
def loop {σ : Type} (f : Nat → σ → Option σ) : Nat → σ → Option σ
  | 0, s => some s
  | n + 1, s => (loop f n s).bind (f n)

theorem loop_inv {σ : Type} {f : Nat → σ → Option σ} {n : Nat} (I : Nat → σ → Prop)
    (hstep : ∀ k s, k < n → I k s → ∃ s', f k s = some s' ∧ I (k + 1) s') {s : σ} (h0 : I 0 s) :
    ∃ s', loop f n s = some s' ∧ I n s' := by
  induction n with
  | zero => exact ⟨s, rfl, h0⟩
  | succ n ih =>
    obtain ⟨s1, h1, i1⟩ := ih (fun k s hk => hstep k s (by omega))
    obtain ⟨s2, h2, i2⟩ := hstep n s1 (by omega) i1
    exact ⟨s2, by simp [loop, h1, h2], i2⟩

/-- A one-dimensional array (a memory view `DTYPE_t[::1]`). -/
structure Arr (α : Type) where
  size : Nat
  at' : Nat → α

variable {α : Type}

/-- `a[i]`. -/
def Arr.read (a : Arr α) (i : Int) : Option α :=
  if 0 ≤ i ∧ i < a.size then some (a.at' i.toNat) else none

/-- `a[i] = v`. -/
def Arr.write (a : Arr α) (i : Int) (v : α) : Option (Arr α) :=
  if 0 ≤ i ∧ i < a.size then some ⟨a.size, Function.update a.at' i.toNat v⟩ else none

theorem Arr.read_nat (a : Arr α) {i : Int} {k : Nat} (h : i = k) (hk : k < a.size) :
    a.read i = some (a.at' k) := by
  subst h
  rw [Arr.read, if_pos ⟨by omega, by omega⟩, Int.toNat_natCast]

theorem Arr.write_nat (a : Arr α) (v : α) {i : Int} {k : Nat} (h : i = k) (hk : k < a.size) :
    a.write i v = some ⟨a.size, Function.update a.at' k v⟩ := by
  subst h
  rw [Arr.write, if_pos ⟨by omega, by omega⟩, Int.toNat_natCast]

theorem sum_range_mul [AddCommMonoid α] (m n : Nat) (g : Nat → α) :
    ∑ k ∈ Finset.range (m * n), g k =
      ∑ a ∈ Finset.range m, ∑ b ∈ Finset.range n, g (a * n + b) := by
  induction m with
  | zero => simp
  | succ m ih => rw [Nat.succ_mul, Finset.sum_range_add, ih, Finset.sum_range_succ]

end Verif.Numeric
