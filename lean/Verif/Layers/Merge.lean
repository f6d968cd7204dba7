import Mathlib.Tactic.Ring
import Mathlib.Tactic.Linarith

/-!
# Merging and splitting arrays along the last axis (C50)

Arrays as NumPy keeps them: the data in row-major order, reshaping leaves the data alone.
-/

namespace Verif.Layers.Merge

variable {α : Type}

/-! ## Specification: element of an array at a multi-index -/

/-- Position of a multi-index in row-major order. -/
def ravel : List Nat → List Nat → Nat
  | _ :: ds, i :: is => i * ds.prod + ravel ds is
  | _, _ => 0

/-- A multi-index of an array with this shape. -/
def Valid : List Nat → List Nat → Prop
  | d :: ds, i :: is => i < d ∧ Valid ds is
  | [], [] => True
  | _, _ => False

/-- The element of an array with this shape and data. -/
def at_ (shape : List Nat) (data : Nat → α) (ix : List Nat) : α := data (ravel shape ix)

/-! ## Model -/

/-- `out_flat[:, lo:hi] = src` for `out_flat` of shape `(n, w)`. -/
def assignCols (n w lo hi : Nat) (src : Nat → Nat → α) (out : Nat → α) : Nat → α := fun i =>
  if i < n * w ∧ lo ≤ i % w ∧ i % w < hi then src (i / w) (i % w - lo) else out i

/-- `merge_tt` (numpy_handler.py:221-225) for arrays of shapes `pre ++ [sa]`, `pre ++ [sb]` and
`pre ++ [sa + sb]`; `n` is the product of `pre`. -/
def mergeTT (n sa sb : Nat) (a b out : Nat → α) : Nat → α :=
  let out := assignCols n (sa + sb) 0 sa (fun r k => a (r * sa + k)) out
  assignCols n (sa + sb) sa (sa + sb) (fun r k => b (r * sb + k)) out

/-- `split_add_tt` (numpy_handler.py:251-256) for arrays of the same shapes. -/
def splitAddTT [Add α] (n sa sb : Nat) (x outA outB : Nat → α) : (Nat → α) × (Nat → α) :=
  (assignCols n sa 0 sa (fun r k => outA (r * sa + k) + x (r * (sa + sb) + k)) outA,
   assignCols n sb 0 sb (fun r k => outB (r * sb + k) + x (r * (sa + sb) + (sa + k))) outB)

/-! ## Lemmas -/

theorem ravel_concat (pre ix : List Nat) (s k : Nat) (h : Valid pre ix) :
    ravel (pre ++ [s]) (ix ++ [k]) = ravel pre ix * s + k := by
  induction pre generalizing ix with
  | nil =>
    cases ix with
    | nil => simp [ravel]
    | cons i is => exact absurd h (by simp [Valid])
  | cons d ds ih =>
    cases ix with
    | nil => exact absurd h (by simp [Valid])
    | cons i is =>
      simp only [List.cons_append, ravel, ih is h.2, List.prod_append, List.prod_singleton]
      ring

theorem ravel_lt (pre ix : List Nat) (h : Valid pre ix) : ravel pre ix < pre.prod := by
  induction pre generalizing ix with
  | nil =>
    cases ix with
    | nil => simp [ravel]
    | cons i is => exact absurd h (by simp [Valid])
  | cons d ds ih =>
    cases ix with
    | nil => exact absurd h (by simp [Valid])
    | cons i is =>
      have h1 := ih is h.2
      have h2 : i + 1 ≤ d := h.1
      simp only [ravel, List.prod_cons]
      calc i * ds.prod + ravel ds is < (i + 1) * ds.prod := by rw [Nat.add_mul, Nat.one_mul]; omega
        _ ≤ d * ds.prod := Nat.mul_le_mul_right _ h2

theorem assignCols_at (n w lo hi : Nat) (src : Nat → Nat → α) (out : Nat → α) (r k : Nat) (hr : r < n) (hk : k < w) :
    assignCols n w lo hi src out (r * w + k) = if lo ≤ k ∧ k < hi then src r (k - lo) else out (r * w + k) := by
  have hm : (r * w + k) % w = k := by rw [Nat.mul_comm, Nat.mul_add_mod, Nat.mod_eq_of_lt hk]
  have hd : (r * w + k) / w = r := by
    rw [Nat.mul_comm, Nat.mul_add_div (by omega), Nat.div_eq_of_lt hk, Nat.add_zero]
  have hl : r * w + k < n * w := by
    calc r * w + k < (r + 1) * w := by rw [Nat.add_mul, Nat.one_mul]; omega
      _ ≤ n * w := Nat.mul_le_mul_right _ hr
  unfold assignCols
  rw [hm, hd]
  simp only [hl, true_and]

/-! ## Properties -/

/-- **C50.**  The merged array is the concatenation along the last axis: at every index of the
other axes it shows the row of `a`, then the row of `b`.  `out` may have held anything. -/
theorem C50_merge (pre : List Nat) (sa sb : Nat) (a b out : Nat → α) (ix : List Nat) (h : Valid pre ix) (k : Nat)
    (hk : k < sa + sb) :
    at_ (pre ++ [sa + sb]) (mergeTT pre.prod sa sb a b out) (ix ++ [k]) =
      if k < sa then at_ (pre ++ [sa]) a (ix ++ [k]) else at_ (pre ++ [sb]) b (ix ++ [k - sa]) := by
  unfold at_
  rw [ravel_concat _ _ _ _ h, ravel_concat _ _ _ _ h, ravel_concat _ _ _ _ h]
  have hr := ravel_lt pre ix h
  unfold mergeTT
  rw [assignCols_at _ _ _ _ _ _ _ _ hr hk, assignCols_at _ _ _ _ _ _ _ _ hr hk]
  by_cases hka : k < sa
  · rw [if_neg (by omega), if_pos (by omega), if_pos hka, Nat.sub_zero]
  · rw [if_pos (by omega), if_neg hka]

/-- **C50.**  Splitting adds to `out_a` and `out_b` the two parts of the rows of `x`. -/
theorem C50_split [Add α] (pre : List Nat) (sa sb : Nat) (x outA outB : Nat → α) (ix : List Nat) (h : Valid pre ix) :
    (∀ k < sa, at_ (pre ++ [sa]) (splitAddTT pre.prod sa sb x outA outB).1 (ix ++ [k]) =
      at_ (pre ++ [sa]) outA (ix ++ [k]) + at_ (pre ++ [sa + sb]) x (ix ++ [k])) ∧
    (∀ k < sb, at_ (pre ++ [sb]) (splitAddTT pre.prod sa sb x outA outB).2 (ix ++ [k]) =
      at_ (pre ++ [sb]) outB (ix ++ [k]) + at_ (pre ++ [sa + sb]) x (ix ++ [sa + k])) := by
  have hr := ravel_lt pre ix h
  constructor
  · intro k hk
    unfold at_ splitAddTT
    dsimp only
    rw [ravel_concat _ _ _ _ h, ravel_concat _ _ _ _ h, assignCols_at _ _ _ _ _ _ _ _ hr hk, if_pos (by omega),
      Nat.sub_zero]
  · intro k hk
    unfold at_ splitAddTT
    dsimp only
    rw [ravel_concat _ _ _ _ h, ravel_concat _ _ _ _ h, assignCols_at _ _ _ _ _ _ _ _ hr hk, if_pos (by omega),
      Nat.sub_zero]

/-- **C50.**  Merging and then splitting into zeros returns both parts. -/
theorem C50_round_trip [AddZeroClass α] (pre : List Nat) (sa sb : Nat) (a b out : Nat → α) (ix : List Nat)
    (h : Valid pre ix) :
    let r := splitAddTT pre.prod sa sb (mergeTT pre.prod sa sb a b out) (fun _ => 0) (fun _ => 0)
    (∀ k < sa, at_ (pre ++ [sa]) r.1 (ix ++ [k]) = at_ (pre ++ [sa]) a (ix ++ [k])) ∧
    (∀ k < sb, at_ (pre ++ [sb]) r.2 (ix ++ [k]) = at_ (pre ++ [sb]) b (ix ++ [k])) := by
  intro r
  obtain ⟨h1, h2⟩ := C50_split pre sa sb (mergeTT pre.prod sa sb a b out) (fun _ => 0) (fun _ => 0) ix h
  constructor
  · intro k hk
    rw [h1 k hk, C50_merge pre sa sb a b out ix h k (by omega), if_pos hk]
    exact zero_add _
  · intro k hk
    rw [h2 k hk, C50_merge pre sa sb a b out ix h (sa + k) (by omega), if_neg (by omega), Nat.add_sub_cancel_left]
    exact zero_add _

/-- Merging arrays of shapes (2, 2, 1) and (2, 2, 2). -/
example : (List.range 12).map (mergeTT (α := Nat) 4 1 2 (fun i => i + 100) (fun i => i) (fun _ => 7)) =
    [100, 0, 1, 101, 2, 3, 102, 4, 5, 103, 6, 7] ∧ Valid [2, 2] [1, 0] := by
  refine ⟨by decide +kernel, ?_⟩
  simp [Valid]

end Verif.Layers.Merge
