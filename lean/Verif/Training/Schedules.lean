import Mathlib.Algebra.Order.Field.Basic
import Mathlib.Algebra.Order.Field.Rat
import Mathlib.Data.List.Basic
import Mathlib.Tactic.Ring
import Mathlib.Tactic.FieldSimp
import Mathlib.Tactic.Linarith
import Mathlib.Tactic.NormNum

/-!
# Schedules: `brainstorm/training/schedules.py`

Numbers are elements of a linearly ordered field (exact arithmetic instead of floating
point).  Infinite bounds are `none`.
-/

namespace Verif.Training

variable {K : Type} [Field K] [LinearOrder K] [IsStrictOrderedRing K]

/-- `current` (schedules.py:60). -/
def current (epochScale : Bool) (epoch update : Nat) : Nat := if epochScale then epoch else update

/-- `Linear.__call__` (schedules.py:58-69). An interval of 0 and `num_changes = 0` raise
`ZeroDivisionError` (the latter only before it is exceeded). -/
def linear (initial final : K) (numChanges : Nat) (epochScale : Bool) (interval epoch update : Nat) : Option K :=
  if interval = 0 then none
  else
    let n := current epochScale epoch update / interval
    if n > numChanges then some final
    else if numChanges = 0 then none
    else some (initial + (final - initial) / (numChanges : K) * (n : K))

/-- `max(minimum, x)` with `none` for `-inf`; Python's `max` keeps the first of equal arguments. -/
def maxO (lo : Option K) (x : K) : K :=
  match lo with
  | none => x
  | some l => max l x

/-- `min(maximum, x)` with `none` for `inf`. -/
def minO (hi : Option K) (x : K) : K :=
  match hi with
  | none => x
  | some h => min h x

/-- `Exponential.__call__` (schedules.py:103-108). -/
def exponential (initial factor : K) (lo hi : Option K) (epochScale : Bool) (interval epoch update : Nat) : Option K :=
  if interval = 0 then none
  else some (minO hi (maxO lo (initial * factor ^ (current epochScale epoch update / interval))))

/-- The loop of `MultiStep.__call__` (schedules.py:141-145) over `steps[i-1], steps[i]`, the last
bound being infinite; `lo` is `steps[i-1]`. -/
def stepNumber (cur : Nat) (lo : Nat) (i : Nat) : List Nat → Option Nat
  | [] => if lo ≤ cur then some i else none
  | hi :: rest => if lo ≤ cur ∧ cur < hi then some i else stepNumber cur hi (i + 1) rest

/-- `MultiStep.__call__` (schedules.py:111-146): `None` where an assertion fails. -/
def multiStep (initial : K) (steps : List Nat) (values : List K) (epochScale : Bool) (interval epoch update : Nat) :
    Option K :=
  if steps.length ≠ values.length then none
  else if interval ≠ 1 then none
  else (initial :: values)[(stepNumber (current epochScale epoch update) 0 0 steps).getD 0]?

/-- `DecreaseAfterEpoch.__call__` (schedules.py:172-174). -/
def decreaseAfterEpoch (initial : K) (T : Nat) (epoch : Nat) : K :=
  (initial * (T : K)) / (max (epoch + 1) T : Nat)

/-! ### Linear -/

/-- **C39** (Linear): the value after `n` intervals is the initial value plus `n` equal steps, whose
size is such that after `num_changes` of them the final value is reached; from then on it stays
there. -/
theorem C39_linear (initial final : K) (numChanges interval epoch update : Nat) (epochScale : Bool)
    (hn : 0 < numChanges) (hi : 0 < interval) :
    ∃ step : K, initial + step * numChanges = final ∧
      linear initial final numChanges epochScale interval epoch update =
        some (initial + step * (min ((if epochScale then epoch else update) / interval) numChanges : Nat)) := by
  have hne : (numChanges : K) ≠ 0 := by
    have : (0 : K) < numChanges := by exact_mod_cast hn
    exact ne_of_gt this
  refine ⟨(final - initial) / numChanges, ?_, ?_⟩
  · field_simp; ring
  · unfold linear current
    rw [if_neg (by omega)]
    simp only
    generalize (if epochScale = true then epoch else update) / interval = n
    split
    · rename_i h
      rw [Nat.min_eq_right (by omega)]
      congr 1
      field_simp; ring
    · rename_i h
      rw [if_neg (by omega), Nat.min_eq_left (by omega)]

/-- **C39** (Linear, failure): with `num_changes = 0` the schedule fails during the first interval. -/
theorem C39_linear_zero_changes (initial final : K) (interval epoch update : Nat) (epochScale : Bool) (hi : 0 < interval) :
    linear initial final 0 epochScale interval epoch update =
      if (if epochScale then epoch else update) < interval then none else some final := by
  unfold linear current
  rw [if_neg (by omega)]
  simp only [gt_iff_lt, if_true]
  generalize (if epochScale = true then epoch else update) = n
  by_cases h : n < interval
  · rw [Nat.div_eq_of_lt h, if_pos h]; simp
  · rw [if_neg h, if_pos (Nat.div_pos (by omega) hi)]

example : linear (9/10 : ℚ) 1 10 true 2 7 99 = some (93/100) ∧ linear (9/10 : ℚ) 1 10 false 1 7 99 = some 1 := by
  constructor <;> norm_num [linear, current]

/-! ### Exponential -/

/-- A value `x` is within the bounds. -/
def Within (lo hi : Option K) (x : K) : Prop := (∀ l, lo = some l → l ≤ x) ∧ (∀ h, hi = some h → x ≤ h)

/-- **C39** (Exponential): the initial value is multiplied by the factor once per interval; if this
leaves the bounds, the bound is returned; the result always lies within consistent bounds. -/
theorem C39_exponential (initial factor : K) (lo hi : Option K) (epochScale : Bool) (interval epoch update : Nat)
    (hi0 : 0 < interval) (hb : ∀ l h, lo = some l → hi = some h → l ≤ h) :
    ∃ x, exponential initial factor lo hi epochScale interval epoch update = some x ∧ Within lo hi x ∧
      (Within lo hi (initial * factor ^ ((if epochScale then epoch else update) / interval)) →
        x = initial * factor ^ ((if epochScale then epoch else update) / interval)) ∧
      (∀ l, lo = some l → initial * factor ^ ((if epochScale then epoch else update) / interval) < l → x = l) ∧
      (∀ h, hi = some h → h < initial * factor ^ ((if epochScale then epoch else update) / interval) → x = h) := by
  unfold exponential current
  rw [if_neg (by omega)]
  generalize initial * factor ^ ((if epochScale then epoch else update) / interval) = y
  refine ⟨_, rfl, ?_⟩
  unfold Within
  cases lo with
  | none =>
    cases hi with
    | none => simp [minO, maxO]
    | some h =>
      simp only [minO, maxO]
      refine ⟨⟨by simp, by simp⟩, ?_, by simp, ?_⟩
      · rintro ⟨-, h2⟩; exact min_eq_right (h2 h rfl)
      · rintro h' he hlt; cases he; exact min_eq_left hlt.le
  | some l =>
    cases hi with
    | none =>
      simp only [minO, maxO]
      refine ⟨⟨by simp, by simp⟩, ?_, ?_, by simp⟩
      · rintro ⟨h1, -⟩; exact max_eq_right (h1 l rfl)
      · rintro l' he hlt; cases he; exact max_eq_left hlt.le
    | some h =>
      have hlh := hb l h rfl rfl
      simp only [minO, maxO, Option.some.injEq, forall_eq']
      refine ⟨⟨?_, ?_⟩, ?_, ?_, ?_⟩
      · exact le_min hlh (le_max_left l y)
      · exact min_le_left h _
      · rintro ⟨h1, h2⟩
        rw [max_eq_right h1, min_eq_right h2]
      · intro hlt
        rw [max_eq_left hlt.le, min_eq_right hlh]
      · intro hlt
        rw [min_eq_left]
        exact hlt.le.trans (le_max_right l y)

/-- **C39** (Exponential, one interval): without bounds, moving on by one interval multiplies the
value by the factor. -/
theorem C39_exponential_step (initial factor : K) (interval epoch update : Nat) (hi0 : 0 < interval) :
    exponential initial factor none none true interval (epoch + interval) update =
      (exponential initial factor none none true interval epoch update).map (· * factor) := by
  have h0 : ¬ interval = 0 := by omega
  simp only [exponential, current, h0, if_true, if_false, minO, maxO, Option.map_some]
  rw [Nat.add_div_right _ hi0, pow_succ, mul_assoc]

example : exponential (1 : ℚ) (1/2) (some (1/10)) none true 3 7 0 = some (1/4) ∧
    exponential (1 : ℚ) (1/2) (some (1/10)) none true 3 70 0 = some (1/10) := by
  constructor <;> norm_num [exponential, current, minO, maxO]

/-! ### MultiStep -/

theorem stepNumber_spec (cur : Nat) : ∀ (steps : List Nat) (lo i : Nat), lo ≤ cur → (lo :: steps).Pairwise (· ≤ ·) →
    stepNumber cur lo i steps = some (i + (steps.filter (fun s => s ≤ cur)).length) := by
  intro steps
  induction steps with
  | nil => intro lo i h _; simp [stepNumber, h]
  | cons hi rest ih =>
    intro lo i h hs
    rw [List.pairwise_cons] at hs
    have hs2 := List.pairwise_cons.1 hs.2
    simp only [stepNumber]
    by_cases hc : cur < hi
    · rw [if_pos ⟨h, hc⟩]
      have : (hi :: rest).filter (fun s => s ≤ cur) = [] := by
        rw [List.filter_eq_nil_iff]
        intro x hx
        rcases List.mem_cons.1 hx with rfl | hx
        · simp; omega
        · have := hs2.1 x hx
          simp; omega
      rw [this]; simp
    · rw [if_neg (by omega), ih hi (i + 1) (by omega) hs.2, List.filter_cons, if_pos (by simp; omega)]
      simp only [List.length_cons]
      congr 1
      omega

/-- **C39** (MultiStep): for increasing steps the value is the initial one until the first step and
then the one belonging to the last step that has been reached: it is number `k` of the list of the
initial value followed by the others, where `k` steps are at most the current count. -/
theorem C39_multistep (initial : K) (steps : List Nat) (values : List K) (epochScale : Bool) (epoch update : Nat)
    (hlen : steps.length = values.length) (hs : steps.Pairwise (· ≤ ·)) :
    multiStep initial steps values epochScale 1 epoch update =
      (initial :: values)[(steps.filter (fun s => s ≤ (if epochScale then epoch else update))).length]? := by
  unfold multiStep
  rw [if_neg (by simpa using hlen), if_neg (by simp),
    stepNumber_spec _ steps 0 0 (Nat.zero_le _) (List.pairwise_cons.2 ⟨fun _ _ => Nat.zero_le _, hs⟩)]
  simp only [Option.getD_some, Nat.zero_add, current]
  congr

/-- **C39** (MultiStep, between steps): from step `i` on and before the next one the value is
number `i`. -/
theorem C39_multistep_between (initial : K) (steps : List Nat) (values : List K) (epochScale : Bool) (epoch update i : Nat)
    (hlen : steps.length = values.length) (hs : steps.Pairwise (· ≤ ·)) (s : Nat) (hi : steps[i]? = some s)
    (hle : s ≤ (if epochScale then epoch else update))
    (hnext : ∀ s', steps[i + 1]? = some s' → (if epochScale then epoch else update) < s') :
    multiStep initial steps values epochScale 1 epoch update = values[i]? := by
  rw [C39_multistep _ _ _ _ _ _ hlen hs]
  generalize (if epochScale then epoch else update) = cur at hle hnext
  have hil : i < steps.length := (List.getElem?_eq_some_iff.1 hi).1
  have hcount : (steps.filter (fun s => s ≤ cur)).length = i + 1 := by
    rw [← List.take_append_drop (i + 1) steps, List.filter_append, List.length_append]
    have h1 : (steps.take (i + 1)).filter (fun s => s ≤ cur) = steps.take (i + 1) := by
      rw [List.filter_eq_self]
      intro x hx
      obtain ⟨j, hj⟩ := List.mem_iff_getElem?.1 hx
      rw [List.getElem?_take] at hj
      split at hj
      · rename_i hji
        simp only [decide_eq_true_eq]
        rcases Nat.lt_or_ge j i with hlt | hge
        · obtain ⟨hj1, hj2⟩ := List.getElem?_eq_some_iff.1 hj
          obtain ⟨hi1, hi2⟩ := List.getElem?_eq_some_iff.1 hi
          have := List.pairwise_iff_getElem.1 hs j i hj1 hi1 hlt
          omega
        · have : j = i := by omega
          subst this
          rw [hi] at hj
          cases hj; exact hle
      · simp at hj
    have h2 : (steps.drop (i + 1)).filter (fun s => s ≤ cur) = [] := by
      rw [List.filter_eq_nil_iff]
      intro x hx
      obtain ⟨j, hj⟩ := List.mem_iff_getElem?.1 hx
      rw [List.getElem?_drop] at hj
      simp only [decide_eq_true_eq, not_le]
      obtain ⟨hj1, hj2⟩ := List.getElem?_eq_some_iff.1 hj
      have hi1 : i + 1 < steps.length := by omega
      have hlt := hnext steps[i + 1] (List.getElem?_eq_getElem hi1)
      rcases Nat.eq_zero_or_pos j with rfl | hpos
      · rw [List.getElem?_eq_getElem hi1] at hj
        simp only [Nat.add_zero, Option.some.injEq] at hj
        omega
      · have := List.pairwise_iff_getElem.1 hs (i + 1) (i + 1 + j) hi1 hj1 (by omega)
        omega
    rw [h1, h2, List.length_take, List.length_nil]
    omega
  rw [hcount]
  rfl

example : multiStep (1 : ℚ) [100, 110, 120] [1/10, 1/100, 1/1000] true 1 99 0 = some 1 ∧
    multiStep (1 : ℚ) [100, 110, 120] [1/10, 1/100, 1/1000] true 1 100 0 = some (1/10) ∧
    multiStep (1 : ℚ) [100, 110, 120] [1/10, 1/100, 1/1000] true 1 500 0 = some (1/1000) := by
  refine ⟨?_, ?_, ?_⟩ <;> norm_num [multiStep, stepNumber, current]

/-! ### DecreaseAfterEpoch -/

/-- **C39** (DecreaseAfterEpoch): for the first `T` epochs (epoch counts below `T`) the value is the
initial one. -/
theorem C39_decrease_constant (initial : K) (T epoch : Nat) (h : epoch < T) : decreaseAfterEpoch initial T epoch = initial := by
  unfold decreaseAfterEpoch
  rw [Nat.max_eq_right (by omega)]
  have : (T : K) ≠ 0 := by
    have : (0 : K) < T := by exact_mod_cast (by omega : 0 < T)
    exact ne_of_gt this
  field_simp

/-- **C39** (DecreaseAfterEpoch, later): afterwards its product with the number of the coming epoch
is constant. -/
theorem C39_decrease_after (initial : K) (T epoch : Nat) (h : T ≤ epoch) :
    decreaseAfterEpoch initial T epoch * ((epoch + 1 : Nat) : K) = initial * T := by
  unfold decreaseAfterEpoch
  rw [Nat.max_eq_left (by omega)]
  have : ((epoch + 1 : Nat) : K) ≠ 0 := by
    have : (0 : K) < ((epoch + 1 : Nat) : K) := by exact_mod_cast (by omega : 0 < epoch + 1)
    exact ne_of_gt this
  field_simp

example : decreaseAfterEpoch (1/20 : ℚ) 25 24 = 1/20 ∧ decreaseAfterEpoch (1/20 : ℚ) 25 49 = 1/40 := by
  constructor <;> norm_num [decreaseAfterEpoch]

end Verif.Training
