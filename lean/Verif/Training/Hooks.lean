import Mathlib.Order.Nat
import Mathlib.Order.Defs.LinearOrder
import Mathlib.Data.List.Basic

/-!
# `EarlyStopper` and `SaveBestNetwork`: `brainstorm/hooks.py:57-161, 427-507`

Logged values are elements of a linear order (floating point numbers without NaN).
-/

namespace Verif.Training

/-- `criterion`: `'min'` or `'max'`. -/
inductive Crit
  | min
  | max
deriving DecidableEq, Repr

variable {α P : Type} [LinearOrder α]

/-- `a` is better than `b` (hooks.py:136-139). -/
def Crit.better (c : Crit) (a b : α) : Bool :=
  match c with
  | .min => decide (a < b)
  | .max => decide (b < a)

/-- The loop of `np.argmin`/`np.argmax`: index of the first best entry. -/
def argBestAux (c : Crit) (best : α) (bi i : Nat) : List α → Nat
  | [] => bi
  | x :: xs => if c.better x best then argBestAux c x i (i + 1) xs else argBestAux c best bi (i + 1) xs

/-- `np.argmin(e)` or `np.argmax(e)`; raises `ValueError` for an empty list. -/
def argBest (c : Crit) : List α → Option Nat
  | [] => none
  | x :: xs => some (argBestAux c x 0 1 xs)

/-- What a stopping hook does. -/
inductive Decision
  | go
  | stop
  | error
deriving DecidableEq, Repr

/-- `EarlyStopper.__call__` (hooks.py:494-507); `entry` is the log, if there is one. -/
def earlyStopper (c : Crit) (patience : Nat) (epoch : Nat) (entry : Option (List α)) : Decision :=
  match entry with
  | none => if epoch = 0 then .go else .error
  | some e => match argBest c e with
    | none => .error
    | some i => if e.length > i + patience then .stop else .go

/-- What `SaveBestNetwork` remembers: `best_so_far`, `best_t` and the parameters in the
cache or the file. -/
structure Saved (α P : Type) where
  best : α
  bestT : Option Nat
  params : Option P

/-- `SaveBestNetwork.__call__` (hooks.py:127-157): the log ends with `v` and the network has
parameters `p` at time `t`. -/
def saveBest (c : Crit) (s : Saved α P) (t : Nat) (v : α) (p : P) : Saved α P :=
  if c.better v s.best then ⟨v, some t, some p⟩ else s

/-- All calls of a `SaveBestNetwork` hook; `worst` is the initial `best_so_far`
(`np.inf` or `-np.inf`, hooks.py:122). -/
def saveBestRun (c : Crit) (worst : α) (h : List (Nat × α × P)) : Saved α P :=
  h.foldl (fun s x => saveBest c s x.1 x.2.1 x.2.2) ⟨worst, none, none⟩

/-! ### Specification -/

/-- `i` is the first position of a best value. -/
def FirstBest (c : Crit) (e : List α) (i : Nat) : Prop :=
  ∃ v, e[i]? = some v ∧ (∀ (j : Nat) (w : α), e[j]? = some w → c.better w v = false) ∧
    ∀ (j : Nat) (w : α), j < i → e[j]? = some w → c.better v w = true

/-! ### Proofs -/

theorem better_irrefl (c : Crit) (a : α) : c.better a a = false := by cases c <;> simp [Crit.better]

theorem better_trans (c : Crit) {a b d : α} (h1 : c.better a b = true) (h2 : c.better b d = true) : c.better a d = true := by
  cases c <;> simp only [Crit.better, decide_eq_true_eq] at *
  · exact lt_trans h1 h2
  · exact lt_trans h2 h1

theorem better_asymm (c : Crit) {a b : α} (h1 : c.better a b = true) : c.better b a = false := by
  cases h : c.better b a with
  | false => rfl
  | true =>
    have := better_trans c h1 h
    rw [better_irrefl] at this
    simp at this

theorem not_better_trans (c : Crit) {a b d : α} (h1 : c.better a b = false) (h2 : c.better b d = false) : c.better a d = false := by
  cases c <;> simp only [Crit.better, decide_eq_false_iff_not, not_lt] at *
  · exact le_trans h2 h1
  · exact le_trans h1 h2

theorem better_of_better_not (c : Crit) {a b d : α} (h1 : c.better a b = true) (h2 : c.better d b = false) : c.better a d = true := by
  cases c <;> simp only [Crit.better, decide_eq_false_iff_not, decide_eq_true_eq, not_lt] at *
  · exact lt_of_lt_of_le h1 h2
  · exact lt_of_le_of_lt h2 h1

theorem FirstBest.unique (c : Crit) (e : List α) (i j : Nat) (hi : FirstBest c e i) (hj : FirstBest c e j) : i = j := by
  obtain ⟨v, h1, h2, h3⟩ := hi
  obtain ⟨w, g1, g2, g3⟩ := hj
  rcases Nat.lt_trichotomy i j with h | h | h
  · have a := g3 i v h h1
    rw [h2 j w g1] at a; simp at a
  · exact h
  · have a := h3 j w h g1
    rw [g2 i v h1] at a; simp at a

theorem argBestAux_spec (c : Crit) : ∀ (xs pre : List α) (best : α) (bi : Nat),
    FirstBest c pre bi → pre[bi]? = some best → FirstBest c (pre ++ xs) (argBestAux c best bi pre.length xs) := by
  intro xs
  induction xs with
  | nil => intro pre best bi h _; simpa [argBestAux] using h
  | cons x xs ih =>
    intro pre best bi h hb
    obtain ⟨v, h1, h2, h3⟩ := h
    rw [h1] at hb
    simp only [Option.some.injEq] at hb
    subst hb
    have hsplit : pre ++ x :: xs = (pre ++ [x]) ++ xs := by simp
    have hlen : (pre ++ [x]).length = pre.length + 1 := by simp
    have hget : ∀ j, (pre ++ [x])[j]? = if j < pre.length then pre[j]? else if j = pre.length then some x else none := by
      intro j
      by_cases hj : j < pre.length
      · simp [hj, List.getElem?_append_left hj]
      · rw [if_neg hj, List.getElem?_append_right (by omega)]
        by_cases hj2 : j = pre.length
        · simp [hj2]
        · rw [if_neg hj2, List.getElem?_eq_none]
          simp; omega
    have hbi : bi < pre.length := (List.getElem?_eq_some_iff.1 h1).1
    simp only [argBestAux]
    rw [hsplit, ← hlen]
    split
    · rename_i hx
      apply ih
      · refine ⟨x, by rw [hget]; simp, ?_, ?_⟩
        · intro j w hw
          rw [hget] at hw
          split at hw
          · exact better_asymm c (better_of_better_not c hx (h2 j w hw))
          · split at hw
            · simp only [Option.some.injEq] at hw
              rw [← hw, better_irrefl]
            · simp at hw
        · intro j w hj hw
          rw [hget, if_pos hj] at hw
          exact better_of_better_not c hx (h2 j w hw)
      · rw [hget]; simp
    · rename_i hx
      have hx' : c.better x v = false := by simpa using hx
      apply ih
      · refine ⟨v, by rw [hget, if_pos hbi]; exact h1, ?_, ?_⟩
        · intro j w hw
          rw [hget] at hw
          split at hw
          · exact h2 j w hw
          · split at hw
            · simp only [Option.some.injEq] at hw
              rw [← hw]; exact hx'
            · simp at hw
        · intro j w hj hw
          rw [hget, if_pos (by omega)] at hw
          exact h3 j w hj hw
      · rw [hget, if_pos hbi]; exact h1

theorem argBest_spec (c : Crit) (e : List α) (i : Nat) (h : argBest c e = some i) : FirstBest c e i := by
  cases e with
  | nil => simp [argBest] at h
  | cons x xs =>
    simp only [argBest, Option.some.injEq] at h
    subst h
    have := argBestAux_spec c xs [x] x 0 ⟨x, by simp, by
      intro j w hw
      cases j with
      | zero => simp at hw; rw [hw, better_irrefl]
      | succ j => simp at hw, by omega⟩ (by simp)
    simpa using this

theorem argBest_none (c : Crit) (e : List α) : argBest c e = none ↔ e = [] := by
  cases e <;> simp [argBest]

/-- **C37**: the early stopper asks to stop if and only if the first position of the best value
lies at least `patience` entries before the last one. -/
theorem C37_decision (c : Crit) (patience epoch : Nat) (e : List α) (he : e ≠ []) :
    earlyStopper c patience epoch (some e) = .stop ↔ ∃ i, FirstBest c e i ∧ i + patience ≤ e.length - 1 := by
  unfold earlyStopper
  cases h : argBest c e with
  | none => exact absurd ((argBest_none c e).1 h) he
  | some i =>
    have hs := argBest_spec c e i h
    have hpos : 0 < e.length := List.length_pos_of_ne_nil he
    simp only [h]
    constructor
    · intro hd
      split at hd
      · exact ⟨i, hs, by omega⟩
      · simp at hd
    · rintro ⟨j, hj, hj2⟩
      rw [FirstBest.unique c e i j hs hj, if_pos (by omega)]

/-- **C37** (no improvement): for a patience of at least one, the early stopper asks to stop if and
only if none of the last `patience` entries improves on the best of the entries before them. -/
theorem C37_no_improvement (c : Crit) (patience epoch : Nat) (e : List α) (hp : 1 ≤ patience) (he : e ≠ []) :
    earlyStopper c patience epoch (some e) = .stop ↔
      patience < e.length ∧ ∀ x ∈ e.drop (e.length - patience), ∃ y ∈ e.take (e.length - patience), c.better x y = false := by
  rw [C37_decision c patience epoch e he]
  constructor
  · rintro ⟨i, ⟨v, h1, h2, h3⟩, hi⟩
    have hil : i < e.length := (List.getElem?_eq_some_iff.1 h1).1
    refine ⟨by omega, ?_⟩
    intro x hx
    obtain ⟨j, hj⟩ := List.mem_iff_getElem?.1 hx
    rw [List.getElem?_drop] at hj
    refine ⟨v, List.mem_iff_getElem?.2 ⟨i, ?_⟩, h2 _ _ hj⟩
    rw [List.getElem?_take, if_pos (by omega)]
    exact h1
  · rintro ⟨hlt, hall⟩
    cases h : argBest c e with
    | none => exact absurd ((argBest_none c e).1 h) he
    | some i =>
      have hs := argBest_spec c e i h
      refine ⟨i, hs, ?_⟩
      obtain ⟨v, h1, h2, h3⟩ := hs
      have hil : i < e.length := (List.getElem?_eq_some_iff.1 h1).1
      rcases Nat.lt_or_ge i (e.length - patience) with hlt2 | hge
      · omega
      · exfalso
        have hmem : v ∈ e.drop (e.length - patience) := by
          refine List.mem_iff_getElem?.2 ⟨i - (e.length - patience), ?_⟩
          rw [List.getElem?_drop, show e.length - patience + (i - (e.length - patience)) = i by omega]
          exact h1
        obtain ⟨y, hy, hb⟩ := hall v hmem
        obtain ⟨j, hj⟩ := List.mem_iff_getElem?.1 hy
        rw [List.getElem?_take] at hj
        split at hj
        · rw [h3 j y (by omega) hj] at hb; simp at hb
        · simp at hj

/-- **C37** (missing log): without a log entry the stopper does nothing at epoch 0 and fails
later. -/
theorem C37_missing_log (c : Crit) (patience epoch : Nat) :
    earlyStopper c patience epoch (none : Option (List α)) = if epoch = 0 then .go else .error := rfl

example : earlyStopper .min 2 5 (some [5, 3, 4, 3]) = .stop ∧ earlyStopper .min 2 5 (some [5, 3, 4]) = .go ∧
    earlyStopper .max 2 5 (some [1, 7, 7, 7]) = .stop ∧ FirstBest .max [1, 7, 7, 7] 1 := by
  refine ⟨by decide, by decide, by decide, 7, by decide, ?_, ?_⟩
  · intro j w hw
    match j, hw with
    | 0, hw => simp at hw; subst hw; decide
    | 1, hw => simp at hw; subst hw; decide
    | 2, hw => simp at hw; subst hw; decide
    | 3, hw => simp at hw; subst hw; decide
    | n + 4, hw => simp at hw
  · intro j w hj hw
    match j, hw, hj with
    | 0, hw, _ => simp at hw; subst hw; decide

/-- The state of `SaveBestNetwork` after a history describes the first best entry. -/
def SavedSpec (c : Crit) (worst : α) (h : List (Nat × α × P)) (s : Saved α P) : Prop :=
  (s = ⟨worst, none, none⟩ ∧ ∀ x ∈ h, c.better x.2.1 worst = false) ∨
  (∃ i x, h[i]? = some x ∧ s = ⟨x.2.1, some x.1, some x.2.2⟩ ∧ c.better x.2.1 worst = true ∧
    FirstBest c (h.map (fun x => x.2.1)) i)

theorem saveBestRun_spec (c : Crit) (worst : α) (h : List (Nat × α × P)) : SavedSpec c worst h (saveBestRun c worst h) := by
  unfold saveBestRun
  suffices ∀ (rest pre : List (Nat × α × P)) (s : Saved α P), SavedSpec c worst pre s →
      SavedSpec c worst (pre ++ rest) (rest.foldl (fun s x => saveBest c s x.1 x.2.1 x.2.2) s) by
    simpa using this h [] _ (Or.inl ⟨rfl, by simp⟩)
  intro rest
  induction rest with
  | nil => intro pre s hs; simpa using hs
  | cons x rest ih =>
    intro pre s hs
    rw [List.foldl_cons]
    have hsplit : pre ++ x :: rest = (pre ++ [x]) ++ rest := by simp
    rw [hsplit]
    apply ih
    have hget : ∀ j, ((pre ++ [x]).map (fun x => x.2.1))[j]? =
        if j < pre.length then (pre.map (fun x => x.2.1))[j]? else if j = pre.length then some x.2.1 else none := by
      intro j
      rw [List.map_append]
      by_cases hj : j < pre.length
      · rw [if_pos hj, List.getElem?_append_left (by simpa using hj)]
      · rw [if_neg hj, List.getElem?_append_right (by simp; omega)]
        by_cases hj2 : j = pre.length
        · simp [hj2]
        · rw [if_neg hj2, List.getElem?_eq_none]
          simp only [List.length_map, List.map_cons, List.map_nil, List.length_singleton]; omega
    rcases hs with ⟨rfl, hall⟩ | ⟨i, y, h1, rfl, h2, h3⟩
    · unfold saveBest
      simp only
      split
      · rename_i hx
        refine .inr ⟨pre.length, x, by simp, rfl, hx, x.2.1, by rw [hget]; simp, ?_, ?_⟩
        · intro j w hw
          rw [hget] at hw
          split at hw
          · obtain ⟨z, hz, rfl⟩ := List.mem_map.1 (List.mem_iff_getElem?.2 ⟨j, hw⟩)
            exact better_asymm c (better_of_better_not c hx (hall z hz))
          · split at hw
            · simp only [Option.some.injEq] at hw
              rw [← hw, better_irrefl]
            · simp at hw
        · intro j w hj hw
          rw [hget, if_pos hj] at hw
          obtain ⟨z, hz, rfl⟩ := List.mem_map.1 (List.mem_iff_getElem?.2 ⟨j, hw⟩)
          exact better_of_better_not c hx (hall z hz)
      · rename_i hx
        refine .inl ⟨rfl, ?_⟩
        intro z hz
        rcases List.mem_append.1 hz with hz | hz
        · exact hall z hz
        · simp only [List.mem_singleton] at hz
          subst hz
          simpa using hx
    · obtain ⟨v, g1, g2, g3⟩ := h3
      have hv : v = y.2.1 := by
        rw [List.getElem?_map, h1] at g1
        simpa using g1.symm
      subst hv
      have hil : i < pre.length := (List.getElem?_eq_some_iff.1 h1).1
      unfold saveBest
      simp only
      split
      · rename_i hx
        refine .inr ⟨pre.length, x, by simp, rfl, better_trans c hx h2, x.2.1, by rw [hget]; simp, ?_, ?_⟩
        · intro j w hw
          rw [hget] at hw
          split at hw
          · exact better_asymm c (better_of_better_not c hx (g2 j w hw))
          · split at hw
            · simp only [Option.some.injEq] at hw
              rw [← hw, better_irrefl]
            · simp at hw
        · intro j w hj hw
          rw [hget, if_pos hj] at hw
          exact better_of_better_not c hx (g2 j w hw)
      · rename_i hx
        refine .inr ⟨i, y, by rw [List.getElem?_append_left hil]; exact h1, rfl, h2, y.2.1,
          by rw [hget, if_pos hil]; exact g1, ?_, ?_⟩
        · intro j w hw
          rw [hget] at hw
          split at hw
          · exact g2 j w hw
          · split at hw
            · simp only [Option.some.injEq] at hw
              rw [← hw]; simpa using hx
            · simp at hw
        · intro j w hj hw
          rw [hget, if_pos (by omega)] at hw
          exact g3 j w hj hw

/-- **C38**: after any history of log values and parameters, if some logged value is better than
the initial bound (plus or minus infinity), then the hook holds the parameters, the time and the
value of the first position at which the best logged value occurs. -/
theorem C38_best (c : Crit) (worst : α) (h : List (Nat × α × P)) (hex : ∃ x ∈ h, c.better x.2.1 worst = true) :
    ∃ i t v p, h[i]? = some (t, v, p) ∧ FirstBest c (h.map (fun x => x.2.1)) i ∧
      (saveBestRun c worst h).params = some p ∧ (saveBestRun c worst h).bestT = some t ∧ (saveBestRun c worst h).best = v := by
  rcases saveBestRun_spec c worst h with ⟨-, hall⟩ | ⟨i, x, h1, h2, -, h3⟩
  · obtain ⟨x, hx, hb⟩ := hex
    rw [hall x hx] at hb
    simp at hb
  · exact ⟨i, x.1, x.2.1, x.2.2, h1, h3, by rw [h2], by rw [h2], by rw [h2]⟩

/-- **C38** (nothing saved): without such a value nothing is stored. -/
theorem C38_nothing (c : Crit) (worst : α) (h : List (Nat × α × P)) (hex : ∀ x ∈ h, c.better x.2.1 worst = false) :
    (saveBestRun c worst h).params = none := by
  rcases saveBestRun_spec c worst h with ⟨h1, -⟩ | ⟨i, x, h1, -, h2, -⟩
  · rw [h1]
  · rw [hex x (List.mem_iff_getElem?.2 ⟨i, h1⟩)] at h2
    simp at h2

example : (saveBestRun .min (100 : Nat) [(0, 7, "a"), (1, 3, "b"), (2, 5, "c"), (3, 3, "d")]).params = some "b" ∧
    ∃ x ∈ [(0, 7, "a"), (1, 3, "b"), (2, 5, "c"), (3, 3, "d")], Crit.min.better x.2.1 100 = true := by
  refine ⟨by decide, (0, 7, "a"), by simp, by decide⟩

end Verif.Training
