import Verif.Initializers.Model
import Mathlib.Data.Fintype.Card
import Mathlib.Tactic.Linarith
import Mathlib.Tactic.Positivity
import Mathlib.Tactic.NormNum
import Mathlib.Tactic.FieldSimp
import Mathlib.Tactic.Ring
import Mathlib.Order.Interval.Finset.Fin

/-! # C46: the initializers -/

namespace Verif.Initializers

open Finset

variable {ι : Type}

theorem abs_draw_le (u s : ℝ) (hs : 0 ≤ s) (h0 : 0 ≤ u) (h1 : u < 1) (q : ℝ) (hq : 0 ≤ q) : |s * (2 * u - 1) / q| ≤ s / q := by
  rw [abs_div, abs_mul, abs_of_nonneg hs, abs_of_nonneg hq]
  apply div_le_div_of_nonneg_right _ hq
  have : |2 * u - 1| ≤ 1 := abs_le.2 ⟨by linarith, by linarith⟩
  nlinarith

/-- **C46** (DenseSqrtFanIn): for at least two dimensions all values lie in
`[-scale/sqrt(n), scale/sqrt(n)]` where `n` is the product of all dimensions but the first;
otherwise an `InitializationError` is raised. -/
theorem C46_fan_in (scale : Scale) (hs : 0 ≤ scale.fanIn) (shape : List ℕ) (rand : ι → ℝ) (hr : ∀ i, 0 ≤ rand i ∧ rand i < 1) :
    (shape.length < 2 → denseSqrtFanIn scale shape rand = none) ∧
    (2 ≤ shape.length → ∃ w, denseSqrtFanIn scale shape rand = some w ∧
      ∀ i, |w i| ≤ scale.fanIn / Real.sqrt (prod shape.tail)) := by
  unfold denseSqrtFanIn
  refine ⟨fun h => by rw [if_pos h], fun h => ?_⟩
  rw [if_neg (by omega)]
  exact ⟨_, rfl, fun i => abs_draw_le _ _ hs (hr i).1 (hr i).2 _ (Real.sqrt_nonneg _)⟩

/-- **C46** (DenseSqrtFanInOut): all values lie in `[-scale/sqrt(n1+n2), scale/sqrt(n1+n2)]`. -/
theorem C46_fan_in_out (scale : Scale) (hs : 0 ≤ scale.fanInOut) (n1 : ℕ) (rest : List ℕ) (rand : ι → ℝ)
    (hr : ∀ i, 0 ≤ rand i ∧ rand i < 1) :
    (rest = [] → denseSqrtFanInOut scale (n1 :: rest) rand = none) ∧
    (rest ≠ [] → ∃ w, denseSqrtFanInOut scale (n1 :: rest) rand = some w ∧
      ∀ i, |w i| ≤ scale.fanInOut / Real.sqrt (n1 + prod rest)) := by
  unfold denseSqrtFanInOut
  refine ⟨fun h => by simp [h], fun h => ?_⟩
  have : ¬ (n1 :: rest).length < 2 := by
    cases rest with
    | nil => simp at h
    | cons a l => simp
  rw [if_neg this]
  exact ⟨_, rfl, fun i => abs_draw_le _ _ hs (hr i).1 (hr i).2 _ (Real.sqrt_nonneg _)⟩

/-- **C46** (equal fans): if the number of inputs and outputs agree, the default `rel` scales of
both initializers give the same interval (as documented). -/
theorem C46_fans_agree (n : ℕ) (hn : 0 < n) :
    Scale.rel.fanIn / Real.sqrt n = Scale.rel.fanInOut / Real.sqrt (n + n) ∧
    Scale.tanh.fanIn / Real.sqrt n = Scale.tanh.fanInOut / Real.sqrt (n + n) ∧
    Scale.sigmoid.fanIn / Real.sqrt n = Scale.sigmoid.fanInOut / Real.sqrt (n + n) := by
  have hn' : (0 : ℝ) < n := by exact_mod_cast hn
  have h2 : Real.sqrt (n + n) = Real.sqrt 2 * Real.sqrt n := by
    rw [← Real.sqrt_mul (by norm_num)]
    congr 1
    ring
  have e12 : Real.sqrt 12 = Real.sqrt 2 * Real.sqrt 6 := by rw [← Real.sqrt_mul (by norm_num)]; norm_num
  have e6 : Real.sqrt 6 = Real.sqrt 2 * Real.sqrt 3 := by rw [← Real.sqrt_mul (by norm_num)]; norm_num
  have p2 : (0 : ℝ) < Real.sqrt 2 := Real.sqrt_pos.2 (by norm_num)
  have pn : (0 : ℝ) < Real.sqrt n := Real.sqrt_pos.2 hn'
  simp only [Scale.fanIn, Scale.fanInOut]
  rw [h2, e12, e6]
  refine ⟨?_, ?_, ?_⟩ <;> field_simp

/-- The `linear` scale breaks the documented equivalence: 1/sqrt(n) against 1/sqrt(2n). -/
theorem C46_linear_differs (n : ℕ) (hn : 0 < n) : Scale.linear.fanIn / Real.sqrt n ≠ Scale.linear.fanInOut / Real.sqrt (n + n) := by
  have hn' : (0 : ℝ) < n := by exact_mod_cast hn
  simp only [Scale.fanIn, Scale.fanInOut]
  intro h
  have p1 : (0 : ℝ) < Real.sqrt n := Real.sqrt_pos.2 hn'
  have p2 : (0 : ℝ) < Real.sqrt (n + n) := Real.sqrt_pos.2 (by linarith)
  rw [div_eq_div_iff p1.ne' p2.ne', one_mul, one_mul] at h
  have := (Real.sqrt_inj (by linarith) (by linarith)).1 h
  linarith

/-- **C46** (Uniform): the interval is `[low, high]`, or `[-|low|, |low|]` without `high`; an empty
interval is rejected. -/
theorem C46_uniform_interval (low : ℝ) (high : Option ℝ) : uniformInit low high = match high with
    | some h => if low < h then some (low, h) else none
    | none => if low = 0 then none else some (-|low|, |low|) := by
  unfold uniformInit
  cases high with
  | some h => rfl
  | none =>
    simp only
    rcases lt_trichotomy low 0 with h | h | h
    · rw [min_eq_right (by linarith), max_eq_left (by linarith), if_pos (by linarith), if_neg h.ne, abs_of_neg h, neg_neg]
    · subst h; simp
    · rw [min_eq_left (by linarith), max_eq_right (by linarith), if_pos (by linarith), if_neg h.ne', abs_of_pos h]

/-- **C46** (Uniform): all values lie in `[low, high)`. -/
theorem C46_uniform_range (low high : ℝ) (h : low < high) (rand : ι → ℝ) (hr : ∀ i, 0 ≤ rand i ∧ rand i < 1) (i : ι) :
    low ≤ uniform low high rand i ∧ uniform low high rand i < high := by
  unfold uniform
  have := hr i
  constructor <;> nlinarith

/-- **C46** (SparseInputs): rejected if there are fewer rows than connections; otherwise in each
column at most `connections` entries are not zero, and exactly that many if the sub-initializer
gives no zeros; the entries that are not zero are those of the sub-initializer. -/
theorem C46_sparse_inputs {r c : ℕ} {κ : Type} (connections : ℕ) (sub : Fin r → Fin c → κ → ℝ) (perm : Fin c → Equiv.Perm (Fin r)) :
    (r < connections → sparseInputs connections sub perm = none) ∧
    (connections ≤ r → ∃ w, sparseInputs connections sub perm = some w ∧
      (∀ i k, (univ.filter (fun a => w a i k ≠ 0)).card ≤ connections) ∧
      (∀ i k, (∀ a, sub a i k ≠ 0) → (univ.filter (fun a => w a i k ≠ 0)).card = connections) ∧
      ∀ a i k, w a i k = 0 ∨ w a i k = sub a i k) := by
  unfold sparseInputs
  refine ⟨fun h => by rw [if_pos h], fun h => ?_⟩
  rw [if_neg (by omega)]
  have hcard : ∀ i, (univ.filter (fun a : Fin r => (perm i a).val < connections)).card = connections := by
    intro i
    rw [Finset.card_equiv (perm i) (t := univ.filter (fun a : Fin r => a.val < connections)) (by simp)]
    rw [Fin.card_filter_val_lt]
    omega
  refine ⟨_, rfl, ?_, ?_, ?_⟩
  · intro i k
    refine le_trans (card_le_card ?_) (hcard i).le
    intro a ha
    simp only [mem_filter, mem_univ, true_and, inputMask] at ha ⊢
    by_contra hn
    simp [hn] at ha
  · intro i k hs
    refine Eq.trans ?_ (hcard i)
    congr 1
    ext a
    simp [inputMask, hs a]
  · intro a i k
    simp only [inputMask]
    split <;> simp

/-- **C46** (SparseOutputs): the same for rows. -/
theorem C46_sparse_outputs {r c : ℕ} {κ : Type} (connections : ℕ) (sub : Fin r → Fin c → κ → ℝ) (perm : Fin r → Equiv.Perm (Fin c)) :
    (c < connections → sparseOutputs connections sub perm = none) ∧
    (connections ≤ c → ∃ w, sparseOutputs connections sub perm = some w ∧
      (∀ a k, (univ.filter (fun i => w a i k ≠ 0)).card ≤ connections) ∧
      (∀ a k, (∀ i, sub a i k ≠ 0) → (univ.filter (fun i => w a i k ≠ 0)).card = connections) ∧
      ∀ a i k, w a i k = 0 ∨ w a i k = sub a i k) := by
  unfold sparseOutputs
  refine ⟨fun h => by rw [if_pos h], fun h => ?_⟩
  rw [if_neg (by omega)]
  have hcard : ∀ a, (univ.filter (fun i : Fin c => (perm a i).val < connections)).card = connections := by
    intro a
    rw [Finset.card_equiv (perm a) (t := univ.filter (fun i : Fin c => i.val < connections)) (by simp)]
    rw [Fin.card_filter_val_lt]
    omega
  refine ⟨_, rfl, ?_, ?_, ?_⟩
  · intro a k
    refine le_trans (card_le_card ?_) (hcard a).le
    intro i hi
    simp only [mem_filter, mem_univ, true_and, outputMask] at hi ⊢
    by_contra hn
    simp [hn] at hi
  · intro a k hs
    refine Eq.trans ?_ (hcard a)
    congr 1
    ext i
    simp [outputMask, hs i]
  · intro a i k
    simp only [outputMask]
    split <;> simp

/-- **C46** (LstmOptInit): the number of rows must be divisible by four; then each sub-initializer
fills its quarter of the rows, in the order block input, input, forget and output gate. -/
theorem C46_lstm_opt {κ : Type} (rows : ℕ) (blocks : Fin 4 → ℕ → κ → ℝ) :
    (rows % 4 ≠ 0 → lstmOptInit rows (blocks 0) (blocks 1) (blocks 2) (blocks 3) = none) ∧
    (∀ n, rows = 4 * n → ∃ w, lstmOptInit rows (blocks 0) (blocks 1) (blocks 2) (blocks 3) = some w ∧
      ∀ (q : Fin 4) (i : ℕ) (k : κ), i < n → w (q.val * n + i) k = blocks q i k) := by
  unfold lstmOptInit
  refine ⟨fun h => by rw [if_pos h], ?_⟩
  rintro n rfl
  rw [if_neg (by omega)]
  refine ⟨_, rfl, ?_⟩
  intro q i k hi
  have hn : 4 * n / 4 = n := by omega
  simp only [setRows, hn]
  fin_cases q
  · simp only [Fin.zero_eta, Fin.coe_ofNat_eq_mod, Nat.zero_mod, zero_mul, zero_add]
    rw [if_neg (by omega), if_neg (by omega), if_neg (by omega), if_pos (by omega)]
    simp
  · simp only [Fin.mk_one, Fin.coe_ofNat_eq_mod, Nat.one_mod, one_mul]
    rw [if_neg (by omega), if_neg (by omega), if_pos (by omega)]
    congr 1
    omega
  · simp only [Fin.reduceFinMk, Fin.coe_ofNat_eq_mod]
    rw [if_neg (by omega), if_pos (by omega)]
    congr 1
    omega
  · simp only [Fin.reduceFinMk, Fin.coe_ofNat_eq_mod]
    rw [if_pos (by omega)]
    congr 1
    omega

/-- **C46** (Identity): exactly two dimensions, equal if required; without noise the result is
`scale` on the diagonal and zero elsewhere. -/
theorem C46_identity (scale std : ℝ) (sq : Bool) (shape : List ℕ) (noise : ℕ → ℕ → ℝ) :
    ((identity scale std sq shape noise).isSome ↔ ∃ m n, shape = [m, n] ∧ (sq = true → m = n)) ∧
    ∀ w, identity scale std sq shape noise = some w → ∀ i j, w i j = (if i = j then scale else 0) + std * noise i j := by
  unfold identity
  match shape with
  | [] => simp
  | [a] => simp
  | [m, n] =>
    constructor
    · simp only [List.cons.injEq, and_true]
      constructor
      · intro h
        refine ⟨m, n, ⟨rfl, rfl⟩, fun hs => ?_⟩
        by_contra hne
        simp [hs, hne] at h
      · rintro ⟨m', n', ⟨rfl, rfl⟩, h⟩
        cases sq
        · simp
        · simp [h rfl]
    · intro w hw i j
      simp only at hw
      split at hw
      · simp at hw
      · simp only [Option.some.injEq] at hw
        subst hw
        simp only
        split <;> ring
  | a :: b :: c :: l => simp

/-- **C46** (Orthogonal): if the factor of the singular value decomposition has orthonormal columns
(tall case) or rows (wide case), the result has orthogonal columns or rows of norm `|scale|`. -/
theorem C46_orthogonal {m n : ℕ} (scale : ℝ) (u : Matrix (Fin m) (Fin n) ℝ) :
    (u.transpose * u = 1 → (orthogonalTall scale u).transpose * orthogonalTall scale u = scale ^ 2 • (1 : Matrix (Fin n) (Fin n) ℝ)) ∧
    (u * u.transpose = 1 → orthogonalWide scale u * (orthogonalWide scale u).transpose = scale ^ 2 • (1 : Matrix (Fin m) (Fin m) ℝ)) := by
  unfold orthogonalTall orthogonalWide
  constructor
  · intro h
    rw [Matrix.transpose_smul, Matrix.smul_mul, Matrix.mul_smul, h, smul_smul]
    congr 1
    ring
  · intro h
    rw [Matrix.transpose_smul, Matrix.smul_mul, Matrix.mul_smul, h, smul_smul]
    congr 1
    ring

/-- Non-vacuity: draws in `[0, 1)`, all scales non-negative, a sparse matrix with three rows, two
columns and two connections. -/
example : (∀ i : Fin 3, 0 ≤ (fun i : Fin 3 => (i.val : ℝ) / 3) i ∧ (fun i : Fin 3 => (i.val : ℝ) / 3) i < 1) := by
  intro i
  fin_cases i <;> norm_num

example : ∃ w, sparseInputs (r := 3) (c := 2) (κ := Unit) 2 (fun _ _ _ => 1) (fun i => if i = 0 then Equiv.swap 0 2 else 1) = some w ∧
    w 0 0 () = 0 ∧ w 2 0 () = 1 ∧ w 2 1 () = 0 := by
  refine ⟨_, rfl, ?_, ?_, ?_⟩ <;> simp [inputMask]

end Verif.Initializers
