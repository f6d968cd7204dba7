import Verif.Scoring.Model
import Mathlib.Tactic.Ring
import Mathlib.Tactic.FieldSimp
import Mathlib.Tactic.Linarith
import Mathlib.Algebra.Order.Field.Rat

/-! # C23, C41, C42: losses and scores -/

namespace Verif.Scoring

variable {K : Type} [Field K] [LinearOrder K]

/-! ### C23 -/

theorem foldl_set_fresh : ∀ (losses : List (Name × K)) (d : Dict Name K), (losses.map Prod.fst).Nodup → (∀ l ∈ losses, l.1 ∉ Dict.keys d) →
    losses.foldl (fun d l => Dict.set d l.1 l.2) d = d ++ losses := by
  intro losses
  induction losses with
  | nil => intro d _ _; simp
  | cons l losses ih =>
    intro d hn hd
    simp only [List.map_cons, List.nodup_cons] at hn
    rw [List.foldl_cons]
    have hset : Dict.set d l.1 l.2 = d ++ [l] := by
      have hfresh := hd l (by simp)
      clear ih hn hd
      induction d with
      | nil => rfl
      | cons e d ih =>
        simp only [Dict.keys, List.map_cons, List.mem_cons, not_or] at hfresh
        obtain ⟨k, v⟩ := e
        simp only [Dict.set]
        rw [if_neg (fun h => hfresh.1 h.symm)]
        rw [ih hfresh.2]
        rfl
    rw [hset, ih _ hn.2]
    · simp
    · intro l' hl' hk
      simp only [Dict.keys, List.map_append, List.map_cons, List.map_nil, List.mem_append, List.mem_singleton] at hk
      rcases hk with hk | hk
      · exact hd l' (List.mem_cons_of_mem _ hl') hk
      · exact hn.1 (List.mem_map.2 ⟨l', hl', hk⟩)

theorem foldl_add_eq (losses : List (Name × K)) (s : K) : losses.foldl (fun s l => s + l.2) s = s + (losses.map Prod.snd).sum := by
  induction losses generalizing s with
  | nil => simp
  | cons l losses ih => rw [List.foldl_cons, ih]; simp [add_assoc]

/-- **C23**: the losses of the loss layers (distinct names, none called 'total_loss', as the loss
layer asserts): with one loss layer the only entry is 'total_loss', its loss; otherwise there is one
entry per loss layer, in layer order, and 'total_loss', the sum. -/
theorem C23_loss_values (losses : List (Name × K)) (hn : (losses.map Prod.fst).Nodup) (ht : str "total_loss" ∉ losses.map Prod.fst) :
    lossValues losses = if losses.length = 1 then [(str "total_loss", (losses.map Prod.snd).sum)]
      else losses ++ [(str "total_loss", (losses.map Prod.snd).sum)] := by
  have hset : ∀ (d : Dict Name K) (k : Name) (v : K), k ∉ d.map Prod.fst → Dict.set d k v = d ++ [(k, v)] := by
    intro d k v h
    induction d with
    | nil => rfl
    | cons e d ih =>
      obtain ⟨k', v'⟩ := e
      simp only [List.map_cons, List.mem_cons, not_or] at h
      simp only [Dict.set]
      rw [if_neg (fun e => h.1 e.symm), ih h.2]
      rfl
  have hgen : (losses.foldl (fun d l => Dict.set d l.1 l.2) ([] : Dict Name K)).set (str "total_loss") (losses.foldl (fun s l => s + l.2) 0)
      = losses ++ [(str "total_loss", (losses.map Prod.snd).sum)] := by
    rw [foldl_set_fresh losses [] hn (by simp [Dict.keys]), List.nil_append, foldl_add_eq, zero_add, hset _ _ _ ht]
  match losses, hgen with
  | [], hgen => simpa [lossValues] using hgen
  | [l], _ => simp [lossValues]
  | l :: l' :: rest, hgen =>
    rw [if_neg (by simp)]
    unfold lossValues
    exact hgen

/-- **C23** as a statement about lookups. -/
theorem C23_total (losses : List (Name × K)) (hn : (losses.map Prod.fst).Nodup) (ht : str "total_loss" ∉ losses.map Prod.fst) :
    Dict.get? (lossValues losses) (str "total_loss") = some (losses.map Prod.snd).sum ∧
    (losses.length ≠ 1 → ∀ l ∈ losses, Dict.get? (lossValues losses) l.1 = some l.2) := by
  rw [C23_loss_values losses hn ht]
  constructor
  · split
    · rw [Dict.get?_cons]; simp
    · apply Dict.get?_of_mem
      · simp only [Dict.keys, List.map_append, List.map_cons, List.map_nil]
        rw [List.nodup_append]
        refine ⟨hn, by simp, ?_⟩
        intro a ha b hb e
        subst e
        simp only [List.mem_singleton] at hb
        subst hb
        exact ht ha
      · simp
  · intro h1 l hl
    rw [if_neg h1]
    apply Dict.get?_of_mem
    · simp only [Dict.keys, List.map_append, List.map_cons, List.map_nil]
      rw [List.nodup_append]
      refine ⟨hn, by simp, ?_⟩
      intro a ha b hb e
      subst e
      simp only [List.mem_singleton] at hb
      subst hb
      exact ht ha
    · exact List.mem_append_left _ hl

/-! ### C41 -/

theorem sum_flatMap_map {A B : Type} (l : List A) (f : A → List B) (g : B → K) :
    ((l.flatMap f).map g).sum = (l.map (fun a => ((f a).map g).sum)).sum := by
  induction l with
  | nil => simp
  | cons a l ih => simp [List.flatMap_cons, ih]

theorem sum_map_add' {A : Type} (l : List A) (f g : A → K) : (l.map (fun a => f a + g a)).sum = (l.map f).sum + (l.map g).sum := by
  induction l with
  | nil => simp
  | cons a l ih => simp only [List.map_cons, List.sum_cons, ih]; ring

/-- Sums over the rows of a batch are sums over its sequences. -/
theorem sum_flatRows (steps : Nat) (g : Row K → K) (batch : List (Seq K)) (h : ∀ s ∈ batch, s.rows.length = steps) :
    ((flatRows steps batch).map g).sum = (batch.map (fun s => (s.rows.map g).sum)).sum := by
  have hrow : ∀ s : Seq K, s.rows.length = steps → ((List.range steps).map (fun t => ((s.rows[t]?.map g).getD 0))).sum = (s.rows.map g).sum := by
    intro s hs
    subst hs
    congr 1
    apply List.ext_getElem?
    intro i
    simp only [List.getElem?_map]
    by_cases hi : i < s.rows.length
    · rw [List.getElem?_range hi]
      simp [List.getElem?_eq_getElem hi]
    · rw [List.getElem?_eq_none (by simpa using hi), List.getElem?_eq_none (by simpa using hi)]
      rfl
  unfold flatRows
  rw [sum_flatMap_map]
  induction batch with
  | nil =>
    simp
  | cons s batch ih =>
    rw [List.map_cons, List.sum_cons, ← ih (fun s' hs' => h s' (List.mem_cons_of_mem _ hs')), ← hrow s (h s (by simp)), ← sum_map_add']
    congr 1
    apply List.map_congr_left
    intro t ht
    rw [List.filterMap_cons]
    cases s.rows[t]? with
    | none => simp
    | some r => simp

theorem sum_parts {A : Type} (f : A → K) (parts : List (List A)) : (parts.map (fun b => (b.map f).sum)).sum = (parts.flatten.map f).sum := by
  induction parts with
  | nil => simp
  | cons b parts ih => simp [ih]

/-- A score that is a sum over the rows. -/
theorem evaluateScore_additive (score : List (Row K) → K) (g : Row K → K) (hs : ∀ rows, score rows = (rows.map g).sum) (useMask : Bool)
    (steps : Nat) (batches : List (List (Seq K))) (h : ∀ b ∈ batches, ∀ s ∈ b, s.rows.length = steps) :
    evaluateScore score useMask steps batches = (batches.flatten.map (fun s => (s.rows.map g).sum)).sum /
      (batches.flatten.map (fun s => (s.rows.map (fun r => weighted useMask r 1)).sum)).sum := by
  have hw : ∀ rows : List (Row K), weight useMask rows = (rows.map (fun r => weighted useMask r 1)).sum := by
    intro rows
    unfold weight weighted
    cases useMask <;> simp
  unfold evaluateScore aggregate
  simp only [List.map_map, Function.comp_def, hs, hw]
  have key : ∀ g : Row K → K, (batches.map (fun b => ((flatRows steps b).map g).sum)).sum
      = (batches.flatten.map (fun s => (s.rows.map g).sum)).sum := by
    intro g
    rw [← sum_parts]
    congr 1
    apply List.map_congr_left
    intro b hb
    exact sum_flatRows steps g b (h b hb)
  rw [key g, key]

theorem hamming_eq (threshold : K) (cols : Nat) (useMask : Bool) (rows : List (Row K)) : hamming threshold cols useMask rows =
    (rows.map (fun r => ((r.pred.zip r.label).map (fun pl => weighted useMask r (if hit threshold pl.1 pl.2 then (1 : K) else 0))).sum / (cols : K))).sum := by
  unfold hamming
  simp only [div_eq_mul_inv]
  rw [← List.sum_map_mul_right]

theorem squaredError_eq (useMask : Bool) (rows : List (Row K)) : squaredError useMask rows =
    (rows.map (fun r => 1 / 2 * ((r.pred.zip r.label).map (fun pl => weighted useMask r ((pl.2 - pl.1) ^ 2))).sum)).sum := by
  unfold squaredError
  rw [List.sum_map_mul_left]

theorem accuracy_eq (useMask : Bool) (rows : List (Row K)) : accuracy useMask rows =
    (rows.map (fun r => weighted useMask r (if isCorrect r then 1 else 0))).sum := rfl

/-- **C41** (scores): accuracy, Hamming score and mean squared error reported by `evaluate` are the
same for every two ways of cutting the same sequences into consecutive batches. -/
theorem C41_scores (useMask : Bool) (steps : Nat) (batches batches' : List (List (Seq K))) (hsame : batches.flatten = batches'.flatten)
    (h : ∀ s ∈ batches.flatten, s.rows.length = steps) (threshold : K) (cols : Nat) :
    evaluateScore (accuracy useMask) useMask steps batches = evaluateScore (accuracy useMask) useMask steps batches' ∧
    evaluateScore (hamming threshold cols useMask) useMask steps batches = evaluateScore (hamming threshold cols useMask) useMask steps batches' ∧
    evaluateScore (squaredError useMask) useMask steps batches = evaluateScore (squaredError useMask) useMask steps batches' := by
  have h1 : ∀ b ∈ batches, ∀ s ∈ b, s.rows.length = steps := fun b hb s hs => h s (List.mem_flatten.2 ⟨b, hb, hs⟩)
  have h2 : ∀ b ∈ batches', ∀ s ∈ b, s.rows.length = steps := fun b hb s hs => h s (by rw [hsame]; exact List.mem_flatten.2 ⟨b, hb, hs⟩)
  refine ⟨?_, ?_, ?_⟩
  · rw [evaluateScore_additive _ _ (accuracy_eq useMask) useMask steps batches h1, evaluateScore_additive _ _ (accuracy_eq useMask) useMask steps batches' h2, hsame]
  · rw [evaluateScore_additive _ _ (hamming_eq threshold cols useMask) useMask steps batches h1,
      evaluateScore_additive _ _ (hamming_eq threshold cols useMask) useMask steps batches' h2, hsame]
  · rw [evaluateScore_additive _ _ (squaredError_eq useMask) useMask steps batches h1,
      evaluateScore_additive _ _ (squaredError_eq useMask) useMask steps batches' h2, hsame]

theorem evaluateLoss_eq [CharZero K] (importance : K) (batches : List (List (Seq K))) (hne : ∀ b ∈ batches, b ≠ []) :
    evaluateLoss importance batches = importance * (batches.flatten.map (fun s => s.loss.sum)).sum / batches.flatten.length := by
  unfold evaluateLoss weightedAverage
  simp only [List.map_map, Function.comp_def]
  have hlen : (batches.map (fun b => (b.length : K))).sum = (batches.flatten.length : K) := by
    rw [List.length_flatten]
    clear hne
    induction batches with
    | nil => simp
    | cons b batches ih => simp [ih]
  rw [hlen]
  have hb : ∀ b ∈ batches, lossValue importance b * (b.length : K) / (batches.flatten.length : K)
      = (b.map (fun s => s.loss.sum)).sum * (importance / (batches.flatten.length : K)) := by
    intro b hb
    have : (b.length : K) ≠ 0 := by
      simp only [ne_eq, Nat.cast_eq_zero, List.length_eq_zero_iff]
      exact hne b hb
    unfold lossValue
    field_simp
  rw [List.map_congr_left hb, List.sum_map_mul_right, sum_parts]
  ring

/-- **C41** (losses): so are the losses; `evaluate` reports `importance` times the mean over all
sequences. -/
theorem C41_losses [CharZero K] (importance : K) (batches : List (List (Seq K))) (hne : ∀ b ∈ batches, b ≠ []) :
    evaluateLoss importance batches = importance * (batches.flatten.map (fun s => s.loss.sum)).sum / batches.flatten.length ∧
    ∀ batches' : List (List (Seq K)), (∀ b ∈ batches', b ≠ []) → batches.flatten = batches'.flatten →
      evaluateLoss importance batches = evaluateLoss importance batches' := by
  refine ⟨evaluateLoss_eq importance batches hne, ?_⟩
  intro batches' hne' hsame
  rw [evaluateLoss_eq importance batches hne, evaluateLoss_eq importance batches' hne', hsame]

/-- **C41** (total loss): the reported 'total_loss' is the sum of the reported losses. -/
theorem C41_total (losses : List (List (Seq K) → K)) (batches : List (List (Seq K))) :
    evaluateTotal losses batches = (losses.map (fun l => weightedAverage (batches.map (fun b => ((b.length : K), l b))))).sum := by
  have hfold : ∀ (ls : List (List (Seq K) → K)) (s : K) (b : List (Seq K)), ls.foldl (fun s l => s + l b) s = s + (ls.map (fun l => l b)).sum := by
    intro ls
    induction ls with
    | nil => simp
    | cons l ls ih => intro s b; rw [List.foldl_cons, ih]; simp [add_assoc]
  unfold evaluateTotal weightedAverage
  simp only [List.map_map, Function.comp_def, hfold, zero_add]
  generalize (batches.map (fun b => (b.length : K))).sum = n
  induction losses with
  | nil => simp
  | cons l losses ih =>
    simp only [List.map_cons, List.sum_cons]
    rw [← ih, ← sum_map_add']
    congr 1
    apply List.map_congr_left
    intro b _
    ring

/-! ### C42 -/

/-- **C42** (argmax): the first of the largest entries. -/
theorem C42_argmax : ∀ (l : List K), l ≠ [] → argmax l < l.length ∧ (∀ x ∈ l, x ≤ l.getD (argmax l) 0) ∧
    ∀ (j : Nat), j < argmax l → l.getD j 0 < l.getD (argmax l) 0
  | [], h => absurd rfl h
  | [x], _ => by simp [argmax]
  | x :: y :: rest, _ => by
    obtain ⟨h1, h2, h3⟩ := C42_argmax (y :: rest) (by simp)
    simp only [argmax]
    split
    · rename_i hle
      refine ⟨by simp, ?_, by simp⟩
      intro z hz
      rcases List.mem_cons.1 hz with rfl | hz
      · simp
      · exact (h2 z hz).trans hle
    · rename_i hlt
      have hlt' : x < (y :: rest).getD (argmax (y :: rest)) 0 := not_le.1 hlt
      refine ⟨by simpa using h1, ?_, ?_⟩
      · intro z hz
        rw [List.getD_cons_succ]
        rcases List.mem_cons.1 hz with rfl | hz
        · exact hlt'.le
        · exact h2 z hz
      · intro j hj
        rw [List.getD_cons_succ]
        cases j with
        | zero => exact hlt'
        | succ j => rw [List.getD_cons_succ]; exact h3 j (by omega)

variable [IsStrictOrderedRing K]

/-- All rows of the data set. -/
def allRows (batches : List (List (Seq K))) : List (Row K) := batches.flatten.flatMap Seq.rows

theorem sum_allRows (batches : List (List (Seq K))) (g : Row K → K) :
    (batches.flatten.map (fun s => (s.rows.map g).sum)).sum = ((allRows batches).map g).sum := by
  unfold allRows
  rw [sum_flatMap_map]

theorem sum_indicator (rows : List (Row K)) (p q : Row K → Prop) [DecidablePred p] [DecidablePred q] (g : Row K → K)
    (h : ∀ r ∈ rows, g r = if p r ∧ q r then 1 else 0) : (rows.map g).sum = ((rows.filter (fun r => p r ∧ q r)).length : K) := by
  induction rows with
  | nil => simp
  | cons r rows ih =>
    rw [List.map_cons, List.sum_cons, ih (fun r' hr' => h r' (List.mem_cons_of_mem _ hr')), h r (by simp), List.filter_cons]
    by_cases hp : p r ∧ q r
    · rw [if_pos hp, if_pos (by simpa using hp)]; simp [add_comm]
    · rw [if_neg hp, if_neg (by simpa using hp)]; simp

/-- The rows that count: all without mask, those with mask 1 otherwise. -/
def Counts (useMask : Bool) (r : Row K) : Prop := useMask = true → r.mask = 1

instance (useMask : Bool) : DecidablePred (Counts (K := K) useMask) := fun r => by unfold Counts; infer_instance

theorem weighted_zero_one (useMask : Bool) (r : Row K) (h01 : r.mask = 0 ∨ r.mask = 1) (x : K) :
    weighted useMask r x = if Counts useMask r then x else 0 := by
  unfold weighted Counts
  cases useMask
  · simp
  · rcases h01 with h | h <;> simp [h]

theorem sum_weight (useMask : Bool) (rows : List (Row K)) (h01 : ∀ r ∈ rows, r.mask = 0 ∨ r.mask = 1) :
    (rows.map (fun r => weighted useMask r (1 : K))).sum = ((rows.filter (fun r => Counts useMask r)).length : K) := by
  induction rows with
  | nil => simp
  | cons r rows ih =>
    rw [List.map_cons, List.sum_cons, ih (fun r' hr' => h01 r' (List.mem_cons_of_mem _ hr')), weighted_zero_one useMask r (h01 r (by simp)), List.filter_cons]
    by_cases hc : Counts useMask r
    · rw [if_pos hc, if_pos (by simpa using hc)]; simp [add_comm]
    · rw [if_neg hc, if_neg (by simpa using hc)]; simp

/-- The prediction of a row is the right class: with one output it equals the label; with several the label is the number of
the first of the largest outputs. -/
def RightClass (r : Row K) : Prop :=
  (r.pred.length ≤ 1 → r.pred.headD 0 = r.label.headD 0) ∧
  (1 < r.pred.length → ∃ k : Nat, r.label.headD 0 = (k : K) ∧ k < r.pred.length ∧ (∀ x ∈ r.pred, x ≤ r.pred.getD k 0) ∧
    ∀ j < k, r.pred.getD j 0 < r.pred.getD k 0)

theorem isCorrect_iff (r : Row K) : isCorrect r = true ↔ RightClass r := by
  unfold isCorrect RightClass
  split
  · rename_i h
    have hne : r.pred ≠ [] := by intro e; simp [e] at h
    obtain ⟨a1, a2, a3⟩ := C42_argmax r.pred hne
    simp only [decide_eq_true_eq]
    constructor
    · intro e
      exact ⟨fun h' => absurd h (by omega), fun _ => ⟨_, e.symm, a1, a2, a3⟩⟩
    · rintro ⟨-, h2⟩
      obtain ⟨k, e, b1, b2, b3⟩ := h2 h
      have : k = argmax r.pred := by
        rcases Nat.lt_trichotomy k (argmax r.pred) with hl | he | hg
        · have := a3 k hl
          have h3 := b2 (r.pred.getD (argmax r.pred) 0) (by
            rw [List.getD_eq_getElem?_getD, List.getElem?_eq_getElem a1]; exact List.getElem_mem a1)
          exact absurd this (not_lt.2 h3)
        · exact he
        · have := b3 _ hg
          have h3 := a2 (r.pred.getD k 0) (by
            rw [List.getD_eq_getElem?_getD, List.getElem?_eq_getElem b1]; exact List.getElem_mem b1)
          exact absurd this (not_lt.2 h3)
      rw [e, this]
  · rename_i h
    simp only [decide_eq_true_eq]
    exact ⟨fun e => ⟨fun _ => e, fun h' => absurd h' h⟩, fun e => e.1 (by omega)⟩

/-- **C42** (accuracy): with a mask of zeros and ones (or none) the accuracy reported for the whole
data set is the number of rows that count and are correct divided by the number of rows that count,
whatever the batches; a row is correct if the first largest output is the label (with one output
column: if the output equals the label). -/
theorem C42_accuracy [DecidablePred (RightClass (K := K))] (useMask : Bool) (steps : Nat) (batches : List (List (Seq K)))
    (h : ∀ s ∈ batches.flatten, s.rows.length = steps) (h01 : ∀ r ∈ allRows batches, r.mask = 0 ∨ r.mask = 1) :
    evaluateScore (accuracy useMask) useMask steps batches =
      (((allRows batches).filter (fun r => Counts useMask r ∧ RightClass r)).length : K) /
        (((allRows batches).filter (fun r => Counts useMask r)).length : K) := by
  have h1 : ∀ b ∈ batches, ∀ s ∈ b, s.rows.length = steps := fun b hb s hs => h s (List.mem_flatten.2 ⟨b, hb, hs⟩)
  rw [evaluateScore_additive _ _ (accuracy_eq useMask) useMask steps batches h1, sum_allRows, sum_allRows]
  simp only [← isCorrect_iff]
  congr 1
  · apply sum_indicator (p := Counts useMask) (q := fun r => isCorrect r = true)
    intro r hr
    rw [weighted_zero_one useMask r (h01 r hr)]
    by_cases hc : Counts useMask r <;> by_cases hi : isCorrect r = true <;> simp [hc, hi]
  · exact sum_weight useMask _ h01

/-- **C42** (accuracy lies between 0 and 1), for every non-negative mask. -/
theorem C42_accuracy_range (useMask : Bool) (steps : Nat) (batches : List (List (Seq K)))
    (h : ∀ s ∈ batches.flatten, s.rows.length = steps) (hm : ∀ r ∈ allRows batches, 0 ≤ r.mask) :
    0 ≤ evaluateScore (accuracy useMask) useMask steps batches ∧ evaluateScore (accuracy useMask) useMask steps batches ≤ 1 := by
  have h1 : ∀ b ∈ batches, ∀ s ∈ b, s.rows.length = steps := fun b hb s hs => h s (List.mem_flatten.2 ⟨b, hb, hs⟩)
  rw [evaluateScore_additive _ _ (accuracy_eq useMask) useMask steps batches h1, sum_allRows, sum_allRows]
  have hw : ∀ r ∈ allRows batches, (0 : K) ≤ weighted useMask r 1 := by
    intro r hr
    unfold weighted
    cases useMask
    · simp
    · simpa using hm r hr
  have hc : ∀ r ∈ allRows batches, (0 : K) ≤ weighted useMask r (if isCorrect r = true then 1 else 0) ∧
      weighted useMask r (if isCorrect r = true then 1 else 0) ≤ weighted useMask r 1 := by
    intro r hr
    by_cases hi : isCorrect r = true
    · rw [if_pos hi]; exact ⟨hw r hr, le_refl _⟩
    · rw [if_neg hi]
      have : weighted useMask r (0 : K) = 0 := by unfold weighted; cases useMask <;> simp
      rw [this]; exact ⟨le_refl _, hw r hr⟩
  have hden : (0 : K) ≤ ((allRows batches).map (fun r => weighted useMask r 1)).sum := by
    apply List.sum_nonneg
    intro x hx
    obtain ⟨r, hr, rfl⟩ := List.mem_map.1 hx
    exact hw r hr
  have hnum : (0 : K) ≤ ((allRows batches).map (fun r => weighted useMask r (if isCorrect r = true then 1 else 0))).sum := by
    apply List.sum_nonneg
    intro x hx
    obtain ⟨r, hr, rfl⟩ := List.mem_map.1 hx
    exact (hc r hr).1
  refine ⟨div_nonneg hnum hden, div_le_one_of_le₀ ?_ hden⟩
  exact List.sum_le_sum (fun r hr => (hc r hr).2)

/-- **C42** (masked rows never count): replacing outputs and targets of rows with mask 0 changes
neither accuracy nor Hamming score nor squared error. -/
theorem C42_masked (rows rows' : List (Row K)) (hlen : rows.length = rows'.length)
    (h : ∀ (i : Nat) (r r' : Row K), rows[i]? = some r → rows'[i]? = some r' → r = r' ∨ (r.mask = 0 ∧ r'.mask = 0)) (threshold : K) (cols : Nat) :
    weight true rows = weight true rows' ∧ accuracy true rows = accuracy true rows' ∧
    hamming threshold cols true rows = hamming threshold cols true rows' ∧ squaredError true rows = squaredError true rows' := by
  have key : ∀ g : Row K → K, (∀ r, r.mask = 0 → g r = 0) → (rows.map g).sum = (rows'.map g).sum := by
    intro g hg
    congr 1
    apply List.ext_getElem?
    intro i
    rw [List.getElem?_map, List.getElem?_map]
    by_cases hi : i < rows.length
    · have hi' : i < rows'.length := hlen ▸ hi
      rw [List.getElem?_eq_getElem hi, List.getElem?_eq_getElem hi']
      rcases h i _ _ (List.getElem?_eq_getElem hi) (List.getElem?_eq_getElem hi') with e | ⟨e1, e2⟩
      · rw [e]
      · simp only [Option.map_some, Option.some.injEq]
        rw [hg _ e1, hg _ e2]
    · rw [List.getElem?_eq_none (by omega), List.getElem?_eq_none (by omega)]
  have hz : ∀ (l : List (K × K)) (f : K × K → K) (r : Row K), r.mask = 0 → (l.map (fun pl => weighted true r (f pl))).sum = 0 := by
    intro l f r hr
    induction l with
    | nil => simp
    | cons a l ih => rw [List.map_cons, List.sum_cons, ih]; simp [weighted, hr]
  refine ⟨?_, ?_, ?_, ?_⟩
  · unfold weight; simpa using key (fun r => r.mask) (fun r hr => hr)
  · exact key _ (fun r hr => by simp [weighted, hr])
  · unfold hamming; rw [key _ (fun r hr => hz _ _ r hr)]
  · unfold squaredError; rw [key _ (fun r hr => hz _ _ r hr)]

/-- The number of entries of a row on the right side of the threshold. -/
def hits (threshold : K) (r : Row K) : Nat :=
  ((r.pred.zip r.label).filter (fun pl => decide (pl.2 ≠ 0) = decide (threshold ≤ pl.1))).length

theorem hits_eq (threshold : K) (l : List (K × K)) : (l.map (fun pl => if hit threshold pl.1 pl.2 then (1 : K) else 0)).sum =
    ((l.filter (fun pl => decide (pl.2 ≠ 0) = decide (threshold ≤ pl.1))).length : K) := by
  induction l with
  | nil => simp
  | cons a l ih =>
    have hit_iff : hit threshold a.1 a.2 = true ↔ decide (a.2 ≠ 0) = decide (threshold ≤ a.1) := by
      unfold hit
      by_cases h1 : a.1 < threshold
      · have : ¬ threshold ≤ a.1 := not_le.2 h1
        by_cases h2 : a.2 = 0 <;> simp [h1, h2]
      · have : threshold ≤ a.1 := not_lt.1 h1
        by_cases h2 : a.2 = 0 <;> simp [h2, this]
    rw [List.map_cons, List.sum_cons, ih, List.filter_cons]
    by_cases h : hit threshold a.1 a.2 = true
    · rw [if_pos h, if_pos (by simpa using hit_iff.1 h)]
      simp [add_comm]
    · rw [if_neg h, if_neg (by simpa using fun hh => h (hit_iff.2 hh)), zero_add]

/-- **C42** (Hamming): with a mask of zeros and ones (or none) and targets with `cols` columns the
reported Hamming score is the number of entries of counting rows that are on the right side of the
threshold divided by the number of entries of counting rows. -/
theorem C42_hamming (threshold : K) (cols : Nat) (useMask : Bool) (steps : Nat) (batches : List (List (Seq K)))
    (h : ∀ s ∈ batches.flatten, s.rows.length = steps) (h01 : ∀ r ∈ allRows batches, r.mask = 0 ∨ r.mask = 1) :
    evaluateScore (hamming threshold cols useMask) useMask steps batches =
      ((((allRows batches).filter (fun r => Counts useMask r)).map (hits threshold)).sum : K) /
        ((cols * ((allRows batches).filter (fun r => Counts useMask r)).length : Nat) : K) := by
  have h1 : ∀ b ∈ batches, ∀ s ∈ b, s.rows.length = steps := fun b hb s hs => h s (List.mem_flatten.2 ⟨b, hb, hs⟩)
  rw [evaluateScore_additive _ _ (hamming_eq threshold cols useMask) useMask steps batches h1, sum_allRows, sum_allRows]
  generalize allRows batches = rows at h01
  have hz : ∀ (l : List (K × K)) (f : K × K → K) (r : Row K), r.mask = 0 ∨ r.mask = 1 →
      (l.map (fun pl => weighted useMask r (f pl))).sum = if Counts useMask r then (l.map f).sum else 0 := by
    intro l f r hr
    simp only [weighted_zero_one useMask r hr]
    by_cases hc : Counts useMask r
    · simp [hc]
    · simp [hc]
  have hnum : (rows.map (fun r => ((r.pred.zip r.label).map (fun pl => weighted useMask r (if hit threshold pl.1 pl.2 then (1 : K) else 0))).sum / (cols : K))).sum
      = (((rows.filter (fun r => Counts useMask r)).map (hits threshold)).sum : K) / cols := by
    induction rows with
    | nil => simp
    | cons r rows ih =>
      rw [List.map_cons, List.sum_cons, ih (fun r' hr' => h01 r' (List.mem_cons_of_mem _ hr')), hz _ _ r (h01 r (by simp)), hits_eq, List.filter_cons]
      by_cases hc : Counts useMask r
      · rw [if_pos hc, if_pos (by simpa using hc)]
        simp only [List.map_cons, List.sum_cons, Nat.cast_add, hits]
        ring
      · rw [if_neg hc, if_neg (by simpa using hc)]
        simp
  have hden := sum_weight useMask rows h01
  rw [hnum, hden, div_div, Nat.cast_mul]

/-- **C42** (squared error): with a mask of zeros and ones (or none) the reported mean squared error is half the sum of the
squared differences between targets and outputs, over the entries of counting rows, divided by the number of counting rows. -/
theorem C42_squared_error (useMask : Bool) (steps : Nat) (batches : List (List (Seq K)))
    (h : ∀ s ∈ batches.flatten, s.rows.length = steps) (h01 : ∀ r ∈ allRows batches, r.mask = 0 ∨ r.mask = 1) :
    evaluateScore (squaredError useMask) useMask steps batches =
      (((allRows batches).filter (fun r => Counts useMask r)).map
          (fun r => ((r.pred.zip r.label).map (fun pl => (pl.2 - pl.1) ^ 2)).sum)).sum / 2 /
        (((allRows batches).filter (fun r => Counts useMask r)).length : K) := by
  have h1 : ∀ b ∈ batches, ∀ s ∈ b, s.rows.length = steps := fun b hb s hs => h s (List.mem_flatten.2 ⟨b, hb, hs⟩)
  rw [evaluateScore_additive _ _ (squaredError_eq useMask) useMask steps batches h1, sum_allRows, sum_allRows]
  generalize allRows batches = rows at h01
  rw [sum_weight useMask rows h01]
  congr 1
  induction rows with
  | nil => simp
  | cons r rows ih =>
    rw [List.map_cons, List.sum_cons, ih (fun r' hr' => h01 r' (List.mem_cons_of_mem _ hr')), List.filter_cons]
    simp only [weighted_zero_one useMask r (h01 r (by simp))]
    by_cases hc : Counts useMask r
    · rw [if_pos (by simpa using hc)]
      simp only [hc, if_true, List.map_cons, List.sum_cons]
      ring
    · rw [if_neg (by simpa using hc)]
      simp [hc]

/-! ### Examples -/

def demoSeq (a b l m : ℚ) : Seq ℚ := ⟨[⟨[a, b], [l], m⟩, ⟨[b, a], [l], 1⟩], [a * b, l]⟩

/-- Three sequences with two time steps, cut as 2 + 1 and 1 + 2. -/
example : evaluateScore (accuracy true) true 2 [[demoSeq 1 2 1 1, demoSeq 3 3 0 0], [demoSeq 2 1 1 1]] = 3 / 5 ∧
    evaluateLoss 2 [[demoSeq 1 2 1 1, demoSeq 3 3 0 0], [demoSeq 2 1 1 1]] = 10 := by
  decide +kernel

example : (∀ s ∈ [[demoSeq 1 2 1 1, demoSeq 3 3 0 0], [demoSeq 2 1 1 1]].flatten, s.rows.length = 2) := by decide +kernel

example : evaluateScore (squaredError true) true 2 [[demoSeq 1 2 1 1, demoSeq 3 3 0 0], [demoSeq 2 1 1 1]] = 11 / 10 := by
  norm_num [evaluateScore, aggregate, squaredError, weight, weighted, flatRows, demoSeq, List.range_succ, List.filterMap]

example : lossValues [(str "a", (1 : ℚ)), (str "b", 2)] = [(str "a", 1), (str "b", 2), (str "total_loss", 3)] := by decide +kernel

example : argmax [(1 : ℚ), 3, 2, 3] = 1 := by decide +kernel

end Verif.Scoring
