import Verif.Modifiers.Model

/-! # C43–C45: weight and gradient modifiers -/

namespace Verif.Modifiers

open Finset

variable {ι : Type}

/-! ### C43 -/

/-- **C43** (clipping): all values lie in `[low, high]` afterwards. -/
theorem C43_clip_range (low high : ℝ) (h : low ≤ high) (view : ι → ℝ) (i : ι) :
    low ≤ clipValues low high view i ∧ clipValues low high view i ≤ high := by
  unfold clipValues clip
  exact ⟨le_min (le_max_right _ _) h, min_le_right _ _⟩

/-- **C43** (clipping): values in the range are unchanged, others move to the nearest bound. -/
theorem C43_clip_values (low high : ℝ) (h : low ≤ high) (view : ι → ℝ) (i : ι) :
    (low ≤ view i → view i ≤ high → clipValues low high view i = view i) ∧
    (view i < low → clipValues low high view i = low) ∧ (high < view i → clipValues low high view i = high) := by
  unfold clipValues clip
  refine ⟨fun h1 h2 => by rw [max_eq_left h1, min_eq_left h2], fun h1 => by rw [max_eq_right h1.le, min_eq_left h],
    fun h1 => by rw [max_eq_left (h.trans h1.le), min_eq_right h1.le]⟩

/-- **C43** (clipping is idempotent). -/
theorem C43_clip_idempotent (low high : ℝ) (h : low ≤ high) (view : ι → ℝ) :
    clipValues low high (clipValues low high view) = clipValues low high view := by
  funext i
  have := C43_clip_range low high h view i
  exact (C43_clip_values low high h (clipValues low high view) i).1 this.1 this.2

theorem norm2_nonneg {c : ℕ} (row : Fin c → ℝ) : 0 ≤ norm2 row := Real.sqrt_nonneg _

theorem norm2_smul {c : ℕ} (a : ℝ) (ha : 0 ≤ a) (row : Fin c → ℝ) : norm2 (fun j => a * row j) = a * norm2 row := by
  unfold norm2
  have : ∑ j, (a * row j) ^ 2 = a ^ 2 * ∑ j, row j ^ 2 := by
    rw [mul_sum]
    exact sum_congr rfl (fun j _ => by ring)
  rw [this, Real.sqrt_mul (by positivity), Real.sqrt_sq ha]

theorem constrainL2_eq {r c : ℕ} (limit big : ℝ) (rank : ℕ) (hr : 2 ≤ rank) (mat : Fin r → Fin c → ℝ) (i : Fin r) :
    constrainL2 limit big rank mat i = fun j => mat i j / min (max (1 / limit * norm2 (mat i)) 1) big := by
  unfold constrainL2
  rw [if_neg (by omega)]
  funext j
  simp only [clip]
  have : (∑ j, mat i j * mat i j) ^ (0.5 : ℝ) = norm2 (mat i) := by
    unfold norm2
    rw [Real.sqrt_eq_rpow]
    congr 1
    · exact sum_congr rfl (fun j _ => by ring)
    · norm_num
  rw [this]

/-- **C43** (norm constraint): for views with at least two dimensions every row has norm at most
`limit` afterwards; rows within the limit are unchanged; the others keep their direction and get
norm `limit`.  `big` is the largest number of the number type, so that `norm ≤ limit * big` means
that the quotient does not overflow. -/
theorem C43_norm {r c : ℕ} (limit big : ℝ) (hl : 0 < limit) (hb : 1 ≤ big) (rank : ℕ) (hr : 2 ≤ rank) (mat : Fin r → Fin c → ℝ)
    (i : Fin r) (hbig : norm2 (mat i) ≤ limit * big) :
    norm2 (constrainL2 limit big rank mat i) ≤ limit ∧
    (norm2 (mat i) ≤ limit → constrainL2 limit big rank mat i = mat i) ∧
    (limit < norm2 (mat i) → norm2 (constrainL2 limit big rank mat i) = limit ∧
      ∃ a : ℝ, 0 < a ∧ a < 1 ∧ ∀ j, constrainL2 limit big rank mat i j = a * mat i j) := by
  rw [constrainL2_eq limit big rank hr mat i]
  have hq : 1 / limit * norm2 (mat i) = norm2 (mat i) / limit := by ring
  have h1 : norm2 (mat i) ≤ limit → (fun j => mat i j / min (max (1 / limit * norm2 (mat i)) 1) big) = mat i := by
    intro h
    have : 1 / limit * norm2 (mat i) ≤ 1 := by rw [hq]; exact (div_le_one hl).2 h
    rw [max_eq_right this, min_eq_left hb]
    simp
  have h2 : limit < norm2 (mat i) → norm2 (fun j => mat i j / min (max (1 / limit * norm2 (mat i)) 1) big) = limit ∧
      ∃ a : ℝ, 0 < a ∧ a < 1 ∧ ∀ j, mat i j / min (max (1 / limit * norm2 (mat i)) 1) big = a * mat i j := by
    intro h
    have hpos : 0 < norm2 (mat i) := hl.trans h
    have g1 : 1 ≤ 1 / limit * norm2 (mat i) := by rw [hq]; exact (one_le_div hl).2 h.le
    have g2 : 1 / limit * norm2 (mat i) ≤ big := by rw [hq, div_le_iff₀ hl]; linarith
    rw [max_eq_left g1, min_eq_left g2, hq]
    have e : (fun j => mat i j / (norm2 (mat i) / limit)) = fun j => limit / norm2 (mat i) * mat i j := by
      funext j
      field_simp
    refine ⟨?_, limit / norm2 (mat i), by positivity, (div_lt_one hpos).2 h, fun j => congrFun e j⟩
    rw [e, norm2_smul _ (by positivity)]
    field_simp
  refine ⟨?_, h1, h2⟩
  rcases le_or_gt (norm2 (mat i)) limit with h | h
  · rw [h1 h]; exact h
  · exact (h2 h).1.le

/-- **C43** (norm constraint): one-dimensional views (biases) are left alone. -/
theorem C43_norm_bias {r c : ℕ} (limit big : ℝ) (rank : ℕ) (hr : rank < 2) (mat : Fin r → Fin c → ℝ) :
    constrainL2 limit big rank mat = mat := by
  unfold constrainL2
  rw [if_pos hr]

/-- **C43** (the norm constraint is idempotent). -/
theorem C43_norm_idempotent {r c : ℕ} (limit big : ℝ) (hl : 0 < limit) (hb : 1 ≤ big) (rank : ℕ) (mat : Fin r → Fin c → ℝ)
    (hbig : ∀ i, norm2 (mat i) ≤ limit * big) :
    constrainL2 limit big rank (constrainL2 limit big rank mat) = constrainL2 limit big rank mat := by
  rcases Nat.lt_or_ge rank 2 with h | h
  · rw [C43_norm_bias limit big rank h]
  · funext i
    have h1 := (C43_norm limit big hl hb rank h mat i (hbig i)).1
    have h2 : limit ≤ limit * big := by nlinarith
    exact (C43_norm limit big hl hb rank h (constrainL2 limit big rank mat) i (h1.trans h2)).2.1 h1

/-- Non-vacuity: the rows (3, 4) and (0, 1) with limit 1. -/
example : (∀ i, norm2 ((fun i j => if i = 0 then (if j = 0 then 3 else 4) else (if j = 0 then 0 else 1) : Fin 2 → Fin 2 → ℝ) i) ≤ 1 * 100) := by
  intro i
  unfold norm2
  rw [Fin.sum_univ_two]
  rw [Real.sqrt_le_left (by norm_num)]
  fin_cases i <;> norm_num

variable {T : Type} [DecidableEq T]

theorem mask_run_eq : ∀ (history : List (T × (ι → ℝ))) (s : MaskState T ι), (∀ d, s.device = some d → d.content = s.mask) →
    s.run history = history.map (fun tv => fun i => tv.2 i * s.mask i) := by
  intro history
  induction history with
  | nil => intro s _; rfl
  | cons tv rest ih =>
    obtain ⟨t, v⟩ := tv
    intro s hs
    have hc : (cached s.device t s.mask).content = s.mask := by
      unfold cached
      split
      · rfl
      · rename_i d hd
        split
        · exact hs d hd
        · rfl
    simp only [MaskState.run, List.map_cons, MaskState.call]
    rw [hc, ih _ (by intro d hd; simp only [Option.some.injEq] at hd; subst hd; exact hc)]

/-- **C43** (masking): in every application, whatever the handler and the applications before, the
weights with mask 0 become zero and those with mask 1 stay as they are. -/
theorem C43_mask (mask : ι → ℝ) (history : List (T × (ι → ℝ))) (n : ℕ) (t : T) (view : ι → ℝ) (h : history[n]? = some (t, view)) :
    ∃ out, ((⟨mask, none⟩ : MaskState T ι).run history)[n]? = some out ∧
      ∀ i, (mask i = 0 → out i = 0) ∧ (mask i = 1 → out i = view i) := by
  rw [mask_run_eq history ⟨mask, none⟩ (by simp)]
  rw [List.getElem?_map, h]
  refine ⟨_, rfl, fun i => ⟨fun hm => by simp [hm], fun hm => by simp [hm]⟩⟩

/-- **C43** (masking with zeros and ones is idempotent). -/
theorem C43_mask_idempotent (mask : ι → ℝ) (h01 : ∀ i, mask i = 0 ∨ mask i = 1) (t t' : T) (view out out' : ι → ℝ)
    (h : (⟨mask, none⟩ : MaskState T ι).run [(t, view), (t', out)] = [out, out']) : out' = out := by
  rw [mask_run_eq _ ⟨mask, none⟩ (by simp)] at h
  simp only [List.map_cons, List.map_nil, List.cons.injEq, and_true] at h
  funext i
  rw [← h.2, ← h.1]
  rcases h01 i with e | e <;> simp [e]

/-- Non-vacuity: masking two weights, with handlers of two types in turn. -/
example : ∃ out out' : Bool → ℝ, (⟨fun b => if b then 1 else 0, none⟩ : MaskState Bool Bool).run
    [(true, fun _ => 3), (false, out)] = [out, out'] ∧ out true = 3 ∧ out false = 0 := by
  refine ⟨fun b => 3 * if b then 1 else 0, fun b => (3 * if b then 1 else 0) * if b then 1 else 0, ?_, ?_, ?_⟩
  · rw [mask_run_eq _ _ (by simp)]
    rfl
  · norm_num
  · norm_num

/-! ### C44 -/

theorem freeze_run_some : ∀ (history : List (T × (ι → ℝ))) (s : FreezeState T ι) (w : ι → ℝ), s.weights = some w →
    (∀ d, s.device = some d → d.content = w) → s.run history = history.map (fun _ => w) := by
  intro history
  induction history with
  | nil => intro s w _ _; rfl
  | cons tv rest ih =>
    obtain ⟨t, v⟩ := tv
    intro s w hw hs
    have hc : (cached s.device t w).content = w := by
      unfold cached
      split
      · rfl
      · rename_i d hd
        split
        · exact hs d hd
        · rfl
    simp only [FreezeState.run, List.map_cons, FreezeState.call, hw, Option.getD_some]
    rw [hc, ih _ w rfl (by intro d hd; simp only [Option.some.injEq] at hd; subst hd; exact hc)]

/-- **C44**: a `FreezeValues` object created without weights keeps the weights at what it saw in
its first application, and one created with weights keeps them at these, in every application,
whatever the updates in between and the handlers. -/
theorem C44_frozen (weights : Option (ι → ℝ)) (t : T) (view : ι → ℝ) (history : List (T × (ι → ℝ))) :
    ∀ out ∈ (⟨weights, none⟩ : FreezeState T ι).run ((t, view) :: history), out = weights.getD view := by
  intro out hout
  cases weights with
  | some w =>
    rw [freeze_run_some _ _ w rfl (by simp)] at hout
    simp only [List.mem_map] at hout
    obtain ⟨-, -, h⟩ := hout
    exact h.symm
  | none =>
    simp only [FreezeState.run, FreezeState.call, cached, Option.getD_none] at hout
    rw [freeze_run_some history _ view rfl (by intro d hd; simp only [Option.some.injEq] at hd; subst hd; rfl)] at hout
    simp only [List.mem_cons, List.mem_map] at hout
    rcases hout with h | ⟨-, -, h⟩
    · exact h
    · exact h.symm

/-- One application is recorded for each entry of the history. -/
theorem C44_applications (s : FreezeState T ι) (history : List (T × (ι → ℝ))) : (s.run history).length = history.length := by
  induction history generalizing s with
  | nil => rfl
  | cons tv rest ih => simp [FreezeState.run, ih]

/-! ### C45 -/

/-- **C45** (values): the new gradients. -/
theorem C45_values (factor : ℝ) (p g : ι → ℝ) (i : ι) :
    l1Decay factor p g i = g i + factor * (if 0 < p i then 1 else if p i < 0 then -1 else 0) ∧
    l2Decay factor p g i = g i + factor * p i := by
  refine ⟨?_, rfl⟩
  unfold l1Decay
  simp only
  rcases lt_trichotomy (p i) 0 with h | h | h
  · rw [Real.sign_of_neg h, if_neg (not_lt.2 h.le), if_pos h]
  · rw [h, Real.sign_zero]; simp
  · rw [Real.sign_of_pos h, if_pos h]

/-- **C45** (L2): if `g` is the gradient of a loss at `p`, the modified gradient is the gradient of
the loss plus `factor/2` times the sum of squares: along every curve through `p` the derivative of
the regularised loss is given by it. -/
theorem C45_l2_gradient [Fintype ι] (factor : ℝ) (loss : (ι → ℝ) → ℝ) (g : ι → ℝ) (w : ℝ → ι → ℝ) (s : ℝ) (d : ι → ℝ)
    (hw : ∀ i, HasDerivAt (fun s => w s i) (d i) s)
    (hloss : HasDerivAt (fun s => loss (w s)) (∑ i, g i * d i) s) :
    HasDerivAt (fun s => loss (w s) + ∑ i, factor * (w s i) ^ 2 / 2) (∑ i, l2Decay factor (w s) g i * d i) s := by
  have h := hloss.add (HasDerivAt.fun_sum (u := univ) (fun i _ => (((hw i).pow 2).const_mul factor).div_const 2))
  refine HasDerivAt.congr_deriv h ?_
  rw [← sum_add_distrib]
  refine sum_congr rfl (fun i _ => ?_)
  unfold l2Decay
  simp
  ring

/-- **C45** (L1): the same with `factor` times the sum of absolute values, if no parameter is 0. -/
theorem C45_l1_gradient [Fintype ι] (factor : ℝ) (loss : (ι → ℝ) → ℝ) (g : ι → ℝ) (w : ℝ → ι → ℝ) (s : ℝ) (d : ι → ℝ)
    (hne : ∀ i, w s i ≠ 0) (hw : ∀ i, HasDerivAt (fun s => w s i) (d i) s)
    (hloss : HasDerivAt (fun s => loss (w s)) (∑ i, g i * d i) s) :
    HasDerivAt (fun s => loss (w s) + ∑ i, factor * |w s i|) (∑ i, l1Decay factor (w s) g i * d i) s := by
  have habs : ∀ i, HasDerivAt (fun s => |w s i|) (Real.sign (w s i) * d i) s := by
    intro i
    have h1 : HasDerivAt (fun x : ℝ => |x|) (Real.sign (w s i)) (w s i) := by
      rcases lt_or_gt_of_ne (hne i) with h | h
      · rw [Real.sign_of_neg h]; exact hasDerivAt_abs_neg h
      · rw [Real.sign_of_pos h]; exact hasDerivAt_abs_pos h
    exact h1.comp s (hw i)
  have h := hloss.add (HasDerivAt.fun_sum (u := univ) (fun i _ => (habs i).const_mul factor))
  refine HasDerivAt.congr_deriv h ?_
  rw [← sum_add_distrib]
  refine sum_congr rfl (fun i _ => ?_)
  unfold l1Decay
  simp only
  ring

/-- Non-vacuity: loss `w₀ + 2 w₁` along the line `(1 + s, 2 - s)`. -/
example : ∃ (loss : (Bool → ℝ) → ℝ) (g : Bool → ℝ) (w : ℝ → Bool → ℝ) (d : Bool → ℝ), (∀ i, w 0 i ≠ 0) ∧
    (∀ i, HasDerivAt (fun s => w s i) (d i) 0) ∧ HasDerivAt (fun s => loss (w s)) (∑ i, g i * d i) 0 := by
  refine ⟨fun w => w false + 2 * w true, fun b => if b then 2 else 1, fun s b => if b then 2 - s else 1 + s,
    fun b => if b then -1 else 1, ?_, ?_, ?_⟩
  · intro i; cases i <;> norm_num
  · intro i
    cases i
    · simpa using (hasDerivAt_id (0 : ℝ)).const_add 1
    · simpa using (hasDerivAt_id (0 : ℝ)).const_sub 2
  · have h1 : HasDerivAt (fun s : ℝ => 1 + s) 1 0 := by simpa using (hasDerivAt_id (0 : ℝ)).const_add 1
    have h2 : HasDerivAt (fun s : ℝ => 2 - s) (-1) 0 := by simpa using (hasDerivAt_id (0 : ℝ)).const_sub 2
    have h := h1.add (h2.const_mul 2)
    refine HasDerivAt.congr_deriv h ?_
    simp [Fintype.sum_bool]
    norm_num

end Verif.Modifiers
