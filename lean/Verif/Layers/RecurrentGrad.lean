import Verif.Layers.Recurrent

/-!
# Gradients of the Recurrent and Clockwork layers (C22): backpropagation through time
-/

namespace Verif.Layers

noncomputable section

variable {β φ ψ : Type}

/-- The moving parameters. -/
structure RnnMoves (p : ℝ → RnnParams φ ψ) (p' : RnnParams φ ψ) : Prop where
  W : Moves (fun s => (p s).W) p'.W
  R : Moves (fun s => (p s).R) p'.R
  bias : MovesV (fun s => (p s).bias) p'.bias

theorem Moves.dot [Fintype φ] {ρ : Type} {X : ℝ → M ρ φ} {X' : M ρ φ} {W : ℝ → M ψ φ} {W' : M ψ φ}
    (hX : Moves X X') (hW : Moves W W') :
    Moves (fun s => fun r j => ∑ k, X s r k * W s j k)
      (fun r j => ∑ k, X' r k * W 0 j k + ∑ k, X 0 r k * W' j k) := by
  intro r j
  refine (HasDerivAt.fun_sum (u := Finset.univ) (fun k _ => (hX r k).mul (hW j k))).congr_deriv ?_
  rw [Finset.sum_add_distrib]

variable [Fintype β] [Fintype φ] [Fintype ψ]

/-- The state before step `t`. -/
def before (ctx : M β ψ) (h : ℕ → M β ψ) (t : ℕ) : M β ψ := if t = 0 then ctx else h (t - 1)


open Classical in
/-- Backpropagation through time for units that either copy their previous value (`c t j`) or
update.  `e` and `g` satisfy the recurrences of the backward pass. -/
theorem bptt (a : Act) (N : ℕ) (c : ℕ → ψ → Prop)
    (X : ℝ → ℕ → M β φ) (X' : ℕ → M β φ) (hX : ∀ t < N, Moves (fun s => X s t) (X' t))
    (p : ℝ → RnnParams φ ψ) (p' : RnnParams φ ψ) (hp : RnnMoves p p') (ctx : M β ψ)
    (h pre : ℝ → ℕ → M β ψ)
    (hpre : ∀ s, ∀ t < N, ∀ b j, pre s t b j = ∑ k, X s t b k * (p s).W j k + (p s).bias j +
      ∑ i, before ctx (h s) t b i * (p s).R j i)
    (hrec : ∀ s, ∀ t < N, ∀ b j, h s t b j = if c t j then before ctx (h s) t b j else a.f (pre s t b j))
    (smooth : ∀ t < N, ∀ b j, ¬ c t j → a.Smooth (pre 0 t b j))
    (δ e g : ℕ → M β ψ)
    (he : ∀ t < N, ∀ b i, e t b i = δ t b i + (if c (t + 1) i then e (t + 1) b i else 0) + ∑ j, g (t + 1) b j * (p 0).R j i)
    (hg : ∀ t < N, ∀ b j, g t b j = if c t j then 0 else a.d (h 0 t b j) (e t b j))
    (eN : ∀ b j, e N b j = 0) (gN : ∀ b j, g N b j = 0) :
    HasDerivAt (fun s => ∑ t ∈ Finset.range N, inner (δ t) (h s t))
      (∑ t ∈ Finset.range N, (inner (fun b k => ∑ j, g t b j * (p 0).W j k) (X' t) +
        inner (fun j k => ∑ b, g t b j * X 0 t b k) p'.W + innerV (fun j => ∑ b, g t b j) p'.bias +
        inner (fun j i => ∑ b, g t b j * before ctx (h 0) t b i) p'.R)) 0 := by
  -- velocities
  let vel : ℕ → M β ψ → M β ψ := fun t q b j =>
    if c t j then q b j else a.d (h 0 t b j) 1 *
      (((∑ k, X' t b k * (p 0).W j k + ∑ k, X 0 t b k * p'.W j k) + p'.bias j) +
        (∑ i, q b i * (p 0).R j i + ∑ i, before ctx (h 0) t b i * p'.R j i))
  let hv : ℕ → M β ψ := fun t => Nat.rec (vel 0 (fun _ _ => 0)) (fun t q => vel (t + 1) q) t
  have hv0 : hv 0 = vel 0 (fun _ _ => 0) := rfl
  have hvs : ∀ t, hv (t + 1) = vel (t + 1) (hv t) := fun t => rfl
  let bv : ℕ → M β ψ := fun t => before (fun _ _ => 0) hv t
  have hbv : ∀ t, hv t = vel t (bv t) := by
    intro t
    cases t with
    | zero => rfl
    | succ t => rfl
  have stepm : ∀ t < N, Moves (fun s => before ctx (h s) t) (bv t) → Moves (fun s => h s t) (hv t) := by
    intro t ht hb b j
    have e1 : (fun s => h s t b j) = fun s => if c t j then before ctx (h s) t b j else a.f (pre s t b j) :=
      funext fun s => hrec s t ht b j
    rw [e1, hbv t]
    by_cases hc : c t j
    · simp only [if_pos hc, vel]
      exact hb b j
    · simp only [if_neg hc, vel]
      have hm : HasDerivAt (fun s => pre s t b j)
          (((∑ k, X' t b k * (p 0).W j k + ∑ k, X 0 t b k * p'.W j k) + p'.bias j) +
        (∑ i, bv t b i * (p 0).R j i + ∑ i, before ctx (h 0) t b i * p'.R j i)) 0 := by
        have e2 : (fun s => pre s t b j) = fun s => ∑ k, X s t b k * (p s).W j k + (p s).bias j +
            ∑ i, before ctx (h s) t b i * (p s).R j i := funext fun s => hpre s t ht b j
        rw [e2]
        exact (Moves.affine (hX t ht) hp.W hp.bias b j).add (Moves.dot hb hp.R b j)
      have := (a.hasDerivAt (smooth t ht b j hc)).comp (0 : ℝ) hm
      have e3 : h 0 t b j = a.f (pre 0 t b j) := by rw [hrec 0 t ht b j, if_neg hc]
      rw [e3]
      exact this
  have hmov : ∀ t < N, Moves (fun s => h s t) (hv t) := by
    intro t
    induction t with
    | zero =>
      intro ht
      exact stepm 0 ht (fun b j => hasDerivAt_const _ _)
    | succ t ih =>
      intro ht
      exact stepm (t + 1) ht (ih (by omega))
  have hd : HasDerivAt (fun s => ∑ t ∈ Finset.range N, inner (δ t) (h s t))
      (∑ t ∈ Finset.range N, inner (δ t) (hv t)) 0 :=
    HasDerivAt.fun_sum (fun t ht => inner_hasDerivAt (δ t) (hmov t (Finset.mem_range.1 ht)))
  refine hd.congr_deriv ?_
  -- telescoping
  let u : ℕ → ℝ := fun t => inner (fun b i => (if c t i then e t b i else 0) + ∑ j, g t b j * (p 0).R j i) (bv t)
  refine sum_telescope N _ _ u ?_ ?_ ?_
  · intro t ht
    -- ⟨δ, h'⟩ = ⟨e, h'⟩ - u (t + 1)
    have h1 : inner (δ t) (hv t) = inner (e t) (hv t) - u (t + 1) := by
      have : bv (t + 1) = hv t := rfl
      simp only [u, this]
      unfold inner
      rw [← Finset.sum_sub_distrib]
      refine Finset.sum_congr rfl fun b _ => ?_
      rw [← Finset.sum_sub_distrib]
      refine Finset.sum_congr rfl fun i _ => ?_
      rw [he t ht b i]
      ring
    -- ⟨e, h'⟩ in terms of the velocity of the input of the activation function
    have h2 : inner (e t) (hv t) = inner (fun b i => if c t i then e t b i else 0) (bv t) +
        inner (g t) (fun b j => ((∑ k, X' t b k * (p 0).W j k + ∑ k, X 0 t b k * p'.W j k) + p'.bias j) +
        (∑ i, bv t b i * (p 0).R j i + ∑ i, before ctx (h 0) t b i * p'.R j i)) := by
      rw [hbv t]
      unfold inner
      rw [← Finset.sum_add_distrib]
      refine Finset.sum_congr rfl fun b _ => ?_
      rw [← Finset.sum_add_distrib]
      refine Finset.sum_congr rfl fun j _ => ?_
      rw [hg t ht b j]
      by_cases hc : c t j
      · simp only [vel, if_pos hc]; ring
      · simp only [vel, if_neg hc]
        rw [Act.d_linear a _ (e t b j)]
        ring
    have h3 : u t = inner (fun b i => if c t i then e t b i else 0) (bv t) +
        inner (g t) (fun b j => ∑ i, bv t b i * (p 0).R j i) := by
      rw [inner_affine_left]
      simp only [u]
      unfold inner
      rw [← Finset.sum_add_distrib]
      refine Finset.sum_congr rfl fun b _ => ?_
      rw [← Finset.sum_add_distrib]
      refine Finset.sum_congr rfl fun j _ => ?_
      ring
    rw [h1, h2, h3]
    rw [inner_add (g t) (fun b j => (∑ k, X' t b k * (p 0).W j k + ∑ k, X 0 t b k * p'.W j k) + p'.bias j)
      (fun b j => ∑ i, bv t b i * (p 0).R j i + ∑ i, before ctx (h 0) t b i * p'.R j i),
      inner_add (g t) (fun b j => ∑ k, X' t b k * (p 0).W j k + ∑ k, X 0 t b k * p'.W j k) (fun _ j => p'.bias j),
      inner_add (g t) (fun b j => ∑ k, X' t b k * (p 0).W j k), inner_add (g t) (fun b j => ∑ i, bv t b i * (p 0).R j i),
      inner_affine_left (g t) (X' t), inner_affine_right (g t) (X 0 t) p'.W, inner_bias,
      inner_affine_right (g t) (before ctx (h 0) t) p'.R]
    ring
  · show inner _ (bv 0) = 0
    unfold inner
    simp [bv, before]
  · show inner _ (bv N) = 0
    unfold inner
    simp [eN, gN]

/-! ## From the loops to the recurrences -/

omit [Fintype β] [Fintype φ] [Fintype ψ] in
theorem before_prevRow {N : ℕ} {fwd : ℕ → RnnRow β ψ} {t : ℕ} :
    (fwd (prevRow N t)).out = before (fwd N).out (fun t => (fwd t).out) t := by
  unfold before prevRow
  split <;> rfl

omit [Fintype β] in
theorem sum_inner (N : ℕ) (A : ℕ → M ψ φ) (B : M ψ φ) :
    ∑ t ∈ Finset.range N, inner (A t) B = inner (fun i k => ∑ t ∈ Finset.range N, A t i k) B := by
  unfold inner
  rw [Finset.sum_comm]
  refine Finset.sum_congr rfl fun i _ => ?_
  rw [Finset.sum_comm]
  refine Finset.sum_congr rfl fun k _ => ?_
  rw [Finset.sum_mul]

/-- The sums of the gradient part of the backward passes, as contributions of the time steps. -/
theorem rnnGrads_inner {N : ℕ} (hN : 0 < N) (x : ℕ → M β φ) (p : RnnParams φ ψ) (fwd : ℕ → RnnRow β ψ)
    (rows : ℕ → RnnBackRow β ψ) (dinputs : ℕ → M β φ) (grads : RnnParams φ ψ) (X' : ℕ → M β φ) (p' : RnnParams φ ψ) :
    let back := rnnGrads N x p fwd rows dinputs grads
    (∑ t ∈ Finset.range N, inner (back.dinputs t - dinputs t) (X' t)) + inner (back.grads.W - grads.W) p'.W +
      inner (back.grads.R - grads.R) p'.R + innerV (back.grads.bias - grads.bias) p'.bias =
    ∑ t ∈ Finset.range N, (inner (fun b k => ∑ j, (rows t).dHa b j * p.W j k) (X' t) +
        inner (fun j k => ∑ b, (rows t).dHa b j * x t b k) p'.W + innerV (fun j => ∑ b, (rows t).dHa b j) p'.bias +
        inner (fun j i => ∑ b, (rows t).dHa b j * before (fwd N).out (fun t => (fwd t).out) t b i) p'.R) := by
  intro back
  have e1 : ∀ t ∈ Finset.range N, inner (back.dinputs t - dinputs t) (X' t) =
      inner (fun b k => ∑ j, (rows t).dHa b j * p.W j k) (X' t) := by
    intro t ht
    refine inner_congr fun b k => ?_
    show ((if t < N then dotAddMM (rows t).dHa p.W (dinputs t) else dinputs t) b k - dinputs t b k) * _ = _
    rw [if_pos (Finset.mem_range.1 ht)]
    show (dinputs t b k + ∑ j, (rows t).dHa b j * p.W j k - dinputs t b k) * _ = _
    rw [add_sub_cancel_left]
  have e2 : inner (back.grads.W - grads.W) p'.W =
      ∑ t ∈ Finset.range N, inner (fun j k => ∑ b, (rows t).dHa b j * x t b k) p'.W := by
    rw [sum_inner]
    refine inner_congr fun j k => ?_
    show (grads.W j k + (∑ t ∈ Finset.range N, ∑ b, (rows t).dHa b j * x t b k) - grads.W j k) * p'.W j k = _
    rw [add_sub_cancel_left]
  have e3 : innerV (back.grads.bias - grads.bias) p'.bias =
      ∑ t ∈ Finset.range N, innerV (fun j => ∑ b, (rows t).dHa b j) p'.bias := by
    unfold innerV
    rw [Finset.sum_comm]
    refine Finset.sum_congr rfl fun j _ => ?_
    show (grads.bias j + (∑ t ∈ Finset.range N, ∑ b, (rows t).dHa b j) - grads.bias j) * p'.bias j = _
    rw [add_sub_cancel_left, Finset.sum_mul]
  have e4 : inner (back.grads.R - grads.R) p'.R = ∑ t ∈ Finset.range N,
      inner (fun j i => ∑ b, (rows t).dHa b j * before (fwd N).out (fun t => (fwd t).out) t b i) p'.R := by
    rw [sum_inner]
    refine inner_congr fun j i => ?_
    show (grads.R j i + (∑ t ∈ Finset.range (N - 1), ∑ b, (rows (t + 1)).dHa b j * (fwd t).out b i) +
      (∑ b, (rows 0).dHa b j * (fwd N).out b i) - grads.R j i) * p'.R j i = _
    obtain ⟨n, rfl⟩ : ∃ n, N = n + 1 := ⟨N - 1, by omega⟩
    rw [Finset.sum_range_succ']
    congr 1
    simp only [Nat.add_sub_cancel]
    show _ = (∑ t ∈ Finset.range n, ∑ b, (rows (t + 1)).dHa b j * (fwd t).out b i) + ∑ b, (rows 0).dHa b j * (fwd (n + 1)).out b i
    ring
  rw [Finset.sum_congr rfl e1, e2, e3, e4]
  simp only [Finset.sum_add_distrib]
  ring

/-- **C22 (Recurrent).**  For every number of time steps, with any context (which does not move: the backward pass
computes no deltas for it) and any old contents of all arrays. -/
theorem C22_recurrent (a : Act) (N : ℕ) (hN : 0 < N) (X : ℝ → ℕ → M β φ) (X' : ℕ → M β φ)
    (hX : ∀ t < N, Moves (fun s => X s t) (X' t)) (p : ℝ → RnnParams φ ψ) (p' : RnnParams φ ψ) (hp : RnnMoves p p')
    (st : ℕ → RnnRow β ψ) (stb : ℕ → RnnBackRow β ψ) (δ : ℕ → M β ψ) (dinputs : ℕ → M β φ) (grads : RnnParams φ ψ)
    (smooth : ∀ t < N, ∀ b j, a.Smooth ((rnnForward a N (X 0) (p 0) st t).Ha b j)) :
    let back := rnnBackward a N (X 0) (p 0) (rnnForward a N (X 0) (p 0) st) δ stb dinputs grads
    HasDerivAt (fun s => ∑ t ∈ Finset.range N, inner (δ t) (rnnForward a N (X s) (p s) st t).out)
      ((∑ t ∈ Finset.range N, inner (back.dinputs t - dinputs t) (X' t)) + inner (back.grads.W - grads.W) p'.W +
        inner (back.grads.R - grads.R) p'.R + innerV (back.grads.bias - grads.bias) p'.bias) 0 := by
  intro back
  set fwd := rnnForward a N (X 0) (p 0) st with hfwd
  set rows := scanBwd (N - 1) (rnnBackStep a (p 0) fwd) (rnnBackInit a N fwd δ stb) with hrows
  have hctx : ∀ s, (rnnForward a N (X s) (p s) st N).out = (st N).out := by
    intro s
    unfold rnnForward
    rw [(scanFwd_spec N (rnnStep a (p s)) (rnnPre N (X s) (p s) st)).2 N le_rfl]
    unfold rnnPre
    rw [if_neg (lt_irrefl N)]
  have hrowF : ∀ s, ∀ t < N, rnnForward a N (X s) (p s) st t = rnnStep a (p s) t (rnnPre N (X s) (p s) st t)
      (rnnForward a N (X s) (p s) st (prevRow N t)) := fun s t ht => (scanFwd_spec N _ _).1 t ht
  have hprev : ∀ s t, (rnnForward a N (X s) (p s) st (prevRow N t)).out =
      before (st N).out (fun t => (rnnForward a N (X s) (p s) st t).out) t := by
    intro s t
    rw [before_prevRow, hctx]
  obtain ⟨b1, b2⟩ := scanBwd_spec (N - 1) (rnnBackStep a (p 0) fwd) (rnnBackInit a N fwd δ stb)
  rw [← hrows] at b1 b2
  let g : ℕ → M β ψ := fun t => if t < N then (rows t).dHa else fun _ _ => 0
  let e : ℕ → M β ψ := fun t => if t < N then (rows t).dHb else fun _ _ => 0
  have hinit : ∀ t < N - 1, (rnnBackInit a N fwd δ stb t).dHb = δ t := by
    intro t ht
    unfold rnnBackInit
    rw [Function.update_of_ne (by omega)]
    exact if_pos (by omega)
  have hlast : rows (N - 1) = ⟨actD a (fwd (N - 1)).out (δ (N - 1)) (stb (N - 1)).dHa, δ (N - 1)⟩ := by
    rw [b2 (N - 1) le_rfl]
    unfold rnnBackInit
    rw [Function.update_self]
    dsimp only
    rw [if_pos (by omega)]
  have main := bptt a N (fun _ _ => False) X X' hX p p' hp (st N).out
    (fun s t => (rnnForward a N (X s) (p s) st t).out) (fun s t => (rnnForward a N (X s) (p s) st t).Ha)
    (by
      intro s t ht b j
      rw [hrowF s t ht, rnnStep]
      dsimp only
      unfold dotAddMM tr
      rw [hprev s t]
      congr 1
      unfold rnnPre
      rw [if_pos ht]
      rfl)
    (by
      intro s t ht b j
      rw [if_neg not_false, hrowF s t ht]
      rfl)
    (fun t ht b j _ => smooth t ht b j) δ e g
    (by
      intro t ht b i
      simp only [if_false, add_zero, e, g, if_pos ht]
      by_cases hl : t + 1 < N
      · simp only [if_pos hl]
        rw [b1 t (by omega), rnnBackStep]
        dsimp only
        unfold dotAddMM
        rw [hinit t (by omega)]
      · simp only [if_neg hl, zero_mul, Finset.sum_const_zero, add_zero]
        have : t = N - 1 := by omega
        rw [this, hlast])
    (by
      intro t ht b j
      simp only [if_false, e, g, if_pos ht]
      by_cases hl : t + 1 < N
      · rw [b1 t (by omega)]
        rfl
      · have : t = N - 1 := by omega
        rw [this, hlast]
        rfl)
    (by intro b j; simp [e]) (by intro b j; simp [g])
  refine main.congr_deriv ?_
  have := rnnGrads_inner hN (X 0) (p 0) fwd rows dinputs grads X' p'
  rw [show back = rnnGrads N (X 0) (p 0) fwd rows dinputs grads from rfl, this]
  refine Finset.sum_congr rfl fun t ht => ?_
  have ht := Finset.mem_range.1 ht
  have hc : (fwd N).out = (st N).out := hctx 0
  simp only [g, if_pos ht]
  rw [hc]

/-! ## Clockwork -/

/-- Which units keep their value in step `t`. -/
def keeps (timing : V ψ) (t : ℕ) (j : ψ) : Prop := 0 < t ∧ cwHolds timing t j

open Classical in
omit [Fintype β] [Fintype φ] in
theorem cwBack_spec (a : Act) (p : RnnParams φ ψ) (timing : V ψ) (fwd : ℕ → RnnRow β ψ) (k : ℕ) (r0 : ℕ → RnnBackRow β ψ) :
    let fin := (List.range k).reverse.foldl (cwBackBody a p timing fwd) r0
    (∀ t, k < t → fin t = r0 t) ∧
    (fin k = ⟨fun b j => if keeps timing k j then 0 else (r0 k).dHa b j, (r0 k).dHb⟩) ∧
    ∀ t < k,
      (fin t).dHb = (fun b i => (r0 t).dHb b i + (if keeps timing (t + 1) i then (fin (t + 1)).dHb b i else 0) +
        ∑ j, (fin (t + 1)).dHa b j * p.R j i) ∧
      (fin t).dHa = fun b j => if keeps timing t j then 0 else a.d ((fwd t).out b j) ((fin t).dHb b j) := by
  induction k generalizing r0 with
  | zero =>
    refine ⟨fun t _ => rfl, ?_, by intro t ht; omega⟩
    have : ∀ j, ¬ keeps timing 0 j := fun j h => lt_irrefl 0 h.1
    simp only [if_neg (this _)]
    rfl
  | succ k ih =>
    dsimp only
    rw [List.range_succ, List.reverse_append, List.reverse_singleton, List.singleton_append, List.foldl_cons]
    obtain ⟨i1, i2, i3⟩ := ih (cwBackBody a p timing fwd r0 k)
    set r1 := cwBackBody a p timing fwd r0 k with hr1
    set fin := (List.range k).reverse.foldl (cwBackBody a p timing fwd) r1 with hfin
    have kk : ∀ t j, keeps timing (t + 1) j ↔ cwHolds timing (t + 1) j := fun t j =>
      ⟨fun h => h.2, fun h => ⟨Nat.succ_pos t, h⟩⟩
    have hne : ∀ t, t ≠ k → t ≠ k + 1 → r1 t = r0 t := by
      intro t h1 h2
      rw [hr1]
      unfold cwBackBody
      rw [Function.update_of_ne h1, Function.update_of_ne h2, Function.update_of_ne h1]
    have hk1 : r1 (k + 1) = ⟨fillIf (r0 (k + 1)).dHa 0 (cwHolds timing (k + 1)), (r0 (k + 1)).dHb⟩ := by
      rw [hr1]
      unfold cwBackBody
      rw [Function.update_of_ne (by omega), Function.update_self, Function.update_of_ne (by omega)]
    have hk : r1 k = ⟨actD a (fwd k).out (dotAddMM (r1 (k + 1)).dHa p.R
        (addIntoIf (r0 (k + 1)).dHb (r0 k).dHb (cwHolds timing (k + 1)))) (r0 k).dHa,
        dotAddMM (r1 (k + 1)).dHa p.R (addIntoIf (r0 (k + 1)).dHb (r0 k).dHb (cwHolds timing (k + 1)))⟩ := by
      rw [hk1]
      rw [hr1]
      unfold cwBackBody
      simp only [Function.update_self, Function.update_of_ne (show k ≠ k + 1 by omega),
        Function.update_of_ne (show k + 1 ≠ k by omega)]
    have hfk1 : fin (k + 1) = r1 (k + 1) := i1 (k + 1) (by omega)
    have key1 : fin (k + 1) = ⟨fun b j => if keeps timing (k + 1) j then 0 else (r0 (k + 1)).dHa b j, (r0 (k + 1)).dHb⟩ := by
      rw [hfk1, hk1]
      unfold fillIf
      simp only [kk]
    refine ⟨?_, key1, ?_⟩
    · intro t ht
      rw [i1 t (by omega), hne t (by omega) (by omega)]
    · intro t ht
      rcases Nat.lt_succ_iff_lt_or_eq.1 ht with h | h
      · obtain ⟨j1, j2⟩ := i3 t h
        refine ⟨?_, j2⟩
        rw [j1, hne t (by omega) (by omega)]
      · subst h
        have hb : (fin t).dHb = (r1 t).dHb := by rw [i2]
        have hb' : (r1 t).dHb = dotAddMM (r1 (t + 1)).dHa p.R
            (addIntoIf (r0 (t + 1)).dHb (r0 t).dHb (cwHolds timing (t + 1))) := by rw [hk]
        constructor
        · rw [hb, hb', ← hfk1]
          funext b i
          unfold dotAddMM addIntoIf
          simp only [kk]
          have : (fin (t + 1)).dHb = (r0 (t + 1)).dHb := by rw [hfk1, hk1]
          rw [this]
          by_cases hc : cwHolds timing (t + 1) i
          · simp only [if_pos hc]
          · simp only [if_neg hc, add_zero]
        · have ha : (r1 t).dHa = actD a (fwd t).out (r1 t).dHb (r0 t).dHa := by rw [hk]
          rw [hb]
          rw [i2]
          dsimp only
          rw [ha]
          rfl

/-- **C22 (Clockwork).**  With respect to everything but `timing`, which gets no gradient: for every number of time steps,
timings and contexts. -/
theorem C22_clockwork (a : Act) (N : ℕ) (hN : 0 < N) (X : ℝ → ℕ → M β φ) (X' : ℕ → M β φ)
    (hX : ∀ t < N, Moves (fun s => X s t) (X' t)) (p : ℝ → RnnParams φ ψ) (p' : RnnParams φ ψ) (hp : RnnMoves p p')
    (timing : V ψ)
    (st : ℕ → RnnRow β ψ) (stb : ℕ → RnnBackRow β ψ) (δ : ℕ → M β ψ) (dinputs : ℕ → M β φ) (grads : RnnParams φ ψ)
    (smooth : ∀ t < N, ∀ b j, a.Smooth ((cwForward a N (X 0) (p 0) timing st t).Ha b j)) :
    let back := cwBackward a N (X 0) (p 0) timing (cwForward a N (X 0) (p 0) timing st) δ stb dinputs grads
    HasDerivAt (fun s => ∑ t ∈ Finset.range N, inner (δ t) (cwForward a N (X s) (p s) timing st t).out)
      ((∑ t ∈ Finset.range N, inner (back.dinputs t - dinputs t) (X' t)) + inner (back.grads.W - grads.W) p'.W +
        inner (back.grads.R - grads.R) p'.R + innerV (back.grads.bias - grads.bias) p'.bias) 0 := by
  classical
  intro back
  set fwd := cwForward a N (X 0) (p 0) timing st with hfwd
  set rows := (List.range (N - 1)).reverse.foldl (cwBackBody a (p 0) timing fwd) (rnnBackInit a N fwd δ stb) with hrows
  have hctx : ∀ s, (cwForward a N (X s) (p s) timing st N).out = (st N).out := by
    intro s
    unfold cwForward
    rw [(scanFwd_spec N (cwStep a (p s) timing) (rnnPre N (X s) (p s) st)).2 N le_rfl]
    unfold rnnPre
    rw [if_neg (lt_irrefl N)]
  have hrowF : ∀ s, ∀ t < N, cwForward a N (X s) (p s) timing st t = cwStep a (p s) timing t (rnnPre N (X s) (p s) st t)
      (cwForward a N (X s) (p s) timing st (prevRow N t)) := fun s t ht => (scanFwd_spec N _ _).1 t ht
  have hprev : ∀ s t, (cwForward a N (X s) (p s) timing st (prevRow N t)).out =
      before (st N).out (fun t => (cwForward a N (X s) (p s) timing st t).out) t := by
    intro s t
    rw [before_prevRow, hctx]
  obtain ⟨b1, b2, b3⟩ := cwBack_spec a (p 0) timing fwd (N - 1) (rnnBackInit a N fwd δ stb)
  rw [← hrows] at b1 b2 b3
  let g : ℕ → M β ψ := fun t => if t < N then (rows t).dHa else fun _ _ => 0
  let e : ℕ → M β ψ := fun t => if t < N then (rows t).dHb else fun _ _ => 0
  have hinit : ∀ t < N - 1, (rnnBackInit a N fwd δ stb t).dHb = δ t := by
    intro t ht
    unfold rnnBackInit
    rw [Function.update_of_ne (by omega)]
    exact if_pos (by omega)
  have hlast : rnnBackInit a N fwd δ stb (N - 1) =
      ⟨actD a (fwd (N - 1)).out (δ (N - 1)) (stb (N - 1)).dHa, δ (N - 1)⟩ := by
    unfold rnnBackInit
    rw [Function.update_self]
    dsimp only
    rw [if_pos (by omega)]
  have main := bptt a N (keeps timing) X X' hX p p' hp (st N).out
    (fun s t => (cwForward a N (X s) (p s) timing st t).out) (fun s t => (cwForward a N (X s) (p s) timing st t).Ha)
    (by
      intro s t ht b j
      rw [hrowF s t ht, cwStep]
      dsimp only
      unfold dotAddMM tr
      rw [hprev s t]
      congr 1
      unfold rnnPre
      rw [if_pos ht]
      rfl)
    (by
      intro s t ht b j
      rw [hrowF s t ht]
      show (if t > 0 then copyToIf _ _ _ else _ : M β ψ) b j = _
      rw [hprev s t]
      by_cases h0 : 0 < t
      · rw [if_pos h0]
        unfold copyToIf
        by_cases hc : cwHolds timing t j
        · rw [if_pos hc, if_pos ⟨h0, hc⟩]
        · rw [if_neg hc, if_neg (fun h => hc h.2)]
          show _ = a.f ((cwStep a (p s) timing t _ _).Ha b j)
          unfold cwStep
          rw [hprev s t]
          rfl
      · rw [if_neg h0, if_neg (fun h => h0 h.1)]
        show _ = a.f ((cwStep a (p s) timing t _ _).Ha b j)
        unfold cwStep
        rw [hprev s t]
        rfl)
    (fun t ht b j _ => smooth t ht b j) δ e g
    (by
      intro t ht b i
      simp only [e, g, if_pos ht]
      by_cases hl : t + 1 < N
      · simp only [if_pos hl]
        rw [(b3 t (by omega)).1, hinit t (by omega)]
      · simp only [if_neg hl, zero_mul, Finset.sum_const_zero, add_zero, ite_self]
        have : t = N - 1 := by omega
        rw [this, b2, hlast])
    (by
      intro t ht b j
      simp only [e, g, if_pos ht]
      by_cases hl : t + 1 < N
      · rw [(b3 t (by omega)).2]
      · have : t = N - 1 := by omega
        rw [this, b2, hlast]
        rfl)
    (by intro b j; simp [e]) (by intro b j; simp [g])
  refine main.congr_deriv ?_
  have := rnnGrads_inner hN (X 0) (p 0) fwd rows dinputs grads X' p'
  rw [show back = rnnGrads N (X 0) (p 0) fwd rows dinputs grads from rfl, this]
  refine Finset.sum_congr rfl fun t ht => ?_
  have ht := Finset.mem_range.1 ht
  have hc : (fwd N).out = (st N).out := hctx 0
  simp only [g, if_pos ht]
  rw [hc]

end

end Verif.Layers
