import Verif.Layers.LstmGrad

/-!
# C22 for LSTM and ClockworkLstm

The backward pass takes the previous outputs and cell states in the first step to be zero when it
computes the gradients of the recurrent weights and of the peepholes of input and forget gate.
So the gradients are right if the context is zero (`C22_lstm_partial`); otherwise exactly the
terms in `lstmMissing` are missing (`C22_lstm_context`).
-/

namespace Verif.Layers

noncomputable section

variable {β φ ψ : Type} [Fintype β] [Fintype φ] [Fintype ψ]

/-- What the backward pass added, times the velocities. -/
def lstmComputed (N : ℕ) (back : LstmBack β φ ψ) (dx : ℕ → M β φ) (grads : LstmParams φ ψ) (X' : ℕ → M β φ)
    (p' : LstmParams φ ψ) : ℝ :=
  (∑ t ∈ Finset.range N, inner (back.dx t - dx t) (X' t)) +
  (∑ q, (inner (back.grads.W q - grads.W q) (p'.W q) + inner (back.grads.R q - grads.R q) (p'.R q) +
    innerV (back.grads.b q - grads.b q) (p'.b q))) +
  innerV (back.grads.pi - grads.pi) p'.pi + innerV (back.grads.pf - grads.pf) p'.pf + innerV (back.grads.po - grads.po) p'.po

/-- The contribution of the context to the gradients of recurrent weights and peepholes. -/
def lstmMissing (ctxY ctxC : M β ψ) (row0 : LstmBackRow β ψ) (p' : LstmParams φ ψ) : ℝ :=
  (∑ q, inner (fun j i => ∑ b, row0.da q b j * ctxY b i) (p'.R q)) +
  innerV (fun j => ∑ b, row0.dIa b j * ctxC b j) p'.pi + innerV (fun j => ∑ b, row0.dFa b j * ctxC b j) p'.pf

omit [Fintype β] [Fintype φ] in
theorem sum_innerV (N : ℕ) (A : ℕ → V ψ) (B : V ψ) :
    ∑ t ∈ Finset.range N, innerV (A t) B = innerV (fun i => ∑ t ∈ Finset.range N, A t i) B := by
  unfold innerV
  rw [Finset.sum_comm]
  refine Finset.sum_congr rfl fun i _ => ?_
  rw [Finset.sum_mul]

omit [Fintype φ] in
theorem innerV_congr {g a g' a' : V ψ} (h : ∀ j, g j * a j = g' j * a' j) : innerV g a = innerV g' a' := by
  unfold innerV
  exact Finset.sum_congr rfl fun j _ => h j

/-- The sums of the gradient part, as contributions of the time steps with zero context. -/
theorem lstmGrads_inner {N : ℕ} (hN : 0 < N) (x : ℕ → M β φ) (p : LstmParams φ ψ) (fwd : ℕ → LstmRow β ψ)
    (rows : ℕ → LstmBackRow β ψ) (dx : ℕ → M β φ) (grads : LstmParams φ ψ) (X' : ℕ → M β φ) (p' : LstmParams φ ψ)
    (y0 : (rows N).dy = 0) (c0 : (rows N).dCa = 0) :
    lstmComputed N (lstmGrads N x p fwd rows dx grads) dx grads X' p' =
    ∑ t ∈ Finset.range N, lstmContribution p p' (x t) (X' t) (before 0 (fun t => (fwd t).y) t)
      (before 0 (fun t => (fwd t).Ca) t) (fwd t).Ca (rows t) := by
  obtain ⟨n, rfl⟩ : ∃ n, N = n + 1 := ⟨N - 1, by omega⟩
  set back := lstmGrads (n + 1) x p fwd rows dx grads with hback
  have e1 : ∀ t ∈ Finset.range (n + 1), inner (back.dx t - dx t) (X' t) =
      ∑ q, inner (fun b k => ∑ j, (rows t).da q b j * p.W q j k) (X' t) := by
    intro t ht
    rw [Gate.sum]
    unfold inner
    simp only [← Finset.sum_add_distrib]
    refine Finset.sum_congr rfl fun b _ => Finset.sum_congr rfl fun k _ => ?_
    have : back.dx t b k = dx t b k + (∑ j, (rows t).dIa b j * p.W .i j k) + (∑ j, (rows t).dFa b j * p.W .f j k) +
        (∑ j, (rows t).dOa b j * p.W .o j k) + ∑ j, (rows t).dZa b j * p.W .z j k := by
      rw [hback]
      unfold lstmGrads
      dsimp only
      rw [if_pos (Finset.mem_range.1 ht)]
      rfl
    rw [show (back.dx t - dx t) b k = back.dx t b k - dx t b k from rfl, this, da_z, da_i, da_f, da_o]
    ring
  have e2 : ∀ q, inner (back.grads.W q - grads.W q) (p'.W q) =
      ∑ t ∈ Finset.range (n + 1), inner (fun j k => ∑ b, (rows t).da q b j * x t b k) (p'.W q) := by
    intro q
    rw [sum_inner]
    refine inner_congr fun j k => ?_
    show (grads.W q j k + (∑ t ∈ Finset.range (n + 1), ∑ b, (rows t).da q b j * x t b k) - grads.W q j k) * _ = _
    rw [add_sub_cancel_left]
  have e3 : ∀ q, innerV (back.grads.b q - grads.b q) (p'.b q) =
      ∑ t ∈ Finset.range (n + 1), innerV (fun j => ∑ b, (rows t).da q b j) (p'.b q) := by
    intro q
    rw [sum_innerV]
    refine innerV_congr fun j => ?_
    show (grads.b q j + (∑ t ∈ Finset.range (n + 1), ∑ b, (rows t).da q b j) - grads.b q j) * _ = _
    rw [add_sub_cancel_left]
  have e4 : ∀ q, inner (back.grads.R q - grads.R q) (p'.R q) =
      ∑ t ∈ Finset.range (n + 1), inner (fun j i => ∑ b, (rows t).da q b j * before 0 (fun t => (fwd t).y) t b i) (p'.R q) := by
    intro q
    rw [sum_inner]
    refine inner_congr fun j i => ?_
    show (grads.R q j i + (∑ t ∈ Finset.range n, ∑ b, (rows (t + 1)).da q b j * (fwd t).y b i) +
      (∑ b, (rows 0).da q b j * (rows (n + 1)).dy b i) - grads.R q j i) * _ = _
    rw [y0, Finset.sum_range_succ']
    show _ = ((∑ t ∈ Finset.range n, ∑ b, (rows (t + 1)).da q b j * (fwd t).y b i) + ∑ b, (rows 0).da q b j * 0) * _
    simp only [Pi.zero_apply, mul_zero, Finset.sum_const_zero, add_zero, add_sub_cancel_left]
  have e5 : innerV (back.grads.pi - grads.pi) p'.pi =
      ∑ t ∈ Finset.range (n + 1), innerV (fun j => ∑ b, (rows t).dIa b j * before 0 (fun t => (fwd t).Ca) t b j) p'.pi := by
    rw [sum_innerV]
    refine innerV_congr fun j => ?_
    show (grads.pi j + (∑ t ∈ Finset.range n, ∑ b, (fwd t).Ca b j * (rows (t + 1)).dIa b j) +
      (∑ b, (rows (n + 1)).dCa b j * (rows 0).dIa b j) - grads.pi j) * _ = _
    rw [c0, Finset.sum_range_succ']
    show _ = ((∑ t ∈ Finset.range n, ∑ b, (rows (t + 1)).dIa b j * (fwd t).Ca b j) + ∑ b, (rows 0).dIa b j * 0) * _
    simp only [Pi.zero_apply, mul_zero, zero_mul, Finset.sum_const_zero, add_zero, add_sub_cancel_left, mul_comm]
  have e6 : innerV (back.grads.pf - grads.pf) p'.pf =
      ∑ t ∈ Finset.range (n + 1), innerV (fun j => ∑ b, (rows t).dFa b j * before 0 (fun t => (fwd t).Ca) t b j) p'.pf := by
    rw [sum_innerV]
    refine innerV_congr fun j => ?_
    show (grads.pf j + (∑ t ∈ Finset.range n, ∑ b, (fwd t).Ca b j * (rows (t + 1)).dFa b j) +
      (∑ b, (rows (n + 1)).dCa b j * (rows 0).dIa b j) - grads.pf j) * _ = _
    rw [c0, Finset.sum_range_succ']
    show _ = ((∑ t ∈ Finset.range n, ∑ b, (rows (t + 1)).dFa b j * (fwd t).Ca b j) + ∑ b, (rows 0).dFa b j * 0) * _
    simp only [Pi.zero_apply, mul_zero, zero_mul, Finset.sum_const_zero, add_zero, add_sub_cancel_left, mul_comm]
  have e7 : innerV (back.grads.po - grads.po) p'.po =
      ∑ t ∈ Finset.range (n + 1), innerV (fun j => ∑ b, (rows t).dOa b j * (fwd t).Ca b j) p'.po := by
    rw [sum_innerV]
    refine innerV_congr fun j => ?_
    show (grads.po j + (∑ t ∈ Finset.range (n + 1), ∑ b, (fwd t).Ca b j * (rows t).dOa b j) - grads.po j) * _ = _
    simp only [add_sub_cancel_left, mul_comm]
  unfold lstmComputed lstmContribution
  rw [Finset.sum_congr rfl e1, e5, e6, e7]
  simp only [e2, e3, e4, Gate.sum, Finset.sum_add_distrib]
  ring

/-- The terms of the context. -/
theorem lstmContribution_context {N : ℕ} (hN : 0 < N) (x : ℕ → M β φ) (p : LstmParams φ ψ) (y c : ℕ → M β ψ)
    (rows : ℕ → LstmBackRow β ψ) (X' : ℕ → M β φ) (p' : LstmParams φ ψ) (ctxY ctxC : M β ψ) :
    ∑ t ∈ Finset.range N, lstmContribution p p' (x t) (X' t) (before ctxY y t) (before ctxC c t) (c t) (rows t) =
    (∑ t ∈ Finset.range N, lstmContribution p p' (x t) (X' t) (before 0 y t) (before 0 c t) (c t) (rows t)) +
      lstmMissing ctxY ctxC (rows 0) p' := by
  obtain ⟨n, rfl⟩ : ∃ n, N = n + 1 := ⟨N - 1, by omega⟩
  rw [Finset.sum_range_succ', Finset.sum_range_succ']
  have h : ∀ t, lstmContribution p p' (x (t + 1)) (X' (t + 1)) (before ctxY y (t + 1)) (before ctxC c (t + 1)) (c (t + 1)) (rows (t + 1)) =
    lstmContribution p p' (x (t + 1)) (X' (t + 1)) (before 0 y (t + 1)) (before 0 c (t + 1)) (c (t + 1)) (rows (t + 1)) := fun t => rfl
  simp only [h]
  rw [add_assoc]
  congr 1
  show lstmContribution p p' (x 0) (X' 0) ctxY ctxC (c 0) (rows 0) =
    lstmContribution p p' (x 0) (X' 0) 0 0 (c 0) (rows 0) + lstmMissing ctxY ctxC (rows 0) p'
  unfold lstmContribution lstmMissing
  have z1 : ∀ q, inner (fun j i => ∑ b, (rows 0).da q b j * (0 : M β ψ) b i) (p'.R q) = 0 := by
    intro q; simp [inner]
  have z2 : ∀ (g : M β ψ) (v : V ψ), innerV (fun j => ∑ b, g b j * (0 : M β ψ) b j) v = 0 := by
    intro g v; simp [innerV]
  simp only [z1, z2, Gate.sum]
  ring

omit [Fintype β] [Fintype φ] [Fintype ψ] in
theorem lstm_before_y {N : ℕ} {fwd : ℕ → LstmRow β ψ} {t : ℕ} :
    (fwd (prevRow N t)).y = before (fwd N).y (fun t => (fwd t).y) t := by
  unfold before prevRow
  split <;> rfl

omit [Fintype β] [Fintype φ] [Fintype ψ] in
theorem lstm_before_Ca {N : ℕ} {fwd : ℕ → LstmRow β ψ} {t : ℕ} :
    (fwd (prevRow N t)).Ca = before (fwd N).Ca (fun t => (fwd t).Ca) t := by
  unfold before prevRow
  split <;> rfl

omit [Fintype β] in
/-- The forward pass of the LSTM satisfies the equations. -/
theorem lstmForward_eqs (a : Act) (N : ℕ) (x : ℕ → M β φ) (p : LstmParams φ ψ) (st : ℕ → LstmRow β ψ) (t : ℕ) (ht : t < N) :
    let r := lstmForward a N x p st
    LstmEqs a p (fun _ => False) (x t) (before (st N).y (fun t => (r t).y) t) (before (st N).Ca (fun t => (r t).Ca) t) (r t) ∧
    (∀ b j, (r t).Za b j = gateIn p .z (x t) (before (st N).y (fun t => (r t).y) t) b j) := by
  intro r
  obtain ⟨s1, s2⟩ := scanFwd_spec N (fun _ => lstmStep a p) (lstmPre N x p st)
  have hN : r N = st N := by
    show scanFwd _ _ _ N = _
    rw [s2 N le_rfl]
    exact if_neg (lt_irrefl N)
  have hr : r t = lstmStep a p (lstmPre N x p st t) (r (prevRow N t)) := s1 t ht
  have hp : lstmPre N x p st t = _ := if_pos ht
  rw [← hN, ← lstm_before_y, ← lstm_before_Ca]
  set prev := r (prevRow N t) with hprev
  rw [hp] at hr
  have ez : ∀ b j, (r t).Za b j = gateIn p .z (x t) prev.y b j := by
    intro b j
    rw [hr]
    show (∑ k, x t b k * p.W .z j k) + (∑ i, prev.y b i * p.R .z j i) + p.b .z j = _
    unfold gateIn; ring
  refine ⟨⟨?_, ?_, ?_, ?_, ?_, ?_, ?_⟩, ez⟩
  · intro b j
    rw [← ez, hr]; rfl
  · intro b j
    rw [hr]
    show Act.sigmoid.f ((∑ k, x t b k * p.W .i j k) + (∑ i, prev.y b i * p.R .i j i) + prev.Ca b j * p.pi j + p.b .i j) = _
    congr 1; unfold gateIn; ring
  · intro b j
    rw [hr]
    show Act.sigmoid.f ((∑ k, x t b k * p.W .f j k) + (∑ i, prev.y b i * p.R .f j i) + prev.Ca b j * p.pf j + p.b .f j) = _
    congr 1; unfold gateIn; ring
  · intro b j
    have : (r t).Ca b j = (r t).Ib b j * (r t).Zb b j + (r t).Fb b j * prev.Ca b j := by rw [hr]; rfl
    rw [← this]
    have h : (r t).Ob b j = Act.sigmoid.f ((∑ k, x t b k * p.W .o j k) + (∑ i, prev.y b i * p.R .o j i) +
        (r t).Ca b j * p.po j + p.b .o j) := by rw [hr]; rfl
    rw [h]
    congr 1; unfold gateIn; ring
  · intro b j
    rw [hr]; rfl
  · intro b j
    rw [if_neg not_false, hr]; rfl
  · intro b j
    rw [if_neg not_false, hr]; rfl

/-- The backward loop satisfies the equations. -/
theorem lstmBackward_eqs (a : Act) (N : ℕ) (p : LstmParams φ ψ) (fwd : ℕ → LstmRow β ψ) (δ : ℕ → M β ψ)
    (st : ℕ → LstmBackRow β ψ) (t : ℕ) (ht : t < N) :
    let g := scanBwd N (lstmBackStep a N p fwd δ) (lstmBackInit st)
    LstmBackEqs a p (fun _ => False) (fun _ => False) (δ t) (before (fwd N).Ca (fun t => (fwd t).Ca) t) (fwd t) (fwd (t + 1))
      (g t) (g (t + 1)) := by
  intro g
  have hg : g t = lstmBackStep a N p fwd δ t (lstmBackInit st t) (g (t + 1)) := (scanBwd_spec N _ _).1 t ht
  rw [← lstm_before_Ca]
  refine ⟨?_, ?_, ?_, ?_, ?_, ?_⟩
  · intro b i
    rw [if_neg not_false, hg, Gate.sum]
    show δ t b i + (∑ j, (g (t + 1)).dIa b j * p.R .i j i) + (∑ j, (g (t + 1)).dFa b j * p.R .f j i) +
      (∑ j, (g (t + 1)).dOa b j * p.R .o j i) + (∑ j, (g (t + 1)).dZa b j * p.R .z j i) = _
    rw [da_z, da_i, da_f, da_o]
    ring
  · intro b j
    rw [if_neg not_false, hg]; rfl
  · intro b j
    rw [if_neg not_false, if_neg not_false]
    have h : (g t).dCa b j = (0 : ℝ) + (g (t + 1)).dIa b j * p.pi j + (g (t + 1)).dFa b j * p.pf j + (g t).dOa b j * p.po j +
      a.d ((fwd t).Cb b j) ((g t).dy b j * (fwd t).Ob b j) + (g (t + 1)).dCa b j * (fwd (t + 1)).Fb b j := by
      rw [hg]; rfl
    rw [h]
    ring
  · intro b j
    rw [if_neg not_false, hg]; rfl
  · intro b j
    rw [if_neg not_false, hg]; rfl
  · intro b j
    rw [if_neg not_false, hg]; rfl

/-- **C22 (Lstm), any context.**  The derivative is what the backward pass computes plus the terms in which the
context meets the first step.  Rows `N` of the backward buffers are zero (they are cleared
before every pass and never written). -/
theorem C22_lstm_context (a : Act) (N : ℕ) (hN : 0 < N) (X : ℝ → ℕ → M β φ) (X' : ℕ → M β φ)
    (hX : ∀ t < N, Moves (fun s => X s t) (X' t)) (p : ℝ → LstmParams φ ψ) (p' : LstmParams φ ψ) (hp : LstmMoves p p')
    (st : ℕ → LstmRow β ψ) (stb : ℕ → LstmBackRow β ψ) (cleared : ∀ q, (stb N).da q = 0)
    (δ : ℕ → M β ψ) (dx : ℕ → M β φ) (grads : LstmParams φ ψ)
    (smooth : ∀ t < N, ∀ b j, a.Smooth ((lstmForward a N (X 0) (p 0) st t).Za b j) ∧
      a.Smooth ((lstmForward a N (X 0) (p 0) st t).Ca b j)) :
    let back := lstmBackward a N (X 0) (p 0) (lstmForward a N (X 0) (p 0) st) δ stb dx grads
    HasDerivAt (fun s => ∑ t ∈ Finset.range N, inner (δ t) (lstmForward a N (X s) (p s) st t).y)
      (lstmComputed N back dx grads X' p' + lstmMissing (st N).y (st N).Ca (back.rows 0) p') 0 := by
  intro back
  set fwd := lstmForward a N (X 0) (p 0) st with hfwd
  set rows := scanBwd N (lstmBackStep a N (p 0) fwd δ) (lstmBackInit stb) with hrows
  have hrN : rows N = lstmBackInit stb N := (scanBwd_spec N _ _).2 N le_rfl
  have hfN : fwd N = st N := by
    show scanFwd _ _ _ N = _
    rw [(scanFwd_spec N _ _).2 N le_rfl]
    exact if_neg (lt_irrefl N)
  have main := lstm_bptt a N (fun _ _ => False) X X' hX p p' hp (st N).y (st N).Ca
    (fun s t => lstmForward a N (X s) (p s) st t)
    (fun s t ht => (lstmForward_eqs a N (X s) (p s) st t ht).1)
    (fun t ht b j _ => by
      have := (lstmForward_eqs a N (X 0) (p 0) st t ht).2 b j
      rw [← this]
      exact (smooth t ht b j).1)
    (fun t ht b j _ => by
      have := (lstmForward_eqs a N (X 0) (p 0) st t ht).1.Ca b j
      rw [if_neg not_false] at this
      rw [← this]
      exact (smooth t ht b j).2)
    δ rows
    (fun t ht => by
      have := lstmBackward_eqs a N (p 0) fwd δ stb t ht
      dsimp only at this
      rw [hfN] at this
      exact this)
    (by
      rw [hrN]
      refine ⟨fun q => ?_, rfl, rfl⟩
      have := cleared q
      cases q <;> exact this)
  refine main.congr_deriv ?_
  rw [lstmContribution_context hN]
  congr 1
  rw [← lstmGrads_inner hN (X 0) (p 0) fwd rows dx grads X' p' (by rw [hrN]; rfl) (by rw [hrN]; rfl)]
  rfl

/-- **C22 (Lstm), partial.**  If the context is zero, as it is unless a context is passed, the deltas and gradients are
the derivatives.  Missing: other contexts, for which the claim is false
(`C22_lstm_context_wrong`). -/
theorem C22_lstm_partial (a : Act) (N : ℕ) (hN : 0 < N) (X : ℝ → ℕ → M β φ) (X' : ℕ → M β φ)
    (hX : ∀ t < N, Moves (fun s => X s t) (X' t)) (p : ℝ → LstmParams φ ψ) (p' : LstmParams φ ψ) (hp : LstmMoves p p')
    (st : ℕ → LstmRow β ψ) (ctxY : (st N).y = 0) (ctxC : (st N).Ca = 0)
    (stb : ℕ → LstmBackRow β ψ) (cleared : ∀ q, (stb N).da q = 0)
    (δ : ℕ → M β ψ) (dx : ℕ → M β φ) (grads : LstmParams φ ψ)
    (smooth : ∀ t < N, ∀ b j, a.Smooth ((lstmForward a N (X 0) (p 0) st t).Za b j) ∧
      a.Smooth ((lstmForward a N (X 0) (p 0) st t).Ca b j)) :
    let back := lstmBackward a N (X 0) (p 0) (lstmForward a N (X 0) (p 0) st) δ stb dx grads
    HasDerivAt (fun s => ∑ t ∈ Finset.range N, inner (δ t) (lstmForward a N (X s) (p s) st t).y)
      ((∑ t ∈ Finset.range N, inner (back.dx t - dx t) (X' t)) +
        (∑ q, (inner (back.grads.W q - grads.W q) (p'.W q) + inner (back.grads.R q - grads.R q) (p'.R q) +
          innerV (back.grads.b q - grads.b q) (p'.b q))) +
        innerV (back.grads.pi - grads.pi) p'.pi + innerV (back.grads.pf - grads.pf) p'.pf +
        innerV (back.grads.po - grads.po) p'.po) 0 := by
  intro back
  refine (C22_lstm_context a N hN X X' hX p p' hp st stb cleared δ dx grads smooth).congr_deriv ?_
  rw [ctxY, ctxC]
  have : lstmMissing (0 : M β ψ) 0 (back.rows 0) p' = 0 := by
    simp [lstmMissing, inner, innerV]
  rw [this, add_zero]
  rfl

/-- All parameters zero except for the recurrent weight of the block input, which is `s`. -/
def exParams (s : ℝ) : LstmParams Unit Unit :=
  ⟨fun _ _ _ => 0, fun q _ _ => if q = .z then s else 0, fun _ _ => 0, fun _ => 0, fun _ => 0, fun _ => 0⟩

theorem exParams_moves : LstmMoves exParams (exParams 1) where
  W := fun q => Moves.const _
  R := by
    intro q j i
    by_cases h : q = .z
    · simp only [exParams, if_pos h]; exact hasDerivAt_id 0
    · simp only [exParams, if_neg h]; exact hasDerivAt_const _ _
  b := fun q j => hasDerivAt_const _ _
  pi := fun j => hasDerivAt_const _ _
  pf := fun j => hasDerivAt_const _ _
  po := fun j => hasDerivAt_const _ _

/-- **C22 (Lstm), negation.**  With a context whose output is not zero, the gradient of a recurrent
weight is not the derivative: one unit, one step, linear activation. -/
theorem C22_lstm_context_wrong :
    ∃ (X : ℝ → ℕ → M Unit Unit) (X' : ℕ → M Unit Unit) (p : ℝ → LstmParams Unit Unit) (p' : LstmParams Unit Unit)
      (st : ℕ → LstmRow Unit Unit) (stb : ℕ → LstmBackRow Unit Unit) (δ dx : ℕ → M Unit Unit) (grads : LstmParams Unit Unit),
      (∀ t, Moves (fun s => X s t) (X' t)) ∧ LstmMoves p p' ∧ (∀ q, (stb 1).da q = 0) ∧ (st 1).Ca = 0 ∧
      ¬ HasDerivAt (fun s => ∑ t ∈ Finset.range 1, inner (δ t) (lstmForward .linear 1 (X s) (p s) st t).y)
        (lstmComputed 1 (lstmBackward .linear 1 (X 0) (p 0) (lstmForward .linear 1 (X 0) (p 0) st) δ stb dx grads) dx grads X' p') 0 := by
  let st : ℕ → LstmRow Unit Unit := fun _ => ⟨0, 0, 0, 0, 0, 0, 0, 0, 0, 0, fun _ _ => 1⟩
  let stb : ℕ → LstmBackRow Unit Unit := fun _ => ⟨0, 0, 0, 0, 0, 0, 0, 0, 0, 0, 0⟩
  let δ : ℕ → M Unit Unit := fun _ _ _ => 1
  have cl : ∀ q, (stb 1).da q = 0 := by intro q; cases q <;> rfl
  have hX : ∀ t : ℕ, Moves (fun _ => (0 : M Unit Unit)) 0 := fun t b j => hasDerivAt_const _ _
  refine ⟨fun _ _ => 0, fun _ => 0, exParams, exParams 1, st, stb, δ, fun _ => 0, exParams 0, hX, exParams_moves, cl, rfl, ?_⟩
  intro h
  have h' := C22_lstm_context .linear 1 one_pos (fun _ _ => 0) (fun _ => 0) (fun t _ => hX t) exParams (exParams 1)
    exParams_moves st stb cl δ (fun _ => 0) (exParams 0) (fun t _ b j => ⟨by simp [Act.Smooth], by simp [Act.Smooth]⟩)
  have := h.unique h'
  have hm : lstmMissing (st 1).y (st 1).Ca
    ((lstmBackward .linear 1 (fun _ => 0) (exParams 0) (lstmForward .linear 1 (fun _ => 0) (exParams 0) st) δ stb (fun _ => 0) (exParams 0)).rows 0)
    (exParams 1) = 0 := by linarith
  set fwd := lstmForward .linear 1 (fun _ => (0 : M Unit Unit)) (exParams 0) st with hfwd
  set g := scanBwd 1 (lstmBackStep .linear 1 (exParams 0) fwd δ) (lstmBackInit stb) with hg
  have hg1 : g 1 = lstmBackInit stb 1 := (scanBwd_spec 1 _ _).2 1 le_rfl
  have be := lstmBackward_eqs .linear 1 (exParams 0) fwd δ stb 0 one_pos
  have fe := (lstmForward_eqs .linear 1 (fun _ => 0) (exParams 0) st 0 one_pos).1
  have half : Act.sigmoid.f 0 = 1 / 2 := by norm_num [Act.f]
  have hI : (fwd 0).Ib () () = 1 / 2 := by
    rw [fe.Ib () ()]
    rw [← half]
    congr 1
    simp [gateIn, exParams]
  have hO : (fwd 0).Ob () () = 1 / 2 := by
    rw [fe.Ob () ()]
    rw [← half]
    congr 1
    simp [gateIn, exParams]
  have hZ : (g 0).dZa () () = 1 / 4 := by
    have e1 := be.dZa () ()
    have e2 := be.dCa () ()
    have e3 := be.dy () ()
    rw [if_neg not_false] at e1 e2 e3
    rw [← hg] at e1 e2 e3
    rw [e1]
    show (g 0).dCa () () * (fwd 0).Ib () () = _
    rw [e2, hI]
    rw [zero_add, hg1, if_neg not_false]
    show (0 * _ + 0 * _ + 0 * _ + _ * (0 : ℝ) + (g 0).dy () () * (fwd 0).Ob () ()) * _ = _
    rw [e3, hO]
    rw [zero_add, hg1]
    simp [lstmBackInit, stb, δ, Gate.sum, LstmBackRow.da, exParams]
    norm_num
  have : lstmMissing (st 1).y (st 1).Ca (g 0) (exParams 1) = (g 0).dZa () () := by
    simp [lstmMissing, Gate.sum, exParams, inner, innerV, st, LstmBackRow.da]
  have hm' : lstmMissing (st 1).y (st 1).Ca (g 0) (exParams 1) = 0 := hm
  rw [this, hZ] at hm'
  norm_num at hm'

end

end Verif.Layers
