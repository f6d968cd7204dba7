import Verif.Network.Instances
import Verif.Layers.ClockworkLstm

/-!
# Recurrent layers and batch normalisation as layers of a network

Of the context row of a recurrent layer only the parts that the layer reads (C19) are kept: `P` holds the old
outputs (and cell states).  The context rows of the other internals are set to zero here.  The arrays that only
the backward pass uses start with zeros (`Network.backward_pass` clears them).
-/

namespace Verif.Network

open Verif.Layers

noncomputable section

variable {ρ β φ ψ ι κ : Type}

/-- An array whose first dimension is time as a list of rows, and back. -/
def tm (N : ℕ) (f : Fin N × ι × κ → ℝ) : ℕ → M ι κ := fun t i k => if h : t < N then f (⟨t, h⟩, i, k) else 0
def tf (N : ℕ) (m : ℕ → M ι κ) : Fin N × ι × κ → ℝ := fun q => m q.1 q.2.1 q.2.2

theorem tm_at {N : ℕ} (f : Fin N × ι × κ → ℝ) (t : Fin N) (i : ι) (k : κ) : tm N f t i k = f (t, i, k) := dif_pos t.2

theorem sum_tf [Fintype ι] [Fintype κ] (N : ℕ) (f : Fin N × ι × κ → ℝ) (m : ℕ → M ι κ) :
    ∑ q, f q * tf N m q = ∑ t ∈ Finset.range N, inner (tm N f t) (m t) := by
  rw [Fintype.sum_prod_type, Finset.sum_range]
  refine Finset.sum_congr rfl fun t _ => ?_
  rw [Fintype.sum_prod_type]
  refine Finset.sum_congr rfl fun i _ => Finset.sum_congr rfl fun k _ => ?_
  rw [tm_at]
  rfl

theorem sum_tf_sub [Fintype ι] [Fintype κ] (N : ℕ) (m : ℕ → M ι κ) (f g : Fin N × ι × κ → ℝ) :
    ∑ q, (tf N m q - f q) * g q = ∑ t ∈ Finset.range N, inner (m t - tm N f t) (tm N g t) := by
  rw [Fintype.sum_prod_type, Finset.sum_range]
  refine Finset.sum_congr rfl fun t _ => ?_
  rw [Fintype.sum_prod_type]
  refine Finset.sum_congr rfl fun i _ => Finset.sum_congr rfl fun k _ => ?_
  rw [Pi.sub_apply, Pi.sub_apply, tm_at, tm_at]
  rfl

theorem moves_tm {N : ℕ} {X : ℝ → Fin N × ι × κ → ℝ} {X' : Fin N × ι × κ → ℝ}
    (h : ∀ a, HasDerivAt (fun t => X t a) (X' a) 0) (t : ℕ) (ht : t < N) :
    Moves (fun s => tm N (X s) t) (tm N X' t) := by
  intro i k
  simp only [tm, dif_pos ht]
  exact h _

/-- Rows computed by a loop over time depend on what the body reads of the row before. -/
theorem scan_fresh {α : Type} (N : ℕ) (F : ℕ → α → α → α) (buf buf' : ℕ → α) (R : α → α → Prop) (hR : ∀ a, R a a)
    (hF : ∀ t < N, ∀ a a', R a a' → F t (buf t) a = F t (buf' t) a') (hN : R (buf N) (buf' N)) (t : ℕ) (ht : t < N) :
    scanFwd N F buf t = scanFwd N F buf' t := by
  obtain ⟨h1, h2⟩ := scanFwd_spec N F buf
  obtain ⟨h1', h2'⟩ := scanFwd_spec N F buf'
  induction t with
  | zero =>
    rw [h1 0 ht, h1' 0 ht, prevRow_zero]
    refine hF 0 ht _ _ ?_
    rw [h2 N le_rfl, h2' N le_rfl]
    exact hN
  | succ t ih =>
    rw [h1 _ ht, h1' _ ht, prevRow_succ]
    refine hF _ ht _ _ ?_
    rw [ih (by omega)]
    exact hR _

/-! ## Recurrent -/

/-- Inputs, `W`, `R`, `bias`. -/
abbrev RnnI (N : ℕ) (β φ ψ : Type) := (Fin N × β × φ) ⊕ (ψ × φ) ⊕ (ψ × ψ) ⊕ ψ

def rnnP {N : ℕ} (i : RnnI N β φ ψ → ℝ) : RnnParams φ ψ :=
  ⟨mt (i ∘ .inr ∘ .inl), mt (i ∘ .inr ∘ .inr ∘ .inl), i ∘ .inr ∘ .inr ∘ .inr⟩

/-- The rows of the outputs and of `Ha`, with the context. -/
def rnnRows (N : ℕ) (ctx : β × ψ → ℝ) (o k : Fin N × β × ψ → ℝ) : ℕ → RnnRow β ψ := fun t =>
  if t < N then ⟨tm N k t, tm N o t⟩ else ⟨0, mt ctx⟩

def rnnBackI {N : ℕ} (r : RnnBack β φ ψ) : RnnI N β φ ψ → ℝ :=
  Sum.elim (tf N r.dinputs) (Sum.elim (fl r.grads.W) (Sum.elim (fl r.grads.R) r.grads.bias))

theorem rnnRows_out {N : ℕ} (ctx : β × ψ → ℝ) (o k : Fin N × β × ψ → ℝ) : (rnnRows N ctx o k N).out = mt ctx := by
  simp [rnnRows]

theorem rnnRows_ge {N : ℕ} (ctx : β × ψ → ℝ) (o k : Fin N × β × ψ → ℝ) (t : ℕ) (ht : N ≤ t) :
    rnnRows N ctx o k t = ⟨0, mt ctx⟩ := if_neg (by omega)

/-- Reading back the rows from the buffers. -/
theorem rnnRows_read {N : ℕ} (ctx : β × ψ → ℝ) (rows : ℕ → RnnRow β ψ) (h : ∀ t, N ≤ t → rows t = ⟨0, mt ctx⟩) :
    rnnRows N ctx (tf N fun t => (rows t).out) (tf N fun t => (rows t).Ha) = rows := by
  funext t
  unfold rnnRows
  split
  · rename_i ht
    have e : ∀ m : ℕ → M β ψ, tm N (tf N m) t = m t := by
      intro m
      funext i k
      simp only [tm, dif_pos ht]
      rfl
    rw [e, e]
  · rw [h t (by omega)]

section
variable [Fintype β] [Fintype φ] [Fintype ψ]

def rnnLayer (N : ℕ) (a : Act) : VLayer (RnnI N β φ ψ) (Fin N × β × ψ) (Fin N × β × ψ) (β × ψ) where
  F := fun ctx i o k =>
    let r := rnnForward a N (tm N (i ∘ .inl)) (rnnP i) (rnnRows N ctx o k)
    (tf N fun t => (r t).out, tf N fun t => (r t).Ha)
  B := fun ctx i o k δO δI => rnnBackI (rnnBackward a N (tm N (i ∘ .inl)) (rnnP i) (rnnRows N ctx o k) (tm N δO)
    (fun _ => ⟨0, 0⟩) (tm N (δI ∘ .inl)) (rnnP δI))
  isLoss := false
  over := fun _ => false

omit [Fintype β] in
theorem rnn_fresh_rows (N : ℕ) (a : Act) (ctx : β × ψ → ℝ) (x : ℕ → M β φ) (p : RnnParams φ ψ)
    (o k o' k' : Fin N × β × ψ → ℝ) (t : ℕ) (ht : t < N) :
    rnnForward a N x p (rnnRows N ctx o k) t = rnnForward a N x p (rnnRows N ctx o' k') t := by
  refine scan_fresh N _ _ _ (fun r r' => r.out = r'.out) (fun _ => rfl) ?_ ?_ t ht
  · intro t ht r r' h
    simp only [rnnStep, rnnPre, if_pos ht, h]
    rfl
  · simp only [rnnPre, lt_irrefl, if_false, rnnRows_out]

/-- **C20 (Recurrent).**  Of the old contents, only the context matters. -/
theorem C20_recurrent (N : ℕ) (a : Act) : (rnnLayer (β := β) (φ := φ) (ψ := ψ) N a).Fresh := by
  intro ctx i o k o' k'
  funext q
  exact congrArg (fun r => RnnRow.out r q.2.1 q.2.2) (rnn_fresh_rows N a ctx _ _ o k o' k' q.1 q.1.2)

omit [Fintype β] in
theorem rnn_later (N : ℕ) (a : Act) (ctx : β × ψ → ℝ) (x : ℕ → M β φ) (p : RnnParams φ ψ) (o k : Fin N × β × ψ → ℝ)
    (t : ℕ) (ht : N ≤ t) : rnnForward a N x p (rnnRows N ctx o k) t = ⟨0, mt ctx⟩ := by
  unfold rnnForward
  rw [(scanFwd_spec N _ _).2 t ht, rnnPre, if_neg (by omega), rnnRows_ge ctx o k t ht]

theorem rnnP_moves {N : ℕ} {X : ℝ → RnnI N β φ ψ → ℝ} {X' : RnnI N β φ ψ → ℝ}
    (hX : ∀ a, HasDerivAt (fun t => X t a) (X' a) 0) : RnnMoves (fun t => rnnP (X t)) (rnnP X') :=
  ⟨fun _ _ => hX _, fun _ _ => hX _, fun _ => hX _⟩

theorem rnn_sum {N : ℕ} (r : RnnBack β φ ψ) (δI X' : RnnI N β φ ψ → ℝ) :
    ∑ b, (rnnBackI r b - δI b) * X' b =
      (∑ t ∈ Finset.range N, inner (r.dinputs t - tm N (δI ∘ .inl) t) (tm N (X' ∘ .inl) t)) +
        inner (r.grads.W - (rnnP δI).W) (rnnP X').W + inner (r.grads.R - (rnnP δI).R) (rnnP X').R +
        innerV (r.grads.bias - (rnnP δI).bias) (rnnP X').bias := by
  rw [Fintype.sum_sum_type, Fintype.sum_sum_type, Fintype.sum_sum_type, ← add_assoc, ← add_assoc]
  congr 1
  congr 1
  congr 1
  · exact sum_tf_sub N r.dinputs (δI ∘ .inl) (X' ∘ .inl)
  · exact sum_fl_sub r.grads.W (δI ∘ .inr ∘ .inl) (X' ∘ .inr ∘ .inl)
  · exact sum_fl_sub r.grads.R (δI ∘ .inr ∘ .inr ∘ .inl) (X' ∘ .inr ∘ .inr ∘ .inl)

/-- **C21 (Recurrent).** -/
theorem C21_recurrent (N : ℕ) (hN : 0 < N) (a : Act) (ctx : β × ψ → ℝ) (i : RnnI N β φ ψ → ℝ)
    (smooth : ∀ t < N, ∀ b j, a.Smooth ((rnnForward a N (tm N (i ∘ .inl)) (rnnP i) (rnnRows N ctx 0 0) t).Ha b j)) :
    (rnnLayer (β := β) (φ := φ) (ψ := ψ) N a).Right ctx i := by
  rintro X X' rfl hX o k δO δI _
  have key := C22_recurrent a N hN (fun s => tm N (X s ∘ .inl)) (tm N (X' ∘ .inl)) (fun t ht => moves_tm (fun _ => hX _) t ht)
    (fun s => rnnP (X s)) (rnnP X') (rnnP_moves hX) (rnnRows N ctx o k) (fun _ => ⟨0, 0⟩) (tm N δO) (tm N (δI ∘ .inl))
    (rnnP δI) (by
      intro t ht b j
      rw [rnn_fresh_rows N a ctx _ _ o k 0 0 t ht]
      exact smooth t ht b j)
  have e : ∀ t, ∑ b, (if (rnnLayer (β := β) (φ := φ) (ψ := ψ) N a).isLoss then 1 else δO b) *
      ((rnnLayer N a).F ctx (X t) o k).1 b =
      ∑ τ ∈ Finset.range N, inner (tm N δO τ) (rnnForward a N (tm N (X t ∘ .inl)) (rnnP (X t)) (rnnRows N ctx o k) τ).out :=
    fun t => sum_tf N δO (fun τ => (rnnForward a N (tm N (X t ∘ .inl)) (rnnP (X t)) (rnnRows N ctx o k) τ).out)
  simp only [e]
  refine key.congr_deriv ?_
  have hrows : rnnRows N ctx ((rnnLayer N a).F ctx (X 0) o k).1 ((rnnLayer N a).F ctx (X 0) o k).2 =
      rnnForward a N (tm N (X 0 ∘ .inl)) (rnnP (X 0)) (rnnRows N ctx o k) :=
    rnnRows_read ctx _ fun t ht => rnn_later N a ctx _ _ o k t ht
  show _ = ∑ b, (rnnBackI (rnnBackward a N _ _ (rnnRows N ctx _ _) _ _ _ _) b - δI b) * X' b
  rw [hrows]
  exact (rnn_sum _ _ _).symm

/-! ## Clockwork -/

/-- `timing` gets no gradient. -/
def cwLayer (N : ℕ) (a : Act) : VLayer (RnnI N β φ ψ) (Fin N × β × ψ) (Fin N × β × ψ) ((β × ψ) ⊕ ψ) where
  F := fun p i o k =>
    let r := cwForward a N (tm N (i ∘ .inl)) (rnnP i) (p ∘ .inr) (rnnRows N (p ∘ .inl) o k)
    (tf N fun t => (r t).out, tf N fun t => (r t).Ha)
  B := fun p i o k δO δI => rnnBackI (cwBackward a N (tm N (i ∘ .inl)) (rnnP i) (p ∘ .inr) (rnnRows N (p ∘ .inl) o k)
    (tm N δO) (fun _ => ⟨0, 0⟩) (tm N (δI ∘ .inl)) (rnnP δI))
  isLoss := false
  over := fun _ => false

omit [Fintype β] in
theorem cw_fresh_rows (N : ℕ) (a : Act) (ctx : β × ψ → ℝ) (timing : V ψ) (x : ℕ → M β φ) (p : RnnParams φ ψ)
    (o k o' k' : Fin N × β × ψ → ℝ) (t : ℕ) (ht : t < N) :
    cwForward a N x p timing (rnnRows N ctx o k) t = cwForward a N x p timing (rnnRows N ctx o' k') t := by
  refine scan_fresh N _ _ _ (fun r r' => r.out = r'.out) (fun _ => rfl) ?_ ?_ t ht
  · intro t ht r r' h
    simp only [cwStep, rnnPre, if_pos ht, h]
    rfl
  · simp only [rnnPre, lt_irrefl, if_false, rnnRows_out]

/-- **C20 (Clockwork).**  Of the old contents, only the context matters. -/
theorem C20_clockwork (N : ℕ) (a : Act) : (cwLayer (β := β) (φ := φ) (ψ := ψ) N a).Fresh := by
  intro p i o k o' k'
  funext q
  exact congrArg (fun r => RnnRow.out r q.2.1 q.2.2) (cw_fresh_rows N a (p ∘ .inl) (p ∘ .inr) _ _ o k o' k' q.1 q.1.2)

omit [Fintype β] in
theorem cw_later (N : ℕ) (a : Act) (ctx : β × ψ → ℝ) (timing : V ψ) (x : ℕ → M β φ) (p : RnnParams φ ψ)
    (o k : Fin N × β × ψ → ℝ) (t : ℕ) (ht : N ≤ t) :
    cwForward a N x p timing (rnnRows N ctx o k) t = ⟨0, mt ctx⟩ := by
  unfold cwForward
  rw [(scanFwd_spec N _ _).2 t ht, rnnPre, if_neg (by omega), rnnRows_ge ctx o k t ht]

/-- **C21 (Clockwork).** -/
theorem C21_clockwork (N : ℕ) (hN : 0 < N) (a : Act) (p : (β × ψ) ⊕ ψ → ℝ) (i : RnnI N β φ ψ → ℝ)
    (smooth : ∀ t < N, ∀ b j,
      a.Smooth ((cwForward a N (tm N (i ∘ .inl)) (rnnP i) (p ∘ .inr) (rnnRows N (p ∘ .inl) 0 0) t).Ha b j)) :
    (cwLayer (β := β) (φ := φ) (ψ := ψ) N a).Right p i := by
  rintro X X' rfl hX o k δO δI _
  have key := C22_clockwork a N hN (fun s => tm N (X s ∘ .inl)) (tm N (X' ∘ .inl)) (fun t ht => moves_tm (fun _ => hX _) t ht)
    (fun s => rnnP (X s)) (rnnP X') (rnnP_moves hX) (p ∘ .inr) (rnnRows N (p ∘ .inl) o k) (fun _ => ⟨0, 0⟩) (tm N δO)
    (tm N (δI ∘ .inl)) (rnnP δI) (by
      intro t ht b j
      rw [cw_fresh_rows N a (p ∘ .inl) (p ∘ .inr) _ _ o k 0 0 t ht]
      exact smooth t ht b j)
  have e : ∀ t, ∑ b, (if (cwLayer (β := β) (φ := φ) (ψ := ψ) N a).isLoss then 1 else δO b) *
      ((cwLayer N a).F p (X t) o k).1 b =
      ∑ τ ∈ Finset.range N, inner (tm N δO τ)
        (cwForward a N (tm N (X t ∘ .inl)) (rnnP (X t)) (p ∘ .inr) (rnnRows N (p ∘ .inl) o k) τ).out :=
    fun t => sum_tf N δO (fun τ => (cwForward a N (tm N (X t ∘ .inl)) (rnnP (X t)) (p ∘ .inr) (rnnRows N (p ∘ .inl) o k) τ).out)
  simp only [e]
  refine key.congr_deriv ?_
  have hrows : rnnRows N (p ∘ .inl) ((cwLayer N a).F p (X 0) o k).1 ((cwLayer N a).F p (X 0) o k).2 =
      cwForward a N (tm N (X 0 ∘ .inl)) (rnnP (X 0)) (p ∘ .inr) (rnnRows N (p ∘ .inl) o k) :=
    rnnRows_read (p ∘ .inl) _ fun t ht => cw_later N a (p ∘ .inl) (p ∘ .inr) _ _ o k t ht
  show _ = ∑ b, (rnnBackI (cwBackward a N _ _ _ (rnnRows N (p ∘ .inl) _ _) _ _ _ _) b - δI b) * X' b
  rw [hrows]
  exact (rnn_sum _ _ _).symm

/-! ## Lstm -/

/-- Inputs, `W`, `R`, `b` by gate, peepholes `pi`, `pf`, `po`. -/
abbrev LstmI (N : ℕ) (β φ ψ : Type) :=
  (Fin N × β × φ) ⊕ (Gate × ψ × φ) ⊕ (Gate × ψ × ψ) ⊕ (Gate × ψ) ⊕ ψ ⊕ ψ ⊕ ψ

def lstmP {N : ℕ} (i : LstmI N β φ ψ → ℝ) : LstmParams φ ψ where
  W := fun q j k => i (.inr (.inl (q, j, k)))
  R := fun q j k => i (.inr (.inr (.inl (q, j, k))))
  b := fun q j => i (.inr (.inr (.inr (.inl (q, j)))))
  pi := fun j => i (.inr (.inr (.inr (.inr (.inl j)))))
  pf := fun j => i (.inr (.inr (.inr (.inr (.inr (.inl j))))))
  po := fun j => i (.inr (.inr (.inr (.inr (.inr (.inr j))))))

/-- The internals of the forward pass. -/
inductive LstmInt
  | Za | Zb | Ia | Ib | Fa | Fb | Oa | Ob | Ca | Cb

def lstmInt (r : LstmRow β ψ) : LstmInt → M β ψ
  | .Za => r.Za
  | .Zb => r.Zb
  | .Ia => r.Ia
  | .Ib => r.Ib
  | .Fa => r.Fa
  | .Fb => r.Fb
  | .Oa => r.Oa
  | .Ob => r.Ob
  | .Ca => r.Ca
  | .Cb => r.Cb

/-- The rows of outputs and internals, with the context: the outputs and the cell states. -/
def lstmRows (N : ℕ) (ctx : (β × ψ) ⊕ (β × ψ) → ℝ) (o : Fin N × β × ψ → ℝ) (k : LstmInt × Fin N × β × ψ → ℝ) :
    ℕ → LstmRow β ψ := fun t =>
  if t < N then
    let g := fun n => tm N (fun q => k (n, q)) t
    ⟨g .Za, g .Zb, g .Ia, g .Ib, g .Fa, g .Fb, g .Oa, g .Ob, g .Ca, g .Cb, tm N o t⟩
  else ⟨0, 0, 0, 0, 0, 0, 0, 0, mt (ctx ∘ .inr), 0, mt (ctx ∘ .inl)⟩

def lstmCtx (ctx : (β × ψ) ⊕ (β × ψ) → ℝ) : LstmRow β ψ :=
  ⟨0, 0, 0, 0, 0, 0, 0, 0, mt (ctx ∘ .inr), 0, mt (ctx ∘ .inl)⟩

def lstmBackI {N : ℕ} (r : LstmBack β φ ψ) : LstmI N β φ ψ → ℝ :=
  Sum.elim (tf N r.dx) (Sum.elim (fun q => r.grads.W q.1 q.2.1 q.2.2) (Sum.elim (fun q => r.grads.R q.1 q.2.1 q.2.2)
    (Sum.elim (fun q => r.grads.b q.1 q.2) (Sum.elim r.grads.pi (Sum.elim r.grads.pf r.grads.po)))))

omit [Fintype β] [Fintype ψ] in
theorem lstmRows_ge {N : ℕ} (ctx : (β × ψ) ⊕ (β × ψ) → ℝ) (o : Fin N × β × ψ → ℝ) (k : LstmInt × Fin N × β × ψ → ℝ)
    (t : ℕ) (ht : N ≤ t) : lstmRows N ctx o k t = lstmCtx ctx := if_neg (by omega)

omit [Fintype β] [Fintype ψ] in
theorem lstmRows_read {N : ℕ} (ctx : (β × ψ) ⊕ (β × ψ) → ℝ) (rows : ℕ → LstmRow β ψ)
    (h : ∀ t, N ≤ t → rows t = lstmCtx ctx) :
    lstmRows N ctx (tf N fun t => (rows t).y) (fun q => tf N (fun t => lstmInt (rows t) q.1) q.2) = rows := by
  funext t
  by_cases ht : t < N
  · have e : ∀ m : ℕ → M β ψ, tm N (tf N m) t = m t := by
      intro m
      funext i k
      simp only [tm, dif_pos ht]
      rfl
    unfold lstmRows
    rw [if_pos ht]
    dsimp only
    have e' : ∀ n, tm N (fun q => tf N (fun t => lstmInt (rows t) n) q) t = lstmInt (rows t) n := fun n => e _
    simp only [e', e]
    rfl
  · rw [lstmRows_ge _ _ _ t (by omega), h t (by omega)]

def zeroBack : LstmBackRow β ψ := ⟨0, 0, 0, 0, 0, 0, 0, 0, 0, 0, 0⟩

omit [Fintype β] [Fintype ψ] in
theorem zeroBack_da (q : Gate) : (zeroBack (β := β) (ψ := ψ)).da q = 0 := by cases q <;> rfl

def lstmLayer (N : ℕ) (a : Act) :
    VLayer (LstmI N β φ ψ) (Fin N × β × ψ) (LstmInt × Fin N × β × ψ) ((β × ψ) ⊕ (β × ψ)) where
  F := fun ctx i o k =>
    let r := lstmForward a N (tm N (i ∘ .inl)) (lstmP i) (lstmRows N ctx o k)
    (tf N fun t => (r t).y, fun q => tf N (fun t => lstmInt (r t) q.1) q.2)
  B := fun ctx i o k δO δI => lstmBackI (lstmBackward a N (tm N (i ∘ .inl)) (lstmP i) (lstmRows N ctx o k) (tm N δO)
    (fun _ => zeroBack) (tm N (δI ∘ .inl)) (lstmP δI))
  isLoss := false
  over := fun _ => false

omit [Fintype β] in
theorem lstm_fresh_rows (N : ℕ) (a : Act) (ctx : (β × ψ) ⊕ (β × ψ) → ℝ) (x : ℕ → M β φ) (p : LstmParams φ ψ)
    (o o' : Fin N × β × ψ → ℝ) (k k' : LstmInt × Fin N × β × ψ → ℝ) (t : ℕ) (ht : t < N) :
    lstmForward a N x p (lstmRows N ctx o k) t = lstmForward a N x p (lstmRows N ctx o' k') t := by
  refine scan_fresh N _ _ _ (fun r r' => r.y = r'.y ∧ r.Ca = r'.Ca) (fun _ => ⟨rfl, rfl⟩) ?_ ?_ t ht
  · rintro t ht r r' ⟨h1, h2⟩
    simp only [lstmStep, lstmPre, if_pos ht, h1, h2]
    rfl
  · simp only [lstmPre, lt_irrefl, if_false, lstmRows_ge _ _ _ N le_rfl, and_self]

/-- **C20 (Lstm).**  Of the old contents, only the context matters. -/
theorem C20_lstm (N : ℕ) (a : Act) : (lstmLayer (β := β) (φ := φ) (ψ := ψ) N a).Fresh := by
  intro p i o k o' k'
  funext q
  exact congrArg (fun r => LstmRow.y r q.2.1 q.2.2) (lstm_fresh_rows N a p _ _ o o' k k' q.1 q.1.2)

omit [Fintype β] in
theorem lstm_later (N : ℕ) (a : Act) (ctx : (β × ψ) ⊕ (β × ψ) → ℝ) (x : ℕ → M β φ) (p : LstmParams φ ψ)
    (o : Fin N × β × ψ → ℝ) (k : LstmInt × Fin N × β × ψ → ℝ) (t : ℕ) (ht : N ≤ t) :
    lstmForward a N x p (lstmRows N ctx o k) t = lstmCtx ctx := by
  unfold lstmForward
  rw [(scanFwd_spec N _ _).2 t ht, lstmPre, if_neg (by omega), lstmRows_ge ctx o k t ht]

theorem lstmP_moves {N : ℕ} {X : ℝ → LstmI N β φ ψ → ℝ} {X' : LstmI N β φ ψ → ℝ}
    (hX : ∀ a, HasDerivAt (fun t => X t a) (X' a) 0) : LstmMoves (fun t => lstmP (X t)) (lstmP X') :=
  ⟨fun _ _ _ => hX _, fun _ _ _ => hX _, fun _ _ => hX _, fun _ => hX _, fun _ => hX _, fun _ => hX _⟩

theorem lstm_sum {N : ℕ} (r : LstmBack β φ ψ) (δI X' : LstmI N β φ ψ → ℝ) :
    ∑ b, (lstmBackI r b - δI b) * X' b =
      (∑ t ∈ Finset.range N, inner (r.dx t - tm N (δI ∘ .inl) t) (tm N (X' ∘ .inl) t)) +
        (∑ q, (inner (r.grads.W q - (lstmP δI).W q) ((lstmP X').W q) + inner (r.grads.R q - (lstmP δI).R q) ((lstmP X').R q) +
          innerV (r.grads.b q - (lstmP δI).b q) ((lstmP X').b q))) +
        innerV (r.grads.pi - (lstmP δI).pi) (lstmP X').pi + innerV (r.grads.pf - (lstmP δI).pf) (lstmP X').pf +
        innerV (r.grads.po - (lstmP δI).po) (lstmP X').po := by
  rw [Fintype.sum_sum_type, Fintype.sum_sum_type, Fintype.sum_sum_type, Fintype.sum_sum_type, Fintype.sum_sum_type,
    Fintype.sum_sum_type, Finset.sum_add_distrib, Finset.sum_add_distrib]
  have h1 : ∑ a, (lstmBackI (N := N) r (.inl a) - δI (.inl a)) * X' (.inl a) =
      ∑ t ∈ Finset.range N, inner (r.dx t - tm N (δI ∘ .inl) t) (tm N (X' ∘ .inl) t) :=
    sum_tf_sub N r.dx (δI ∘ .inl) (X' ∘ .inl)
  have h2 : ∑ a, (lstmBackI (N := N) r (.inr (.inl a)) - δI (.inr (.inl a))) * X' (.inr (.inl a)) =
      ∑ q, inner (r.grads.W q - (lstmP δI).W q) ((lstmP X').W q) := by
    rw [Fintype.sum_prod_type]
    refine Finset.sum_congr rfl fun q _ => ?_
    rw [Fintype.sum_prod_type]
    rfl
  have h3 : ∑ a, (lstmBackI (N := N) r (.inr (.inr (.inl a))) - δI (.inr (.inr (.inl a)))) * X' (.inr (.inr (.inl a))) =
      ∑ q, inner (r.grads.R q - (lstmP δI).R q) ((lstmP X').R q) := by
    rw [Fintype.sum_prod_type]
    refine Finset.sum_congr rfl fun q _ => ?_
    rw [Fintype.sum_prod_type]
    rfl
  have h4 : ∑ a, (lstmBackI (N := N) r (.inr (.inr (.inr (.inl a)))) - δI (.inr (.inr (.inr (.inl a))))) *
      X' (.inr (.inr (.inr (.inl a)))) = ∑ q, innerV (r.grads.b q - (lstmP δI).b q) ((lstmP X').b q) := by
    rw [Fintype.sum_prod_type]
    rfl
  rw [h1, h2, h3, h4]
  simp only [add_assoc]
  rfl

/-- **C21 (Lstm).**  Without context, see C22. -/
theorem C21_lstm (N : ℕ) (hN : 0 < N) (a : Act) (i : LstmI N β φ ψ → ℝ)
    (smooth : ∀ t < N, ∀ b j, a.Smooth ((lstmForward a N (tm N (i ∘ .inl)) (lstmP i) (lstmRows N 0 0 0) t).Za b j) ∧
      a.Smooth ((lstmForward a N (tm N (i ∘ .inl)) (lstmP i) (lstmRows N 0 0 0) t).Ca b j)) :
    (lstmLayer (β := β) (φ := φ) (ψ := ψ) N a).Right 0 i := by
  rintro X X' rfl hX o k δO δI _
  have hN' := lstmRows_ge (0 : (β × ψ) ⊕ (β × ψ) → ℝ) o k N le_rfl
  have key := C22_lstm_partial a N hN (fun s => tm N (X s ∘ .inl)) (tm N (X' ∘ .inl)) (fun t ht => moves_tm (fun _ => hX _) t ht)
    (fun s => lstmP (X s)) (lstmP X') (lstmP_moves hX) (lstmRows N 0 o k) (by rw [hN']; rfl) (by rw [hN']; rfl)
    (fun _ => zeroBack) zeroBack_da (tm N δO) (tm N (δI ∘ .inl)) (lstmP δI) (by
      intro t ht b j
      rw [lstm_fresh_rows N a 0 _ _ o 0 k 0 t ht]
      exact smooth t ht b j)
  have e : ∀ t, ∑ b, (if (lstmLayer (β := β) (φ := φ) (ψ := ψ) N a).isLoss then 1 else δO b) *
      ((lstmLayer N a).F 0 (X t) o k).1 b =
      ∑ τ ∈ Finset.range N, inner (tm N δO τ)
        (lstmForward a N (tm N (X t ∘ .inl)) (lstmP (X t)) (lstmRows N 0 o k) τ).y := fun t => sum_tf N δO (fun τ => (lstmForward a N (tm N (X t ∘ .inl)) (lstmP (X t)) (lstmRows N 0 o k) τ).y)
  simp only [e]
  refine key.congr_deriv ?_
  have hrows : lstmRows N 0 ((lstmLayer N a).F 0 (X 0) o k).1 ((lstmLayer N a).F 0 (X 0) o k).2 =
      lstmForward a N (tm N (X 0 ∘ .inl)) (lstmP (X 0)) (lstmRows N 0 o k) :=
    lstmRows_read 0 _ fun t ht => lstm_later N a 0 _ _ o k t ht
  show _ = ∑ b, (lstmBackI (lstmBackward a N _ _ (lstmRows N 0 _ _) _ _ _ _) b - δI b) * X' b
  rw [hrows]
  exact (lstm_sum _ _ _).symm

/-! ## ClockworkLstm -/

/-- `timing` gets no gradient. -/
def cwLstmLayer (N : ℕ) (a : Act) :
    VLayer (LstmI N β φ ψ) (Fin N × β × ψ) (LstmInt × Fin N × β × ψ) (((β × ψ) ⊕ (β × ψ)) ⊕ ψ) where
  F := fun p i o k =>
    let r := cwLstmForward a N (tm N (i ∘ .inl)) (lstmP i) (p ∘ .inr) (lstmRows N (p ∘ .inl) o k)
    (tf N fun t => (r t).y, fun q => tf N (fun t => lstmInt (r t) q.1) q.2)
  B := fun p i o k δO δI => lstmBackI (cwLstmBackward a N (tm N (i ∘ .inl)) (lstmP i) (p ∘ .inr)
    (lstmRows N (p ∘ .inl) o k) (tm N δO) (fun _ => zeroBack) (tm N (δI ∘ .inl)) (lstmP δI))
  isLoss := false
  over := fun _ => false

omit [Fintype β] in
theorem cwLstm_fresh_rows (N : ℕ) (a : Act) (ctx : (β × ψ) ⊕ (β × ψ) → ℝ) (timing : V ψ) (x : ℕ → M β φ)
    (p : LstmParams φ ψ) (o o' : Fin N × β × ψ → ℝ) (k k' : LstmInt × Fin N × β × ψ → ℝ) (t : ℕ) (ht : t < N) :
    cwLstmForward a N x p timing (lstmRows N ctx o k) t = cwLstmForward a N x p timing (lstmRows N ctx o' k') t := by
  refine scan_fresh N _ _ _ (fun r r' => r.y = r'.y ∧ r.Ca = r'.Ca) (fun _ => ⟨rfl, rfl⟩) ?_ ?_ t ht
  · rintro t ht r r' ⟨h1, h2⟩
    simp only [cwLstmStep, lstmStep, lstmPre, if_pos ht, h1, h2]
    rfl
  · simp only [lstmPre, lt_irrefl, if_false, lstmRows_ge _ _ _ N le_rfl, and_self]

/-- **C20 (ClockworkLstm).**  Of the old contents, only the context matters. -/
theorem C20_clockwork_lstm (N : ℕ) (a : Act) : (cwLstmLayer (β := β) (φ := φ) (ψ := ψ) N a).Fresh := by
  intro p i o k o' k'
  funext q
  exact congrArg (fun r => LstmRow.y r q.2.1 q.2.2)
    (cwLstm_fresh_rows N a (p ∘ .inl) (p ∘ .inr) _ _ o o' k k' q.1 q.1.2)

omit [Fintype β] in
theorem cwLstm_later (N : ℕ) (a : Act) (ctx : (β × ψ) ⊕ (β × ψ) → ℝ) (timing : V ψ) (x : ℕ → M β φ) (p : LstmParams φ ψ)
    (o : Fin N × β × ψ → ℝ) (k : LstmInt × Fin N × β × ψ → ℝ) (t : ℕ) (ht : N ≤ t) :
    cwLstmForward a N x p timing (lstmRows N ctx o k) t = lstmCtx ctx := by
  unfold cwLstmForward
  rw [(scanFwd_spec N _ _).2 t ht, lstmPre, if_neg (by omega), lstmRows_ge ctx o k t ht]

/-- **C21 (ClockworkLstm).**  Without context, see C22. -/
theorem C21_clockwork_lstm (N : ℕ) (hN : 0 < N) (a : Act) (timing : V ψ) (htiming : ∀ j, timing j ≠ 0)
    (i : LstmI N β φ ψ → ℝ)
    (smooth : ∀ t < N, ∀ b j, ¬ keeps timing t j →
      a.Smooth ((cwLstmForward a N (tm N (i ∘ .inl)) (lstmP i) timing (lstmRows N 0 0 0) t).Za b j) ∧
      a.Smooth ((cwLstmForward a N (tm N (i ∘ .inl)) (lstmP i) timing (lstmRows N 0 0 0) t).Ca b j)) :
    (cwLstmLayer (β := β) (φ := φ) (ψ := ψ) N a).Right (Sum.elim 0 timing) i := by
  rintro X X' rfl hX o k δO δI _
  have hN' := lstmRows_ge (0 : (β × ψ) ⊕ (β × ψ) → ℝ) o k N le_rfl
  have key := C22_clockwork_lstm_partial a N hN (fun s => tm N (X s ∘ .inl)) (tm N (X' ∘ .inl))
    (fun t ht => moves_tm (fun _ => hX _) t ht) (fun s => lstmP (X s)) (lstmP X') (lstmP_moves hX) timing htiming
    (lstmRows N 0 o k) (by rw [hN']; rfl) (by rw [hN']; rfl)
    (fun _ => zeroBack) zeroBack_da (tm N δO) (tm N (δI ∘ .inl)) (lstmP δI) (by
      intro t ht b j
      rw [cwLstm_fresh_rows N a 0 timing _ _ o 0 k 0 t ht]
      exact smooth t ht b j)
  have e : ∀ t, ∑ b, (if (cwLstmLayer (β := β) (φ := φ) (ψ := ψ) N a).isLoss then 1 else δO b) *
      ((cwLstmLayer N a).F (Sum.elim 0 timing) (X t) o k).1 b =
      ∑ τ ∈ Finset.range N, inner (tm N δO τ)
        (cwLstmForward a N (tm N (X t ∘ .inl)) (lstmP (X t)) timing (lstmRows N 0 o k) τ).y := fun t => sum_tf N δO (fun τ => (cwLstmForward a N (tm N (X t ∘ .inl)) (lstmP (X t)) timing (lstmRows N 0 o k) τ).y)
  simp only [e]
  refine key.congr_deriv ?_
  have hrows : lstmRows N 0 ((cwLstmLayer N a).F (Sum.elim 0 timing) (X 0) o k).1
      ((cwLstmLayer N a).F (Sum.elim 0 timing) (X 0) o k).2 =
      cwLstmForward a N (tm N (X 0 ∘ .inl)) (lstmP (X 0)) timing (lstmRows N 0 o k) :=
    lstmRows_read 0 _ fun t ht => cwLstm_later N a 0 timing _ _ o k t ht
  show _ = ∑ b, (lstmBackI (cwLstmBackward a N _ _ timing (lstmRows N 0 _ _) _ _ _ _) b - δI b) * X' b
  rw [hrows]
  exact (lstm_sum _ _ _).symm

/-! ## BatchNorm -/

/-- In training; the running averages, which a training pass writes and does not use for its outputs, are
among the internals here. -/
def bnLayer [Fintype ρ] (decay eps : ℝ) :
    VLayer ((ρ × φ) ⊕ φ ⊕ φ) (ρ × φ) (φ ⊕ φ ⊕ φ ⊕ (ρ × φ) ⊕ (ρ × φ)) Empty where
  F := fun _ i o k =>
    let r := bnForward true decay eps (mt (i ∘ .inl)) (i ∘ .inr ∘ .inl) (i ∘ .inr ∘ .inr)
      ⟨k ∘ .inl, k ∘ .inr ∘ .inl, k ∘ .inr ∘ .inr ∘ .inl, mt (k ∘ .inr ∘ .inr ∘ .inr ∘ .inl),
        mt (k ∘ .inr ∘ .inr ∘ .inr ∘ .inr), mt o⟩
    (fl r.out, Sum.elim r.mu (Sum.elim r.sigma (Sum.elim r.sigmaB (Sum.elim (fl r.centered) (fl r.xHat)))))
  B := fun _ i o k δO δI =>
    let r := bnBackward (i ∘ .inr ∘ .inl)
      ⟨k ∘ .inl, k ∘ .inr ∘ .inl, k ∘ .inr ∘ .inr ∘ .inl, mt (k ∘ .inr ∘ .inr ∘ .inr ∘ .inl),
        mt (k ∘ .inr ∘ .inr ∘ .inr ∘ .inr), mt o⟩
      (mt δO) (mt (δI ∘ .inl)) (δI ∘ .inr ∘ .inl) (δI ∘ .inr ∘ .inr)
    Sum.elim (fl r.inDeltas) (Sum.elim r.dgamma r.dbeta)
  isLoss := false
  over := fun _ => false

omit [Fintype φ] in
/-- **C20 (BatchNorm).**  In training. -/
theorem C20_batch_norm [Fintype ρ] (decay eps : ℝ) : (bnLayer (ρ := ρ) (φ := φ) decay eps).Fresh :=
  fun _ _ _ _ _ _ => rfl

/-- **C21 (BatchNorm).**  In training. -/
theorem C21_batch_norm [Fintype ρ] [Nonempty ρ] (decay eps : ℝ) (heps : 0 < eps) (p : Empty → ℝ)
    (i : (ρ × φ) ⊕ φ ⊕ φ → ℝ) : (bnLayer (ρ := ρ) (φ := φ) decay eps).Right p i := by
  rintro X X' rfl hX o k δO δI _
  let st : BnState ρ φ := ⟨k ∘ .inl, k ∘ .inr ∘ .inl, k ∘ .inr ∘ .inr ∘ .inl, mt (k ∘ .inr ∘ .inr ∘ .inr ∘ .inl),
    mt (k ∘ .inr ∘ .inr ∘ .inr ∘ .inr), mt o⟩
  have key := C22_batch_norm decay eps heps (fun t => mt (X t ∘ .inl)) (mt (X' ∘ .inl)) (fun r k => hX _)
    (fun t => X t ∘ .inr ∘ .inl) (fun t => X t ∘ .inr ∘ .inr) (X' ∘ .inr ∘ .inl) (X' ∘ .inr ∘ .inr) (fun k => hX _)
    (fun k => hX _) st (mt δO) (mt (δI ∘ .inl)) (δI ∘ .inr ∘ .inl) (δI ∘ .inr ∘ .inr)
  have e : ∀ t, ∑ b, (if (bnLayer (ρ := ρ) (φ := φ) decay eps).isLoss then 1 else δO b) *
      ((bnLayer decay eps).F p (X t) o k).1 b =
      inner (mt δO) (bnForward true decay eps (mt (X t ∘ .inl)) (X t ∘ .inr ∘ .inl) (X t ∘ .inr ∘ .inr) st).out := by
    intro t
    rw [← mt_fl (BnState.out _), ← sum_mt]
    rfl
  simp only [e]
  refine key.congr_deriv ?_
  rw [Fintype.sum_sum_type, Fintype.sum_sum_type, ← add_assoc]
  congr 1
  congr 1
  exact (sum_fl_sub _ _ _).symm

end

end

end Verif.Network
