import Verif.Layers.RecurrentGrad

/-!
# LSTM and ClockworkLstm layers (lstm_layer.py, clockwork_lstm_layer.py): model
-/

namespace Verif.Layers

noncomputable section

variable {β φ ψ : Type}

/-- Block input, input gate, forget gate, output gate. -/
inductive Gate
  | z
  | i
  | f
  | o
deriving DecidableEq

instance : Fintype Gate := ⟨{.z, .i, .f, .o}, by intro g; cases g <;> decide⟩

theorem Gate.sum {α : Type} [AddCommMonoid α] (h : Gate → α) : ∑ g, h g = h .z + h .i + h .f + h .o := by
  show Finset.sum {Gate.z, Gate.i, Gate.f, Gate.o} h = _
  rw [Finset.sum_insert (by decide), Finset.sum_insert (by decide), Finset.sum_insert (by decide), Finset.sum_singleton]
  abel

/-- The parameters (lstm_layer.py:38-55): `W .z` is `Wz` and so on; gradients have the same shapes. -/
structure LstmParams (φ ψ : Type) where
  W : Gate → M ψ φ
  R : Gate → M ψ ψ
  b : Gate → V ψ
  pi : V ψ
  pf : V ψ
  po : V ψ

/-- One row of the arrays written by the forward pass (lstm_layer.py:57-67 and the outputs). -/
structure LstmRow (β ψ : Type) where
  Za : M β ψ
  Zb : M β ψ
  Ia : M β ψ
  Ib : M β ψ
  Fa : M β ψ
  Fb : M β ψ
  Oa : M β ψ
  Ob : M β ψ
  Ca : M β ψ
  Cb : M β ψ
  y : M β ψ

/-- One row of the arrays written by the backward pass (lstm_layer.py:68-87 and the temporary `dy`). -/
structure LstmBackRow (β ψ : Type) where
  dZa : M β ψ
  dZb : M β ψ
  dIa : M β ψ
  dIb : M β ψ
  dFa : M β ψ
  dFb : M β ψ
  dOa : M β ψ
  dOb : M β ψ
  dCa : M β ψ
  dCb : M β ψ
  dy : M β ψ

/-- `dZa`, `dIa`, `dFa`, `dOa` by gate. -/
def LstmBackRow.da (r : LstmBackRow β ψ) : Gate → M β ψ
  | .z => r.dZa
  | .i => r.dIa
  | .f => r.dFa
  | .o => r.dOa

section forward
variable [Fintype φ] [Fintype ψ]

/-- The products of the inputs with the weights (lstm_layer.py:105-113,
clockwork_lstm_layer.py:116-124). -/
def lstmPre (N : ℕ) (x : ℕ → M β φ) (p : LstmParams φ ψ) (st : ℕ → LstmRow β ψ) : ℕ → LstmRow β ψ := fun t =>
  if t < N then
    ⟨dotMM (x t) (tr (p.W .z)) (st t).Za, (st t).Zb, dotMM (x t) (tr (p.W .i)) (st t).Ia, (st t).Ib,
     dotMM (x t) (tr (p.W .f)) (st t).Fa, (st t).Fb, dotMM (x t) (tr (p.W .o)) (st t).Oa, (st t).Ob,
     (st t).Ca, (st t).Cb, (st t).y⟩
  else st t

/-- The body of the loop (lstm_layer.py:115-145, clockwork_lstm_layer.py:128-157). -/
def lstmStep (a : Act) (p : LstmParams φ ψ) (row prev : LstmRow β ψ) : LstmRow β ψ :=
  -- Block input
  let Za := dotAddMM prev.y (tr (p.R .z)) row.Za
  let Za := addMV Za (p.b .z) Za
  let Zb := actF a Za row.Zb
  -- Input Gate
  let Ia := dotAddMM prev.y (tr (p.R .i)) row.Ia
  let Ia := mulAddMV prev.Ca p.pi Ia
  let Ia := addMV Ia (p.b .i) Ia
  let Ib := actF .sigmoid Ia row.Ib
  -- Forget Gate
  let Fa := dotAddMM prev.y (tr (p.R .f)) row.Fa
  let Fa := mulAddMV prev.Ca p.pf Fa
  let Fa := addMV Fa (p.b .f) Fa
  let Fb := actF .sigmoid Fa row.Fb
  -- Cell
  let Ca := mulTT Ib Zb row.Ca
  let Ca := mulAddTT Fb prev.Ca Ca
  -- Output Gate
  let Oa := dotAddMM prev.y (tr (p.R .o)) row.Oa
  let Oa := mulAddMV Ca p.po Oa
  let Oa := addMV Oa (p.b .o) Oa
  let Ob := actF .sigmoid Oa row.Ob
  -- Block output
  let Cb := actF a Ca row.Cb
  let y := mulTT Ob Cb row.y
  ⟨Za, Zb, Ia, Ib, Fa, Fb, Oa, Ob, Ca, Cb, y⟩

/-- `LstmLayerImpl.forward_pass` (lstm_layer.py:90-145). -/
def lstmForward (a : Act) (N : ℕ) (x : ℕ → M β φ) (p : LstmParams φ ψ) (st : ℕ → LstmRow β ψ) : ℕ → LstmRow β ψ :=
  scanFwd N (fun _ => lstmStep a p) (lstmPre N x p st)

/-- The body of the loop (clockwork_lstm_layer.py:126-167). -/
def cwLstmStep (a : Act) (p : LstmParams φ ψ) (timing : V ψ) (t : ℕ) (row prev : LstmRow β ψ) : LstmRow β ψ :=
  let r := lstmStep a p row prev
  if t > 0 then
    ⟨r.Za, r.Zb, r.Ia, r.Ib, r.Fa, r.Fb, r.Oa, r.Ob, copyToIf prev.Ca r.Ca (cwHolds timing t), r.Cb,
      copyToIf prev.y r.y (cwHolds timing t)⟩
  else r

/-- `ClockworkLstmLayerImpl.forward_pass` (clockwork_lstm_layer.py:97-167). -/
def cwLstmForward (a : Act) (N : ℕ) (x : ℕ → M β φ) (p : LstmParams φ ψ) (timing : V ψ) (st : ℕ → LstmRow β ψ) :
    ℕ → LstmRow β ψ :=
  scanFwd N (cwLstmStep a p timing) (lstmPre N x p st)

end forward

section backward
variable [Fintype β] [Fintype ψ]

/-- What the backward pass leaves. -/
structure LstmBack (β φ ψ : Type) where
  rows : ℕ → LstmBackRow β ψ
  dx : ℕ → M β φ
  grads : LstmParams φ ψ

/-- The body of the loop (lstm_layer.py:171-205). -/
def lstmBackStep (a : Act) (N : ℕ) (p : LstmParams φ ψ) (fwd : ℕ → LstmRow β ψ) (deltas : ℕ → M β ψ) (t : ℕ)
    (row next : LstmBackRow β ψ) : LstmBackRow β ψ :=
  -- Accumulate recurrent deltas
  let dy := copyTo (deltas t) row.dy
  let dy := dotAddMM next.dIa (p.R .i) dy
  let dy := dotAddMM next.dFa (p.R .f) dy
  let dy := dotAddMM next.dOa (p.R .o) dy
  let dy := dotAddMM next.dZa (p.R .z) dy
  -- Peephole connection part
  let dCa := mulAddMV next.dIa p.pi row.dCa
  let dCa := mulAddMV next.dFa p.pf dCa
  -- Output Gate
  let dOb := mulTT dy (fwd t).Cb row.dOb
  let dOa := actD .sigmoid (fwd t).Ob dOb row.dOa
  let dCa := mulAddMV dOa p.po dCa
  -- Cell
  let dCb := mulTT dy (fwd t).Ob row.dCb
  let dCb := actD a (fwd t).Cb dCb dCb
  let dCa := addTT dCa dCb dCa
  let dCa := mulAddTT next.dCa (fwd (t + 1)).Fb dCa
  -- Forget Gate
  let dFb := mulTT dCa (fwd (prevRow N t)).Ca row.dFb
  let dFa := actD .sigmoid (fwd t).Fb dFb row.dFa
  -- Input Gate
  let dIb := mulTT dCa (fwd t).Zb row.dIb
  let dIa := actD .sigmoid (fwd t).Ib dIb row.dIa
  -- Block Input
  let dZb := mulTT dCa (fwd t).Ib row.dZb
  let dZa := actD a (fwd t).Zb dZb row.dZa
  ⟨dZa, dZb, dIa, dIb, dFa, dFb, dOa, dOb, dCa, dCb, dy⟩

/-- `dy = allocate(y.shape)` and `fill(dCa, 0.0)` (lstm_layer.py:167-168, clockwork_lstm_layer.py:193-200). -/
def lstmBackInit (st : ℕ → LstmBackRow β ψ) : ℕ → LstmBackRow β ψ := fun t =>
  ⟨(st t).dZa, (st t).dZb, (st t).dIa, (st t).dIb, (st t).dFa, (st t).dFb, (st t).dOa, (st t).dOb, 0, (st t).dCb, 0⟩

/-- Input deltas and gradients (lstm_layer.py:207-278, clockwork_lstm_layer.py:255-326).  The rows of the flattened
arrays are pairs of time and sequence. -/
def lstmGrads (N : ℕ) (x : ℕ → M β φ) (p : LstmParams φ ψ) (fwd : ℕ → LstmRow β ψ) (rows : ℕ → LstmBackRow β ψ)
    (dx : ℕ → M β φ) (g : LstmParams φ ψ) : LstmBack β φ ψ :=
  let dx : ℕ → M β φ := fun t => if t < N then
      let d := dotAddMM (rows t).dIa (p.W .i) (dx t)
      let d := dotAddMM (rows t).dFa (p.W .f) d
      let d := dotAddMM (rows t).dOa (p.W .o) d
      dotAddMM (rows t).dZa (p.W .z) d
    else dx t
  let dW : Gate → M ψ φ := fun q j k => g.W q j k + ∑ t ∈ Finset.range N, ∑ b, (rows t).da q b j * x t b k
  let db : Gate → V ψ := fun q j => g.b q j + ∑ t ∈ Finset.range N, ∑ b, (rows t).da q b j
  -- Output gate peephole
  let dpo : V ψ := fun j => g.po j + ∑ t ∈ Finset.range N, ∑ b, (fwd t).Ca b j * (rows t).dOa b j
  -- recurrent weights
  let dR : Gate → M ψ ψ := fun q j i =>
    g.R q j i + ∑ t ∈ Finset.range (N - 1), ∑ b, (rows (t + 1)).da q b j * (fwd t).y b i
  let dR : Gate → M ψ ψ := fun q => dotAddMM (tr ((rows 0).da q)) (rows N).dy (dR q)
  -- other peephole connections
  let dpi : V ψ := fun j => g.pi j + ∑ t ∈ Finset.range (N - 1), ∑ b, (fwd t).Ca b j * (rows (t + 1)).dIa b j
  let dpf : V ψ := fun j => g.pf j + ∑ t ∈ Finset.range (N - 1), ∑ b, (fwd t).Ca b j * (rows (t + 1)).dFa b j
  let dpi : V ψ := fun j => dpi j + ∑ b, (rows N).dCa b j * (rows 0).dIa b j
  let dpf : V ψ := fun j => dpf j + ∑ b, (rows N).dCa b j * (rows 0).dIa b j
  ⟨rows, dx, ⟨dW, dR, db, dpi, dpf, dpo⟩⟩

/-- `LstmLayerImpl.backward_pass` (lstm_layer.py:147-278). -/
def lstmBackward (a : Act) (N : ℕ) (x : ℕ → M β φ) (p : LstmParams φ ψ) (fwd : ℕ → LstmRow β ψ) (deltas : ℕ → M β ψ)
    (st : ℕ → LstmBackRow β ψ) (dx : ℕ → M β φ) (g : LstmParams φ ψ) : LstmBack β φ ψ :=
  let rows := scanBwd N (lstmBackStep a N p fwd deltas) (lstmBackInit st)
  lstmGrads N x p fwd rows dx g

/-- The part of the body of the loop that computes row `t` (clockwork_lstm_layer.py:205-242 and
248-251). -/
def cwLstmBackStep (a : Act) (N : ℕ) (p : LstmParams φ ψ) (timing : V ψ) (fwd : ℕ → LstmRow β ψ) (deltas : ℕ → M β ψ)
    (t : ℕ) (row next : LstmBackRow β ψ) : LstmBackRow β ψ :=
  -- Accumulate recurrent deltas
  let dy := addTT row.dy (deltas t) row.dy
  let cond := cwHolds timing t
  let dy := dotAddMM next.dIa (p.R .i) dy
  let dy := dotAddMM next.dFa (p.R .f) dy
  let dy := dotAddMM next.dOa (p.R .o) dy
  let dy := dotAddMM next.dZa (p.R .z) dy
  let dCa := mulAddMV next.dIa p.pi row.dCa
  let dCa := mulAddMV next.dFa p.pf dCa
  -- Output Gate
  let dOb := mulTT dy (fwd t).Cb row.dOb
  let dOb := fillIf dOb 0 cond
  let dOa := actD .sigmoid (fwd t).Ob dOb row.dOa
  let dCa := mulAddMV dOa p.po dCa
  -- Cell
  let dCb := mulTT dy (fwd t).Ob row.dCb
  let dCb := actD a (fwd t).Cb dCb dCb
  let dCb := fillIf dCb 0 cond
  let dCa := addTT dCa dCb dCa
  let dCa := mulAddTT next.dCa (fwd (t + 1)).Fb dCa
  -- Forget Gate
  let dFb := mulTT dCa (fwd (prevRow N t)).Ca row.dFb
  let dFa := actD .sigmoid (fwd t).Fb dFb row.dFa
  -- Input Gate
  let dIb := mulTT dCa (fwd t).Zb row.dIb
  let dIa := actD .sigmoid (fwd t).Ib dIb row.dIa
  -- Block Input
  let dZb := mulTT dCa (fwd t).Ib row.dZb
  let dZa := actD a (fwd t).Zb dZb row.dZa
  -- Undo updates to inactive nodes
  let dIa := fillIf dIa 0 cond
  let dFa := fillIf dFa 0 cond
  let dZa := fillIf dZa 0 cond
  ⟨dZa, dZb, dIa, dIb, dFa, dFb, dOa, dOb, dCa, dCb, dy⟩

/-- The body of the loop (clockwork_lstm_layer.py:203-252).  It also writes `dy` and `dCa` of the
row before, and sets `Fb` to zero for inactive units. -/
def cwLstmBackBody (a : Act) (N : ℕ) (p : LstmParams φ ψ) (timing : V ψ) (deltas : ℕ → M β ψ)
    (s : (ℕ → LstmBackRow β ψ) × (ℕ → LstmRow β ψ)) (t : ℕ) : (ℕ → LstmBackRow β ψ) × (ℕ → LstmRow β ψ) :=
  let rows := s.1
  let fwd := s.2
  let cond := cwHolds timing t
  let rows := Function.update rows t (cwLstmBackStep a N p timing fwd deltas t (rows t) (rows (t + 1)))
  -- Copy over the error from previous inactive nodes
  let r := rows (prevRow N t)
  let rows := Function.update rows (prevRow N t) ⟨r.dZa, r.dZb, r.dIa, r.dIb, r.dFa, r.dFb, r.dOa, r.dOb,
    addIntoIf (rows t).dCa r.dCa cond, r.dCb, addIntoIf (rows t).dy r.dy cond⟩
  let q := fwd t
  (rows, Function.update fwd t ⟨q.Za, q.Zb, q.Ia, q.Ib, q.Fa, fillIf q.Fb 0 cond, q.Oa, q.Ob, q.Ca, q.Cb, q.y⟩)

/-- `ClockworkLstmLayerImpl.backward_pass` (clockwork_lstm_layer.py:169-326). -/
def cwLstmBackward (a : Act) (N : ℕ) (x : ℕ → M β φ) (p : LstmParams φ ψ) (timing : V ψ) (fwd : ℕ → LstmRow β ψ)
    (deltas : ℕ → M β ψ) (st : ℕ → LstmBackRow β ψ) (dx : ℕ → M β φ) (g : LstmParams φ ψ) : LstmBack β φ ψ :=
  let s := (List.range N).reverse.foldl (cwLstmBackBody a N p timing deltas) (lstmBackInit st, fwd)
  lstmGrads N x p s.2 s.1 dx g

end backward

end

end Verif.Layers
