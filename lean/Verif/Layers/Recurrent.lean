import Verif.Layers.Scan

/-!
# Recurrent and Clockwork layers (recurrent_layer.py, clockwork_layer.py)

`β` indexes the sequences of the batch, `φ` the inputs, `ψ` the units.
-/

namespace Verif.Layers

noncomputable section

variable {β φ ψ : Type}

/-- One row (time step or context) of the arrays written by the forward pass. -/
structure RnnRow (β ψ : Type) where
  Ha : M β ψ
  out : M β ψ

/-- One row of the arrays written by the backward pass. -/
structure RnnBackRow (β ψ : Type) where
  dHa : M β ψ
  dHb : M β ψ

/-- The parameters; the gradients have the same shapes. -/
structure RnnParams (φ ψ : Type) where
  W : M ψ φ
  R : M ψ ψ
  bias : V ψ

section forward
variable [Fintype φ] [Fintype ψ]

/-- `flat_H = inputs W^T + bias` for the rows `Ha[:-1]` (recurrent_layer.py:59-63,
clockwork_layer.py:63-67). -/
def rnnPre (N : ℕ) (x : ℕ → M β φ) (p : RnnParams φ ψ) (st : ℕ → RnnRow β ψ) : ℕ → RnnRow β ψ := fun t =>
  if t < N then
    let Ha := dotMM (x t) (tr p.W) (st t).Ha
    ⟨addMV Ha p.bias Ha, (st t).out⟩
  else st t

/-- The body of the loop (recurrent_layer.py:65-67). -/
def rnnStep (a : Act) (p : RnnParams φ ψ) (_t : ℕ) (row prev : RnnRow β ψ) : RnnRow β ψ :=
  let Ha := dotAddMM prev.out (tr p.R) row.Ha
  ⟨Ha, actF a Ha row.out⟩

/-- `RecurrentLayerImpl.forward_pass` (recurrent_layer.py:51-67). -/
def rnnForward (a : Act) (N : ℕ) (x : ℕ → M β φ) (p : RnnParams φ ψ) (st : ℕ → RnnRow β ψ) : ℕ → RnnRow β ψ :=
  scanFwd N (rnnStep a p) (rnnPre N x p st)

/-- `modulo_tt` (numpy_handler.py:227-228): `np.fmod`; `none` stands for NaN. -/
def fmod (x y : ℝ) : Option ℝ :=
  if y = 0 then none else some (x - y * (if 0 ≤ x / y then (⌊x / y⌋ : ℝ) else (⌈x / y⌉ : ℝ)))

/-- The condition computed in clockwork_layer.py:76-78: not zero (also for NaN). -/
def cwHolds (timing : V ψ) (t : ℕ) (j : ψ) : Prop := fmod t (timing j) ≠ some 0

open Classical in
/-- `copy_to_if` (numpy_handler.py:173-174). -/
def copyToIf (src dest : M β ψ) (cond : ψ → Prop) : M β ψ := fun b j => if cond j then src b j else dest b j

open Classical in
/-- `add_into_if` (numpy_handler.py:77-78). -/
def addIntoIf (x y : M β ψ) (cond : ψ → Prop) : M β ψ := fun b j => if cond j then y b j + x b j else y b j

open Classical in
/-- `fill_if` (numpy_handler.py:196-197). -/
def fillIf (mem : M β ψ) (val : ℝ) (cond : ψ → Prop) : M β ψ := fun b j => if cond j then val else mem b j

/-- The body of the loop (clockwork_layer.py:71-79). -/
def cwStep (a : Act) (p : RnnParams φ ψ) (timing : V ψ) (t : ℕ) (row prev : RnnRow β ψ) : RnnRow β ψ :=
  let Ha := dotAddMM prev.out (tr p.R) row.Ha
  let out := actF a Ha row.out
  ⟨Ha, if t > 0 then copyToIf prev.out out (cwHolds timing t) else out⟩

/-- `ClockworkLayerImpl.forward_pass` (clockwork_layer.py:55-79). -/
def cwForward (a : Act) (N : ℕ) (x : ℕ → M β φ) (p : RnnParams φ ψ) (timing : V ψ) (st : ℕ → RnnRow β ψ) :
    ℕ → RnnRow β ψ :=
  scanFwd N (cwStep a p timing) (rnnPre N x p st)

end forward

section backward
variable [Fintype β] [Fintype ψ]

/-- What the backward pass leaves. -/
structure RnnBack (β φ ψ : Type) where
  rows : ℕ → RnnBackRow β ψ
  dinputs : ℕ → M β φ
  grads : RnnParams φ ψ

/-- Lines 88-102 of recurrent_layer.py and 108-122 of clockwork_layer.py: input deltas and gradients. The
rows of the flattened arrays are pairs of time and sequence. -/
def rnnGrads (N : ℕ) (x : ℕ → M β φ) (p : RnnParams φ ψ) (fwd : ℕ → RnnRow β ψ) (rows : ℕ → RnnBackRow β ψ)
    (dinputs : ℕ → M β φ) (g : RnnParams φ ψ) : RnnBack β φ ψ :=
  let dinputs : ℕ → M β φ := fun t => if t < N then dotAddMM (rows t).dHa p.W (dinputs t) else dinputs t
  let dW : M ψ φ := fun j k => g.W j k + ∑ t ∈ Finset.range N, ∑ b, (rows t).dHa b j * x t b k
  let dbiasTmp : V ψ := fun j => ∑ t ∈ Finset.range N, ∑ b, (rows t).dHa b j
  let dbias : V ψ := fun j => g.bias j + dbiasTmp j
  let dR : M ψ ψ := fun j i => g.R j i + ∑ t ∈ Finset.range (N - 1), ∑ b, (rows (t + 1)).dHa b j * (fwd t).out b i
  let dR : M ψ ψ := dotAddMM (tr (rows 0).dHa) (fwd N).out dR
  ⟨rows, dinputs, ⟨dW, dR, dbias⟩⟩

/-- The body of the backward loop (recurrent_layer.py:83-86). -/
def rnnBackStep (a : Act) (p : RnnParams φ ψ) (fwd : ℕ → RnnRow β ψ) (t : ℕ) (row next : RnnBackRow β ψ) :
    RnnBackRow β ψ :=
  let dHb := dotAddMM next.dHa p.R row.dHb
  ⟨actD a (fwd t).out dHb row.dHa, dHb⟩

/-- `copy_to(doutputs, dHb)` and the derivative in the last step (recurrent_layer.py:80-82,
clockwork_layer.py:95-97). -/
def rnnBackInit (a : Act) (N : ℕ) (fwd : ℕ → RnnRow β ψ) (doutputs : ℕ → M β ψ) (st : ℕ → RnnBackRow β ψ) :
    ℕ → RnnBackRow β ψ :=
  let st : ℕ → RnnBackRow β ψ := fun t => ⟨(st t).dHa, if t ≤ N then doutputs t else (st t).dHb⟩
  Function.update st (N - 1) ⟨actD a (fwd (N - 1)).out (st (N - 1)).dHb (st (N - 1)).dHa, (st (N - 1)).dHb⟩

/-- `RecurrentLayerImpl.backward_pass` (recurrent_layer.py:69-102), for at least one time step. -/
def rnnBackward (a : Act) (N : ℕ) (x : ℕ → M β φ) (p : RnnParams φ ψ) (fwd : ℕ → RnnRow β ψ) (doutputs : ℕ → M β ψ)
    (st : ℕ → RnnBackRow β ψ) (dinputs : ℕ → M β φ) (g : RnnParams φ ψ) : RnnBack β φ ψ :=
  let rows := scanBwd (N - 1) (rnnBackStep a p fwd) (rnnBackInit a N fwd doutputs st)
  rnnGrads N x p fwd rows dinputs g

/-- The body of the backward loop (clockwork_layer.py:98-106).  It writes rows `t` and `t + 1`. -/
def cwBackBody (a : Act) (p : RnnParams φ ψ) (timing : V ψ) (fwd : ℕ → RnnRow β ψ) (rows : ℕ → RnnBackRow β ψ) (t : ℕ) :
    ℕ → RnnBackRow β ψ :=
  let cond := cwHolds timing (t + 1)
  let dHb := addIntoIf (rows (t + 1)).dHb (rows t).dHb cond
  let rows := Function.update rows t ⟨(rows t).dHa, dHb⟩
  let rows := Function.update rows (t + 1) ⟨fillIf (rows (t + 1)).dHa 0 cond, (rows (t + 1)).dHb⟩
  let dHb := dotAddMM (rows (t + 1)).dHa p.R (rows t).dHb
  Function.update rows t ⟨actD a (fwd t).out dHb (rows t).dHa, dHb⟩

/-- `ClockworkLayerImpl.backward_pass` (clockwork_layer.py:81-122), for at least one time step. -/
def cwBackward (a : Act) (N : ℕ) (x : ℕ → M β φ) (p : RnnParams φ ψ) (timing : V ψ) (fwd : ℕ → RnnRow β ψ)
    (doutputs : ℕ → M β ψ) (st : ℕ → RnnBackRow β ψ) (dinputs : ℕ → M β φ) (g : RnnParams φ ψ) : RnnBack β φ ψ :=
  let rows := (List.range (N - 1)).reverse.foldl (cwBackBody a p timing fwd) (rnnBackInit a N fwd doutputs st)
  rnnGrads N x p fwd rows dinputs g

end backward

end

end Verif.Layers
