import Verif.Sequence.Spec
import Verif.Network.ConvPool

/-!
# C78: what a layer computes for a sequence
-/

namespace Verif.Sequence

open Verif.Structure Verif.Layout Verif.Buffers Verif.Network Verif.Layers Verif.Memory Verif.EndToEnd

/-! ### Arrays -/

section
variable {A : Align} {s : Struct} {e e' : ℕ → ℝ}

theorem Align.rows_seq (h : s.bufferType = 2) {r r' : ℕ} :
    A.Rows s r r' ↔ ∃ t < A.n, r = (A.o + t) * A.B + A.b ∧ r' = t * A.B' + A.b' := by
  unfold Align.Rows
  rw [h]
  exact Iff.rfl

theorem row_lt {t b T B : ℕ} (ht : t < T) (hb : b < B) : t * B + b < T * B := by
  calc t * B + b < t * B + B := by omega
    _ = (t + 1) * B := by ring
    _ ≤ T * B := Nat.mul_le_mul_right _ ht

theorem pos_lt {r k R n : ℕ} (hr : r < R) (hk : k < n) : r * n + k < R * n := row_lt hr hk

theorem Align.lt (h : s.bufferType = 2) {r r' : ℕ} (hr : A.Rows s r r') : r < A.T * A.B ∧ r' < A.T' * A.B' := by
  obtain ⟨t, ht, rfl, rfl⟩ := (Align.rows_seq h).1 hr
  have h1 := A.steps
  have h2 := A.steps'
  exact ⟨row_lt (by omega) A.seq, row_lt (by omega) A.seq'⟩

/-- Arrays of the same kind have the same rows. -/
theorem Align.rows_congr {s s' : Struct} (h : s.bufferType = s'.bufferType) {r r' : ℕ} (hr : A.Rows s r r') : A.Rows s' r r' := by
  unfold Align.Rows at hr ⊢
  rw [h] at hr
  exact hr

theorem Align.Same.at (h : A.Same s e e') {s' : Struct} (hs : s'.bufferType = s.bufferType) {r r' : ℕ} (hr : A.Rows s' r r')
    {k : ℕ} (hk : k < s.featureSize) : e (r * s.featureSize + k) = e' (r' * s.featureSize + k) :=
  h r r' (Align.rows_congr hs hr) k hk

end

/-- The type of a layer of the library. -/
def typeName {layers : List LayerInfo} {data l : LayerInfo} {T B : ℕ} : LibLayer layers data l T B → Name
  | .fullyConnected .. => str "FullyConnected"
  | .elementwise .. => str "Elementwise"
  | .noOp .. => str "NoOp"
  | .highway .. => str "Highway"
  | .merge .. => str "Merge"
  | .mask .. => str "Mask"
  | .maskFull .. => str "Mask"
  | .dropout .. => str "Dropout"
  | .squaredDifference .. => str "SquaredDifference"
  | .squaredError .. => str "SquaredError"
  | .sigmoidCE .. => str "SigmoidCE"
  | .softmaxCE .. => str "SoftmaxCE"
  | .binomialCE .. => str "BinomialCrossEntropy"
  | .l1Decay .. => str "L1Decay"
  | .l2Decay .. => str "L2Decay"
  | .loss .. => str "Loss"
  | .recurrent .. => str "Recurrent"
  | .clockwork .. => str "Clockwork"
  | .lstm .. => str "Lstm"
  | .clockworkLstm .. => str "ClockworkLstm"
  | .convolution2D .. => str "Convolution2D"
  | .avgPooling2D .. => str "Pooling2D"
  | .maxPooling2D .. => str "Pooling2D"

section
variable {layers layers' : List LayerInfo} {data l : LayerInfo} {M : Mode} {ty : Name} {kw : Setup.Kwargs}

theorem describes_type {T B : ℕ} {q : LibLayer layers data l T B} (h : Describes M ty kw q) : ty = typeName q := by
  cases q <;> first | exact h | exact h.1

/-! ### What the layers read -/

/-- What a layer reads is the same in both passes. -/
structure Reads (A : Align) (l : LayerInfo) (v v' : Slot → ℝ) : Prop where
  ins : ∀ x s, (x, s) ∈ l.inShapes → A.Same s (fun j => v ⟨str "inputs", x, j⟩) (fun j => v' ⟨str "inputs", x, j⟩)
  pars : ∀ x s, (x, s) ∈ l.paramShapes → ∀ j < s.featureSize, v ⟨str "parameters", x, j⟩ = v' ⟨str "parameters", x, j⟩
  outs : ∀ x n, (x, rec1 n) ∈ l.outShapes →
    A.SameBefore (rec1 n) (fun j => v ⟨str "outputs", x, j⟩) (fun j => v' ⟨str "outputs", x, j⟩)

variable {A : Align} {v v' : Slot → ℝ}

theorem Reads.inp (H : Reads A l v v') {x : String} {s : Struct} (hx : (str x, s) ∈ l.inShapes) {s' : Struct}
    (hs : s'.bufferType = s.bufferType) {r r' : ℕ} (hr : A.Rows s' r r') {k : ℕ} (hk : k < s.featureSize) :
    read v "inputs" x (r * s.featureSize + k) = read v' "inputs" x (r' * s.featureSize + k) :=
  (H.ins _ _ hx).at hs hr hk

theorem featureSize_vec (n : ℕ) : (vec n).featureSize = n := by simp [vec, Struct.featureSize, Struct.featureShape, Struct.bufferType, typeOf, Tok.size]
theorem featureSize_mm (n m : ℕ) : (mm n m).featureSize = n * m := by
  simp [mm, Struct.featureSize, Struct.featureShape, Struct.bufferType, typeOf, Tok.size]
theorem featureSize_rec1 (n : ℕ) : (rec1 n).featureSize = n := by
  simp [rec1, Struct.featureSize, Struct.featureShape, Struct.bufferType, typeOf, Tok.size]

theorem Reads.vec (H : Reads A l v v') {x : String} {n : ℕ} (hx : (str x, Memory.vec n) ∈ l.paramShapes) (j : Fin n) :
    read v "parameters" x j = read v' "parameters" x j :=
  H.pars _ _ hx j (by rw [featureSize_vec]; exact j.2)

theorem Reads.mm (H : Reads A l v v') {x : String} {n m : ℕ} (hx : (str x, Memory.mm n m) ∈ l.paramShapes) (j : Fin n) (k : Fin m) :
    read v "parameters" x (j * m + k) = read v' "parameters" x (j * m + k) :=
  H.pars _ _ hx _ (by rw [featureSize_mm]; exact pos_lt j.2 k.2)

theorem same_struct {α : Type} {L : List (Name × α)} (nd : (L.map Prod.fst).Nodup) {x : Name} {s s' : α} (h : (x, s) ∈ L)
    (h' : (x, s') ∈ L) : s = s' := by
  have := List.inj_on_of_nodup_map nd h h' rfl
  exact (Prod.mk.inj this).2

theorem one_struct {a : Name} {s s' : Struct} {L : List (Name × Struct)} (h : L = [(a, s)]) (h' : L = [(a, s')]) : s = s' := by
  have := h.symm.trans h'
  simpa using this

theorem two_structs {a b : Name} {s t s' t' : Struct} {L : List (Name × Struct)} (h : L = [(a, s), (b, t)])
    (h' : L = [(a, s'), (b, t')]) : s = s' ∧ t = t' := by
  have := h.symm.trans h'
  simpa using this

theorem act_inj {a a' : Act} {o : Option Act} (h : o = some a) (h' : o = some a') : a = a' := Option.some.inj (h.symm.trans h')

/-- Outputs whose entries are computed entry by entry. -/
theorem same_of_one {s : Struct} {x : String} {z : Name} {t : Struct} (h : l.outShapes = [(str x, s)]) (ht : (z, t) ∈ l.outShapes)
    (H : A.Same s (read v "outputs" x) (read v' "outputs" x)) :
    A.Same t (fun j => v ⟨str "outputs", z, j⟩) (fun j => v' ⟨str "outputs", z, j⟩) := by
  rw [h] at ht
  simp only [List.mem_singleton, Prod.mk.injEq] at ht
  obtain ⟨rfl, rfl⟩ := ht
  exact H

theorem same_of_two {s s' : Struct} {x y : String} {z : Name} {t : Struct} (h : l.outShapes = [(str x, s), (str y, s')])
    (ht : (z, t) ∈ l.outShapes) (H : A.Same s (read v "outputs" x) (read v' "outputs" x))
    (H' : A.Same s' (read v "outputs" y) (read v' "outputs" y)) :
    A.Same t (fun j => v ⟨str "outputs", z, j⟩) (fun j => v' ⟨str "outputs", z, j⟩) := by
  rw [h] at ht
  simp only [List.mem_cons, Prod.mk.injEq, List.not_mem_nil, or_false] at ht
  obtain ⟨rfl, rfl⟩ | ⟨rfl, rfl⟩ := ht
  · exact H
  · exact H'

/-! ### Recurrent layers -/

theorem recIdx (t B b n j : ℕ) : (t * B + b) * n + j = t * (B * n) + (b * n + j) := by ring

theorem rowBefore_succ (T t : ℕ) : rowBefore T (t + 1) = t := by simp [rowBefore]

theorem rowBefore_zero (T : ℕ) : rowBefore T 0 = T := by simp [rowBefore]

theorem net_same (R : Reads A l v v') {x : Struct} {n : ℕ} {W S bias : String} (hin : (str "default", x) ∈ l.inShapes)
    (hW : (str W, Memory.mm n x.featureSize) ∈ l.paramShapes) (hS : (str S, Memory.mm n n) ∈ l.paramShapes)
    (hb : (str bias, Memory.vec n) ∈ l.paramShapes) (hx : Seq x) {t : ℕ} (ht : t < A.n)
    (hy : ∀ i : Fin n, read v "outputs" "default" (rowBefore A.T (A.o + t) * (A.B * n) + (A.b * n + i)) =
      read v' "outputs" "default" (rowBefore A.T' t * (A.B' * n) + (A.b' * n + i))) (j : Fin n) :
    netInput A.T A.B x.featureSize n (read v) W S bias (A.o + t) A.b j =
      netInput A.T' A.B' x.featureSize n (read v') W S bias t A.b' j := by
  unfold netInput
  congr 1
  · congr 1
    · refine Finset.sum_congr rfl fun k _ => ?_
      rw [R.mm hW j k, ← recIdx, ← recIdx, R.inp hin rfl ((Align.rows_seq hx.1).2 ⟨t, ht, rfl, rfl⟩) k.2]
    · refine Finset.sum_congr rfl fun i _ => ?_
      rw [R.mm hS j i, hy i]
  · exact R.vec hb j

/-- By induction on the steps: the rows before all steps are the same. -/
theorem before_all {n : ℕ} {P : ℕ → Prop} (h0 : P 0) (hs : ∀ t < n, P t → P (t + 1)) : ∀ t ≤ n, P t := by
  intro t
  induction t with
  | zero => exact fun _ => h0
  | succ t ih => exact fun ht => hs t ht (ih (by omega))

/-- The outputs that a recurrent layer reads before step `t`. -/
def YBefore (A : Align) (n : ℕ) (v v' : Slot → ℝ) (cat x : String) (t : ℕ) : Prop :=
  ∀ i : Fin n, read v cat x (rowBefore A.T (A.o + t) * (A.B * n) + (A.b * n + i)) =
    read v' cat x (rowBefore A.T' t * (A.B' * n) + (A.b' * n + i))

theorem yBefore_zero {n : ℕ} {cat x : String}
    (h : A.SameBefore (rec1 n) (fun j => v ⟨str cat, str x, j⟩) (fun j => v' ⟨str cat, str x, j⟩)) : YBefore A n v v' cat x 0 := by
  intro i
  have := h i (by rw [featureSize_rec1]; exact i.2)
  rw [featureSize_rec1, recIdx, recIdx] at this
  rw [rowBefore_zero]
  exact this

theorem yBefore_succ {n t : ℕ} {cat x : String} (h : ∀ i : Fin n, read v cat x ((A.o + t) * (A.B * n) + (A.b * n + i)) =
    read v' cat x (t * (A.B' * n) + (A.b' * n + i))) : YBefore A n v v' cat x (t + 1) := by
  intro i
  rw [← Nat.add_assoc A.o t 1, rowBefore_succ, rowBefore_succ]
  exact h i

theorem same_rec {n : ℕ} {cat x : String} (h : ∀ t ≤ A.n, YBefore A n v v' cat x t) :
    A.Same (rec1 n) (read v cat x) (read v' cat x) := by
  intro r r' hr k hk
  obtain ⟨t, ht, rfl, rfl⟩ := (Align.rows_seq (by rfl)).1 hr
  rw [featureSize_rec1] at hk ⊢
  have := h (t + 1) (by omega) ⟨k, hk⟩
  rw [← Nat.add_assoc A.o t 1, rowBefore_succ, rowBefore_succ] at this
  rw [recIdx, recIdx]
  exact this

/-- The parameters of an LSTM. -/
theorem lstm_same (R : Reads A l v v') {a : Act} {x : Struct} {n : ℕ} (hin : (str "default", x) ∈ l.inShapes)
    (hp : ∀ e ∈ lstmPars x.featureSize n, e ∈ l.paramShapes) (hx : Seq x) {t : ℕ} (ht : t < A.n)
    (hy : YBefore A n v v' "outputs" "default" t) (hc : YBefore A n v v' "internals" "Ca" t) (j : Fin n)
    (h : LstmStep a A.T A.B x.featureSize n (read v) (A.o + t) A.b j) (h' : LstmStep a A.T' A.B' x.featureSize n (read v') t A.b' j) :
    read v "outputs" "default" ((A.o + t) * (A.B * n) + (A.b * n + j)) = read v' "outputs" "default" (t * (A.B' * n) + (A.b' * n + j)) ∧
    read v "internals" "Ca" ((A.o + t) * (A.B * n) + (A.b * n + j)) = read v' "internals" "Ca" (t * (A.B' * n) + (A.b' * n + j)) := by
  have m : ∀ (W S bias : String), (str W, Memory.mm n x.featureSize) ∈ lstmPars x.featureSize n →
      (str S, Memory.mm n n) ∈ lstmPars x.featureSize n → (str bias, Memory.vec n) ∈ lstmPars x.featureSize n →
      netInput A.T A.B x.featureSize n (read v) W S bias (A.o + t) A.b j =
        netInput A.T' A.B' x.featureSize n (read v') W S bias t A.b' j :=
    fun W S bias h1 h2 h3 => net_same R hin (hp _ h1) (hp _ h2) (hp _ h3) hx ht hy j
  have pz := m "Wz" "Rz" "bz" (by simp [lstmPars]) (by simp [lstmPars]) (by simp [lstmPars])
  have pi := m "Wi" "Ri" "bi" (by simp [lstmPars]) (by simp [lstmPars]) (by simp [lstmPars])
  have pf := m "Wf" "Rf" "bf" (by simp [lstmPars]) (by simp [lstmPars]) (by simp [lstmPars])
  have po := m "Wo" "Ro" "bo" (by simp [lstmPars]) (by simp [lstmPars]) (by simp [lstmPars])
  have q : ∀ w : String, (str w, Memory.mm 1 n) ∈ lstmPars x.featureSize n → read v "parameters" w j = read v' "parameters" w j := by
    intro w hw
    have := R.mm (hp _ hw) 0 j
    simpa using this
  have qi := q "pi" (by simp [lstmPars])
  have qf := q "pf" (by simp [lstmPars])
  have qo := q "po" (by simp [lstmPars])
  simp only [LstmStep] at h h'
  rw [pz, pi, pf, po, qi, qf, qo, hc j] at h
  have e : read v "internals" "Ca" ((A.o + t) * (A.B * n) + (A.b * n + j)) =
      read v' "internals" "Ca" (t * (A.B' * n) + (A.b' * n + j)) := h.1.trans h'.1.symm
  refine ⟨?_, e⟩
  rw [h.2, h'.2, e]

end

end Verif.Sequence
