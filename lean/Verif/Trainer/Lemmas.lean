import Verif.Trainer.Spec
import Verif.Determined.Props
import Verif.Evaluate.Results
import Verif.Training.StockRun

/-! # Proofs for C82: numbering of batches, runs, single steps -/

namespace Verif.Trainer

open Verif.Structure Verif.Layout Verif.Buffers Verif.Memory Verif.Session
open Verif.Determined (Same CanTrain)
open Verif.Training (Env Hook HookImpl Val Log Logs Res Crit Saved Event St Step)

/-! ### Numbers of batches -/

theorem batchesBefore_succ (epochs : ℕ → List Batch) (e : ℕ) :
    batchesBefore epochs (e + 1) = batchesBefore epochs e + (epochs e).length := by
  simp [batchesBefore, List.range_succ]

theorem length_flatMap (epochs : ℕ → List Batch) (e : ℕ) : ((List.range e).flatMap epochs).length = batchesBefore epochs e := by
  simp [batchesBefore, List.length_flatMap]

theorem le_batchesBefore {epochs : ℕ → List Batch} (hne : ∀ e, epochs e ≠ []) (e : ℕ) : e ≤ batchesBefore epochs e := by
  induction e with
  | zero => simp
  | succ e ih =>
    rw [batchesBefore_succ]
    have := List.length_pos_iff.2 (hne e)
    omega

theorem flatMap_prefix (epochs : ℕ → List Batch) (m n : ℕ) (h : m ≤ n) :
    (List.range m).flatMap epochs <+: (List.range n).flatMap epochs := by
  obtain ⟨d, rfl⟩ := Nat.exists_eq_add_of_le h
  induction d with
  | zero => exact List.prefix_refl _
  | succ d ih =>
    rw [← Nat.add_assoc, List.range_succ, List.flatMap_append]
    exact (ih (by omega)).trans (List.prefix_append _ _)

theorem batchNr_eq {epochs : ℕ → List Batch} (hne : ∀ e, epochs e ≠ []) {e d : ℕ} {b : Batch} (h : (epochs e)[d]? = some b) :
    batchNr epochs (batchesBefore epochs e + d) = b := by
  have hd : d < (epochs e).length := (List.getElem?_eq_some_iff.1 h).1
  have h1 : ((List.range (e + 1)).flatMap epochs)[batchesBefore epochs e + d]? = some b := by
    rw [List.range_succ, List.flatMap_append, List.getElem?_append_right (by rw [length_flatMap]; omega), length_flatMap]
    simpa using h
  have h2 := le_batchesBefore hne e
  unfold batchNr
  rw [List.getD_eq_getElem?_getD]
  obtain ⟨q, hq⟩ := flatMap_prefix epochs (e + 1) (batchesBefore epochs e + d + 1) (by omega)
  rw [← hq, List.getElem?_append_left (by rw [length_flatMap, batchesBefore_succ]; omega), h1, Option.getD_some]

/-- Every number is that of a batch of some epoch. -/
theorem batchNr_mem {epochs : ℕ → List Batch} (hne : ∀ e, epochs e ≠ []) (k : ℕ) : ∃ e, batchNr epochs k ∈ epochs e := by
  have hlt : k < ((List.range (k + 1)).flatMap epochs).length := by
    rw [length_flatMap]
    exact lt_of_lt_of_le (Nat.lt_succ_self k) (le_batchesBefore hne (k + 1))
  have : batchNr epochs k ∈ (List.range (k + 1)).flatMap epochs := by
    unfold batchNr
    rw [List.getD_eq_getElem?_getD, List.getElem?_eq_getElem hlt, Option.getD_some]
    exact List.getElem_mem hlt
  obtain ⟨e, -, he⟩ := List.mem_flatMap.1 this
  exact ⟨e, he⟩

/-! ### Runs -/

/-- Induction over a run from its end. -/
theorem Run.back {W V : Type} {env : Env W V} {hooks : List Hook} {C : List (St W V × Event V) → St W V → Prop} {s : St W V}
    (h0 : C [] s) (h1 : ∀ L x, C L x → C L { x with epoch := x.epoch + 1 })
    (h2 : ∀ L x ev y, C L x → Step env hooks x ev y → C (L ++ [(x, ev)]) y) {L : List (St W V × Event V)} {s' : St W V}
    (h : Training.Run env hooks s L s') : C L s' := by
  have key : ∀ pre, C pre s → C (pre ++ L) s' := by
    clear h0
    induction h with
    | nil s => intro pre hp; simpa using hp
    | epoch s L s' _ ih => exact fun pre hp => ih pre (h1 _ _ hp)
    | cons s ev s₁ L s' hs _ ih =>
      intro pre hp
      have := ih _ (h2 _ _ _ _ hp hs)
      simpa using this
  simpa using key [] h0

/-! ### The plain training depends only on the steps done -/

theorem train_congr {S : Type} {net : Net} {input : Name} {Q : ℕ → ℕ → List MLayer} {report : ℕ → ℕ → Mem → Option ℝ}
    {run run' : ℕ → Constrained.Stepper S} {batches : ℕ → Batch} {evals : ℕ → List Batch} {s : Constrained.Run S} (n : ℕ)
    (h : ∀ k < n, run k = run' k) :
    Constrained.train net input Q report run batches evals s n = Constrained.train net input Q report run' batches evals s n := by
  induction n with
  | zero => rfl
  | succ n ih => simp only [Constrained.train, ih fun k hk => h k (by omega), h n (by omega)]

variable {S : Type} {Z : Setting S}

/-- One batch, in terms of the round of the plain training. -/
theorem step_of_round {report : ℕ → ℕ → Mem → Option ℝ} (hr : ∀ T B m, report T B m = Dict.get? (Z.losses T B m) (str "total_loss"))
    {w : World S} {b : Batch} (hb : (Z.epochs (Z.position w).1)[(Z.position w).2.1]? = some b) {t : Constrained.Run S} {x : ℝ}
    (h : Constrained.round Z.net Z.input Z.Q report (Z.stepper w.lr w.momentum) b [] w.run = some (t, x)) :
    ∃ d, Dict.get? d (str "total_loss") = some x ∧ Z.step w = some { w with
      run := t, epoch := (Z.position w).1, done := (Z.position w).2.1 + 1, scores := (Z.position w).2.2 ++ [(b.B, d)] } := by
  simp only [Constrained.round, evaluate, Option.bind_eq_some_iff, Option.map_eq_some_iff] at h
  obtain ⟨st, h1, r, h2, l, h3, q, h4, st', h5, h6⟩ := h
  obtain ⟨rfl, rfl⟩ := Prod.mk.inj h6
  cases h5
  refine ⟨Z.losses b.T b.B (memOf r.1), by rw [← hr, h3], ?_⟩
  simp only [Setting.step, hb, h1, h2, h4, Option.bind_some, Option.map_some]

/-- Where the data iterator is. -/
def World.nr (w : World S) (epochs : ℕ → List Batch) : ℕ := batchesBefore epochs w.epoch + w.done

/-- The next position. -/
theorem position_spec (hne : ∀ e, Z.epochs e ≠ []) {w : World S} (hp : w.done ≤ (Z.epochs w.epoch).length) :
    batchesBefore Z.epochs (Z.position w).1 + (Z.position w).2.1 = w.nr Z.epochs ∧
      (Z.position w).2.1 < (Z.epochs (Z.position w).1).length := by
  unfold Setting.position World.nr
  split
  · rename_i h
    exact ⟨rfl, h⟩
  · refine ⟨?_, List.length_pos_iff.2 (hne _)⟩
    show batchesBefore Z.epochs (w.epoch + 1) + 0 = _
    rw [batchesBefore_succ]
    omega

end Verif.Trainer
