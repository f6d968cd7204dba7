import Verif.Iterate.Props
import Verif.Parts.Demo

/-!
# The assumptions of C86 are met

The network of `Verif.Sequence.Demo` (Input, Lstm, FullyConnected, SquaredError, Loss), with data for any number of sequences of any length,
every batch size and every order of the batches.
-/

namespace Verif.Iterate

open Verif.Architecture hiding demoArch
open Verif.Structure Verif.Layout Verif.Buffers Verif.Instantiate Verif.EndToEnd
open Verif.Memory hiding demoL
open Verif.Setup (Kwargs libEnv infos getLossValues)
open Verif.Session Verif.Determined Verif.Descent Verif.Sequence Verif.Evaluate Verif.Parts
open Verif.Data (Arr Minibatches)

/-- Data with `n + 1` sequences of `T` steps; the last array is not used by the network. -/
def demoData (f g : ℕ → ℕ → ℕ → ℝ) (T n : ℕ) : Dict Name (Arr (List ℝ)) :=
  [(str "default", ⟨3, n + 1, (List.range T).map fun t => (List.range (n + 1)).map fun q => (List.range 4).map (f t q)⟩),
   (str "targets", ⟨3, n + 1, (List.range T).map fun t => (List.range (n + 1)).map fun q => (List.range 2).map (g t q)⟩),
   (str "notes", ⟨3, n + 1, (List.range T).map fun t => (List.range (n + 1)).map fun q => [(t + q : ℝ)]⟩)]

theorem demo_fits (f g : ℕ → ℕ → ℕ → ℝ) (T n : ℕ) : FitsInput chainData (demoData f g T n) where
  keys := by
    have : (Dict.keys (demoData f g T n)) = [str "default", str "targets", str "notes"] := rfl
    rw [this]
    decide
  regular := by
    simp only [demoData, List.forall_mem_cons, List.not_mem_nil, false_imp_iff, implies_true, and_true, Arr.Regular, List.mem_map]
    refine ⟨?_, ?_, ?_⟩ <;> rintro r ⟨t, -, rfl⟩ <;> simp
  sequences := by simp [demoData]
  shapes := by decide +kernel
  arrays := by
    have hd : chainData.outShapes = [(str "default", ⟨[.T, .B, .n 4], 0, false⟩), (str "targets", ⟨[.T, .B, .n 2], 0, false⟩)] := by
      decide +kernel
    rw [hd]
    simp only [List.forall_mem_cons, List.not_mem_nil, false_imp_iff, implies_true, and_true]
    refine ⟨⟨_, rfl, ?_⟩, ⟨_, rfl, ?_⟩⟩ <;>
    · intro r hr v hv
      obtain ⟨t, -, rfl⟩ := List.mem_map.1 hr
      obtain ⟨q, -, rfl⟩ := List.mem_map.1 hv
      rw [List.length_map, List.length_range]
      decide

theorem demo_uncut (f g : ℕ → ℕ → ℕ → ℝ) (T n : ℕ) : Uncut (demoData f g T n) (.name (str "mask")) :=
  Or.inr ⟨_, rfl, rfl⟩

theorem demo_create (f g : ℕ → ℕ → ℕ → ℝ) (T n size : ℕ) (hs : 0 < size) (sh : Bool) (nonzero : List ℝ → Option Bool) :
    Minibatches.create nonzero size sh (.name (str "mask")) (demoData f g T n) =
      some ⟨demoData f g T n, (n + 1 + size - 1) / size, sh, size, List.replicate (n + 1) T⟩ := by
  have hf : Data.assertFormat (demoData f g T n) = some (n + 1, T) := by
    simp [Data.assertFormat, demoData, Arr.times]
  have hl : Data.seqLensOf nonzero (demoData f g T n) (n + 1) T (.name (str "mask")) = some (List.replicate (n + 1) T) := rfl
  unfold Minibatches.create
  rw [hf]
  simp only
  rw [if_neg (by omega), hl]

/-- All assumptions are met: losses and scores, with the last batch first. -/
example (f g : ℕ → ℕ → ℕ → ℝ) (T n size : ℕ) (hs : 0 < size) (M : Mode) (hM : M.training = false) (rnds : ℕ → ℕ → ℝ) (rnd : ℕ → ℝ) :
    ∃ (m : Minibatches (List ℝ)) (bs : List Batch) (w : Batch) (P : ℕ → ℕ → List MLayer) (st : State ℝ) (loss : ℝ),
      Minibatches.create (fun _ => none) size true (.name (str "mask")) (demoData f g T n) = some m ∧
      batchesOf chainData (m.call (List.range m.length).reverse) rnds = some bs ∧ batchOf chainData (demoData f g T n) rnd = some w ∧
      evaluateLoss (netOf (infos chainLayers) chainL) chainData.name P (reported chainArch chainLayers chainL) bs st = some loss ∧
      evaluateLoss (netOf (infos chainLayers) chainL) chainData.name P (reported chainArch chainLayers chainL) [w] st = some loss := by
  obtain ⟨data, rest, hdt, F, ps, -, h⟩ := C86_losses chainKwargs chainArch (by decide +kernel) (demoOrders true) (demoOrders_ok true)
    chainLayers chain_instantiates chain_outs chainL chain_layout chain_trainable chain_numeric chain_supported
  obtain ⟨st, θ, hst, hθ⟩ := chain_new
  obtain rfl := chain_data F hdt
  obtain ⟨bs, w, g1, g2, g3, st₁, st₂, loss, -, -, -, g4⟩ := h M st st θ hM hst hst hθ hθ
    (fun l ts ht => (ht.elim (chain_types_not l).1 (chain_types_not l).2.1).elim) _ (fun _ => none) size true _ _ (demo_fits f g T n)
    (demo_uncut f g T n) (demo_create f g T n size hs true _) _ (List.reverse_perm _) rnds rnd
  exact ⟨_, bs, w, _, st, loss, demo_create f g T n size hs true _, g1, g2, g4, (g3 (str "total_loss")).symm.trans g4⟩

example (f g : ℕ → ℕ → ℕ → ℝ) (T n size : ℕ) (hs : 0 < size) (M : Mode) (hM : M.training = false) (rnds : ℕ → ℕ → ℝ) (rnd : ℕ → ℝ) :
    ∃ (m : Minibatches (List ℝ)) (bs : List Batch) (w : Batch) (P : ℕ → ℕ → List MLayer) (st : State ℝ) (v : ℝ),
      Minibatches.create (fun _ => none) size true (.name (str "mask")) (demoData f g T n) = some m ∧
      batchesOf chainData (m.call (List.range m.length).reverse) rnds = some bs ∧ batchOf chainData (demoData f g T n) rnd = some w ∧
      evaluateScore (netOf (infos chainLayers) chainL) chainData.name P (scored (path (str "Out") (str "outputs") (str "default"))
        (path (str "Input") (str "outputs") (str "targets")) 2 2 none) false (Scoring.squaredError false) bs st = some v ∧
      evaluateScore (netOf (infos chainLayers) chainL) chainData.name P (scored (path (str "Out") (str "outputs") (str "default"))
        (path (str "Input") (str "outputs") (str "targets")) 2 2 none) false (Scoring.squaredError false) [w] st = some v := by
  obtain ⟨data, rest, hdt, F, ps, -, h⟩ := C86_scores chainKwargs chainArch (by decide +kernel) (demoOrders true) (demoOrders_ok true)
    chainLayers chain_instantiates chain_outs chainL chain_layout chain_trainable chain_numeric chain_supported
  obtain ⟨st, θ, hst, hθ⟩ := chain_new
  obtain rfl := chain_data F hdt
  obtain ⟨bs, w, g1, g2, g3⟩ := h M st st θ hM hst hst hθ hθ
    (fun l ts ht => (ht.elim (chain_types_not l).1 (chain_types_not l).2.1).elim) _ (fun _ => none) size true _ _ (demo_fits f g T n)
    (demo_uncut f g T n) (demo_create f g T n size hs true _) _ (List.reverse_perm _) rnds rnd
  obtain ⟨_, _, _, -, -, -, g4, g5⟩ := g3 _ _ _ _ none _ demo_output.1 ⟨rfl, rfl⟩ demo_output.2 ⟨rfl, rfl⟩ (by simp) (Or.inr (Or.inr rfl))
  exact ⟨_, bs, w, _, st, _, demo_create f g T n size hs true _, g1, g2, g4, g5⟩

/-- All assumptions are met: extraction. -/
example (f g : ℕ → ℕ → ℕ → ℝ) (T n size : ℕ) (hs : 0 < size) (M : Mode) (hM : M.training = false) (rnds : ℕ → ℕ → ℝ) (rnd : ℕ → ℝ) :
    ∃ (m : Minibatches (List ℝ)) (bs : List Batch) (w : Batch) (P : ℕ → ℕ → List MLayer) (st : State ℝ) (res : _),
      Minibatches.create (fun _ => none) size false (.name (str "mask")) (demoData f g T n) = some m ∧
      batchesOf chainData (m.call (List.range m.length)) rnds = some bs ∧ batchOf chainData (demoData f g T n) rnd = some w ∧
      extract (netOf (infos chainLayers) chainL) chainData.name P
        [(path (str "Out") (str "outputs") (str "default"), ⟨[.T, .B, .n 2], 0, false⟩)] w.B bs st = some res := by
  obtain ⟨data, rest, hdt, F, ps, -, h⟩ := C86_extract chainKwargs chainArch (by decide +kernel) (demoOrders true) (demoOrders_ok true)
    chainLayers chain_instantiates chain_outs chainL chain_layout chain_trainable chain_numeric chain_supported
  obtain ⟨st, θ, hst, hθ⟩ := chain_new
  obtain rfl := chain_data F hdt
  obtain ⟨bs, w, g1, g2, g3⟩ := h M st st θ hM hst hst hθ hθ
    (fun l ts ht => (ht.elim (chain_types_not l).1 (chain_types_not l).2.1).elim) _ (fun _ => none) size _ _ (demo_fits f g T n)
    (demo_uncut f g T n) (demo_create f g T n size hs false _) rnds rnd
  obtain ⟨_, _, res, -, -, g4, -⟩ := g3 [(path (str "Out") (str "outputs") (str "default"), ⟨[.T, .B, .n 2], 0, false⟩)] (by simp) (by simp)
    (by simpa using demo_output.1)
  exact ⟨_, bs, w, _, st, res, demo_create f g T n size hs false _, g1, g2, g4⟩

/-- All assumptions are met: gradients. -/
example (f g : ℕ → ℕ → ℕ → ℝ) (T n size : ℕ) (hT : 0 < T) (hs : 0 < size) (M : Mode) (rnds : ℕ → ℕ → ℝ) (rnd : ℕ → ℝ) :
    ∃ (m : Minibatches (List ℝ)) (bs : List Batch) (w : Batch) (P : ℕ → ℕ → List MLayer) (k : ℕ) (st : State ℝ) (loss : Batch → ℝ)
      (d : Batch → Fin k → ℝ), 0 < k ∧
      Minibatches.create (fun _ => none) size true (.name (str "mask")) (demoData f g T n) = some m ∧
      batchesOf chainData (m.call (List.range m.length).reverse) rnds = some bs ∧ batchOf chainData (demoData f g T n) rnd = some w ∧
      (∀ b ∈ w :: bs, Gives (netOf (infos chainLayers) chainL) chainData.name P
        (reported chainArch chainLayers chainL) st b (loss b) (List.ofFn (d b))) ∧
      ∀ i, (w.B : ℝ) * d w i = (bs.map fun b => (b.B : ℝ) * d b i).sum := by
  obtain ⟨data, rest, hdt, F, ps, -, h⟩ := C86_gradients chainKwargs chainArch (by decide +kernel) (demoOrders true) (demoOrders_ok true)
    chainLayers chain_instantiates chain_outs chainL chain_layout chain_trainable chain_numeric chain_supported chain_free
    fun n => (chain_types_not n).2.2
  obtain ⟨k, hk, hnew⟩ := chain_with
  obtain ⟨st, hst, hθ⟩ := hnew fun i => (i : ℝ)
  obtain rfl := chain_data F hdt
  obtain ⟨bs, w, g1, g2, loss, d, g3, -, g4⟩ := h M k st _ hst hθ (fun i hi => absurd hi (chain_noPeriods i)) _ (fun _ => none) size true _ _
    (demo_fits f g T n) (demo_uncut f g T n) (demo_create f g T n size hs true _) _ (List.reverse_perm _) rnds rnd
  refine ⟨_, bs, w, _, k, st, loss, d, hk, demo_create f g T n size hs true _, g1, g2, g3, g4 (Or.inr ⟨chain_noKinks, ?_⟩)⟩
  rw [batchOf_eq (n := n + 1) (T := T) (by simp [demoData]) (by simp [demoData, Arr.times]) (fun e he => by
    obtain ⟨x, hx, -⟩ := (demo_fits f g T n).arrays e he
    exact ⟨x, hx⟩), Option.some.injEq] at g2
  rw [← g2]
  exact hT

end Verif.Iterate
