import Verif.Parts.Everywhere
import Verif.Evaluate.Demo
import Verif.Descent.Demo

/-!
# The assumptions of C85 are met

The network of `Verif.Sequence.Demo` (Input, Lstm, FullyConnected, SquaredError, Loss), with any number of sequences of any length.
-/

namespace Verif.Parts

open Verif.Architecture hiding demoArch
open Verif.Structure Verif.Layout Verif.Buffers Verif.Instantiate Verif.EndToEnd
open Verif.Memory hiding demoL
open Verif.Setup (Kwargs libEnv infos toInfo inp_some)
open Verif.Session Verif.Determined Verif.Descent Verif.Sequence Verif.Evaluate

theorem chain_noKinks : NoKinks chainArch chainKwargs where
  types n t h := by
    rw [chain_types] at h
    have : ∀ x : Name × Name, x ∈ [(str "Input", str "Input"), (str "Rnn", str "Lstm"), (str "Out", str "FullyConnected"),
        (str "SE", str "SquaredError"), (str "Loss", str "Loss")] → x.2 ∈ [str "Input", str "FullyConnected", str "Elementwise", str "NoOp",
        str "Highway", str "Merge", str "Mask", str "SquaredDifference", str "SquaredError", str "L2Decay", str "Loss", str "Recurrent",
        str "Clockwork", str "Lstm", str "ClockworkLstm", str "Convolution2D", str "Pooling2D"] := by decide +kernel
    exact this (n, t) h
  given n h := by
    simp only [chain_types, List.mem_cons, Prod.mk.injEq, List.not_mem_nil, or_false] at h
    have : n = str "Out" := by
      rcases h with (⟨-, h⟩ | ⟨-, h⟩ | ⟨h, -⟩ | ⟨-, h⟩ | ⟨-, h⟩) | (⟨-, h⟩ | ⟨-, h⟩ | ⟨-, h⟩ | ⟨-, h⟩ | ⟨-, h⟩) <;>
        first | exact absurd h (by decide) | exact h
    subst this
    decide +kernel
  notRel n h := by
    simp only [chain_types, List.mem_cons, Prod.mk.injEq, List.not_mem_nil, or_false] at h
    have : n = str "Rnn" := by
      rcases h with h | h | h | h | h <;> rcases h with h | h | h | h | h <;>
        first | exact absurd h.2 (by decide) | exact h.1
    subst this
    decide +kernel
  average n h := by
    simp only [chain_types, List.mem_cons, Prod.mk.injEq, List.not_mem_nil, or_false] at h
    rcases h with h | h | h | h | h <;> exact absurd h.2 (by decide)

theorem chain_free : FreePeriods (infos chainLayers) := by
  have : ∀ l ∈ infos chainLayers, ∀ o ∈ l.outgoing, o.kind = .parameters → o.buffer ≠ str "timing" := by decide +kernel
  exact this

theorem chain_noPeriods (i : ℕ) : ¬ IsPeriod (infos chainLayers) chainL i := by
  rintro ⟨l, hl, s, hs, -⟩
  have : ∀ l ∈ infos chainLayers, str "timing" ∉ l.paramShapes.map Prod.fst := by decide +kernel
  exact this l hl (List.mem_map.2 ⟨_, hs, rfl⟩)

/-- A new network with given parameters. -/
theorem chain_with : ∃ (n : ℕ), 0 < n ∧ ∀ θ : Fin n → ℝ, ∃ st : State ℝ, Reachable (netOf (infos chainLayers) chainL) st ∧
    st.read (str "parameters") = some (List.ofFn θ) := by
  obtain ⟨data, rest, -, F, -⟩ := C77_loss chainKwargs chainArch (by decide +kernel) (demoOrders true) (demoOrders_ok true) chainLayers
    chain_instantiates chain_outs chainL chain_layout chain_trainable chain_numeric chain_supported
  obtain ⟨st, _, _, h1, i⟩ := create_inv (V := ℝ) (netOf_wellLaid F.laid.wf F.laid.shaped F.laid.layout)
  obtain ⟨e, he⟩ := params_entry (layers := infos chainLayers) (L := chainL)
  refine ⟨(cells (netOf (infos chainLayers) chainL) 0 0 (str "parameters")).length, by decide +kernel, fun θ => ?_⟩
  obtain ⟨st', h2, -, h3, -⟩ := write_inv F.laid i he (vals := List.ofFn θ) (by rw [List.length_ofFn])
  exact ⟨st', .step (.write (str "parameters") (List.ofFn θ)) (.new h1) h2, h3⟩

/-- All assumptions are met, for any number of parts of any sizes. -/
example (f g : ℕ → ℕ → ℕ → ℝ) (T : ℕ) (hT : 0 < T) (ns : List ℕ) (h0 : ∀ n ∈ ns, 0 < n) (hne : ns ≠ []) (M : Mode) :
    ∃ (P : ℕ → ℕ → List MLayer) (n : ℕ) (st : State ℝ) (loss : Batch → ℝ) (d : Batch → Fin n → ℝ), 0 < n ∧
      (∀ b ∈ seqs f g T 0 ns.sum :: split f g T 0 ns, Gives (netOf (infos chainLayers) chainL) chainData.name P
        (reported chainArch chainLayers chainL) st b (loss b) (List.ofFn (d b))) ∧
      ∀ i, (ns.sum : ℝ) * d (seqs f g T 0 ns.sum) i = ((split f g T 0 ns).map fun b => (b.B : ℝ) * d b i).sum := by
  obtain ⟨data, rest, hdt, F, ps, -, h⟩ := C85_parts chainKwargs chainArch (by decide +kernel) (demoOrders true) (demoOrders_ok true)
    chainLayers chain_instantiates chain_outs chainL chain_layout chain_trainable chain_numeric chain_supported chain_free
    fun n => (chain_types_not n).2.2
  obtain ⟨n, hn, hnew⟩ := chain_with
  obtain ⟨st, hst, hθ⟩ := hnew fun i => (i : ℝ)
  obtain rfl := chain_data F hdt
  obtain ⟨loss, d, g1, -, g2⟩ := h M n st (seqs f g T 0 ns.sum) (split f g T 0 ns) _ hst hθ (fun i hi => absurd hi (chain_noPeriods i))
    (demo_cut f g T ns h0 hne)
  exact ⟨_, n, st, loss, d, hn, g1, g2 (Or.inr ⟨chain_noKinks, hT⟩)⟩

/-- Sequences in another order: the first `p` come last. -/
def later (p q : ℕ) (f : ℕ → ℕ → ℕ → ℝ) : ℕ → ℕ → ℕ → ℝ := fun t j k => if j < q then f t (p + j) k else f t (j - q) k

theorem seqs_congr {f g f' g' : ℕ → ℕ → ℕ → ℝ} {T lo lo' n : ℕ} (h : ∀ t j k, j < n → f t (lo + j) k = f' t (lo' + j) k)
    (h' : ∀ t j k, j < n → g t (lo + j) k = g' t (lo' + j) k) : seqs f g T lo n = seqs f' g' T lo' n := by
  have pos : ∀ m : ℕ, ∀ j ∈ List.range (T * n * m), j / m % n < n := by
    intro m j hj
    rw [List.mem_range] at hj
    refine Nat.mod_lt _ (Nat.pos_of_ne_zero fun e => ?_)
    simp [e] at hj
  unfold seqs
  congr 3
  · exact (List.map_congr_left fun j hj => h _ _ _ (pos 4 j hj))
  · congr 1
    exact (List.map_congr_left fun j hj => h' _ _ _ (pos 2 j hj))

theorem demo_same (f g : ℕ → ℕ → ℕ → ℝ) (T p q : ℕ) (hp : 0 < p) (hq : 0 < q) :
    SameSequences chainData (seqs f g T 0 (p + q)) (seqs (later p q f) (later p q g) T 0 (q + p)) (split f g T 0 [p, q])
      (split (later p q f) (later p q g) T 0 [q, p]) := by
  refine ⟨by simpa using demo_cut f g T [p, q] (by simp [hp, hq]) (by simp),
    by simpa using demo_cut (later p q f) (later p q g) T [q, p] (by simp [hp, hq]) (by simp), ?_⟩
  have e1 : ∀ f : ℕ → ℕ → ℕ → ℝ, ∀ t j k, j < q → f t (0 + p + j) k = later p q f t (0 + j) k := fun f t j k hj => by
    simp [later, hj]
  have e2 : ∀ f : ℕ → ℕ → ℕ → ℝ, ∀ t j k, j < p → f t (0 + j) k = later p q f t (0 + q + j) k := fun f t j k hj => by
    simp [later]
  simp only [split]
  rw [seqs_congr (e1 f) (e1 g), seqs_congr (e2 f) (e2 g)]
  exact List.Perm.swap _ _ _

/-- Training with batches whose sequences are in another order. -/
example (f g : ℕ → ℕ → ℕ → ℕ → ℝ) (T p q : ℕ) (hT : 0 < T) (hp : 0 < p) (hq : 0 < q) (M : Mode) (lr : ℕ → ℝ) (k : ℕ) :
    ∃ (P : ℕ → ℕ → List MLayer) (st st₁ st₂ : State ℝ) (log θ : List ℝ),
      train (netOf (infos chainLayers) chainL) chainData.name P (reported chainArch chainLayers chainL)
        (fun k => sgdRun (netOf (infos chainLayers) chainL) P (lr k)) (fun j => seqs (f j) (g j) T 0 (p + q)) (fun _ => []) (st, ()) k =
          some ((st₁, ()), log) ∧
      train (netOf (infos chainLayers) chainL) chainData.name P (reported chainArch chainLayers chainL)
        (fun k => sgdRun (netOf (infos chainLayers) chainL) P (lr k)) (fun j => seqs (later p q (f j)) (later p q (g j)) T 0 (q + p))
          (fun _ => []) (st, ()) k = some ((st₂, ()), log) ∧
      st₁.read (str "parameters") = some θ ∧ st₂.read (str "parameters") = some θ := by
  obtain ⟨data, rest, hdt, F, ps, -, h⟩ := C85_order chainKwargs chainArch (by decide +kernel) (demoOrders true) (demoOrders_ok true)
    chainLayers chain_instantiates chain_outs chainL chain_layout chain_trainable chain_numeric chain_supported chain_free
    fun n => (chain_types_not n).2.2
  obtain ⟨n, hn, hnew⟩ := chain_with
  obtain ⟨st, hst, hθ⟩ := hnew fun i => (i : ℝ)
  obtain rfl := chain_data F hdt
  obtain ⟨st₁, st₂, log, θ, h1, h2, h3, h4⟩ := (h M n st _ hst hθ (fun i hi => absurd hi (chain_noPeriods i)) _ _ _ _
    (fun j => demo_same (f j) (g j) T p q hp hq) lr (fun _ => 0) false k).1 (Or.inl ⟨chain_noKinks, fun _ _ => hT⟩)
  exact ⟨_, st, st₁, st₂, log, θ, h1, h2, h3, h4⟩

/-- The gradients of this network, with its LSTM layer, are the derivative of the loss at all parameters. -/
example (f g : ℕ → ℕ → ℕ → ℝ) (T B : ℕ) (hT : 0 < T) (M : Mode) : ∃ (P : ℕ → ℕ → List MLayer) (n : ℕ), 0 < n ∧ ∀ θ : Fin n → ℝ,
    ∃ (st : State ℝ) (loss : (Fin n → ℝ) → ℝ) (d : Fin n → ℝ),
      Gives (netOf (infos chainLayers) chainL) chainData.name P (reported chainArch chainLayers chainL) st (seqs f g T 0 B) (loss θ) (List.ofFn d) ∧
      HasFDerivAt loss (∑ i, d i • ContinuousLinearMap.proj (R := ℝ) (φ := fun _ : Fin n => ℝ) i) θ := by
  obtain ⟨data, rest, hdt, F, ps, -, h⟩ := C84_everywhere chainKwargs chainArch (by decide +kernel) (demoOrders true) (demoOrders_ok true)
    chainLayers chain_instantiates chain_outs chainL chain_layout chain_trainable chain_numeric chain_supported chain_noKinks
  obtain ⟨n, hn, hnew⟩ := chain_with
  obtain rfl := chain_data F hdt
  refine ⟨fun T B => libNetwork F (ps M T B), n, hn, fun θ => ?_⟩
  obtain ⟨st, hst, hθ⟩ := hnew θ
  obtain ⟨loss, d, -, g1, -, g2⟩ := h M n st (seqs f g T 0 B) θ hst (seqs_good ..) hT hθ fun i hi => absurd hi (chain_noPeriods i)
  exact ⟨st, loss, d, g1, g2 fun i => chain_noPeriods i⟩

end Verif.Parts
