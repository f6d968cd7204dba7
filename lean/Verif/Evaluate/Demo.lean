import Verif.Evaluate.Props
import Verif.Sequence.Demo

/-!
# C79: a case

The network of `Verif.Sequence.Demo` (Input, Lstm, FullyConnected, SquaredError, Loss), with any number of sequences of any length.
-/

namespace Verif.Evaluate

open Verif.Architecture hiding demoArch
open Verif.Structure Verif.Layout Verif.Buffers Verif.Instantiate Verif.EndToEnd
open Verif.Memory hiding demoL
open Verif.Session Verif.Sequence
open Verif.Setup (Kwargs libEnv infos getLossValues)

/-- Sequences `lo`, ..., `lo + n - 1`, with `T` steps; `f t q k` is number `k` of the input of sequence `q` at step `t`. -/
noncomputable def seqs (f g : ℕ → ℕ → ℕ → ℝ) (T lo n : ℕ) : Batch :=
  ⟨T, n, [(str "default", (List.range (T * n * 4)).map fun j => f (j / 4 / n) (lo + j / 4 % n) (j % 4)),
    (str "targets", (List.range (T * n * 2)).map fun j => g (j / 2 / n) (lo + j / 2 % n) (j % 2))], 0⟩

/-- The batches. -/
noncomputable def split (f g : ℕ → ℕ → ℕ → ℝ) (T : ℕ) : ℕ → List ℕ → List Batch
  | _, [] => []
  | lo, n :: ns => seqs f g T lo n :: split f g T (lo + n) ns

theorem seqs_good (f g : ℕ → ℕ → ℕ → ℝ) (T lo n : ℕ) : (seqs f g T lo n).Good chainData := by
  refine ⟨?_, ?_, ?_⟩
  · simp only [seqs, List.map]; decide +kernel
  · simp only [seqs, List.map]; decide +kernel
  · simp only [seqs, List.forall_mem_cons, List.not_mem_nil, false_imp_iff, implies_true, and_true]
    refine ⟨⟨⟨[.T, .B, .n 4], 0, false⟩, by decide +kernel, ?_⟩, ⟨⟨[.T, .B, .n 2], 0, false⟩, by decide +kernel, ?_⟩⟩ <;>
      simp [structShape, mul_assoc, Struct.bufferType, Struct.featureShape, Tok.size, typeOf]

theorem split_at (f g : ℕ → ℕ → ℕ → ℝ) (T : ℕ) (ns : List ℕ) : ∀ (lo : ℕ) (done : List Batch) (b : Batch) (later : List Batch),
    split f g T lo ns = done ++ b :: later → ∃ n ∈ ns, b = seqs f g T (lo + (done.map Batch.B).sum) n := by
  induction ns with
  | nil => intro lo done b later h; simp [split] at h
  | cons n ns ih =>
    intro lo done b later h
    cases done with
    | nil => exact ⟨n, by simp, (List.cons.inj h).1.symm⟩
    | cons x done =>
      obtain ⟨rfl, h'⟩ := List.cons.inj h
      obtain ⟨n', hn', e⟩ := ih _ _ _ _ h'
      exact ⟨n', by simp [hn'], by rw [e, List.map_cons, List.sum_cons, ← Nat.add_assoc]; rfl⟩

theorem split_sum (f g : ℕ → ℕ → ℕ → ℝ) (T : ℕ) (ns : List ℕ) : ∀ lo, ((split f g T lo ns).map Batch.B).sum = ns.sum := by
  induction ns with
  | nil => simp [split]
  | cons n ns ih => intro lo; simp [split, ih, seqs]

theorem seqs_same (f g : ℕ → ℕ → ℕ → ℝ) (T lo n N : ℕ) (A : Align) (h1 : A.T = T) (h2 : A.B = N) (h3 : A.T' = T) (h4 : A.B' = n)
    (h5 : A.b = lo + A.b') (h6 : A.o = 0) : SameData A chainData (seqs f g T 0 N) (seqs f g T lo n) := by
  have key : ∀ (h : ℕ → ℕ → ℕ → ℝ) (m : ℕ) (sh : Struct), sh.bufferType = 2 → sh.featureSize = m →
      A.Same sh (fun j => ((List.range (T * N * m)).map fun j => h (j / m / N) (0 + j / m % N) (j % m)).getD j 0)
        (fun j => ((List.range (T * n * m)).map fun j => h (j / m / n) (lo + j / m % n) (j % m)).getD j 0) := by
    rintro h m sh hb rfl r r' hr k hk
    obtain ⟨t, ht, rfl, rfl⟩ := (Align.rows_seq hb).1 hr
    have s2 := A.steps'
    have q1 := A.seq
    have q2 := A.seq'
    rw [h2] at q1
    rw [h3] at s2
    rw [h4] at q2
    have bound : ∀ B q : ℕ, q < B → (t * B + q) * sh.featureSize + k < T * B * sh.featureSize := by
      intro B q hq
      have e1 : t * B + q + 1 ≤ (t + 1) * B := by rw [Nat.add_mul]; omega
      have e2 := Nat.mul_le_mul_right B (show t + 1 ≤ T by omega)
      have e3 : (t * B + q + 1) * sh.featureSize ≤ T * B * sh.featureSize := Nat.mul_le_mul_right _ (e1.trans e2)
      rw [Nat.add_mul] at e3
      omega
    have pos : 0 < sh.featureSize := by omega
    have d : ∀ x, (x * sh.featureSize + k) / sh.featureSize = x := fun x => by
      rw [Nat.add_comm, Nat.add_mul_div_right _ _ pos, Nat.div_eq_of_lt hk, Nat.zero_add]
    have md : ∀ x, (x * sh.featureSize + k) % sh.featureSize = k := fun x => by
      rw [Nat.add_comm, Nat.add_mul_mod_self_right, Nat.mod_eq_of_lt hk]
    have d' : ∀ B q, q < B → (t * B + q) / B = t ∧ (t * B + q) % B = q := fun B q hq => by
      constructor
      · rw [Nat.add_comm, Nat.add_mul_div_right _ _ (by omega), Nat.div_eq_of_lt hq, Nat.zero_add]
      · rw [Nat.add_comm, Nat.add_mul_mod_self_right, Nat.mod_eq_of_lt hq]
    simp only
    rw [h2, h4, h6, Nat.zero_add, range_getD _ (bound _ _ q1), range_getD _ (bound _ _ q2), d, d, md, md, (d' _ _ q1).1, (d' _ _ q1).2,
      (d' _ _ q2).1, (d' _ _ q2).2, Nat.zero_add, h5]
  intro x sh xs xs' hx hxs hxs'
  have hd : chainData.outShapes = [(str "default", ⟨[.T, .B, .n 4], 0, false⟩), (str "targets", ⟨[.T, .B, .n 2], 0, false⟩)] := by
    decide +kernel
  rw [hd] at hx
  simp only [seqs, List.mem_cons, Prod.mk.injEq, List.not_mem_nil, or_false] at hx hxs hxs'
  have hne : str "default" ≠ str "targets" := by decide
  rcases hx with ⟨rfl, rfl⟩ | ⟨rfl, rfl⟩
  · obtain rfl := hxs.elim (fun g => g.2) fun g => absurd g.1 hne
    obtain rfl := hxs'.elim (fun g => g.2) fun g => absurd g.1 hne
    exact key f 4 _ rfl rfl
  · obtain rfl := hxs.elim (fun g => absurd g.1.symm hne) fun g => g.2
    obtain rfl := hxs'.elim (fun g => absurd g.1.symm hne) fun g => g.2
    exact key g 2 _ rfl rfl

theorem demo_cut (f g : ℕ → ℕ → ℕ → ℝ) (T : ℕ) (ns : List ℕ) (h0 : ∀ n ∈ ns, 0 < n) (hne : ns ≠ []) :
    Cut chainData (seqs f g T 0 ns.sum) (split f g T 0 ns) := by
  have hall : ∀ b ∈ split f g T 0 ns, ∃ lo, ∃ n ∈ ns, b = seqs f g T lo n := fun b hb => by
    obtain ⟨done, later, e⟩ := List.append_of_mem hb
    obtain ⟨n, hn, h⟩ := split_at f g T ns 0 done b later e
    exact ⟨_, n, hn, h⟩
  refine ⟨⟨seqs_good .., fun b hb => ?_⟩, fun b hb => ?_, ⟨?_, fun b hb => ?_⟩, split_sum f g T ns 0, ?_⟩
  · obtain ⟨lo, n, -, rfl⟩ := hall b hb
    exact seqs_good ..
  · obtain ⟨lo, n, -, rfl⟩ := hall b hb
    rfl
  · cases ns with
    | nil => exact absurd rfl hne
    | cons n ns => simp [split]
  · obtain ⟨lo, n, hn, rfl⟩ := hall b hb
    exact h0 n hn
  · intro done b later e A hA
    obtain ⟨n, -, rfl⟩ := split_at f g T ns 0 done b later e
    rw [Nat.zero_add] at hA ⊢
    exact seqs_same f g T _ n _ A hA.whole.1 hA.whole.2 hA.part.1 hA.part.2 hA.seq hA.steps.1

theorem chain_data {data : LayerInfo} {rest : List LayerInfo} (F : Memory.Fits (infos chainLayers) chainL data rest)
    (hdt : HasType chainArch data.name (str "Input")) : data = chainData := by
  have h1 : data ∈ infos chainLayers := by rw [F.ordered.all]; simp
  have h2 : ∀ l ∈ infos chainLayers, l.name = str "Input" → l = chainData := by decide +kernel
  have h3 : ∀ x : Name × Name, x ∈ [(str "Input", str "Input"), (str "Rnn", str "Lstm"),
    (str "Out", str "FullyConnected"), (str "SE", str "SquaredError"), (str "Loss", str "Loss")] → x.2 = str "Input" → x.1 = str "Input" := by
    decide +kernel
  exact h2 data h1 (h3 (data.name, _) ((chain_types _ _).1 hdt) rfl)

/-- All assumptions are met, for any number of batches of any sizes, in the reverse order: losses. -/
example (f g : ℕ → ℕ → ℕ → ℝ) (T : ℕ) (ns : List ℕ) (h0 : ∀ n ∈ ns, 0 < n) (hne : ns ≠ []) (M : Mode)
    (hM : M.training = false) :
    ∃ data rest, HasType chainArch data.name (str "Input") ∧ ∃ F : Memory.Fits (infos chainLayers) chainL data rest,
      ∃ ps : Mode → ∀ T B, ∀ l ∈ rest, LibLayer (infos chainLayers) data l T B, ∃ st st₁ st₂ loss,
        provide (netOf (infos chainLayers) chainL) data.name (seqs f g T 0 ns.sum) st = some st₁ ∧
        forwardPass (netOf (infos chainLayers) chainL) (fun T B => libNetwork F (ps M T B)) 0 st₁ = some st₂ ∧
        reported chainArch chainLayers chainL T ns.sum (memOf st₂) = some loss ∧
        evaluateLoss (netOf (infos chainLayers) chainL) data.name (fun T B => libNetwork F (ps M T B)) (reported chainArch chainLayers chainL)
          (split f g T 0 ns).reverse st = some loss := by
  obtain ⟨data, rest, hdt, F, ps, -, h⟩ := C79_losses chainKwargs chainArch (by decide +kernel) (demoOrders true) (demoOrders_ok true)
    chainLayers chain_instantiates chain_outs chainL chain_layout chain_trainable chain_numeric chain_supported
  obtain ⟨st, θ, hst, hθ⟩ := chain_new
  obtain rfl := chain_data F hdt
  obtain ⟨-, st₁, st₂, loss, g1, g2, g3, g4⟩ := h M st st (seqs f g T 0 ns.sum) (split f g T 0 ns) θ hM hst hst hθ hθ
    (fun l ts ht => (ht.elim (chain_types_not l).1 (chain_types_not l).2.1).elim) (demo_cut f g T ns h0 hne)
    _ (List.reverse_perm _)
  exact ⟨_, rest, hdt, F, ps, st, st₁, st₂, loss, g1, g2, g3, g4⟩

/-- The outputs of the FullyConnected layer and the targets can be scored. -/
theorem demo_output : Output chainArch (infos chainLayers) (path (str "Out") (str "outputs") (str "default")) ⟨[.T, .B, .n 2], 0, false⟩ ∧
    Output chainArch (infos chainLayers) (path (str "Input") (str "outputs") (str "targets")) ⟨[.T, .B, .n 2], 0, false⟩ := by
  have ex : ∀ n : Name, ∀ x, (∃ l ∈ infos chainLayers, l.name = n ∧ (x, (⟨[.T, .B, .n 2], 0, false⟩ : Struct)) ∈ l.outShapes) →
      ¬ HasType chainArch n (str "Loss") →
      Output chainArch (infos chainLayers) (path n (str "outputs") x) ⟨[.T, .B, .n 2], 0, false⟩ := by
    rintro n x ⟨l, h1, rfl, h2⟩ h3
    exact ⟨l, h1, x, h3, h2, by decide, rfl⟩
  refine ⟨ex _ _ (by decide +kernel) ?_, ex _ _ (by decide +kernel) ?_⟩ <;> rw [chain_types] <;> decide +kernel

/-- All assumptions are met: scores. -/
example (f g : ℕ → ℕ → ℕ → ℝ) (T : ℕ) (ns : List ℕ) (h0 : ∀ n ∈ ns, 0 < n) (hne : ns ≠ []) (M : Mode)
    (hM : M.training = false) :
    ∃ data rest, HasType chainArch data.name (str "Input") ∧ ∃ F : Memory.Fits (infos chainLayers) chainL data rest,
      ∃ ps : Mode → ∀ T B, ∀ l ∈ rest, LibLayer (infos chainLayers) data l T B, ∃ st v,
        evaluateScore (netOf (infos chainLayers) chainL) data.name (fun T B => libNetwork F (ps M T B))
          (scored (path (str "Out") (str "outputs") (str "default")) (path (str "Input") (str "outputs") (str "targets")) 2 2 none) false
          (Scoring.squaredError false) (split f g T 0 ns).reverse st = some v ∧
        evaluateScore (netOf (infos chainLayers) chainL) data.name (fun T B => libNetwork F (ps M T B))
          (scored (path (str "Out") (str "outputs") (str "default")) (path (str "Input") (str "outputs") (str "targets")) 2 2 none) false
          (Scoring.squaredError false) [seqs f g T 0 ns.sum] st = some v := by
  obtain ⟨data, rest, hdt, F, ps, -, h⟩ := C79_scores chainKwargs chainArch (by decide +kernel) (demoOrders true) (demoOrders_ok true)
    chainLayers chain_instantiates chain_outs chainL chain_layout chain_trainable chain_numeric chain_supported
  obtain ⟨st, θ, hst, hθ⟩ := chain_new
  obtain rfl := chain_data F hdt
  obtain ⟨st₁, st₂, rows, -, -, -, g1, g2⟩ := h M st st (seqs f g T 0 ns.sum) (split f g T 0 ns) θ hM hst hst hθ hθ
    (fun l ts ht => (ht.elim (chain_types_not l).1 (chain_types_not l).2.1).elim) (demo_cut f g T ns h0 hne)
    _ (List.reverse_perm _) _ _ _ _ none _ demo_output.1 ⟨rfl, rfl⟩ demo_output.2 ⟨rfl, rfl⟩ (by simp) (Or.inr (Or.inr rfl))
  exact ⟨_, rest, hdt, F, ps, st, _, g1, g2⟩

/-- All assumptions are met: extraction. -/
example (f g : ℕ → ℕ → ℕ → ℝ) (T : ℕ) (ns : List ℕ) (h0 : ∀ n ∈ ns, 0 < n) (hne : ns ≠ []) (M : Mode)
    (hM : M.training = false) :
    ∃ data rest, HasType chainArch data.name (str "Input") ∧ ∃ F : Memory.Fits (infos chainLayers) chainL data rest,
      ∃ ps : Mode → ∀ T B, ∀ l ∈ rest, LibLayer (infos chainLayers) data l T B, ∃ (st st₂ : State ℝ) (d : _) (A : _) (xs : _),
        extract (netOf (infos chainLayers) chainL) data.name (fun T B => libNetwork F (ps M T B))
          [(path (str "Out") (str "outputs") (str "default"), ⟨[.T, .B, .n 2], 0, false⟩)] ns.sum (split f g T 0 ns) st = some d ∧
        Dict.get? d (path (str "Out") (str "outputs") (str "default")) = some A ∧
        st₂.read (path (str "Out") (str "outputs") (str "default")) = some xs ∧ A.seqs = ns.sum ∧
        ∀ t < T, A.rows[t]? = (table ⟨[.T, .B, .n 2], 0, false⟩ T ns.sum xs).rows[t]? := by
  obtain ⟨data, rest, hdt, F, ps, -, h⟩ := C79_extract chainKwargs chainArch (by decide +kernel) (demoOrders true) (demoOrders_ok true)
    chainLayers chain_instantiates chain_outs chainL chain_layout chain_trainable chain_numeric chain_supported
  obtain ⟨st, θ, hst, hθ⟩ := chain_new
  obtain rfl := chain_data F hdt
  obtain ⟨st₁, st₂, d, -, -, g1, -, g2⟩ := h M st st (seqs f g T 0 ns.sum) (split f g T 0 ns) θ hM hst hst hθ hθ
    (fun l ts ht => (ht.elim (chain_types_not l).1 (chain_types_not l).2.1).elim) (demo_cut f g T ns h0 hne)
    [(path (str "Out") (str "outputs") (str "default"), ⟨[.T, .B, .n 2], 0, false⟩)] (by simp) (by simp)
    (by simpa using demo_output.1)
  obtain ⟨A, xs, a1, a2, a3, -, a4⟩ := g2 _ (List.mem_singleton.2 rfl)
  exact ⟨_, rest, hdt, F, ps, st, st₂, d, A, xs, g1, a1, a2, a3, a4⟩

end Verif.Evaluate
