import Verif.Parts.Kinks

/-!
# C85: the gradients of a batch are the weighted mean of the gradients of its parts
-/

namespace Verif.Parts

open Verif.Architecture hiding demoArch
open Verif.Structure Verif.Layout Verif.Buffers Verif.Instantiate Verif.EndToEnd
open Verif.Memory hiding demoL
open Verif.Setup (Kwargs libEnv infos toInfo inp_some)
open Verif.Shapes (Supported)
open Verif.Session Verif.Determined Verif.Descent
open Verif.Evaluate (Cut)

theorem sum_deriv {α : Type} (f : α → ℝ → ℝ) (f' : α → ℝ) (t : ℝ) : ∀ xs : List α, (∀ x ∈ xs, HasDerivAt (f x) (f' x) t) →
    HasDerivAt (fun t => (xs.map fun x => f x t).sum) (xs.map f').sum t
  | [], _ => by simpa using hasDerivAt_const t (0 : ℝ)
  | x :: xs, h => by
    simp only [List.map_cons, List.sum_cons]
    exact (h x (by simp)).add (sum_deriv f f' t xs fun y hy => h y (by simp [hy]))

section
variable {kwargs : Name → Kwargs} {a : Arch} {ord : Orders} {layers : Dict Name (LayerObj Kwargs)} {L : Layout} {data : LayerInfo}
  {rest : List LayerInfo}

/-- Layers that are differentiable after the forward pass are so in the sense of the theorem about all layers. -/
theorem regular_loaded (F : Memory.Fits (infos layers) L data rest) (ps : ∀ T B, ∀ l ∈ rest, LibLayer (infos layers) data l T B)
    (S : Sited (infos layers) L data rest fun T B => libNetwork F (ps T B)) {b : Batch} (hb : b.Good data) {st : State ℝ} {T B sz k : ℕ}
    {vs : List (Name × View)} (i : Inv (netOf (infos layers) L) st T B sz k vs) {θ : List ℝ} (hθ : st.read (str "parameters") = some θ)
    (hR : RegularAt F ps st b) : ∃ s, Loaded (netOf (infos layers) L) data.name b θ s ∧ AllRegular F (ps b.T b.B) s := by
  obtain ⟨st₁, h1, hr, r1⟩ := provide_ready S.laid S.data_mem i hb
  obtain ⟨sz, k, vs, i1, -⟩ := id hr
  obtain ⟨st₂, h2, -⟩ := forwardPass_spec S i1 b.rnd
  obtain ⟨s, hs, hseen⟩ := after_forward S hb hr (r1.trans hθ) h2
  have := hR st₁ st₂ h1 h2
  rw [hseen] at this
  exact ⟨s, hs, this⟩

/-- The gradients of a batch are the weighted mean of those of its parts. -/
theorem whole_gradient (m : Made kwargs a ord layers L) (F : Memory.Fits (infos layers) L data rest) (hdt : HasType a data.name (str "Input"))
    (hfree : FreePeriods (infos layers)) {M : Mode} (ps : ∀ T B, ∀ l ∈ rest, LibLayer (infos layers) data l T B)
    (hps : ∀ T B l (hl : l ∈ rest) t, HasType a l.name t → Describes M t (kwargs l.name) (ps T B l hl))
    (hD : ∀ n, ¬ HasType a n (str "Dropout")) {w : Batch} {bs : List Batch} (C : Cut data w bs)
    {st : State ℝ} {T B sz k : ℕ} {vs : List (Name × View)} (hi : Inv (netOf (infos layers) L) st T B sz k vs)
    {θ : Fin (paramCount (infos layers) L) → ℝ} (hθ : st.read (str "parameters") = some (List.ofFn θ))
    (h0 : ∀ i : Fin (paramCount (infos layers) L), IsPeriod (infos layers) L i → θ i ≠ 0)
    (hR : ∀ b ∈ w :: bs, RegularAt F ps st b) (i : Fin (paramCount (infos layers) L)) :
    w.B * gradD (infos layers) L data.name (fun T B => libNetwork F (ps T B)) w θ i =
      (bs.map fun b => (b.B : ℝ) * gradD (infos layers) L data.name (fun T B => libNetwork F (ps T B)) b θ i).sum := by
  have S := sited m F ps
  have hrep := reports m F ps hdt hps
  have hdet := determines m F (Or.inr hD) ps hps
  have hgood : ∀ b ∈ w :: bs, b.Good data := fun b hb => (List.mem_cons.1 hb).elim (fun e => e ▸ C.good.1) (C.good.2 b)
  by_cases hp : IsPeriod (infos layers) L i
  · have hz : ∀ b ∈ w :: bs, gradD (infos layers) L data.name (fun T B => libNetwork F (ps T B)) b θ i = 0 := fun b hb =>
      period_gradD F ps hfree S hdet (hgood b hb) θ i hp
    have : (bs.map fun b => (b.B : ℝ) * gradD (infos layers) L data.name (fun T B => libNetwork F (ps T B)) b θ i) = bs.map fun _ => 0 :=
      List.map_congr_left fun b hb => by rw [hz b (by simp [hb]), mul_zero]
    rw [hz w (by simp), this]
    simp
  · have key : ∀ b ∈ w :: bs, HasDerivAt (fun t => lossV (infos layers) L data.name (fun T B => libNetwork F (ps T B)) (reported a layers L) b
        (Function.update θ i (θ i + t))) (gradD (infos layers) L data.name (fun T B => libNetwork F (ps T B)) b θ i) 0 := by
      intro b hb
      obtain ⟨s, hs, hreg⟩ := regular_loaded F ps S (hgood b hb) hi hθ (hR b hb)
      refine (loss_curve F ps S hdet (hgood b hb) hrep hs hreg (fun t => Function.update θ i (θ i + t)) (Pi.single i 1) (by simp) (fun j => ?_)
        fun j hj t => ?_).congr_deriv (by simp [Pi.single_apply])
      · by_cases e : j = i
        · subst e
          simpa using (hasDerivAt_id (0 : ℝ)).const_add (θ j)
        · simpa [Function.update_of_ne e, Pi.single_eq_of_ne e] using hasDerivAt_const (0 : ℝ) (θ j)
      · exact Function.update_of_ne (fun e : j = i => hp (e ▸ hj)) _ _
    have e : (fun t => (w.B : ℝ) * lossV (infos layers) L data.name (fun T B => libNetwork F (ps T B)) (reported a layers L) w
          (Function.update θ i (θ i + t))) = fun t => (bs.map fun b => (b.B : ℝ) * lossV (infos layers) L data.name
          (fun T B => libNetwork F (ps T B)) (reported a layers L) b (Function.update θ i (θ i + t))).sum := by
      funext t
      refine whole_loss m F hdt ps hps hD C _ fun j hj => ?_
      rw [Function.update_of_ne (fun e : j = i => hp (e ▸ hj))]
      exact h0 j hj
    have d1 := (key w (by simp)).const_mul (w.B : ℝ)
    rw [e] at d1
    exact d1.unique (sum_deriv (fun b t => (b.B : ℝ) * lossV (infos layers) L data.name (fun T B => libNetwork F (ps T B)) (reported a layers L) b
      (Function.update θ i (θ i + t))) _ 0 bs fun b hb => (key b (by simp [hb])).const_mul _)

theorem Cut.size_pos {w : Batch} {bs : List Batch} (C : Cut data w bs) : (w.B : ℝ) ≠ 0 := by
  have := C.pos
  positivity

/-- Batches with the same sequences. -/
theorem same_batches (m : Made kwargs a ord layers L) (F : Memory.Fits (infos layers) L data rest) (hdt : HasType a data.name (str "Input"))
    (hfree : FreePeriods (infos layers)) {M : Mode} (ps : ∀ T B, ∀ l ∈ rest, LibLayer (infos layers) data l T B)
    (hps : ∀ T B l (hl : l ∈ rest) t, HasType a l.name t → Describes M t (kwargs l.name) (ps T B l hl))
    (hD : ∀ n, ¬ HasType a n (str "Dropout")) {w w' : Batch} {bs bs' : List Batch} (C : SameSequences data w w' bs bs')
    {st : State ℝ} {T B sz k : ℕ} {vs : List (Name × View)} (hi : Inv (netOf (infos layers) L) st T B sz k vs)
    {θ : Fin (paramCount (infos layers) L) → ℝ} (hθ : st.read (str "parameters") = some (List.ofFn θ))
    (h0 : ∀ i : Fin (paramCount (infos layers) L), IsPeriod (infos layers) L i → θ i ≠ 0) :
    lossV (infos layers) L data.name (fun T B => libNetwork F (ps T B)) (reported a layers L) w θ =
      lossV (infos layers) L data.name (fun T B => libNetwork F (ps T B)) (reported a layers L) w' θ ∧
    ((∀ b ∈ w :: w' :: bs, RegularAt F ps st b) →
      gradD (infos layers) L data.name (fun T B => libNetwork F (ps T B)) w θ =
        gradD (infos layers) L data.name (fun T B => libNetwork F (ps T B)) w' θ) := by
  obtain ⟨C, C', hp⟩ := C
  have hB : w'.B = w.B := by rw [← C.sum, ← C'.sum, (hp.map Batch.B).sum_eq]
  have hne := Cut.size_pos C
  refine ⟨mul_left_cancel₀ hne ?_, fun hR => funext fun i => mul_left_cancel₀ hne ?_⟩
  · rw [whole_loss m F hdt ps hps hD C θ h0, (hp.map _).sum_eq, ← whole_loss m F hdt ps hps hD C' θ h0, hB]
  · rw [whole_gradient m F hdt hfree ps hps hD C hi hθ h0 (fun b hb => hR b (by
        rcases List.mem_cons.1 hb with rfl | hb <;> simp [*])) i, (hp.map _).sum_eq,
      ← whole_gradient m F hdt hfree ps hps hD C' hi hθ h0 (fun b hb => hR b (by
        rcases List.mem_cons.1 hb with rfl | hb
        · simp
        · simp [hp.mem_iff.2 hb])) i, hB]

/-- Trainings with batches for which the network always computes the same. -/
theorem train_same (m : Made kwargs a ord layers L) (F : Memory.Fits (infos layers) L data rest) (hdt : HasType a data.name (str "Input"))
    (hfree : FreePeriods (infos layers)) {M : Mode} (ps : ∀ T B, ∀ l ∈ rest, LibLayer (infos layers) data l T B)
    (hps : ∀ T B l (hl : l ∈ rest) t, HasType a l.name t → Describes M t (kwargs l.name) (ps T B l hl))
    (hD : ∀ n, ¬ HasType a n (str "Dropout")) {st : State ℝ} {T B sz k : ℕ} {vs : List (Name × View)}
    (i : Inv (netOf (infos layers) L) st T B sz k vs)
    {θ₀ : Fin (paramCount (infos layers) L) → ℝ} (hθ : st.read (str "parameters") = some (List.ofFn θ₀))
    (h0 : ∀ i : Fin (paramCount (infos layers) L), IsPeriod (infos layers) L i → θ₀ i ≠ 0) (batches batches' : ℕ → Batch) (extra : ℕ → List Batch)
    (hgood : ∀ j, ∀ b ∈ batches j :: batches' j :: extra j, b.Good data)
    (same : ∀ j {st' : State ℝ} {T B sz k : ℕ} {vs : List (Name × View)}, Inv (netOf (infos layers) L) st' T B sz k vs →
      ∀ {θ : Fin (paramCount (infos layers) L) → ℝ}, st'.read (str "parameters") = some (List.ofFn θ) →
      (∀ i : Fin (paramCount (infos layers) L), IsPeriod (infos layers) L i → θ i ≠ 0) →
      lossV (infos layers) L data.name (fun T B => libNetwork F (ps T B)) (reported a layers L) (batches j) θ =
        lossV (infos layers) L data.name (fun T B => libNetwork F (ps T B)) (reported a layers L) (batches' j) θ ∧
      ((∀ b ∈ batches j :: batches' j :: extra j, RegularAt F ps st' b) →
        gradD (infos layers) L data.name (fun T B => libNetwork F (ps T B)) (batches j) θ =
          gradD (infos layers) L data.name (fun T B => libNetwork F (ps T B)) (batches' j) θ)) (lr μ : ℕ → ℝ) (scale : Bool) (k : ℕ) :
        ((NoKinks a kwargs ∧ ∀ j < k, ∀ b ∈ batches j :: batches' j :: extra j, 0 < b.T) ∨ (∀ j < k, ∀ st' log,
            train (netOf (infos layers) L) data.name (fun T B => libNetwork F (ps T B)) (reported a layers L)
            (fun k => sgdRun (netOf (infos layers) L) (fun T B => libNetwork F (ps T B)) (lr k)) batches (fun _ => []) (st, ()) j =
              some ((st', ()), log) → ∀ b ∈ batches j :: batches' j :: extra j, RegularAt F ps st' b) →
          ∃ st₁ st₂ log θ, train (netOf (infos layers) L) data.name (fun T B => libNetwork F (ps T B)) (reported a layers L)
              (fun k => sgdRun (netOf (infos layers) L) (fun T B => libNetwork F (ps T B)) (lr k)) batches (fun _ => []) (st, ()) k =
                some ((st₁, ()), log) ∧
            train (netOf (infos layers) L) data.name (fun T B => libNetwork F (ps T B)) (reported a layers L)
              (fun k => sgdRun (netOf (infos layers) L) (fun T B => libNetwork F (ps T B)) (lr k)) batches' (fun _ => []) (st, ()) k =
                some ((st₂, ()), log) ∧
            st₁.read (str "parameters") = some θ ∧ st₂.read (str "parameters") = some θ) ∧
        ((NoKinks a kwargs ∧ ∀ j < k, ∀ b ∈ batches j :: batches' j :: extra j, 0 < b.T) ∨ (∀ j < k, ∀ st' v log,
            train (netOf (infos layers) L) data.name (fun T B => libNetwork F (ps T B)) (reported a layers L)
            (fun k => momentumRun (netOf (infos layers) L) (fun T B => libNetwork F (ps T B)) scale (lr k) (μ k)) batches (fun _ => [])
              (st, List.replicate (paramCount (infos layers) L) 0) j = some ((st', v), log) → ∀ b ∈ batches j :: batches' j :: extra j, RegularAt F ps st' b) →
          ∃ st₁ st₂ v log θ, train (netOf (infos layers) L) data.name (fun T B => libNetwork F (ps T B)) (reported a layers L)
              (fun k => momentumRun (netOf (infos layers) L) (fun T B => libNetwork F (ps T B)) scale (lr k) (μ k)) batches (fun _ => [])
                (st, List.replicate (paramCount (infos layers) L) 0) k = some ((st₁, v), log) ∧
            train (netOf (infos layers) L) data.name (fun T B => libNetwork F (ps T B)) (reported a layers L)
              (fun k => momentumRun (netOf (infos layers) L) (fun T B => libNetwork F (ps T B)) scale (lr k) (μ k)) batches' (fun _ => [])
                (st, List.replicate (paramCount (infos layers) L) 0) k = some ((st₂, v), log) ∧
            st₁.read (str "parameters") = some θ ∧ st₂.read (str "parameters") = some θ) := by
  have hS := sited m F ps
  have hrep := reports m F ps hdt hps
  have hdet := determines m F (Or.inr hD) ps hps
  have hb : ∀ k, (batches k).Good data := fun k => hgood k _ (by simp)
  have hb' : ∀ k, (batches' k).Good data := fun k => hgood k _ (by simp)
  have hzero : List.ofFn (0 : Fin (paramCount (infos layers) L) → ℝ) = List.replicate (paramCount (infos layers) L) 0 := by
    simp [List.ofFn_const, Pi.zero_def]
  have hg : ∀ b : Batch, b.Good data → ∀ θ, ∀ i : Fin (paramCount (infos layers) L), IsPeriod (infos layers) L i →
      gradD (infos layers) L data.name (fun T B => libNetwork F (ps T B)) b θ i = 0 :=
    fun b hb θ i hi => period_gradD F ps hfree hS hdet hb θ i hi
  constructor
  · intro hR
    let θ : (ℕ → Batch) → ℕ → Fin (paramCount (infos layers) L) → ℝ := fun batches k => Nat.rec θ₀ (fun k θ => θ - lr k •
      gradD (infos layers) L data.name (fun T B => libNetwork F (ps T B)) (batches k) θ) k
    have run : ∀ batches : ℕ → Batch, (∀ k, (batches k).Good data) → _ := fun batches hb => train_spec hS hS hrep hb
      (evals := fun _ => []) (by simp) (θ := θ batches) (v := fun _ => ())
      (fun k st hr hr' => sgdRun_spec hS (computes_det hS hdet (hb k) hrep) hr hr' (lr k)) i hθ
    have per : ∀ k, ∀ i : Fin (paramCount (infos layers) L), IsPeriod (infos layers) L i → θ batches k i ≠ 0 := by
      intro k j hj
      have : θ batches k j = θ₀ j := by
        induction k with
        | zero => rfl
        | succ k ih =>
          show θ batches k j - lr k * gradD _ _ _ _ (batches k) (θ batches k) j = _
          rw [hg _ (hb k) _ j hj, mul_zero, sub_zero, ih]
      rw [this]
      exact h0 j hj
    have reg : ∀ j < k, ∀ {st' : State ℝ} {log T B sz b vs},
        train (netOf (infos layers) L) data.name (fun T B => libNetwork F (ps T B)) (reported a layers L)
        (fun k => sgdRun (netOf (infos layers) L) (fun T B => libNetwork F (ps T B)) (lr k)) batches (fun _ => []) (st, ()) j =
          some ((st', ()), log) → Inv (netOf (infos layers) L) st' T B sz b vs → st'.read (str "parameters") = some (List.ofFn (θ batches j)) →
        ∀ b ∈ batches j :: batches' j :: extra j, RegularAt F ps st' b := by
      intro j hj st' log T B sz b vs h1 i1 h2
      rcases hR with ⟨nk, hT⟩ | hR
      · intro b hb'
        exact regularAt_of_noKinks nk m F ps hps (hgood j b hb') (hT j hj b hb') i1 h2 (per j)
      · exact hR j hj _ _ h1
    have agree : ∀ j, j ≤ k → θ batches j = θ batches' j ∧
        ∀ q < j, lossV (infos layers) L data.name (fun T B => libNetwork F (ps T B)) (reported a layers L) (batches q) (θ batches q) =
          lossV (infos layers) L data.name (fun T B => libNetwork F (ps T B)) (reported a layers L) (batches' q) (θ batches' q) := by
      intro j hj
      induction j with
      | zero => exact ⟨rfl, fun q hq => absurd hq (by omega)⟩
      | succ j ih =>
        obtain ⟨e1, e2⟩ := ih (by omega)
        obtain ⟨st', _, _, _, _, _, h1, i1, h2⟩ := run batches hb j
        have := same j i1 h2 (per j)
        refine ⟨?_, fun q hq => ?_⟩
        · show θ batches j - lr j • gradD _ _ _ _ (batches j) (θ batches j) = θ batches' j - lr j • gradD _ _ _ _ (batches' j) (θ batches' j)
          rw [this.2 (reg j (by omega) h1 i1 h2), e1]
        · rcases Nat.lt_succ_iff_lt_or_eq.1 hq with hq | rfl
          · exact e2 q hq
          · rw [this.1, e1]
    obtain ⟨st₁, _, _, _, _, _, h1, -, r1⟩ := run batches hb k
    obtain ⟨st₂, _, _, _, _, _, h2, -, r2⟩ := run batches' hb' k
    obtain ⟨e1, e2⟩ := agree k le_rfl
    refine ⟨st₁, st₂, _, _, h1, ?_, r1, by rw [r2, e1]⟩
    rw [h2]
    exact congrArg (fun x => some ((st₂, ()), x)) (List.map_congr_left fun q hq => (e2 q (List.mem_range.1 hq)).symm)
  · intro hR
    let q : (ℕ → Batch) → ℕ → (Fin (paramCount (infos layers) L) → ℝ) × (Fin (paramCount (infos layers) L) → ℝ) := fun batches k =>
      Nat.rec (θ₀, 0) (fun k q =>
      (q.1 + (μ k • q.2 - rateOf scale (lr k) (μ k) • gradD (infos layers) L data.name (fun T B => libNetwork F (ps T B)) (batches k) q.1),
        μ k • q.2 - rateOf scale (lr k) (μ k) • gradD (infos layers) L data.name (fun T B => libNetwork F (ps T B)) (batches k) q.1)) k
    have run : ∀ batches : ℕ → Batch, (∀ k, (batches k).Good data) → _ := fun batches hb => train_spec hS hS hrep hb
      (evals := fun _ => []) (by simp) (θ := fun k => (q batches k).1) (v := fun k => List.ofFn (q batches k).2)
      (fun k st hr hr' => momentumRun_spec hS (computes_det hS hdet (hb k) hrep) hr hr' scale (lr k) (μ k) rfl) i hθ
    have per : ∀ k, ∀ i : Fin (paramCount (infos layers) L), IsPeriod (infos layers) L i → (q batches k).1 i ≠ 0 := by
      intro k j hj
      have : (q batches k).1 j = θ₀ j ∧ (q batches k).2 j = 0 := by
        induction k with
        | zero => exact ⟨rfl, rfl⟩
        | succ k ih =>
          have e : μ k * (q batches k).2 j - rateOf scale (lr k) (μ k) * gradD (infos layers) L data.name (fun T B => libNetwork F (ps T B))
              (batches k) (q batches k).1 j = 0 := by rw [hg _ (hb k) _ j hj, ih.2]; ring
          refine ⟨?_, e⟩
          show (q batches k).1 j + _ = _
          exact (congrArg ((q batches k).1 j + ·) e).trans (by rw [add_zero, ih.1])
      rw [this.1]
      exact h0 j hj
    rw [← hzero] at hR ⊢
    have reg : ∀ j < k, ∀ {st' : State ℝ} {log T B sz b vs},
        train (netOf (infos layers) L) data.name (fun T B => libNetwork F (ps T B)) (reported a layers L)
        (fun k => momentumRun (netOf (infos layers) L) (fun T B => libNetwork F (ps T B)) scale (lr k) (μ k)) batches (fun _ => []) (st, List.ofFn (q batches 0).2) j =
          some ((st', List.ofFn (q batches j).2), log) → Inv (netOf (infos layers) L) st' T B sz b vs → st'.read (str "parameters") = some (List.ofFn ((q batches j).1)) →
        ∀ b ∈ batches j :: batches' j :: extra j, RegularAt F ps st' b := by
      intro j hj st' log T B sz b vs h1 i1 h2
      rcases hR with ⟨nk, hT⟩ | hR
      · intro b hb'
        exact regularAt_of_noKinks nk m F ps hps (hgood j b hb') (hT j hj b hb') i1 h2 (per j)
      · exact hR j hj _ _ _ h1
    have agree : ∀ j, j ≤ k → q batches j = q batches' j ∧
        ∀ p < j, lossV (infos layers) L data.name (fun T B => libNetwork F (ps T B)) (reported a layers L) (batches p) (q batches p).1 =
          lossV (infos layers) L data.name (fun T B => libNetwork F (ps T B)) (reported a layers L) (batches' p) (q batches' p).1 := by
      intro j hj
      induction j with
      | zero => exact ⟨rfl, fun q hq => absurd hq (by omega)⟩
      | succ j ih =>
        obtain ⟨e1, e2⟩ := ih (by omega)
        obtain ⟨st', _, _, _, _, _, h1, i1, h2⟩ := run batches hb j
        have := same j i1 h2 (per j)
        refine ⟨?_, fun p hp => ?_⟩
        · have e3 := this.2 (reg j (by omega) h1 i1 h2)
          refine Prod.ext ?_ ?_
          · show (q batches j).1 + (μ j • (q batches j).2 - rateOf scale (lr j) (μ j) • gradD _ _ _ _ (batches j) (q batches j).1) =
              (q batches' j).1 + (μ j • (q batches' j).2 - rateOf scale (lr j) (μ j) • gradD _ _ _ _ (batches' j) (q batches' j).1)
            rw [e3, e1]
          · show μ j • (q batches j).2 - rateOf scale (lr j) (μ j) • gradD _ _ _ _ (batches j) (q batches j).1 =
              μ j • (q batches' j).2 - rateOf scale (lr j) (μ j) • gradD _ _ _ _ (batches' j) (q batches' j).1
            rw [e3, e1]
        · rcases Nat.lt_succ_iff_lt_or_eq.1 hp with hp | rfl
          · exact e2 p hp
          · rw [this.1, e1]
    obtain ⟨st₁, _, _, _, _, _, h1, -, r1⟩ := run batches hb k
    obtain ⟨st₂, _, _, _, _, _, h2, -, r2⟩ := run batches' hb' k
    obtain ⟨e1, e2⟩ := agree k le_rfl
    refine ⟨st₁, st₂, _, _, _, h1, ?_, r1, by rw [r2, e1]⟩
    rw [e1]
    refine h2.trans ?_
    exact congrArg (fun x => some ((st₂, _), x)) (List.map_congr_left fun p hp => (e2 p (List.mem_range.1 hp)).symm)

end

/-! ### The property

The network is as in C84.  Dropout layers are excluded: they treat the sequences of a batch differently. -/

section
variable (kwargs : Name → Kwargs) (a : Arch) (hk : (Dict.keys a).Nodup) (ord : Orders) (ho : ord.Ok)
  (layers : Dict Name (LayerObj Kwargs)) (h : Instantiates (libEnv kwargs) ord a (.ok layers))
  (hne : ∃ n l, Dict.get? layers n = some l ∧ l.shapes.outs ≠ []) (L : Layout) (hL : createLayout (infos layers) = .ok L)
  (tr : Trainable a) (num : Numeric a kwargs)
  (sup : ∀ n l t, Dict.get? layers n = some l → HasType a n t → Supported t l.kwargs l.inShapes)
  (hfree : FreePeriods (infos layers)) (hD : ∀ n, ¬ HasType a n (str "Dropout"))
include hk ho h hne hL tr num sup hfree hD

/-- **C85, parts.**  If the sequences of the batch `w` are distributed over the batches `bs`, then the loss that the network reports for `w` is
the mean of those for the parts, weighted with their numbers of sequences.  Where the layers are differentiable (which is everywhere if
they have no kinks), the same holds for every entry of the gradients. -/
theorem C85_parts :
    ∃ data rest, HasType a data.name (str "Input") ∧ ∃ F : Memory.Fits (infos layers) L data rest,
      ∃ ps : Mode → ∀ T B, ∀ l ∈ rest, LibLayer (infos layers) data l T B,
      (∀ M T B l (hl : l ∈ rest) t, HasType a l.name t → Describes M t (kwargs l.name) (ps M T B l hl)) ∧
      ∀ (M : Mode) (n : ℕ) (st : State ℝ) (w : Batch) (bs : List Batch) (θ : Fin n → ℝ), Reachable (netOf (infos layers) L) st →
        st.read (str "parameters") = some (List.ofFn θ) → (∀ i : Fin n, IsPeriod (infos layers) L i → θ i ≠ 0) → Cut data w bs →
        ∃ (loss : Batch → ℝ) (g : Batch → Fin n → ℝ),
          (∀ b ∈ w :: bs, Gives (netOf (infos layers) L) data.name (fun T B => libNetwork F (ps M T B)) (reported a layers L) st b (loss b)
            (List.ofFn (g b))) ∧
          (w.B : ℝ) * loss w = (bs.map fun b => (b.B : ℝ) * loss b).sum ∧
          ((∀ b ∈ w :: bs, RegularAt F (ps M) st b) ∨ (NoKinks a kwargs ∧ 0 < w.T) →
            ∀ i, (w.B : ℝ) * g w i = (bs.map fun b => (b.B : ℝ) * g b i).sum) := by
  have m : Made kwargs a ord layers L := ⟨hk, ho, h, hne, hL⟩
  obtain ⟨data, rest, hdt, F, ps, hps⟩ := functions m tr num sup
  refine ⟨data, rest, hdt, F, ps, hps, fun M n st w bs θ hst hθ h0 C => ?_⟩
  have hS := sited m F (ps M)
  have hrep := reports m F (ps M) hdt (hps M)
  have hdet := determines m F (Or.inr hD) (ps M) (hps M)
  obtain ⟨T, B, _, _, _, i⟩ := hst.inv (netOf_wellLaid F.laid.wf F.laid.shaped F.laid.layout)
  obtain rfl := Reachable.count F.laid hst hθ
  refine ⟨fun b => lossV (infos layers) L data.name (fun T B => libNetwork F (ps M T B)) (reported a layers L) b θ,
    fun b => gradD (infos layers) L data.name (fun T B => libNetwork F (ps M T B)) b θ, fun b hb => ?_,
    whole_loss m F hdt (ps M) (hps M) hD C θ h0, fun hR => whole_gradient m F hdt hfree (ps M) (hps M) hD C i hθ h0 ?_⟩
  swap
  · rcases hR with hR | ⟨nk, hT⟩
    · exact hR
    · intro b hb
      refine regularAt_of_noKinks nk m F (ps M) (hps M) ((List.mem_cons.1 hb).elim (fun e => e ▸ C.good.1) (C.good.2 b)) ?_ i hθ h0
      rcases List.mem_cons.1 hb with rfl | hb
      · exact hT
      · exact C.steps b hb ▸ hT
  have hb : b.Good data := (List.mem_cons.1 hb).elim (fun e => e ▸ C.good.1) (C.good.2 b)
  obtain ⟨st₁, h1, hr, r1⟩ := provide_ready hS.laid hS.data_mem i hb
  obtain ⟨st₂, st₃, _, _, _, h2, h3, -, r3, g3, l3⟩ := computes_det hS hdet hb hrep st₁ θ hr (r1.trans hθ)
  exact ⟨st₁, st₂, st₃, h1, h2, h3, by rw [hrep, l3], g3⟩

/-- **C85, order.**  Trainings with `SgdStepper` and `MomentumStepper` do not depend on the order of the sequences in the batches: if every batch
is replaced by one with the same sequences in another order, then the parameters and the recorded losses stay the same, as long as the
layers are differentiable at the parameters that are reached (which they are if they have no kinks). -/
theorem C85_order :
    ∃ data rest, HasType a data.name (str "Input") ∧ ∃ F : Memory.Fits (infos layers) L data rest,
      ∃ ps : Mode → ∀ T B, ∀ l ∈ rest, LibLayer (infos layers) data l T B,
      (∀ M T B l (hl : l ∈ rest) t, HasType a l.name t → Describes M t (kwargs l.name) (ps M T B l hl)) ∧
      ∀ (M : Mode) (n : ℕ) (st : State ℝ) (θ₀ : Fin n → ℝ), Reachable (netOf (infos layers) L) st →
        st.read (str "parameters") = some (List.ofFn θ₀) → (∀ i : Fin n, IsPeriod (infos layers) L i → θ₀ i ≠ 0) →
        ∀ (batches batches' : ℕ → Batch) (parts parts' : ℕ → List Batch), (∀ k, SameSequences data (batches k) (batches' k) (parts k) (parts' k)) →
        ∀ (lr μ : ℕ → ℝ) (scale : Bool) (k : ℕ),
        ((NoKinks a kwargs ∧ ∀ j < k, 0 < (batches j).T) ∨ (∀ j < k, ∀ st' log,
            train (netOf (infos layers) L) data.name (fun T B => libNetwork F (ps M T B)) (reported a layers L)
            (fun k => sgdRun (netOf (infos layers) L) (fun T B => libNetwork F (ps M T B)) (lr k)) batches (fun _ => []) (st, ()) j =
              some ((st', ()), log) → ∀ b ∈ batches j :: batches' j :: parts j, RegularAt F (ps M) st' b) →
          ∃ st₁ st₂ log θ, train (netOf (infos layers) L) data.name (fun T B => libNetwork F (ps M T B)) (reported a layers L)
              (fun k => sgdRun (netOf (infos layers) L) (fun T B => libNetwork F (ps M T B)) (lr k)) batches (fun _ => []) (st, ()) k =
                some ((st₁, ()), log) ∧
            train (netOf (infos layers) L) data.name (fun T B => libNetwork F (ps M T B)) (reported a layers L)
              (fun k => sgdRun (netOf (infos layers) L) (fun T B => libNetwork F (ps M T B)) (lr k)) batches' (fun _ => []) (st, ()) k =
                some ((st₂, ()), log) ∧
            st₁.read (str "parameters") = some θ ∧ st₂.read (str "parameters") = some θ) ∧
        ((NoKinks a kwargs ∧ ∀ j < k, 0 < (batches j).T) ∨ (∀ j < k, ∀ st' v log,
            train (netOf (infos layers) L) data.name (fun T B => libNetwork F (ps M T B)) (reported a layers L)
            (fun k => momentumRun (netOf (infos layers) L) (fun T B => libNetwork F (ps M T B)) scale (lr k) (μ k)) batches (fun _ => [])
              (st, List.replicate n 0) j = some ((st', v), log) → ∀ b ∈ batches j :: batches' j :: parts j, RegularAt F (ps M) st' b) →
          ∃ st₁ st₂ v log θ, train (netOf (infos layers) L) data.name (fun T B => libNetwork F (ps M T B)) (reported a layers L)
              (fun k => momentumRun (netOf (infos layers) L) (fun T B => libNetwork F (ps M T B)) scale (lr k) (μ k)) batches (fun _ => [])
                (st, List.replicate n 0) k = some ((st₁, v), log) ∧
            train (netOf (infos layers) L) data.name (fun T B => libNetwork F (ps M T B)) (reported a layers L)
              (fun k => momentumRun (netOf (infos layers) L) (fun T B => libNetwork F (ps M T B)) scale (lr k) (μ k)) batches' (fun _ => [])
                (st, List.replicate n 0) k = some ((st₂, v), log) ∧
            st₁.read (str "parameters") = some θ ∧ st₂.read (str "parameters") = some θ) := by
  have m : Made kwargs a ord layers L := ⟨hk, ho, h, hne, hL⟩
  obtain ⟨data, rest, hdt, F, ps, hps⟩ := functions m tr num sup
  refine ⟨data, rest, hdt, F, ps, hps, fun M n st θ₀ hst hθ h0 batches batches' parts parts' C lr μ scale k => ?_⟩
  obtain ⟨T, B, _, _, _, i⟩ := hst.inv (netOf_wellLaid F.laid.wf F.laid.shaped F.laid.layout)
  obtain rfl := Reachable.count F.laid hst hθ
  have hTj : ∀ j, ∀ b ∈ batches j :: batches' j :: parts j, b.T = (batches j).T ∧ b.Good data := by
    intro j b hb'
    rcases List.mem_cons.1 hb' with rfl | hb'
    · exact ⟨rfl, (C j).1.good.1⟩
    rcases List.mem_cons.1 hb' with rfl | hb'
    · obtain ⟨x, hx⟩ := List.exists_mem_of_ne_nil _ (C j).1.some.1
      exact ⟨((C j).2.1.steps x ((C j).2.2.mem_iff.1 hx)).symm.trans ((C j).1.steps x hx), (C j).2.1.good.1⟩
    · exact ⟨(C j).1.steps b hb', (C j).1.good.2 b hb'⟩
  have := train_same m F hdt hfree (ps M) (hps M) hD i hθ h0 batches batches' parts (fun j b hb => (hTj j b hb).2)
    (fun j _ _ _ _ _ _ i1 _ h2 h3 => same_batches m F hdt hfree (ps M) (hps M) hD (C j) i1 h2 h3) lr μ scale k
  exact ⟨fun hR => this.1 (hR.imp (fun ⟨nk, hT⟩ => ⟨nk, fun j hj b hb => (hTj j b hb).1 ▸ hT j hj⟩) id),
    fun hR => this.2 (hR.imp (fun ⟨nk, hT⟩ => ⟨nk, fun j hj b hb => (hTj j b hb).1 ▸ hT j hj⟩) id)⟩

end

end Verif.Parts
