import Verif.Parts.Props

/-!
# C85 for `NesterovStepper`

The gradient is taken at the parameters that would be reached if the network moved on with the velocity alone, so this is where the
layers have to be differentiable.
-/

namespace Verif.Parts

open Verif.Architecture hiding demoArch
open Verif.Structure Verif.Layout Verif.Buffers Verif.Instantiate Verif.EndToEnd
open Verif.Memory hiding demoL
open Verif.Setup (Kwargs libEnv infos toInfo inp_some)
open Verif.Shapes (Supported)
open Verif.Session Verif.Determined Verif.Descent
open Verif.Evaluate (Cut)

/-- `st'` is the network in the state `st` after its parameters were moved by `μ` times the velocity `v`. -/
def Ahead (μ : ℝ) (v : List ℝ) (st st' : State ℝ) : Prop :=
  ∃ θ, st.read (str "parameters") = some θ ∧
    st.write (str "parameters") (List.zipWith (fun x y => μ * x + y) v θ) = some st'

section
variable {kwargs : Name → Kwargs} {a : Arch} {ord : Orders} {layers : Dict Name (LayerObj Kwargs)} {L : Layout} {data : LayerInfo}
  {rest : List LayerInfo}

/-- Trainings with batches for which the network always computes the same. -/
theorem train_same_nesterov (m : Made kwargs a ord layers L) (F : Memory.Fits (infos layers) L data rest) (hdt : HasType a data.name (str "Input"))
    (hfree : FreePeriods (infos layers)) {M : Mode} (ps : ∀ T B, ∀ l ∈ rest, LibLayer (infos layers) data l T B)
    (hps : ∀ T B l (hl : l ∈ rest) t, HasType a l.name t → Describes M t (kwargs l.name) (ps T B l hl))
    (hD : ∀ n, ¬ HasType a n (str "Dropout")) {st : State ℝ} {T B sz k : ℕ} {vs : List (Name × View)}
    (i : Inv (netOf (infos layers) L) st T B sz k vs)
    {θ₀ : Fin (paramCount (infos layers) L) → ℝ} (hθ : st.read (str "parameters") = some (List.ofFn θ₀))
    (h0 : ∀ i : Fin (paramCount (infos layers) L), IsPeriod (infos layers) L i → θ₀ i ≠ 0) (batches batches' : ℕ → Batch) (extra : ℕ → List Batch)
    (hgood : ∀ j, ∀ b ∈ batches j :: batches' j :: extra j, b.Good data)
    (same : ∀ j {st' : State ℝ} {T B sz k : ℕ} {vs : List (Name × View)}, Inv (netOf (infos layers) L) st' T B sz k vs →
      ∀ {θ : Fin (paramCount (infos layers) L) → ℝ}, st'.read (str "parameters") = some (List.ofFn θ) →
      (∀ i : Fin (paramCount (infos layers) L), IsPeriod (infos layers) L i → θ i ≠ 0) →
      lossV (infos layers) L data.name (fun T B => libNetwork F (ps T B)) (reported a layers L) (batches j) θ =
        lossV (infos layers) L data.name (fun T B => libNetwork F (ps T B)) (reported a layers L) (batches' j) θ ∧
      ((∀ b ∈ batches j :: batches' j :: extra j, RegularAt F ps st' b) →
        gradD (infos layers) L data.name (fun T B => libNetwork F (ps T B)) (batches j) θ =
          gradD (infos layers) L data.name (fun T B => libNetwork F (ps T B)) (batches' j) θ)) (lr μ : ℕ → ℝ) (scale : Bool) (k : ℕ)
    (hR : (NoKinks a kwargs ∧ ∀ j < k, ∀ b ∈ batches j :: batches' j :: extra j, 0 < b.T) ∨ (∀ j < k, ∀ st' v log,
        train (netOf (infos layers) L) data.name (fun T B => libNetwork F (ps T B)) (reported a layers L)
        (fun k => nesterovRun (netOf (infos layers) L) (fun T B => libNetwork F (ps T B)) scale (lr k) (μ k)) batches (fun _ => [])
          (st, List.replicate (paramCount (infos layers) L) 0) j = some ((st', v), log) → ∀ st'', Ahead (μ j) v st' st'' →
          ∀ b ∈ batches j :: batches' j :: extra j, RegularAt F ps st'' b)) :
    ∃ st₁ st₂ v log θ, train (netOf (infos layers) L) data.name (fun T B => libNetwork F (ps T B)) (reported a layers L)
        (fun k => nesterovRun (netOf (infos layers) L) (fun T B => libNetwork F (ps T B)) scale (lr k) (μ k)) batches (fun _ => [])
          (st, List.replicate (paramCount (infos layers) L) 0) k = some ((st₁, v), log) ∧
      train (netOf (infos layers) L) data.name (fun T B => libNetwork F (ps T B)) (reported a layers L)
        (fun k => nesterovRun (netOf (infos layers) L) (fun T B => libNetwork F (ps T B)) scale (lr k) (μ k)) batches' (fun _ => [])
          (st, List.replicate (paramCount (infos layers) L) 0) k = some ((st₂, v), log) ∧
      st₁.read (str "parameters") = some θ ∧ st₂.read (str "parameters") = some θ := by
  have hS := sited m F ps
  have hrep := reports m F ps hdt hps
  have hdet := determines m F (Or.inr hD) ps hps
  have hb : ∀ k, (batches k).Good data := fun k => hgood k _ (by simp)
  have hb' : ∀ k, (batches' k).Good data := fun k => hgood k _ (by simp)
  have hzero : List.ofFn (0 : Fin (paramCount (infos layers) L) → ℝ) = List.replicate (paramCount (infos layers) L) 0 := by
    simp [List.ofFn_const, Pi.zero_def]
  have hg : ∀ b : Batch, b.Good data → ∀ θ, ∀ i : Fin (paramCount (infos layers) L), IsPeriod (infos layers) L i →
      gradD (infos layers) L data.name (fun T B => libNetwork F (ps T B)) b θ i = 0 :=
    fun b hb θ i hi => period_gradD F ps hfree hS hdet hb θ i hi
  let q : (ℕ → Batch) → ℕ → (Fin (paramCount (infos layers) L) → ℝ) × (Fin (paramCount (infos layers) L) → ℝ) := fun batches k =>
    Nat.rec (θ₀, 0) (fun k q =>
    (q.1 + (μ k • q.2 - rateOf scale (lr k) (μ k) • gradD (infos layers) L data.name (fun T B => libNetwork F (ps T B)) (batches k) (q.1 + μ k • q.2)),
      μ k • q.2 - rateOf scale (lr k) (μ k) • gradD (infos layers) L data.name (fun T B => libNetwork F (ps T B)) (batches k) (q.1 + μ k • q.2))) k
  have run : ∀ batches : ℕ → Batch, (∀ k, (batches k).Good data) → _ := fun batches hb => train_spec hS hS hrep hb
    (evals := fun _ => []) (by simp) (θ := fun k => (q batches k).1) (v := fun k => List.ofFn (q batches k).2)
    (fun k st hr hr' => nesterovRun_spec hS (hb k) (computes_det hS hdet (hb k) hrep) hr hr' scale (lr k) (μ k) rfl) i hθ
  have per : ∀ k, ∀ i : Fin (paramCount (infos layers) L), IsPeriod (infos layers) L i → ((q batches k).1 + μ k • (q batches k).2) i ≠ 0 := by
    intro k j hj
    have : ∀ k, (q batches k).1 j = θ₀ j ∧ (q batches k).2 j = 0 := by
      intro k
      induction k with
      | zero => exact ⟨rfl, rfl⟩
      | succ k ih =>
        have e : μ k * (q batches k).2 j - rateOf scale (lr k) (μ k) * gradD (infos layers) L data.name (fun T B => libNetwork F (ps T B))
            (batches k) ((q batches k).1 + μ k • (q batches k).2) j = 0 := by rw [hg _ (hb k) _ j hj, ih.2]; ring
        refine ⟨?_, e⟩
        show (q batches k).1 j + _ = _
        exact (congrArg ((q batches k).1 j + ·) e).trans (by rw [add_zero, ih.1])
    rw [Pi.add_apply, Pi.smul_apply, (this k).1, (this k).2, smul_zero, add_zero]
    exact h0 j hj
  rw [← hzero] at hR ⊢
  have ahead : ∀ j {st' : State ℝ} {T B sz b vs}, Inv (netOf (infos layers) L) st' T B sz b vs →
      st'.read (str "parameters") = some (List.ofFn ((q batches j).1)) → ∃ st'', Ahead (μ j) (List.ofFn (q batches j).2) st' st'' ∧
        Inv (netOf (infos layers) L) st'' T B sz b vs ∧
        st''.read (str "parameters") = some (List.ofFn ((q batches j).1 + μ j • (q batches j).2)) := by
    intro j st' T B sz b vs i1 h2
    obtain ⟨st'', w, i2, r2, -⟩ := write_report hS i1 (θ := List.ofFn ((q batches j).1 + μ j • (q batches j).2)) (by simp)
    refine ⟨st'', ⟨_, h2, ?_⟩, i2, r2⟩
    rw [← w, zipWith_ofFn]
    congr 2
    funext x
    simp only [Pi.add_apply, Pi.smul_apply, smul_eq_mul]
    ring
  have agree : ∀ j, j ≤ k → q batches j = q batches' j ∧
      ∀ p < j, lossV (infos layers) L data.name (fun T B => libNetwork F (ps T B)) (reported a layers L) (batches p) ((q batches p).1 + μ p • (q batches p).2) =
        lossV (infos layers) L data.name (fun T B => libNetwork F (ps T B)) (reported a layers L) (batches' p) ((q batches' p).1 + μ p • (q batches' p).2) := by
    intro j hj
    induction j with
    | zero => exact ⟨rfl, fun q hq => absurd hq (by omega)⟩
    | succ j ih =>
      obtain ⟨e1, e2⟩ := ih (by omega)
      obtain ⟨st', _, _, _, _, _, h1, i1, h2⟩ := run batches hb j
      obtain ⟨st'', ah, i3, h3⟩ := ahead j i1 h2
      have := same j i3 h3 (per j)
      have reg : ∀ b ∈ batches j :: batches' j :: extra j, RegularAt F ps st'' b := by
        rcases hR with ⟨nk, hT⟩ | hR
        · intro b hb'
          exact regularAt_of_noKinks nk m F ps hps (hgood j b hb') (hT j (by omega) b hb') i3 h3 (per j)
        · exact hR j (by omega) _ _ _ h1 _ ah
      refine ⟨?_, fun p hp => ?_⟩
      · have e3 := this.2 reg
        refine Prod.ext ?_ ?_
        · show (q batches j).1 + (μ j • (q batches j).2 - rateOf scale (lr j) (μ j) • gradD _ _ _ _ (batches j) ((q batches j).1 + μ j • (q batches j).2)) =
            (q batches' j).1 + (μ j • (q batches' j).2 - rateOf scale (lr j) (μ j) • gradD _ _ _ _ (batches' j) ((q batches' j).1 + μ j • (q batches' j).2))
          rw [e3, e1]
        · show μ j • (q batches j).2 - rateOf scale (lr j) (μ j) • gradD _ _ _ _ (batches j) ((q batches j).1 + μ j • (q batches j).2) =
            μ j • (q batches' j).2 - rateOf scale (lr j) (μ j) • gradD _ _ _ _ (batches' j) ((q batches' j).1 + μ j • (q batches' j).2)
          rw [e3, e1]
      · rcases Nat.lt_succ_iff_lt_or_eq.1 hp with hp | rfl
        · exact e2 p hp
        · rw [this.1, e1]
  obtain ⟨st₁, _, _, _, _, _, h1, -, r1⟩ := run batches hb k
  obtain ⟨st₂, _, _, _, _, _, h2, -, r2⟩ := run batches' hb' k
  obtain ⟨e1, e2⟩ := agree k le_rfl
  refine ⟨st₁, st₂, _, _, _, h1, ?_, r1, by rw [r2, e1]⟩
  rw [e1]
  refine h2.trans ?_
  exact congrArg (fun x => some ((st₂, _), x)) (List.map_congr_left fun p hp => (e2 p (List.mem_range.1 hp)).symm)

end

section
variable (kwargs : Name → Kwargs) (a : Arch) (hk : (Dict.keys a).Nodup) (ord : Orders) (ho : ord.Ok)
  (layers : Dict Name (LayerObj Kwargs)) (h : Instantiates (libEnv kwargs) ord a (.ok layers))
  (hne : ∃ n l, Dict.get? layers n = some l ∧ l.shapes.outs ≠ []) (L : Layout) (hL : createLayout (infos layers) = .ok L)
  (tr : Trainable a) (num : Numeric a kwargs)
  (sup : ∀ n l t, Dict.get? layers n = some l → HasType a n t → Supported t l.kwargs l.inShapes)
  (hfree : FreePeriods (infos layers)) (hD : ∀ n, ¬ HasType a n (str "Dropout"))
include hk ho h hne hL tr num sup hfree hD

/-- **C85, order, with `NesterovStepper`.**  These trainings do not depend on the order of the sequences in the batches either, as long as
the layers are differentiable at the parameters that the stepper looks ahead to (which they are if they have no kinks). -/
theorem C85_order_nesterov :
    ∃ data rest, HasType a data.name (str "Input") ∧ ∃ F : Memory.Fits (infos layers) L data rest,
      ∃ ps : Mode → ∀ T B, ∀ l ∈ rest, LibLayer (infos layers) data l T B,
      (∀ M T B l (hl : l ∈ rest) t, HasType a l.name t → Describes M t (kwargs l.name) (ps M T B l hl)) ∧
      ∀ (M : Mode) (n : ℕ) (st : State ℝ) (θ₀ : Fin n → ℝ), Reachable (netOf (infos layers) L) st →
        st.read (str "parameters") = some (List.ofFn θ₀) → (∀ i : Fin n, IsPeriod (infos layers) L i → θ₀ i ≠ 0) →
        ∀ (batches batches' : ℕ → Batch) (parts parts' : ℕ → List Batch), (∀ k, SameSequences data (batches k) (batches' k) (parts k) (parts' k)) →
        ∀ (lr μ : ℕ → ℝ) (scale : Bool) (k : ℕ),
        ((NoKinks a kwargs ∧ ∀ j < k, 0 < (batches j).T) ∨ (∀ j < k, ∀ st' v log,
            train (netOf (infos layers) L) data.name (fun T B => libNetwork F (ps M T B)) (reported a layers L)
            (fun k => nesterovRun (netOf (infos layers) L) (fun T B => libNetwork F (ps M T B)) scale (lr k) (μ k)) batches (fun _ => [])
              (st, List.replicate n 0) j = some ((st', v), log) → ∀ st'', Ahead (μ j) v st' st'' →
              ∀ b ∈ batches j :: batches' j :: parts j, RegularAt F (ps M) st'' b)) →
          ∃ st₁ st₂ v log θ, train (netOf (infos layers) L) data.name (fun T B => libNetwork F (ps M T B)) (reported a layers L)
              (fun k => nesterovRun (netOf (infos layers) L) (fun T B => libNetwork F (ps M T B)) scale (lr k) (μ k)) batches (fun _ => [])
                (st, List.replicate n 0) k = some ((st₁, v), log) ∧
            train (netOf (infos layers) L) data.name (fun T B => libNetwork F (ps M T B)) (reported a layers L)
              (fun k => nesterovRun (netOf (infos layers) L) (fun T B => libNetwork F (ps M T B)) scale (lr k) (μ k)) batches' (fun _ => [])
                (st, List.replicate n 0) k = some ((st₂, v), log) ∧
            st₁.read (str "parameters") = some θ ∧ st₂.read (str "parameters") = some θ := by
  have m : Made kwargs a ord layers L := ⟨hk, ho, h, hne, hL⟩
  obtain ⟨data, rest, hdt, F, ps, hps⟩ := functions m tr num sup
  refine ⟨data, rest, hdt, F, ps, hps, fun M n st θ₀ hst hθ h0 batches batches' parts parts' C lr μ scale k hR => ?_⟩
  obtain ⟨T, B, _, _, _, i⟩ := hst.inv (netOf_wellLaid F.laid.wf F.laid.shaped F.laid.layout)
  obtain rfl := Reachable.count F.laid hst hθ
  have hTj : ∀ j, ∀ b ∈ batches j :: batches' j :: parts j, b.T = (batches j).T ∧ b.Good data := by
    intro j b hb'
    rcases List.mem_cons.1 hb' with rfl | hb'
    · exact ⟨rfl, (C j).1.good.1⟩
    rcases List.mem_cons.1 hb' with rfl | hb'
    · obtain ⟨x, hx⟩ := List.exists_mem_of_ne_nil _ (C j).1.some.1
      exact ⟨((C j).2.1.steps x ((C j).2.2.mem_iff.1 hx)).symm.trans ((C j).1.steps x hx), (C j).2.1.good.1⟩
    · exact ⟨(C j).1.steps b hb', (C j).1.good.2 b hb'⟩
  exact train_same_nesterov m F hdt hfree (ps M) (hps M) hD i hθ h0 batches batches' parts (fun j b hb => (hTj j b hb).2)
    (fun j _ _ _ _ _ _ i1 _ h2 h3 => same_batches m F hdt hfree (ps M) (hps M) hD (C j) i1 h2 h3) lr μ scale k
    (hR.imp (fun ⟨nk, hT⟩ => ⟨nk, fun j hj b hb => (hTj j b hb).1 ▸ hT j hj⟩) id)

end

end Verif.Parts
