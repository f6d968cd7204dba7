import Verif.Descent.Periods

/-!
# C84: the gradients are the derivative of the loss, and small steps decrease it
-/

namespace Verif.Descent

open Verif.Architecture hiding demoArch
open Verif.Structure Verif.Layout Verif.Buffers Verif.Instantiate Verif.EndToEnd
open Verif.Memory hiding demoL
open Verif.Setup (Kwargs libEnv infos toInfo inp_some)
open Verif.Shapes (Supported)
open Verif.Session Verif.Determined

section
variable {layers : List LayerInfo} {L : Layout} {data : LayerInfo} {rest : List LayerInfo} {b : Batch}

/-- The loss along a curve that does not move periods. -/
theorem loss_curve {report : ℕ → ℕ → Mem → Option ℝ} (F : Memory.Fits layers L data rest) (ps : ∀ T B, ∀ l ∈ rest, LibLayer layers data l T B)
    (h : Sited layers L data rest fun T B => libNetwork F (ps T B)) (hdet : Determines layers L data fun T B => libNetwork F (ps T B))
    (hb : b.Good data) (hrep : Reports (fun T B => libNetwork F (ps T B)) report) {θ : Fin (paramCount layers L) → ℝ} {s : Mem}
    (hs : Loaded (netOf layers L) data.name b (List.ofFn θ) s) (hR : AllRegular F (ps b.T b.B) s)
    (γ : ℝ → Fin (paramCount layers L) → ℝ) (v : Fin (paramCount layers L) → ℝ) (h0 : γ 0 = θ)
    (hγ : ∀ i, HasDerivAt (fun t => γ t i) (v i) 0) (hfix : ∀ i : Fin (paramCount layers L), IsPeriod layers L i → ∀ t, γ t i = θ i) :
    HasDerivAt (fun t => lossV layers L data.name (fun T B => libNetwork F (ps T B)) report b (γ t))
      (∑ i, gradD layers L data.name (fun T B => libNetwork F (ps T B)) b θ i * v i) 0 :=
  loss_along F ps h hdet hb hrep hs hR γ v h0 hγ fun i _ hp _ hl hx ht => hfix i (period_of_cell F.laid hp hl hx ht)

/-- Entries of the periods are not moved by the steppers: their gradients are zero. -/
theorem kept_part {θ θ' : List ℝ} (hp : ∀ i, IsPeriod layers L i → θ'[i]? = θ[i]?) {l : LayerInfo} (hl : l ∈ layers) {s : Struct}
    (hs : (str "timing", s) ∈ l.paramShapes) :
    Constrained.part L l.name (str "timing") s θ' = Constrained.part L l.name (str "timing") s θ := by
  refine List.ext_getElem? fun j => ?_
  by_cases hj : j < s.featureSize
  · rw [Constrained.part_getElem? _ _ _ _ hj, Constrained.part_getElem? _ _ _ _ hj]
    exact hp _ ⟨l, hl, s, hs, j, hj, rfl⟩
  · rw [List.getElem?_eq_none, List.getElem?_eq_none] <;>
    · simp only [Constrained.part, List.length_take]
      omega

end

/-! ### The property

The network is as in C81: it may contain layers that are not differentiable everywhere, and clockwork layers.  The training mode only
matters if there are Dropout layers. -/

section
variable (kwargs : Name → Kwargs) (a : Arch) (hk : (Dict.keys a).Nodup) (ord : Orders) (ho : ord.Ok)
  (layers : Dict Name (LayerObj Kwargs)) (h : Instantiates (libEnv kwargs) ord a (.ok layers))
  (hne : ∃ n l, Dict.get? layers n = some l ∧ l.shapes.outs ≠ []) (L : Layout) (hL : createLayout (infos layers) = .ok L)
  (tr : Trainable a) (num : Numeric a kwargs)
  (sup : ∀ n l t, Dict.get? layers n = some l → HasType a n t → Supported t l.kwargs l.inShapes)
include hk ho h hne hL tr num sup

/-- **C84, derivative.**  At parameters where all layers are differentiable (`Regular`, at the values that the layers read and wrote), the
gradients that both passes compute are the derivative of the reported loss as all parameters move at once: along every curve of parameters
that is differentiable at the current parameters and does not move the periods of clockwork layers, the loss changes at the rate
`∑ i, g i * v i`, where `v` is the velocity of the curve.  Without clockwork layers, the loss as a function of all parameters is
differentiable there, and its derivative is given by the gradients. -/
theorem C84_derivative :
    ∃ data rest, HasType a data.name (str "Input") ∧ ∃ F : Memory.Fits (infos layers) L data rest,
      ∃ ps : Mode → ∀ T B, ∀ l ∈ rest, LibLayer (infos layers) data l T B,
      (∀ M T B l (hl : l ∈ rest) t, HasType a l.name t → Describes M t (kwargs l.name) (ps M T B l hl)) ∧
      ∀ (M : Mode), M.training = true ∨ (∀ n, ¬ HasType a n (str "Dropout")) →
        ∀ (n : ℕ) (st : State ℝ) (b : Batch) (θ : Fin n → ℝ), Reachable (netOf (infos layers) L) st → b.Good data →
        st.read (str "parameters") = some (List.ofFn θ) →
        ∃ (loss : (Fin n → ℝ) → ℝ) (st₁ st₂ st₃ : State ℝ) (g : Fin n → ℝ),
          (∀ θ', lossOf (netOf (infos layers) L) data.name (fun T B => libNetwork F (ps M T B)) (reported a layers L) b
            (List.ofFn θ') = some (loss θ')) ∧
          provide (netOf (infos layers) L) data.name b st = some st₁ ∧
          forwardPass (netOf (infos layers) L) (fun T B => libNetwork F (ps M T B)) b.rnd st₁ = some st₂ ∧
          Session.backwardPass (netOf (infos layers) L) (fun T B => libNetwork F (ps M T B)) b.rnd st₂ = some st₃ ∧
          st₃.read (str "gradients") = some (List.ofFn g) ∧
          ((∀ l (hl : l ∈ rest), (ps M b.T b.B l hl).Regular (valueOut (netOf (infos layers) L) b.T b.B l.name
              (seen (netOf (infos layers) L) b.T b.B b.rnd (memOf st₂)))) →
            (∀ (γ : ℝ → Fin n → ℝ) (v : Fin n → ℝ), γ 0 = θ → (∀ i, HasDerivAt (fun t => γ t i) (v i) 0) →
              (∀ i : Fin n, IsPeriod (infos layers) L i → ∀ t, γ t i = θ i) →
              HasDerivAt (fun t => loss (γ t)) (∑ i, g i * v i) 0) ∧
            ((∀ i : Fin n, ¬ IsPeriod (infos layers) L i) →
              HasFDerivAt loss (∑ i, g i • ContinuousLinearMap.proj (R := ℝ) (φ := fun _ : Fin n => ℝ) i) θ)) := by
  have m : Made kwargs a ord layers L := ⟨hk, ho, h, hne, hL⟩
  obtain ⟨data, rest, hdt, F, ps, hps⟩ := functions m tr num sup
  refine ⟨data, rest, hdt, F, ps, hps, fun M hM n st b θ hst hb hθ => ?_⟩
  have hS := sited m F (ps M)
  have hrep := reports m F (ps M) hdt (hps M)
  have hdet := determines m F hM (ps M) (hps M)
  obtain ⟨T, B, _, _, _, i⟩ := hst.inv (netOf_wellLaid F.laid.wf F.laid.shaped F.laid.layout)
  obtain rfl := Reachable.count F.laid hst hθ
  obtain ⟨st₁, h1, hr, r1⟩ := provide_ready hS.laid hS.data_mem i hb
  obtain ⟨st₂, st₃, _, _, _, h2, h3, -, r3, g3, l3⟩ := computes_det hS hdet hb hrep st₁ θ hr (r1.trans hθ)
  obtain ⟨s, hs, hseen⟩ := after_forward hS hb hr (r1.trans hθ) h2
  refine ⟨_, st₁, st₂, st₃, _, lossV_eq hS hb hrep, h1, h2, h3, g3, fun hR => ?_⟩
  rw [hseen] at hR
  have key := loss_curve F (ps M) hS hdet hb hrep hs hR
  refine ⟨key, fun hno => hasFDerivAt_of_curves fun γ v h0 hv => ?_⟩
  refine (key γ v h0 hv fun i hi => absurd hi (hno i)).congr_deriv ?_
  simp

/-- **C84, descent.**  One update by `SgdStepper` with a sufficiently small learning rate decreases the loss of the batch: there is a positive
number below which every learning rate makes the loss at the new parameters smaller than the recorded loss by at least half of the
learning rate times the sum of the squares of the gradients.  (If a gradient is not zero, this is a positive number.)  Periods of clockwork
layers must not be regularized. -/
theorem C84_descent (hfree : FreePeriods (infos layers)) :
    ∃ data rest, HasType a data.name (str "Input") ∧ ∃ F : Memory.Fits (infos layers) L data rest,
      ∃ ps : Mode → ∀ T B, ∀ l ∈ rest, LibLayer (infos layers) data l T B,
      (∀ M T B l (hl : l ∈ rest) t, HasType a l.name t → Describes M t (kwargs l.name) (ps M T B l hl)) ∧
      ∀ (M : Mode), M.training = true ∨ (∀ n, ¬ HasType a n (str "Dropout")) →
        ∀ (n : ℕ) (st : State ℝ) (b : Batch) (θ : Fin n → ℝ), Reachable (netOf (infos layers) L) st → b.Good data →
        st.read (str "parameters") = some (List.ofFn θ) →
        ∃ (loss : (Fin n → ℝ) → ℝ) (st₁ st₂ st₃ : State ℝ) (g : Fin n → ℝ),
          (∀ θ', lossOf (netOf (infos layers) L) data.name (fun T B => libNetwork F (ps M T B)) (reported a layers L) b
            (List.ofFn θ') = some (loss θ')) ∧
          provide (netOf (infos layers) L) data.name b st = some st₁ ∧
          forwardPass (netOf (infos layers) L) (fun T B => libNetwork F (ps M T B)) b.rnd st₁ = some st₂ ∧
          Session.backwardPass (netOf (infos layers) L) (fun T B => libNetwork F (ps M T B)) b.rnd st₂ = some st₃ ∧
          st₃.read (str "gradients") = some (List.ofFn g) ∧
          ((∀ l (hl : l ∈ rest), (ps M b.T b.B l hl).Regular (valueOut (netOf (infos layers) L) b.T b.B l.name
              (seen (netOf (infos layers) L) b.T b.B b.rnd (memOf st₂)))) →
            ∃ ε > 0, ∀ lr, 0 < lr → lr < ε → ∃ (st' : State ℝ) (θ' : Fin n → ℝ) (recorded : ℝ),
              Session.round (netOf (infos layers) L) data.name (fun T B => libNetwork F (ps M T B)) (reported a layers L)
                (Session.sgdRun (netOf (infos layers) L) (fun T B => libNetwork F (ps M T B)) lr) b [] (st, ()) = some ((st', ()), recorded) ∧
              st'.read (str "parameters") = some (List.ofFn θ') ∧
              loss θ' ≤ recorded - lr / 2 * ∑ i, g i ^ 2) := by
  have m : Made kwargs a ord layers L := ⟨hk, ho, h, hne, hL⟩
  obtain ⟨data, rest, hdt, F, ps, hps⟩ := functions m tr num sup
  refine ⟨data, rest, hdt, F, ps, hps, fun M hM n st b θ hst hb hθ => ?_⟩
  have hS := sited m F (ps M)
  have hrep := reports m F (ps M) hdt (hps M)
  have hdet := determines m F hM (ps M) (hps M)
  obtain ⟨T, B, _, _, _, i⟩ := hst.inv (netOf_wellLaid F.laid.wf F.laid.shaped F.laid.layout)
  obtain rfl := Reachable.count F.laid hst hθ
  obtain ⟨st₁, h1, hr, r1⟩ := provide_ready hS.laid hS.data_mem i hb
  have hc := computes_det hS hdet hb hrep
  obtain ⟨st₂, st₃, _, _, _, h2, h3, -, r3, g3, l3⟩ := hc st₁ θ hr (r1.trans hθ)
  obtain ⟨s, hs, hseen⟩ := after_forward hS hb hr (r1.trans hθ) h2
  refine ⟨_, st₁, st₂, st₃, _, lossV_eq hS hb hrep, h1, h2, h3, g3, fun hR => ?_⟩
  rw [hseen] at hR
  have key := loss_curve F (ps M) hS hdet hb hrep hs hR
    (fun t => θ - t • gradD (infos layers) L data.name (fun T B => libNetwork F (ps M T B)) b θ)
    (fun i => - gradD (infos layers) L data.name (fun T B => libNetwork F (ps M T B)) b θ i) (by simp)
    (by
      intro i
      simpa using ((hasDerivAt_id (0 : ℝ)).mul_const
        (gradD (infos layers) L data.name (fun T B => libNetwork F (ps M T B)) b θ i)).const_sub (θ i))
    (by
      intro i hi t
      simp [period_gradD F (ps M) hfree hS hdet hb θ i hi])
  obtain ⟨ε, hε, hd⟩ := descent (key.congr_deriv (by simp [pow_two]))
  refine ⟨ε, hε, fun lr hlr hlt => ?_⟩
  obtain ⟨st', _, _, _, e1, -, e2, e3⟩ := sgdRun_spec hS hc hr (r1.trans hθ) lr
  refine ⟨st', _, lossV (infos layers) L data.name (fun T B => libNetwork F (ps M T B)) (reported a layers L) b θ, ?_, e2, hd lr hlr hlt⟩
  have e4 := hrep b.T b.B (memOf st')
  simp only [Session.round, h1, e1, e4, e3, Session.evaluate, Option.bind_some, Option.map_some]

/-- **C84, periods.**  The steppers of the library never change the periods of clockwork layers, whatever batches, learning rates and momenta
are used (if the periods are not regularized). -/
theorem C84_periods (hfree : FreePeriods (infos layers)) :
    ∃ data rest, HasType a data.name (str "Input") ∧ ∃ F : Memory.Fits (infos layers) L data rest,
      ∃ ps : Mode → ∀ T B, ∀ l ∈ rest, LibLayer (infos layers) data l T B,
      (∀ M T B l (hl : l ∈ rest) t, HasType a l.name t → Describes M t (kwargs l.name) (ps M T B l hl)) ∧
      ∀ (M M' : Mode), M.training = true ∨ (∀ n, ¬ HasType a n (str "Dropout")) →
        ∀ (n : ℕ) (st : State ℝ) (θ₀ : Fin n → ℝ), Reachable (netOf (infos layers) L) st → st.read (str "parameters") = some (List.ofFn θ₀) →
        ∀ (batches : ℕ → Batch) (evals : ℕ → List Batch), (∀ k, (batches k).Good data) → (∀ k, ∀ b ∈ evals k, b.Good data) →
        ∀ (lr μ : ℕ → ℝ) (scale : Bool) (k : ℕ) (l : LayerInfo), l ∈ infos layers → str "timing" ∈ l.paramShapes.map Prod.fst →
        (∃ st' log ts, train (netOf (infos layers) L) data.name (fun T B => libNetwork F (ps M' T B)) (reported a layers L)
            (fun k => sgdRun (netOf (infos layers) L) (fun T B => libNetwork F (ps M T B)) (lr k)) batches evals (st, ()) k =
              some ((st', ()), log) ∧
          st.read (path l.name (str "parameters") (str "timing")) = some ts ∧
          st'.read (path l.name (str "parameters") (str "timing")) = some ts) ∧
        (∃ st' v log ts, train (netOf (infos layers) L) data.name (fun T B => libNetwork F (ps M' T B)) (reported a layers L)
            (fun k => momentumRun (netOf (infos layers) L) (fun T B => libNetwork F (ps M T B)) scale (lr k) (μ k)) batches evals
            (st, List.replicate n 0) k = some ((st', v), log) ∧
          st.read (path l.name (str "parameters") (str "timing")) = some ts ∧
          st'.read (path l.name (str "parameters") (str "timing")) = some ts) ∧
        (∃ st' v log ts, train (netOf (infos layers) L) data.name (fun T B => libNetwork F (ps M' T B)) (reported a layers L)
            (fun k => nesterovRun (netOf (infos layers) L) (fun T B => libNetwork F (ps M T B)) scale (lr k) (μ k)) batches evals
            (st, List.replicate n 0) k = some ((st', v), log) ∧
          st.read (path l.name (str "parameters") (str "timing")) = some ts ∧
          st'.read (path l.name (str "parameters") (str "timing")) = some ts) := by
  have m : Made kwargs a ord layers L := ⟨hk, ho, h, hne, hL⟩
  obtain ⟨data, rest, hdt, F, ps, hps⟩ := functions m tr num sup
  refine ⟨data, rest, hdt, F, ps, hps, fun M M' hM n st θ₀ hst hθ batches evals hb he lr μ scale k l hl hx => ?_⟩
  have hS := sited m F (ps M)
  have hQ := sited m F (ps M')
  have hrep := reports m F (ps M) hdt (hps M)
  have hdet := determines m F hM (ps M) (hps M)
  obtain ⟨T, B, _, _, _, i⟩ := hst.inv (netOf_wellLaid F.laid.wf F.laid.shaped F.laid.layout)
  obtain rfl := Reachable.count F.laid hst hθ
  have hzero : List.ofFn (0 : Fin (paramCount (infos layers) L) → ℝ) = List.replicate (paramCount (infos layers) L) 0 := by
    simp [List.ofFn_const, Pi.zero_def]
  obtain ⟨s, hs⟩ := shape_of hx
  have hg : ∀ b : Batch, b.Good data → ∀ θ, ∀ i : Fin (paramCount (infos layers) L), IsPeriod (infos layers) L i →
      gradD (infos layers) L data.name (fun T B => libNetwork F (ps M T B)) b θ i = 0 :=
    fun b hb θ i hi => period_gradD F (ps M) hfree hS hdet hb θ i hi
  have fin : ∀ {st' : State ℝ} {T B sz k : ℕ} {vs : List (Name × View)} {θ : Fin (paramCount (infos layers) L) → ℝ},
      Inv (netOf (infos layers) L) st' T B sz k vs → st'.read (str "parameters") = some (List.ofFn θ) →
      (∀ i : Fin (paramCount (infos layers) L), IsPeriod (infos layers) L i → θ i = θ₀ i) →
      ∃ ts, st.read (path l.name (str "parameters") (str "timing")) = some ts ∧
        st'.read (path l.name (str "parameters") (str "timing")) = some ts := by
    intro st' T B sz k vs θ hi hr hp
    refine ⟨_, Constrained.read_part F.laid i (c := .par) (Or.inl rfl) hl hs hθ, ?_⟩
    refine (Constrained.read_part F.laid hi (c := .par) (Or.inl rfl) hl hs hr).trans (congrArg some (kept_part (fun i hi => ?_) hl hs))
    rw [List.getElem?_ofFn, List.getElem?_ofFn]
    split
    · next h => rw [hp ⟨i, h⟩ hi]
    · rfl
  refine ⟨?_, ?_, ?_⟩
  · let θ : ℕ → Fin (paramCount (infos layers) L) → ℝ := fun k => Nat.rec θ₀ (fun k θ => θ - lr k •
      gradD (infos layers) L data.name (fun T B => libNetwork F (ps M T B)) (batches k) θ) k
    obtain ⟨st', _, _, _, _, _, h1, i1, h2⟩ := train_spec hS hQ hrep hb he (θ := θ) (v := fun _ => ())
      (fun k st hr hr' => sgdRun_spec hS (computes_det hS hdet (hb k) hrep) hr hr' (lr k)) i hθ k
    obtain ⟨ts, e1, e2⟩ := fin i1 h2 fun j hj => by
      clear h1 h2
      induction k with
      | zero => rfl
      | succ k ih =>
        show θ k j - lr k * gradD _ _ _ _ (batches k) (θ k) j = _
        rw [hg _ (hb k) _ j hj, mul_zero, sub_zero, ih]
    exact ⟨st', _, ts, h1, e1, e2⟩
  · let q : ℕ → (Fin (paramCount (infos layers) L) → ℝ) × (Fin (paramCount (infos layers) L) → ℝ) := fun k => Nat.rec (θ₀, 0) (fun k q =>
      (q.1 + (μ k • q.2 - rateOf scale (lr k) (μ k) • gradD (infos layers) L data.name (fun T B => libNetwork F (ps M T B)) (batches k) q.1),
        μ k • q.2 - rateOf scale (lr k) (μ k) • gradD (infos layers) L data.name (fun T B => libNetwork F (ps M T B)) (batches k) q.1)) k
    obtain ⟨st', _, _, _, _, _, h1, i1, h2⟩ := train_spec hS hQ hrep hb he (θ := fun k => (q k).1) (v := fun k => List.ofFn (q k).2)
      (fun k st hr hr' => momentumRun_spec hS (computes_det hS hdet (hb k) hrep) hr hr' scale (lr k) (μ k) rfl) i hθ k
    obtain ⟨ts, e1, e2⟩ := fin i1 h2 fun j hj => by
      clear h1 h2
      have key : (q k).1 j = θ₀ j ∧ (q k).2 j = 0 := by
        induction k with
        | zero => exact ⟨rfl, rfl⟩
        | succ k ih =>
          have e : μ k * (q k).2 j - rateOf scale (lr k) (μ k) * gradD (infos layers) L data.name (fun T B => libNetwork F (ps M T B))
              (batches k) (q k).1 j = 0 := by rw [hg _ (hb k) _ j hj, ih.2]; ring
          refine ⟨?_, e⟩
          show (q k).1 j + _ = _
          exact (congrArg ((q k).1 j + ·) e).trans (by rw [add_zero, ih.1])
      exact key.1
    rw [show List.ofFn (q 0).2 = _ from hzero] at h1
    exact ⟨st', _, _, ts, h1, e1, e2⟩
  · let q : ℕ → (Fin (paramCount (infos layers) L) → ℝ) × (Fin (paramCount (infos layers) L) → ℝ) := fun k => Nat.rec (θ₀, 0) (fun k q =>
      (q.1 + (μ k • q.2 - rateOf scale (lr k) (μ k) • gradD (infos layers) L data.name (fun T B => libNetwork F (ps M T B)) (batches k) (q.1 + μ k • q.2)),
        μ k • q.2 - rateOf scale (lr k) (μ k) • gradD (infos layers) L data.name (fun T B => libNetwork F (ps M T B)) (batches k) (q.1 + μ k • q.2))) k
    obtain ⟨st', _, _, _, _, _, h1, i1, h2⟩ := train_spec hS hQ hrep hb he (θ := fun k => (q k).1) (v := fun k => List.ofFn (q k).2)
      (fun k st hr hr' => nesterovRun_spec hS (hb k) (computes_det hS hdet (hb k) hrep) hr hr' scale (lr k) (μ k) rfl) i hθ k
    obtain ⟨ts, e1, e2⟩ := fin i1 h2 fun j hj => by
      clear h1 h2
      have key : (q k).1 j = θ₀ j ∧ (q k).2 j = 0 := by
        induction k with
        | zero => exact ⟨rfl, rfl⟩
        | succ k ih =>
          have e : μ k * (q k).2 j - rateOf scale (lr k) (μ k) * gradD (infos layers) L data.name (fun T B => libNetwork F (ps M T B))
              (batches k) ((q k).1 + μ k • (q k).2) j = 0 := by rw [hg _ (hb k) _ j hj, ih.2]; ring
          refine ⟨?_, e⟩
          show (q k).1 j + _ = _
          exact (congrArg ((q k).1 j + ·) e).trans (by rw [add_zero, ih.1])
      exact key.1
    rw [show List.ofFn (q 0).2 = _ from hzero] at h1
    exact ⟨st', _, _, ts, h1, e1, e2⟩

end

end Verif.Descent
