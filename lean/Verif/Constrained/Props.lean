import Verif.Constrained.Unique

/-!
# C80: training with weight and gradient modifiers
-/

namespace Verif.Constrained

open Verif.Architecture hiding demoArch
open Verif.Structure Verif.Layout Verif.Buffers Verif.Instantiate Verif.EndToEnd
open Verif.Memory hiding demoL
open Verif.Setup (Kwargs libEnv infos toInfo inp_some)
open Verif.Shapes (Supported)
open Verif.Session hiding sgdRun momentumRun nesterovRun backwardPass round train Stepper

section
variable {layers : List LayerInfo} {L : Layout}

theorem row_eq {shape : List ℕ} {x : List ℝ} (hx : x.length = shape.prod) (h2 : 2 ≤ shape.length) (h0 : shape.headD 0 ≠ 0)
    (i : Fin (shape.headD 0)) : Modifiers.norm2 (row shape x i) = Modifiers.norm2 (rowsOf (shape.headD 0) (x.length / shape.headD 0) x i) := by
  match shape, h2, h0, hx, i with
  | r :: s, _, h0, hx, i =>
    simp only [List.headD_cons] at h0 ⊢
    have e : x.length / r = s.prod := by
      rw [hx, List.prod_cons, Nat.mul_div_cancel_left _ (Nat.pos_of_ne_zero h0)]
    rw [e]
    rfl

/-- The effect of the last call. -/
theorem last_call {shape : List ℕ} {p y x : List ℝ} {m m₀ m₁ : Modifier} (hm : m.Later m₀) (hx : x.length = shape.prod)
    (h : weightCall shape p y m₀ = some (m₁, x)) :
    (∀ low high, m = .clipValues low high → low ≤ high → ∀ a ∈ x, low ≤ a ∧ a ≤ high) ∧
    (∀ mask, m = .maskValues mask → ∀ j : ℕ, mask[j]? = some 0 → x[j]? = some 0) ∧
    (∀ w, m = .freezeValues (some w) → x = w) ∧
    (∀ limit big, m = .constrainL2Norm limit big → 0 < limit → 1 ≤ big → 2 ≤ shape.length → y.length = shape.prod →
      (∀ i < shape.headD 0, Modifiers.norm2 (row shape y i) ≤ limit * big) →
      ∀ i < shape.headD 0, Modifiers.norm2 (row shape x i) ≤ limit) := by
  refine ⟨?_, ?_, ?_, ?_⟩
  · rintro low high rfl hlh a ha
    cases hm
    simp only [weightCall, Modifier.value, Option.some.injEq, Prod.mk.injEq] at h
    rw [← h.2] at ha
    obtain ⟨b, -, rfl⟩ := List.mem_map.1 ha
    exact ⟨le_min (le_max_right _ _) hlh, min_le_right _ _⟩
  · rintro mask rfl j hj
    cases hm
    simp only [weightCall, Modifier.value] at h
    split at h
    · rename_i hlen
      simp only [Option.some.injEq, Prod.mk.injEq] at h
      rw [← h.2, List.getElem?_zipWith, hj]
      obtain ⟨hjl, -⟩ := List.getElem?_eq_some_iff.1 hj
      rw [List.getElem?_eq_getElem (by omega)]
      simp
    · simp at h
  · rintro w rfl
    cases hm
    simp only [weightCall, Modifier.value, Option.getD_some] at h
    split at h
    · simp only [Option.some.injEq, Prod.mk.injEq] at h
      exact h.2.symm
    · simp at h
  · rintro limit big rfl hl hb h2 hy hbig i hi
    cases hm
    simp only [weightCall, Modifier.value] at h
    rw [if_neg (by omega)] at h
    have h0 : shape.headD 0 ≠ 0 := by omega
    rw [if_neg h0] at h
    simp only [Option.some.injEq, Prod.mk.injEq] at h
    have := row_eq hx h2 h0 ⟨i, hi⟩
    simp only at this
    rw [this]
    have hc : x.length / shape.headD 0 = y.length / shape.headD 0 := by rw [hx, hy]
    rw [hc, ← h.2, rowsOf_flatten]
    refine (Modifiers.C43_norm limit big hl hb _ h2 _ ⟨i, hi⟩ ?_).1
    rw [← row_eq hy h2 h0]
    exact hbig i hi

theorem parts_of {st : State ℝ} (hL : Laid layers L) (hst : Reachable (netOf layers L) st) {θ : List ℝ}
    (hθ : st.read (str "parameters") = some θ) {l : LayerInfo} (hl : l ∈ layers) {e : Name × Struct} (he : e ∈ l.paramShapes) :
    st.read (path l.name (str "parameters") e.1) = some (part L l.name e.1 e.2 θ) := by
  obtain ⟨T, B, _, _, _, i⟩ := hst.inv (netOf_wellLaid hL.wf hL.shaped hL.layout)
  exact read_part (c := .par) hL i (Or.inl rfl) hl he hθ

theorem sgd_proper (net : Net) (P : ℕ → ℕ → List MLayer) (lr : ℝ) : Proper net (sgdRun net P lr) := by
  rintro rnd ⟨st, v, G⟩ ⟨st', v', G'⟩ hst h
  simp only [sgdRun, backwardPass, Option.bind_eq_some_iff, Option.map_eq_some_iff] at h
  obtain ⟨st₁, h1, ⟨G₂, st₂⟩, ⟨st₃, h3, h2⟩, g, -, p, -, st₄, h4, h5⟩ := h
  obtain ⟨rfl, -⟩ := Prod.mk.inj h5
  exact .step (.write _ _) (applyAll_reachable _ _ _ (.backward P rnd (.forward P rnd hst h1) h3) h2) h4

theorem momentum_proper (net : Net) (P : ℕ → ℕ → List MLayer) (scale : Bool) (lr μ : ℝ) : Proper net (momentumRun net P scale lr μ) := by
  rintro rnd ⟨st, v, G⟩ ⟨st', v', G'⟩ hst h
  simp only [momentumRun, backwardPass, Option.bind_eq_some_iff, Option.map_eq_some_iff] at h
  obtain ⟨st₁, h1, ⟨G₂, st₂⟩, ⟨st₃, h3, h2⟩, g, -, p, -, st₄, h4, h5⟩ := h
  obtain ⟨rfl, -⟩ := Prod.mk.inj h5
  exact .step (.write _ _) (applyAll_reachable _ _ _ (.backward P rnd (.forward P rnd hst h1) h3) h2) h4

theorem nesterov_proper (net : Net) (P : ℕ → ℕ → List MLayer) (scale : Bool) (lr μ : ℝ) : Proper net (nesterovRun net P scale lr μ) := by
  rintro rnd ⟨st, v, G⟩ ⟨st', v', G'⟩ hst h
  simp only [nesterovRun, backwardPass, Option.bind_eq_some_iff, Option.map_eq_some_iff] at h
  obtain ⟨q, -, st₀, h0, st₁, h1, ⟨G₂, st₂⟩, ⟨st₃, h3, h2⟩, g, -, p, -, st₄, h4, h5⟩ := h
  obtain ⟨rfl, -⟩ := Prod.mk.inj h5
  exact .step (.write _ _) (applyAll_reachable _ _ _ (.backward P rnd (.forward P rnd (.step (.write _ _) hst h0) h1) h3) h2) h4

end

/-! ### The property -/

section
variable (kwargs : Name → Kwargs) (a : Arch) (hk : (Dict.keys a).Nodup) (ord : Orders) (ho : ord.Ok)
  (layers : Dict Name (LayerObj Kwargs)) (h : Instantiates (libEnv kwargs) ord a (.ok layers))
  (hne : ∃ n l, Dict.get? layers n = some l ∧ l.shapes.outs ≠ []) (L : Layout) (hL : createLayout (infos layers) = .ok L)
  (tr : Trainable a) (num : Numeric a kwargs)
  (sup : ∀ n l t, Dict.get? layers n = some l → HasType a n t → Supported t l.kwargs l.inShapes)
include hk ho h hne hL tr num sup

/-- **C80, training.**  `Trainer.train` with the steppers of the library and any weight and gradient modifiers that can be installed:
in each update, the gradients of the loss are changed by the gradient modifiers, the stepper uses what results, and the weight
modifiers change the parameters afterwards.  Everything goes well, whatever was done with the network before.  The recorded losses
do not contain penalties.  `θ` are the parameters, `γ` the modified gradients, `v` the velocities, `r` what is kept. -/
theorem C80_training (sm : Smooth a kwargs) (hno : ∀ n, ¬ HasType a n (str "Clockwork")) :
    ∃ data rest, HasType a data.name (str "Input") ∧ ∃ F : Memory.Fits (infos layers) L data rest,
      ∃ ps : Mode → ∀ T B, ∀ l ∈ rest, LibLayer (infos layers) data l T B,
      (∀ M T B l (hl : l ∈ rest) t, HasType a l.name t → Describes M t (kwargs l.name) (ps M T B l hl)) ∧
      ∀ (M M' : Mode) (n : ℕ), ∃ (loss : Batch → (Fin n → ℝ) → ℝ) (grad : Batch → (Fin n → ℝ) → Fin n → ℝ),
        ∀ (st : State ℝ) (θ₀ : Fin n → ℝ), Reachable (netOf (infos layers) L) st → st.read (str "parameters") = some (List.ofFn θ₀) →
          (∀ b : Batch, b.Good data → 0 < b.T → ∀ θ : Fin n → ℝ,
            lossOf (netOf (infos layers) L) data.name (fun T B => libNetwork F (ps M T B)) (reported a layers L) b
              (List.ofFn θ) = some (loss b θ) ∧
            ∀ i, HasDerivAt (fun x => loss b (Function.update θ i x)) (grad b θ i) (θ i)) ∧
          ∀ (batches : ℕ → Batch) (evals : ℕ → List Batch), (∀ k, (batches k).Good data ∧ 0 < (batches k).T) →
            (∀ k, ∀ b ∈ evals k, b.Good data) → ∀ wm gm : Mods, wm.Good false (infos layers) → gm.Good true (infos layers) →
            ∀ (lr μ : ℕ → ℝ) (scale : Bool),
            (∃ (r : ℕ → Run Unit) (θ γ : ℕ → Fin n → ℝ), r 0 = ⟨st, (), gm, wm⟩ ∧ θ 0 = θ₀ ∧ ∀ k,
              train (netOf (infos layers) L) data.name (fun T B => libNetwork F (ps M' T B)) (reported a layers L)
                (fun k => sgdRun (netOf (infos layers) L) (fun T B => libNetwork F (ps M T B)) (lr k)) batches evals ⟨st, (), gm, wm⟩ k =
                  some (r k, (List.range k).map fun j => loss (batches j) (θ j)) ∧
              (r k).st.read (str "parameters") = some (List.ofFn (θ k)) ∧
              Modified gradCall (infos layers) L (r k).grads (List.ofFn (θ k)) (List.ofFn (grad (batches k) (θ k))) (r (k + 1)).grads
                (List.ofFn (γ k)) ∧
              Modified weightCall (infos layers) L (r k).weights (List.ofFn (θ k - lr k • γ k)) (List.ofFn (θ k - lr k • γ k))
                (r (k + 1)).weights (List.ofFn (θ (k + 1)))) ∧
            (∃ (r : ℕ → Run (List ℝ)) (θ γ v : ℕ → Fin n → ℝ), r 0 = ⟨st, List.replicate n 0, gm, wm⟩ ∧ θ 0 = θ₀ ∧ v 0 = 0 ∧ ∀ k,
              train (netOf (infos layers) L) data.name (fun T B => libNetwork F (ps M' T B)) (reported a layers L)
                (fun k => momentumRun (netOf (infos layers) L) (fun T B => libNetwork F (ps M T B)) scale (lr k) (μ k)) batches evals
                ⟨st, List.replicate n 0, gm, wm⟩ k = some (r k, (List.range k).map fun j => loss (batches j) (θ j)) ∧
              (r k).st.read (str "parameters") = some (List.ofFn (θ k)) ∧ (r k).mem = List.ofFn (v k) ∧
              Modified gradCall (infos layers) L (r k).grads (List.ofFn (θ k)) (List.ofFn (grad (batches k) (θ k))) (r (k + 1)).grads
                (List.ofFn (γ k)) ∧
              v (k + 1) = μ k • v k - rateOf scale (lr k) (μ k) • γ k ∧
              Modified weightCall (infos layers) L (r k).weights (List.ofFn (θ k + v (k + 1))) (List.ofFn (θ k + v (k + 1)))
                (r (k + 1)).weights (List.ofFn (θ (k + 1)))) ∧
            (∃ (r : ℕ → Run (List ℝ)) (θ γ v : ℕ → Fin n → ℝ), r 0 = ⟨st, List.replicate n 0, gm, wm⟩ ∧ θ 0 = θ₀ ∧ v 0 = 0 ∧ ∀ k,
              train (netOf (infos layers) L) data.name (fun T B => libNetwork F (ps M' T B)) (reported a layers L)
                (fun k => nesterovRun (netOf (infos layers) L) (fun T B => libNetwork F (ps M T B)) scale (lr k) (μ k)) batches evals
                ⟨st, List.replicate n 0, gm, wm⟩ k = some (r k, (List.range k).map fun j => loss (batches j) (θ j + μ j • v j)) ∧
              (r k).st.read (str "parameters") = some (List.ofFn (θ k)) ∧ (r k).mem = List.ofFn (v k) ∧
              Modified gradCall (infos layers) L (r k).grads (List.ofFn (θ k + μ k • v k))
                (List.ofFn (grad (batches k) (θ k + μ k • v k))) (r (k + 1)).grads (List.ofFn (γ k)) ∧
              v (k + 1) = μ k • v k - rateOf scale (lr k) (μ k) • γ k ∧
              Modified weightCall (infos layers) L (r k).weights (List.ofFn (θ k + v (k + 1))) (List.ofFn (θ k + v (k + 1)))
                (r (k + 1)).weights (List.ofFn (θ (k + 1)))) := by
  have m : Made kwargs a ord layers L := ⟨hk, ho, h, hne, hL⟩
  obtain ⟨data, rest, hdt, F, ps, hps⟩ := functions m tr num sup
  refine ⟨data, rest, hdt, F, ps, hps, fun M M' n => ?_⟩
  by_cases hn : n = paramCount (infos layers) L
  swap
  · refine ⟨fun _ _ => 0, fun _ _ _ => 0, fun st θ₀ hst hθ => absurd ?_ hn⟩
    obtain ⟨T, B, _, _, _, i⟩ := hst.inv (netOf_wellLaid F.laid.wf F.laid.shaped F.laid.layout)
    obtain ⟨e, he⟩ := params_entry (layers := infos layers) (L := L)
    rw [read_inv F.laid i he, Option.some.injEq] at hθ
    have := congrArg List.length hθ
    rw [List.length_map, List.length_ofFn, paramCount_eq F.laid] at this
    exact this.symm
  subst hn
  have hS := sited m F (ps M)
  have hQ := sited m F (ps M')
  have hrep := reports m F (ps M) hdt (hps M)
  have hD := right m F (ps M) sm hno (hps M)
  refine ⟨lossV (infos layers) L data.name (fun T B => libNetwork F (ps M T B)) (reported a layers L),
    gradV (infos layers) L data.name (fun T B => libNetwork F (ps M T B)) (reported a layers L), fun st θ₀ hst hθ => ⟨?_, ?_⟩⟩
  · exact fun b hb hT θ => ⟨lossV_eq hS hb hrep θ, gradV_right hS hb hT hrep hD θ⟩
  intro batches evals hb he wm gm hwm hgm lr μ scale
  obtain ⟨T, B, _, _, _, i⟩ := hst.inv (netOf_wellLaid F.laid.wf F.laid.shaped F.laid.layout)
  have hzero : List.ofFn (0 : Fin (paramCount (infos layers) L) → ℝ) = List.replicate (paramCount (infos layers) L) 0 := by
    simp [List.ofFn_const, Pi.zero_def]
  refine ⟨?_, ?_, ?_⟩
  · obtain ⟨r, θ, γ, θ₁, h1, h2, h3⟩ := train_spec (s := ⟨st, (), gm, wm⟩) hS hQ hrep
      (fun k => sgd_follows hS (computes_grad hS (hb k).1 (hb k).2 hrep hD) (lr k)) (fun k => (hb k).1) he i hθ trivial hgm hwm
    refine ⟨r, θ, γ, h1, h2, fun k => ?_⟩
    obtain ⟨a1, a2, ⟨a3, a4⟩, a5⟩ := h3 k
    exact ⟨a1, a2, a3, a4 ▸ a5⟩
  · obtain ⟨r, θ, γ, θ₁, h1, h2, h3⟩ := train_spec (s := ⟨st, List.replicate (paramCount (infos layers) L) 0, gm, wm⟩) hS hQ hrep
      (fun k => momentum_follows hS (computes_grad hS (hb k).1 (hb k).2 hrep hD) scale (lr k) (μ k)) (fun k => (hb k).1) he i hθ (by simp) hgm hwm
    let v : ℕ → Fin (paramCount (infos layers) L) → ℝ := fun k => Nat.rec 0 (fun k v => μ k • v - rateOf scale (lr k) (μ k) • γ k) k
    have hv : ∀ k, (r k).mem = List.ofFn (v k) := by
      intro k
      induction k with
      | zero =>
        rw [h1]
        exact hzero.symm
      | succ k ih =>
        obtain ⟨-, -, ⟨-, a4⟩, -⟩ := h3 k
        exact (a4 _ ih).1
    refine ⟨r, θ, γ, v, h1, h2, rfl, fun k => ?_⟩
    obtain ⟨a1, a2, ⟨a3, a4⟩, a5⟩ := h3 k
    exact ⟨a1, a2, hv k, a3, rfl, (a4 _ (hv k)).2 ▸ a5⟩
  · obtain ⟨r, θ, γ, θ₁, h1, h2, h3⟩ := train_spec (s := ⟨st, List.replicate (paramCount (infos layers) L) 0, gm, wm⟩) hS hQ hrep
      (fun k => nesterov_follows hS (hb k).1 (computes_grad hS (hb k).1 (hb k).2 hrep hD) scale (lr k) (μ k)) (fun k => (hb k).1) he i hθ (by simp) hgm hwm
    let v : ℕ → Fin (paramCount (infos layers) L) → ℝ := fun k => Nat.rec 0 (fun k v => μ k • v - rateOf scale (lr k) (μ k) • γ k) k
    have hv : ∀ k, (r k).mem = List.ofFn (v k) := by
      intro k
      induction k with
      | zero =>
        rw [h1]
        exact hzero.symm
      | succ k ih =>
        obtain ⟨-, -, a4, -⟩ := h3 k
        exact (a4 _ ih).2.1
    refine ⟨r, θ, γ, v, h1, h2, rfl, fun k => ?_⟩
    obtain ⟨a1, a2, a4, a5⟩ := h3 k
    obtain ⟨a3, -, a6⟩ := a4 _ (hv k)
    refine ⟨?_, a2, hv k, a3, rfl, a6 ▸ a5⟩
    rw [a1]
    congr 2
    refine List.map_congr_left fun j _ => ?_
    congr 1
    funext x
    rw [hv j]
    simp

/-- **C80, parts.**  The arrays of the parameters are parts of the array of all parameters, each entry of which belongs to one of them;
so what modifiers do to an array of all parameters or gradients is determined. -/
theorem C80_parts :
    (∀ (st : State ℝ) (θ : List ℝ), Reachable (netOf (infos layers) L) st → st.read (str "parameters") = some θ →
      ∀ l ∈ infos layers, ∀ e ∈ l.paramShapes,
        st.read (path l.name (str "parameters") e.1) = some (part L l.name e.1 e.2 θ) ∧
        (part L l.name e.1 e.2 θ).length = (shapeS e.2).prod) ∧
    (∀ (st : State ℝ) (θ : List ℝ), Reachable (netOf (infos layers) L) st → st.read (str "parameters") = some θ →
      ∀ (call : Call) (mods m₁ m₂ : Mods) (p x y₁ y₂ : List ℝ), y₁.length = θ.length → y₂.length = θ.length →
        Modified call (infos layers) L mods p x m₁ y₁ → Modified call (infos layers) L mods p x m₂ y₂ →
        y₁ = y₂ ∧ ∀ l ∈ infos layers, ∀ e ∈ l.paramShapes, m₁.at l.name e.1 = m₂.at l.name e.1) := by
  have m : Made kwargs a ord layers L := ⟨hk, ho, h, hne, hL⟩
  obtain ⟨data, rest, hdt, F, ps, hps⟩ := functions m tr num sup
  have key : ∀ (st : State ℝ) (θ : List ℝ), Reachable (netOf (infos layers) L) st → st.read (str "parameters") = some θ →
      θ.length = paramCount (infos layers) L := by
    intro st θ hst hθ
    obtain ⟨T, B, _, _, _, i⟩ := hst.inv (netOf_wellLaid F.laid.wf F.laid.shaped F.laid.layout)
    obtain ⟨e, he⟩ := params_entry (layers := infos layers) (L := L)
    rw [read_inv F.laid i he, Option.some.injEq] at hθ
    rw [← hθ, List.length_map, paramCount_eq F.laid]
  refine ⟨fun st θ hst hθ l hl e he => ⟨parts_of F.laid hst hθ hl he, part_length F.laid hl he (key st θ hst hθ)⟩,
    fun st θ hst hθ call mods m₁ m₂ p x y₁ y₂ l₁ l₂ h₁ h₂ => ?_⟩
  rw [key st θ hst hθ] at l₁ l₂
  exact modified_unique F.laid l₁ l₂ h₁ h₂

/-- **C80, constraints.**  After at least one update by any stepper, the parameters satisfy the constraints of the weight modifiers that
were installed last for them: they lie between the bounds of `ClipValues`, are zero where the mask of `MaskValues` is, and are those of
`FreezeValues`; a `FreezeValues` without weights keeps what the first update has left.  If `ConstrainL2Norm` is the only modifier (and
the stepper does not produce rows with norms so large that numbers overflow), then no row is longer than the limit. -/
theorem C80_constraints :
    ∃ data rest, HasType a data.name (str "Input") ∧ ∃ F : Memory.Fits (infos layers) L data rest,
      ∃ ps : Mode → ∀ T B, ∀ l ∈ rest, LibLayer (infos layers) data l T B,
      (∀ M T B l (hl : l ∈ rest) t, HasType a l.name t → Describes M t (kwargs l.name) (ps M T B l hl)) ∧
      (∀ M lr μ scale, Proper (netOf (infos layers) L) (sgdRun (netOf (infos layers) L) (fun T B => libNetwork F (ps M T B)) lr) ∧
        Proper (netOf (infos layers) L) (momentumRun (netOf (infos layers) L) (fun T B => libNetwork F (ps M T B)) scale lr μ) ∧
        Proper (netOf (infos layers) L) (nesterovRun (netOf (infos layers) L) (fun T B => libNetwork F (ps M T B)) scale lr μ)) ∧
      ∀ (M' : Mode) (S : Type) (run : ℕ → Stepper S), (∀ k, Proper (netOf (infos layers) L) (run k)) →
        ∀ (report : ℕ → ℕ → Mem → Option ℝ) (batches : ℕ → Batch) (evals : ℕ → List Batch), (∀ k, ∀ b ∈ evals k, b.Good data) →
        ∀ s : Run S, Reachable (netOf (infos layers) L) s.st → s.weights.Good false (infos layers) →
        ∀ (k : ℕ) (r : Run S) (log : List ℝ), train (netOf (infos layers) L) data.name (fun T B => libNetwork F (ps M' T B)) report run
          batches evals s (k + 1) = some (r, log) →
        ∀ l ∈ infos layers, ∀ e ∈ l.paramShapes, ∀ (ms : List Modifier) (m : Modifier), s.weights.at l.name e.1 = ms ++ [m] →
        ∃ x, r.st.read (path l.name (str "parameters") e.1) = some x ∧
          (∀ low high, m = .clipValues low high → low ≤ high → ∀ a ∈ x, low ≤ a ∧ a ≤ high) ∧
          (∀ mask, m = .maskValues mask → ∀ j : ℕ, mask[j]? = some 0 → x[j]? = some 0) ∧
          (∀ w, m = .freezeValues (some w) → x = w) ∧
          (m = .freezeValues none → ∃ r₁ log₁, train (netOf (infos layers) L) data.name (fun T B => libNetwork F (ps M' T B)) report run
            batches evals s 1 = some (r₁, log₁) ∧ r₁.st.read (path l.name (str "parameters") e.1) = some x) ∧
          (∀ limit big, m = .constrainL2Norm limit big → ms = [] → 0 < limit → 1 ≤ big → 2 ≤ (shapeS e.2).length →
            (∀ k rnd s s' y, run k rnd s = some s' → s'.1.read (path l.name (str "parameters") e.1) = some y →
              ∀ i < (shapeS e.2).headD 0, Modifiers.norm2 (row (shapeS e.2) y i) ≤ limit * big) →
            ∀ i < (shapeS e.2).headD 0, Modifiers.norm2 (row (shapeS e.2) x i) ≤ limit) := by
  have m : Made kwargs a ord layers L := ⟨hk, ho, h, hne, hL⟩
  obtain ⟨data, rest, hdt, F, ps, hps⟩ := functions m tr num sup
  refine ⟨data, rest, hdt, F, ps, hps, fun M lr μ scale => ⟨sgd_proper _ _ _, momentum_proper _ _ _ _ _, nesterov_proper _ _ _ _ _⟩, ?_⟩
  intro M' S run hrun report batches evals he s hs hW k r log htr l hl e hv ms mod hm
  have hQ := sited m F (ps M')
  obtain ⟨r₀, log₀, ms₀, m₀, p, y, x, ms₁, m₁, t1, t2, t3, t4, t5, t6, t7, t8, t9⟩ := train_last F.laid hQ hrun he hs hW hl hv hm htr
  obtain ⟨c1, c2, c3, c4⟩ := last_call t4 t8 t5
  refine ⟨x, t7, c1, c2, c3, ?_, ?_⟩
  · rintro rfl
    -- the modifier has remembered what the first update has left
    have key : ∀ (k : ℕ) (r : Run S) (log : List ℝ), train (netOf (infos layers) L) data.name (fun T B => libNetwork F (ps M' T B)) report
        run batches evals s (k + 1) = some (r, log) → ∃ r₁ log₁ x ms', train (netOf (infos layers) L) data.name
          (fun T B => libNetwork F (ps M' T B)) report run batches evals s 1 = some (r₁, log₁) ∧
          r₁.st.read (path l.name (str "parameters") e.1) = some x ∧ r.st.read (path l.name (str "parameters") e.1) = some x ∧
          r.weights.at l.name e.1 = ms' ++ [.freezeValues (some x)] := by
      intro k
      induction k with
      | zero =>
        intro r log htr
        obtain ⟨r₀, log₀, ms₀, m₀, p, y, x, ms₁, m₁, t1, t2, t3, t4, t5, t6, t7, t8, t9⟩ := train_last F.laid hQ hrun he hs hW hl hv hm htr
        simp only [train, Option.some.injEq, Prod.mk.injEq] at t1
        obtain ⟨rfl, -⟩ := t1
        rw [hm] at t2
        obtain ⟨-, e2⟩ := List.append_inj' t2 rfl
        obtain rfl := (List.cons.inj e2).1
        simp only [weightCall, Modifier.value, Option.getD_none, if_true, Option.some.injEq, Prod.mk.injEq] at t5
        obtain ⟨rfl, rfl⟩ := t5
        exact ⟨r, log, y, ms₁, htr, t7, t7, t6⟩
      | succ k ih =>
        intro r log htr
        obtain ⟨r₀, log₀, ms₀, m₀, p, y, x, ms₁, m₁, t1, t2, t3, t4, t5, t6, t7, t8, t9⟩ := train_last F.laid hQ hrun he hs hW hl hv hm htr
        obtain ⟨r₁, log₁, x', ms', q1, q2, q3, q4⟩ := ih r₀ log₀ t1
        rw [q4] at t2
        obtain ⟨-, e2⟩ := List.append_inj' t2 rfl
        obtain rfl := (List.cons.inj e2).1
        simp only [weightCall, Modifier.value, Option.getD_some] at t5
        split at t5
        · simp only [Option.some.injEq, Prod.mk.injEq] at t5
          obtain ⟨rfl, rfl⟩ := t5
          exact ⟨r₁, log₁, x', ms₁, q1, q2, t7, t6⟩
        · simp at t5
    obtain ⟨r₁, log₁, x', ms', q1, q2, q3, -⟩ := key k r log htr
    rw [t7] at q3
    obtain rfl := Option.some.inj q3
    exact ⟨r₁, log₁, q1, q2⟩
  · intro limit big hlb hms hl0 hb hsh hbig
    obtain ⟨u1, rnd, s₁, s₂, u2, u3⟩ := t9 hms
    exact c4 limit big hlb hl0 hb hsh u1 (hbig k rnd s₁ s₂ y u2 u3)

/-- **C80, freezing before training.**  `apply_weight_modifiers()` makes a `FreezeValues` without weights remember the parameters as they
are, so that with C80_constraints they never change; without it, `C80_freeze_first` applies. -/
theorem C80_freeze_before (st : State ℝ) (hst : Reachable (netOf (infos layers) L) st) (wm : Mods) (hwm : wm.Good false (infos layers))
    (l : LayerInfo) (hl : l ∈ infos layers) (e : Name × Struct) (he : e ∈ l.paramShapes)
    (hm : wm.at l.name e.1 = [.freezeValues none]) :
    ∃ wm' st' x, applyWeightModifiers wm st = some (wm', st') ∧ Reachable (netOf (infos layers) L) st' ∧ wm'.Good false (infos layers) ∧
      st.read (path l.name (str "parameters") e.1) = some x ∧ st'.read (path l.name (str "parameters") e.1) = some x ∧
      wm'.at l.name e.1 = [.freezeValues (some x)] := by
  have m : Made kwargs a ord layers L := ⟨hk, ho, h, hne, hL⟩
  obtain ⟨data, rest, hdt, F, ps, hps⟩ := functions m tr num sup
  obtain ⟨T, B, sz, k, vs, i⟩ := hst.inv (netOf_wellLaid F.laid.wf F.laid.shaped F.laid.layout)
  obtain ⟨e', hpe⟩ := params_entry (layers := infos layers) (L := L)
  have r1 := read_inv F.laid i hpe
  obtain ⟨W', st', θ', w1, i2, w3, w4, w5, w6⟩ := weights_spec F.laid i hwm r1
  have hr := applyAll_reachable (net := netOf (infos layers) L) _ _ _ hst w1
  have := w6 l hl e he
  rw [hm] at this
  simp only [inTurn, weightCall, Modifier.value, Option.getD_none, if_true, Option.bind_some, Option.map_some, Option.some.injEq,
    Prod.mk.injEq] at this
  refine ⟨W', st', _, w1, hr, w3, parts_of F.laid hst r1 hl he, ?_, this.1.symm⟩
  rw [parts_of F.laid hr w4 hl he, this.2]

/-- **C80, freezing without weights.**  Nothing is frozen before the first update: a parameter whose only weight modifier is a
`FreezeValues` without weights makes the first step of gradient descent (and stays there, by C80_constraints). -/
theorem C80_freeze_first (sm : Smooth a kwargs) (hno : ∀ n, ¬ HasType a n (str "Clockwork")) :
    ∃ data rest, HasType a data.name (str "Input") ∧ ∃ F : Memory.Fits (infos layers) L data rest,
      ∃ ps : Mode → ∀ T B, ∀ l ∈ rest, LibLayer (infos layers) data l T B,
      (∀ M T B l (hl : l ∈ rest) t, HasType a l.name t → Describes M t (kwargs l.name) (ps M T B l hl)) ∧
      ∀ (M M' : Mode) (n : ℕ), ∃ (loss : Batch → (Fin n → ℝ) → ℝ) (grad : Batch → (Fin n → ℝ) → Fin n → ℝ),
        ∀ (st : State ℝ) (θ₀ : Fin n → ℝ), Reachable (netOf (infos layers) L) st → st.read (str "parameters") = some (List.ofFn θ₀) →
          (∀ b : Batch, b.Good data → 0 < b.T → ∀ θ : Fin n → ℝ,
            lossOf (netOf (infos layers) L) data.name (fun T B => libNetwork F (ps M T B)) (reported a layers L) b
              (List.ofFn θ) = some (loss b θ) ∧
            ∀ i, HasDerivAt (fun x => loss b (Function.update θ i x)) (grad b θ i) (θ i)) ∧
          ∀ (batches : ℕ → Batch) (evals : ℕ → List Batch), (∀ k, (batches k).Good data ∧ 0 < (batches k).T) →
            (∀ k, ∀ b ∈ evals k, b.Good data) → ∀ wm : Mods, wm.Good false (infos layers) → ∀ lr : ℕ → ℝ,
            ∃ (r : Run Unit) (log : List ℝ),
              train (netOf (infos layers) L) data.name (fun T B => libNetwork F (ps M' T B)) (reported a layers L)
                (fun k => sgdRun (netOf (infos layers) L) (fun T B => libNetwork F (ps M T B)) (lr k)) batches evals ⟨st, (), [], wm⟩ 1 =
                  some (r, log) ∧
              ∀ l ∈ infos layers, ∀ e ∈ l.paramShapes, wm.at l.name e.1 = [.freezeValues none] →
                st.read (path l.name (str "parameters") e.1) = some (part L l.name e.1 e.2 (List.ofFn θ₀)) ∧
                r.st.read (path l.name (str "parameters") e.1) =
                  some (part L l.name e.1 e.2 (List.ofFn (θ₀ - lr 0 • grad (batches 0) θ₀))) := by
  obtain ⟨data, rest, hdt, F, ps, hps, H⟩ := C80_training kwargs a hk ord ho layers h hne L hL tr num sup sm hno
  refine ⟨data, rest, hdt, F, ps, hps, fun M M' n => ?_⟩
  obtain ⟨loss, grad, H⟩ := H M M' n
  refine ⟨loss, grad, fun st θ₀ hst hθ => ⟨(H st θ₀ hst hθ).1, fun batches evals hb he wm hwm lr => ?_⟩⟩
  have hnil : Mods.Good [] true (infos layers) := ⟨by simp [Dict.keys], by simp⟩
  obtain ⟨⟨r, θ, γ, h0, ht, H⟩, -⟩ := (H st θ₀ hst hθ).2 batches evals hb he wm [] hwm hnil lr lr false
  refine ⟨r 1, _, (H 1).1, fun l hl e hel hfr => ⟨parts_of F.laid hst hθ hl hel, ?_⟩⟩
  have key : ∀ (st : State ℝ) (θ : List ℝ), Reachable (netOf (infos layers) L) st → st.read (str "parameters") = some θ →
      θ.length = paramCount (infos layers) L := by
    intro st θ hst hθ
    obtain ⟨T, B, _, _, _, i⟩ := hst.inv (netOf_wellLaid F.laid.wf F.laid.shaped F.laid.layout)
    obtain ⟨e, he⟩ := params_entry (layers := infos layers) (L := L)
    rw [read_inv F.laid i he, Option.some.injEq] at hθ
    rw [← hθ, List.length_map, paramCount_eq F.laid]
  have hn : n = paramCount (infos layers) L := by simpa using key _ _ hst hθ
  obtain ⟨-, -, a3, a4⟩ := H 0
  rw [h0, ht] at a3 a4
  have hγ : List.ofFn (γ 0) = List.ofFn (grad (batches 0) θ₀) :=
    (modified_nil F.laid (by simp [hn]) (by simp [hn]) (by simp [Mods.at, Dict.get?]) a3).1
  rw [List.ofFn_injective hγ] at a4
  have := a4 l hl e hel
  simp only [hfr, inTurn, weightCall, Modifier.value, Option.getD_none, if_true, Option.bind_some, Option.map_some, Option.some.injEq,
    Prod.mk.injEq] at this
  have hr : Reachable (netOf (infos layers) L) (r 1).st := by
    have m : Made kwargs a ord layers L := ⟨hk, ho, h, hne, hL⟩
    have h1 := (H 1).1
    simp only [train, Option.bind_some] at h1
    obtain ⟨⟨r', l'⟩, h1, h2⟩ := Option.map_eq_some_iff.1 h1
    obtain ⟨rfl, -⟩ := Prod.mk.inj h2
    exact (round_kept (S := Unit) F.laid (sited m F (ps M')) (sgd_proper _ _ _) (he 0) hst hwm h1).1
  rw [this.2]
  exact parts_of F.laid hr (H 1).2.1 hl hel

/-- **C80, weight decay.**  With an `L2Decay` of the same strength `f` for all parameters (and no weight modifiers), training with
`SgdStepper` is gradient descent on the loss plus `f / 2` times the sum of the squares of the parameters. -/
theorem C80_decay (sm : Smooth a kwargs) (hno : ∀ n, ¬ HasType a n (str "Clockwork")) :
    ∃ data rest, HasType a data.name (str "Input") ∧ ∃ F : Memory.Fits (infos layers) L data rest,
      ∃ ps : Mode → ∀ T B, ∀ l ∈ rest, LibLayer (infos layers) data l T B,
      (∀ M T B l (hl : l ∈ rest) t, HasType a l.name t → Describes M t (kwargs l.name) (ps M T B l hl)) ∧
      ∀ (M M' : Mode) (n : ℕ) (f : ℝ), ∃ (loss : Batch → (Fin n → ℝ) → ℝ) (grad : Batch → (Fin n → ℝ) → Fin n → ℝ),
        ∀ (st : State ℝ) (θ₀ : Fin n → ℝ), Reachable (netOf (infos layers) L) st → st.read (str "parameters") = some (List.ofFn θ₀) →
          (∀ b : Batch, b.Good data → 0 < b.T → ∀ θ : Fin n → ℝ,
            lossOf (netOf (infos layers) L) data.name (fun T B => libNetwork F (ps M T B)) (reported a layers L) b
              (List.ofFn θ) = some (loss b θ) ∧
            ∀ i, HasDerivAt (fun x => loss b (Function.update θ i x) + f / 2 * ∑ j, Function.update θ i x j ^ 2) (grad b θ i) (θ i)) ∧
          ∀ (batches : ℕ → Batch) (evals : ℕ → List Batch), (∀ k, (batches k).Good data ∧ 0 < (batches k).T) →
            (∀ k, ∀ b ∈ evals k, b.Good data) → ∀ gm : Mods, gm.Good true (infos layers) →
            (∀ l ∈ infos layers, ∀ e ∈ l.paramShapes, gm.at l.name e.1 = [.l2Decay f]) → ∀ lr : ℕ → ℝ,
            ∀ θ : ℕ → Fin n → ℝ, θ 0 = θ₀ → (∀ k, θ (k + 1) = θ k - lr k • grad (batches k) (θ k)) →
              ∀ k, ∃ r : Run Unit, train (netOf (infos layers) L) data.name (fun T B => libNetwork F (ps M' T B)) (reported a layers L)
                  (fun k => sgdRun (netOf (infos layers) L) (fun T B => libNetwork F (ps M T B)) (lr k)) batches evals ⟨st, (), gm, []⟩ k =
                    some (r, (List.range k).map fun j => loss (batches j) (θ j)) ∧
                r.st.read (str "parameters") = some (List.ofFn (θ k)) := by
  obtain ⟨data, rest, hdt, F, ps, hps, H⟩ := C80_training kwargs a hk ord ho layers h hne L hL tr num sup sm hno
  refine ⟨data, rest, hdt, F, ps, hps, fun M M' n f => ?_⟩
  obtain ⟨loss, grad, H⟩ := H M M' n
  refine ⟨loss, fun b θ => grad b θ + f • θ, fun st θ₀ hst hθ => ⟨fun b hb hT θ => ?_, ?_⟩⟩
  · obtain ⟨h1, h2⟩ := (H st θ₀ hst hθ).1 b hb hT θ
    refine ⟨h1, fun i => ?_⟩
    have hq : HasDerivAt (fun x => ∑ j, Function.update θ i x j ^ 2) (2 * θ i) (θ i) := by
      have e : (fun x => ∑ j, Function.update θ i x j ^ 2) = fun x => x ^ 2 + ∑ j ∈ Finset.univ.erase i, θ j ^ 2 := by
        funext x
        rw [← Finset.add_sum_erase _ _ (Finset.mem_univ i), Function.update_self]
        refine congrArg _ (Finset.sum_congr rfl fun j hj => ?_)
        rw [Function.update_of_ne (Finset.ne_of_mem_erase hj)]
      rw [e]
      simpa using (hasDerivAt_pow 2 (θ i)).add_const (∑ j ∈ Finset.univ.erase i, θ j ^ 2)
    have := (h2 i).add (hq.const_mul (f / 2))
    refine this.congr_deriv ?_
    simp only [Pi.add_apply, Pi.smul_apply, smul_eq_mul]
    ring
  · intro batches evals hb he gm hgm hall lr θ' hθ' hrec k
    have hnil : Mods.Good [] false (infos layers) := ⟨by simp [Dict.keys], by simp⟩
    obtain ⟨⟨r, θ, γ, h0, ht, H⟩, -⟩ := (H st θ₀ hst hθ).2 batches evals hb he [] gm hnil hgm lr lr false
    have hn : n = paramCount (infos layers) L := by
      obtain ⟨T, B, _, _, _, i⟩ := hst.inv (netOf_wellLaid F.laid.wf F.laid.shaped F.laid.layout)
      obtain ⟨e, he⟩ := params_entry (layers := infos layers) (L := L)
      rw [read_inv F.laid i he, Option.some.injEq] at hθ
      have := congrArg List.length hθ
      rw [List.length_map, List.length_ofFn, paramCount_eq F.laid] at this
      exact this.symm
    have key : ∀ k, θ k = θ' k ∧ (∀ l ∈ infos layers, ∀ e ∈ l.paramShapes, (r k).grads.at l.name e.1 = [.l2Decay f]) ∧
        (∀ l ∈ infos layers, ∀ e ∈ l.paramShapes, (r k).weights.at l.name e.1 = []) := by
      intro k
      induction k with
      | zero => exact ⟨by rw [ht, hθ'], by rw [h0]; exact hall, by simp [h0, Mods.at, Dict.get?]⟩
      | succ k ih =>
        obtain ⟨-, -, a3, a4⟩ := H k
        obtain ⟨q1, q2⟩ := modified_zip F.laid (f := fun p g => g + f * p) (fun _ _ _ => rfl) (by simp [hn]) (by simp [hn]) (by simp [hn])
          ih.2.1 a3
        obtain ⟨p1, p2⟩ := modified_nil F.laid (by simp [hn]) (by simp [hn]) ih.2.2 a4
        refine ⟨?_, q2, p2⟩
        rw [zipWith_ofFn] at q1
        have q1 := List.ofFn_injective q1
        rw [List.ofFn_injective p1, hrec k, q1, ih.1]
        rfl
    refine ⟨r k, ?_, (key k).1 ▸ (H k).2.1⟩
    rw [(H k).1]
    simp only [(key _).1]

end

end Verif.Constrained
