import Verif.Padding.Batches
import Verif.Padding.Scores
import Verif.Iterate.Props

/-!
# Property C87: steps that are masked out have no effect

For accepted architectures, all states that a network can be in, and all batches.
-/

namespace Verif.Padding

open Verif.Architecture hiding demoArch
open Verif.Structure Verif.Layout Verif.Buffers Verif.Instantiate Verif.EndToEnd
open Verif.Memory hiding demoL
open Verif.Setup (Kwargs libEnv infos toInfo inp_some getLossValues)
open Verif.Shapes (Supported)
open Verif.Session Verif.Determined Verif.Sequence Verif.Descent Verif.Parts Verif.Iterate
open Verif.Evaluate (Ran loss_entries passes_ran evaluateLoss evaluateScore scored Scorer Output Flat Shown passes)
open Verif.Data (Arr Minibatches)

/-! ### Proofs -/

theorem mapM_pairs {A B C : Type} {R : A → A → Prop} {P Q : A → B → Prop} {f : A × B → Option C} :
    ∀ {us bs : List A} {sts sts' : List B}, List.Forall₂ R us bs → List.Forall₂ P us sts → List.Forall₂ Q bs sts' →
      (∀ u b st st', R u b → P u st → Q b st' → f (u, st) = f (b, st')) → (us.zip sts).mapM f = (bs.zip sts').mapM f
  | _, _, _, _, .nil, .nil, .nil, _ => rfl
  | _, _, _, _, .cons h hs, .cons p ps, .cons q qs, H => by
    rw [List.zip_cons_cons, List.zip_cons_cons, List.mapM_cons, List.mapM_cons, H _ _ _ _ h p q, mapM_pairs hs ps qs H]

section
variable {kwargs : Name → Kwargs} {a : Arch} {ord : Orders} {layers : Dict Name (LayerObj Kwargs)} {L : Layout} {data : LayerInfo}
  {rest : List LayerInfo}

/-- What is reported under a name. -/
theorem reported_same (m : Made kwargs a ord layers L) (F : Memory.Fits (infos layers) L data rest) (hdt : HasType a data.name (str "Input")) {M : Mode}
    (ps : ∀ T B, ∀ l ∈ rest, LibLayer (infos layers) data l T B)
    (hps : ∀ T B l (hl : l ∈ rest) t, HasType a l.name t → Describes M t (kwargs l.name) (ps T B l hl))
    (hD : M.training = true → ∀ n, ¬ HasType a n (str "Dropout")) {x : Name} (hmask : MaskedBy a (infos layers) data x) {w b : Batch}
    (C : Shortened data x w b) (hal : b.T = w.T ∨ DataAlone (infos layers) L data) {st : State ℝ} {T B sz k : ℕ} {vs : List (Name × View)}
    (i : Inv (netOf (infos layers) L) st T B sz k vs) {θ : List ℝ} (hθ : st.read (str "parameters") = some θ)
    (hclock : ∀ l ts, HasType a l (str "Clockwork") ∨ HasType a l (str "ClockworkLstm") →
      st.read (path l (str "parameters") (str "timing")) = some ts → (0 : ℝ) ∉ ts) {wst bst : State ℝ}
    (hw : Ran (infos layers) L data (fun T B => libNetwork F (ps T B)) θ w wst)
    (hb : Ran (infos layers) L data (fun T B => libNetwork F (ps T B)) θ b bst) (key : Name) :
    Dict.get? (getLossValues a layers fun n => entry (netOf (infos layers) L) w.T w.B n (memOf wst) "outputs" "loss" 0) key =
      Dict.get? (getLossValues a layers fun n => entry (netOf (infos layers) L) b.T b.B n (memOf bst) "outputs" "loss" 0) key := by
  rcases loss_entries m key with hno | ⟨names, hn, hv⟩
  · rw [hno, hno]
  · rw [hv, hv]
    refine congrArg (fun x => some (List.sum x)) (List.map_congr_left fun n hn' => ?_)
    exact all_losses m F hdt ps hps hD hmask C hal hw hb (fun s H l hl n e hx j hj =>
      param_ne_zero (sited m F ps) i hθ H (F.ordered.mem hl) hx (fun ts => hclock l.name ts e) (by rw [featureSize_vec]; exact hj)) (hn n hn')

/-- Evaluation with shortened batches. -/
theorem evaluate_short (m : Made kwargs a ord layers L) (F : Memory.Fits (infos layers) L data rest) (hdt : HasType a data.name (str "Input")) {M : Mode}
    (ps : ∀ T B, ∀ l ∈ rest, LibLayer (infos layers) data l T B)
    (hps : ∀ T B l (hl : l ∈ rest) t, HasType a l.name t → Describes M t (kwargs l.name) (ps T B l hl))
    (hM : M.training = false) {x : Name} (hal : DataAlone (infos layers) L data) {us bs : List Batch} (C : List.Forall₂ (Shortened data x) us bs)
    {st : State ℝ} {T B sz k : ℕ} {vs : List (Name × View)}
    (i : Inv (netOf (infos layers) L) st T B sz k vs) {θ : List ℝ} (hθ : st.read (str "parameters") = some θ)
    (hclock : ∀ l ts, HasType a l (str "Clockwork") ∨ HasType a l (str "ClockworkLstm") →
      st.read (path l (str "parameters") (str "timing")) = some ts → (0 : ℝ) ∉ ts) :
    (MaskedBy a (infos layers) data x →
      ∀ key, evaluateLoss (netOf (infos layers) L) data.name (fun T B => libNetwork F (ps T B))
          (fun T B m => Dict.get? (getLossValues a layers fun n => entry (netOf (infos layers) L) T B n m "outputs" "loss" 0) key) us st =
        evaluateLoss (netOf (infos layers) L) data.name (fun T B => libNetwork F (ps T B))
          (fun T B m => Dict.get? (getLossValues a layers fun n => entry (netOf (infos layers) L) T B n m "outputs" "loss" 0) key) bs st) ∧
    ∀ (out targets : Name) (so sl sx : Struct) (score : List (Scoring.Row ℝ) → ℝ),
      Output a (infos layers) out so → Output a (infos layers) targets sl → (x, sx) ∈ data.outShapes → sx.bufferType = 2 → sx.featureSize = 1 →
      Scorer true score →
      evaluateScore (netOf (infos layers) L) data.name (fun T B => libNetwork F (ps T B))
        (scored out targets so.featureSize sl.featureSize (some (path data.name (str "outputs") x))) true score us st =
      evaluateScore (netOf (infos layers) L) data.name (fun T B => libNetwork F (ps T B))
        (scored out targets so.featureSize sl.featureSize (some (path data.name (str "outputs") x))) true score bs st := by
  have S := sited m F ps
  have good : (∀ u ∈ us, u.Good data) ∧ ∀ b ∈ bs, b.Good data := by
    induction C with
    | nil => simp
    | cons h _ ih => exact ⟨by simpa using ⟨h.good.1, ih.1⟩, by simpa using ⟨h.good.2, ih.2⟩⟩
  obtain ⟨sts, g1, g2⟩ := passes_ran S us st _ _ _ _ _ i hθ good.1
  obtain ⟨sts', g3, g4⟩ := passes_ran S bs st _ _ _ _ _ i hθ good.2
  have hty : ∀ l ∈ infos layers, HasType a l.name (typeIn a l) := fun l hl => typeIn_spec m hl
  constructor
  · intro hmask key
    unfold evaluateLoss
    rw [g1, g3, Option.bind_some, Option.bind_some]
    refine congrArg _ (mapM_pairs C g2 g4 fun u b s s' hs hu hb => ?_)
    simp only
    rw [reported_same m F hdt ps hps (by simp [hM]) hmask hs (.inr hal) i hθ hclock hu hb key, hs.size.1]
  · intro out targets so sl sx score ho hl hx hx2 hx1 hsc
    have hsh : ∀ n s, Output a (infos layers) n s → Shown (infos layers) (typeIn a) n s := by
      rintro n s ⟨l, hl, x, h1, h2⟩
      exact ⟨l, hl, x, fun e => h1 (e ▸ hty l hl), h2⟩
    unfold evaluateScore
    rw [g1, g3, Option.bind_some, Option.bind_some]
    refine congrArg _ (mapM_pairs C g2 g4 fun u b s s' hs hu hb => ?_)
    obtain ⟨rows, tail, r1, r2, r3⟩ := scored_short F ps (fun T B l hl => hps T B l hl _ (hty l (F.ordered.mem hl))) S m.ctx_le hM hs (.inr hal)
      hu hb (fun s H l hl e n hx j hj => param_ne_zero S i hθ H (F.ordered.mem hl) hx (fun ts => hclock l.name ts (by
        have ht := hty l (F.ordered.mem hl)
        rcases e with e | e
        · exact Or.inl (e ▸ ht)
        · exact Or.inr (e ▸ ht))) (by rw [featureSize_vec]; exact hj))
      (hsh _ _ ho) (hsh _ _ hl) hx hx2 hx1 fun e => by
        have := hty data S.data_mem
        rw [m.type_unique this hdt] at e
        exact absurd e (by decide)
    simp only
    rw [r1, r2, Option.map_some, Option.map_some, (score_tail hsc rows tail r3).1, (score_tail hsc rows tail r3).2]

end

/-! ### The property -/

section
variable (kwargs : Name → Kwargs) (a : Arch) (hk : (Dict.keys a).Nodup) (ord : Orders) (ho : ord.Ok)
  (layers : Dict Name (LayerObj Kwargs)) (h : Instantiates (libEnv kwargs) ord a (.ok layers))
  (hne : ∃ n l, Dict.get? layers n = some l ∧ l.shapes.outs ≠ []) (L : Layout) (hL : createLayout (infos layers) = .ok L)
  (tr : Trainable a) (num : Numeric a kwargs)
  (sup : ∀ n l t, Dict.get? layers n = some l → HasType a n t → Supported t l.kwargs l.inShapes)
include hk ho h hne hL tr num sup

/-- **C87, losses.**  If what reaches the Loss layers is masked, then all losses that the network reports after a forward pass stay the same when
steps are left out in which the mask is zero for all sequences. -/
theorem C87_losses :
    ∃ data rest, HasType a data.name (str "Input") ∧ ∃ F : Memory.Fits (infos layers) L data rest,
      ∃ ps : Mode → ∀ T B, ∀ l ∈ rest, LibLayer (infos layers) data l T B,
      (∀ M T B l (hl : l ∈ rest) t, HasType a l.name t → Describes M t (kwargs l.name) (ps M T B l hl)) ∧
      ∀ (M : Mode) (st st' : State ℝ) (θ : List ℝ), (M.training = true → ∀ n, ¬ HasType a n (str "Dropout")) →
        Reachable (netOf (infos layers) L) st → Reachable (netOf (infos layers) L) st' →
        st.read (str "parameters") = some θ → st'.read (str "parameters") = some θ →
        (∀ l ts, HasType a l (str "Clockwork") ∨ HasType a l (str "ClockworkLstm") →
          st.read (path l (str "parameters") (str "timing")) = some ts → (0 : ℝ) ∉ ts) →
        ∀ (x : Name) (w b : Batch), MaskedBy a (infos layers) data x → Shortened data x w b → (b.T = w.T ∨ DataAlone (infos layers) L data) →
        ∃ st₁ st₂ st₁' st₂', provide (netOf (infos layers) L) data.name w st = some st₁ ∧
          forwardPass (netOf (infos layers) L) (fun T B => libNetwork F (ps M T B)) w.rnd st₁ = some st₂ ∧
          provide (netOf (infos layers) L) data.name b st' = some st₁' ∧
          forwardPass (netOf (infos layers) L) (fun T B => libNetwork F (ps M T B)) b.rnd st₁' = some st₂' ∧
          ∀ key, Dict.get? (getLossValues a layers fun n => entry (netOf (infos layers) L) w.T w.B n (memOf st₂) "outputs" "loss" 0) key =
            Dict.get? (getLossValues a layers fun n => entry (netOf (infos layers) L) b.T b.B n (memOf st₂') "outputs" "loss" 0) key := by
  have m : Made kwargs a ord layers L := ⟨hk, ho, h, hne, hL⟩
  obtain ⟨data, rest, hdt, F, ps, hps⟩ := functions m tr num sup
  refine ⟨data, rest, hdt, F, ps, hps, ?_⟩
  intro M st st' θ hD hst hst' hθ hθ' hclock x w b hmask C hal
  have S := sited m F (ps M)
  have hwl := netOf_wellLaid F.laid.wf F.laid.shaped F.laid.layout
  obtain ⟨_, _, _, _, _, i⟩ := hst.inv hwl
  obtain ⟨_, _, _, _, _, i'⟩ := hst'.inv hwl
  obtain ⟨st₁, st₂, s, sz, k, vs, h1, h2, i2, m2, -, H⟩ := fresh S i C.good.1 hθ
  obtain ⟨st₁', st₂', s', sz', k', vs', h1', h2', i2', m2', -, H'⟩ := fresh S i' C.good.2 hθ'
  exact ⟨st₁, st₂, st₁', st₂', h1, h2, h1', h2', reported_same m F hdt (ps M) (hps M) hD hmask C hal i hθ hclock
    ⟨s, sz, k, vs, i2, m2, H⟩ ⟨s', sz', k', vs', i2', m2', H'⟩⟩

/-- **C87, gradients.**  So do the gradients, where the layers are differentiable (which is everywhere if they have no kinks). -/
theorem C87_gradients (hfree : FreePeriods (infos layers)) (hD : ∀ n, ¬ HasType a n (str "Dropout")) :
    ∃ data rest, HasType a data.name (str "Input") ∧ ∃ F : Memory.Fits (infos layers) L data rest,
      ∃ ps : Mode → ∀ T B, ∀ l ∈ rest, LibLayer (infos layers) data l T B,
      (∀ M T B l (hl : l ∈ rest) t, HasType a l.name t → Describes M t (kwargs l.name) (ps M T B l hl)) ∧
      ∀ (M : Mode) (n : ℕ) (st : State ℝ) (θ : Fin n → ℝ), Reachable (netOf (infos layers) L) st →
        st.read (str "parameters") = some (List.ofFn θ) → (∀ i : Fin n, IsPeriod (infos layers) L i → θ i ≠ 0) →
        ∀ (x : Name) (w b : Batch), MaskedBy a (infos layers) data x → Shortened data x w b → (b.T = w.T ∨ DataAlone (infos layers) L data) →
        ∃ (loss : ℝ) (g g' : List ℝ),
          Gives (netOf (infos layers) L) data.name (fun T B => libNetwork F (ps M T B)) (reported a layers L) st w loss g ∧
          Gives (netOf (infos layers) L) data.name (fun T B => libNetwork F (ps M T B)) (reported a layers L) st b loss g' ∧
          ((RegularAt F (ps M) st w ∧ RegularAt F (ps M) st b) ∨ (NoKinks a kwargs ∧ 0 < b.T) → g = g') := by
  have m : Made kwargs a ord layers L := ⟨hk, ho, h, hne, hL⟩
  obtain ⟨data, rest, hdt, F, ps, hps⟩ := functions m tr num sup
  refine ⟨data, rest, hdt, F, ps, hps, ?_⟩
  intro M n st θ hst hθ h0 x w b hmask C hal
  have hS := sited m F (ps M)
  have hrep := reports m F (ps M) hdt (hps M)
  have hdet := determines m F (Or.inr hD) (ps M) (hps M)
  obtain ⟨T, B, _, _, _, i⟩ := hst.inv (netOf_wellLaid F.laid.wf F.laid.shaped F.laid.layout)
  obtain rfl := Reachable.count F.laid hst hθ
  have gives : ∀ b : Batch, b.Good data → Gives (netOf (infos layers) L) data.name (fun T B => libNetwork F (ps M T B)) (reported a layers L) st b
      (lossV (infos layers) L data.name (fun T B => libNetwork F (ps M T B)) (reported a layers L) b θ)
      (List.ofFn (gradD (infos layers) L data.name (fun T B => libNetwork F (ps M T B)) b θ)) := by
    intro b hb
    obtain ⟨st₁, h1, hr, r1⟩ := provide_ready hS.laid hS.data_mem i hb
    obtain ⟨st₂, st₃, _, _, _, h2, h3, -, r3, g3, l3⟩ := computes_det hS hdet hb hrep st₁ θ hr (r1.trans hθ)
    exact ⟨st₁, st₂, st₃, h1, h2, h3, by rw [hrep, l3], g3⟩
  refine ⟨_, _, List.ofFn (gradD (infos layers) L data.name (fun T B => libNetwork F (ps M T B)) b θ), gives w C.good.1, ?_, fun hR => ?_⟩
  · rw [short_loss m F hdt (ps M) (hps M) hD hmask C hal θ h0]
    exact gives b C.good.2
  · rw [short_gradient m F hdt hfree (ps M) (hps M) hD hmask C hal i hθ h0]
    rcases hR with hR | ⟨nk, hT⟩
    · exact hR
    · exact ⟨regularAt_of_noKinks nk m F (ps M) (hps M) C.good.1 (lt_of_lt_of_le hT C.steps) i hθ h0,
        regularAt_of_noKinks nk m F (ps M) (hps M) C.good.2 hT i hθ h0⟩

/-- **C87, training.**  So do trainings with `SgdStepper` and `MomentumStepper`: with and without the steps that are masked out they lead to the
same parameters and record the same losses, as long as the layers are differentiable at the parameters that are reached (which they are if
they have no kinks). -/
theorem C87_training (hfree : FreePeriods (infos layers)) (hD : ∀ n, ¬ HasType a n (str "Dropout")) :
    ∃ data rest, HasType a data.name (str "Input") ∧ ∃ F : Memory.Fits (infos layers) L data rest,
      ∃ ps : Mode → ∀ T B, ∀ l ∈ rest, LibLayer (infos layers) data l T B,
      (∀ M T B l (hl : l ∈ rest) t, HasType a l.name t → Describes M t (kwargs l.name) (ps M T B l hl)) ∧
      ∀ (M : Mode) (n : ℕ) (st : State ℝ) (θ₀ : Fin n → ℝ), Reachable (netOf (infos layers) L) st →
        st.read (str "parameters") = some (List.ofFn θ₀) → (∀ i : Fin n, IsPeriod (infos layers) L i → θ₀ i ≠ 0) →
        ∀ (x : Name) (batches batches' : ℕ → Batch), MaskedBy a (infos layers) data x → (∀ k, Shortened data x (batches k) (batches' k)) →
        DataAlone (infos layers) L data → ∀ (lr μ : ℕ → ℝ) (scale : Bool) (k : ℕ),
        ((NoKinks a kwargs ∧ ∀ j < k, 0 < (batches' j).T) ∨ (∀ j < k, ∀ st' log,
            train (netOf (infos layers) L) data.name (fun T B => libNetwork F (ps M T B)) (reported a layers L)
            (fun k => sgdRun (netOf (infos layers) L) (fun T B => libNetwork F (ps M T B)) (lr k)) batches (fun _ => []) (st, ()) j =
              some ((st', ()), log) → RegularAt F (ps M) st' (batches j) ∧ RegularAt F (ps M) st' (batches' j)) →
          ∃ st₁ st₂ log θ, train (netOf (infos layers) L) data.name (fun T B => libNetwork F (ps M T B)) (reported a layers L)
              (fun k => sgdRun (netOf (infos layers) L) (fun T B => libNetwork F (ps M T B)) (lr k)) batches (fun _ => []) (st, ()) k =
                some ((st₁, ()), log) ∧
            train (netOf (infos layers) L) data.name (fun T B => libNetwork F (ps M T B)) (reported a layers L)
              (fun k => sgdRun (netOf (infos layers) L) (fun T B => libNetwork F (ps M T B)) (lr k)) batches' (fun _ => []) (st, ()) k =
                some ((st₂, ()), log) ∧
            st₁.read (str "parameters") = some θ ∧ st₂.read (str "parameters") = some θ) ∧
        ((NoKinks a kwargs ∧ ∀ j < k, 0 < (batches' j).T) ∨ (∀ j < k, ∀ st' v log,
            train (netOf (infos layers) L) data.name (fun T B => libNetwork F (ps M T B)) (reported a layers L)
            (fun k => momentumRun (netOf (infos layers) L) (fun T B => libNetwork F (ps M T B)) scale (lr k) (μ k)) batches (fun _ => [])
              (st, List.replicate n 0) j = some ((st', v), log) → RegularAt F (ps M) st' (batches j) ∧ RegularAt F (ps M) st' (batches' j)) →
          ∃ st₁ st₂ v log θ, train (netOf (infos layers) L) data.name (fun T B => libNetwork F (ps M T B)) (reported a layers L)
              (fun k => momentumRun (netOf (infos layers) L) (fun T B => libNetwork F (ps M T B)) scale (lr k) (μ k)) batches (fun _ => [])
                (st, List.replicate n 0) k = some ((st₁, v), log) ∧
            train (netOf (infos layers) L) data.name (fun T B => libNetwork F (ps M T B)) (reported a layers L)
              (fun k => momentumRun (netOf (infos layers) L) (fun T B => libNetwork F (ps M T B)) scale (lr k) (μ k)) batches' (fun _ => [])
                (st, List.replicate n 0) k = some ((st₂, v), log) ∧
            st₁.read (str "parameters") = some θ ∧ st₂.read (str "parameters") = some θ) := by
  have m : Made kwargs a ord layers L := ⟨hk, ho, h, hne, hL⟩
  obtain ⟨data, rest, hdt, F, ps, hps⟩ := functions m tr num sup
  refine ⟨data, rest, hdt, F, ps, hps, fun M n st θ₀ hst hθ h0 x batches batches' hmask C hal lr μ scale k => ?_⟩
  obtain ⟨T, B, _, _, _, i⟩ := hst.inv (netOf_wellLaid F.laid.wf F.laid.shaped F.laid.layout)
  obtain rfl := Reachable.count F.laid hst hθ
  have := train_same m F hdt hfree (ps M) (hps M) hD i hθ h0 batches batches' (fun _ => [])
    (fun j => by simpa using ⟨(C j).good.1, (C j).good.2⟩)
    (fun j _ _ _ _ _ _ i1 θ h2 h3 => ⟨short_loss m F hdt (ps M) (hps M) hD hmask (C j) (.inr hal) θ h3, fun hR =>
      short_gradient m F hdt hfree (ps M) (hps M) hD hmask (C j) (.inr hal) i1 h2 h3 ⟨hR _ (by simp), hR _ (by simp)⟩⟩) lr μ scale k
  have hpos : (∀ j < k, 0 < (batches' j).T) → ∀ j < k, ∀ b ∈ [batches j, batches' j], 0 < b.T := fun hT j hj => by
    have := (C j).steps
    have := hT j hj
    simp only [List.forall_mem_cons, List.not_mem_nil, false_imp_iff, implies_true, and_true]
    omega
  exact ⟨fun hR => this.1 (hR.imp (fun ⟨nk, hT⟩ => ⟨nk, hpos hT⟩) fun hR j hj st' log e => by simpa using hR j hj st' log e),
    fun hR => this.2 (hR.imp (fun ⟨nk, hT⟩ => ⟨nk, hpos hT⟩) fun hR j hj st' v log e => by simpa using hR j hj st' v log e)⟩

/-- **C87, evaluation.**  The losses that `evaluate` returns with an iterator that cuts the batches according to the mask are the same as for all
data in one batch. -/
theorem C87_evaluate :
    ∃ data rest, HasType a data.name (str "Input") ∧ ∃ F : Memory.Fits (infos layers) L data rest,
      ∃ ps : Mode → ∀ T B, ∀ l ∈ rest, LibLayer (infos layers) data l T B,
      (∀ M T B l (hl : l ∈ rest) t, HasType a l.name t → Describes M t (kwargs l.name) (ps M T B l hl)) ∧
      ∀ (M : Mode) (st : State ℝ) (θ : List ℝ), M.training = false → Reachable (netOf (infos layers) L) st →
        st.read (str "parameters") = some θ →
        (∀ l ts, HasType a l (str "Clockwork") ∨ HasType a l (str "ClockworkLstm") →
          st.read (path l (str "parameters") (str "timing")) = some ts → (0 : ℝ) ∉ ts) →
        DataAlone (infos layers) L data →
        ∀ (d : Dict Name (Arr (List ℝ))) (size : ℕ) (sh : Bool) (x : Name) (m : Minibatches (List ℝ)),
          FitsInput data d → (∃ mask, Dict.get? d x = some mask) → Minibatches.create nonzero size sh (.name x) d = some m →
          ∀ shuffled : List ℕ, shuffled.Perm (List.range m.length) → ∀ (rnds : ℕ → ℕ → ℝ) (rnd : ℕ → ℝ),
          ∃ bs w, batchesOf data (m.call shuffled) rnds = some bs ∧ batchOf data d rnd = some w ∧
            (MaskedBy a (infos layers) data x →
              ∀ key, evaluateLoss (netOf (infos layers) L) data.name (fun T B => libNetwork F (ps M T B))
                (fun T B m => Dict.get? (getLossValues a layers fun n => entry (netOf (infos layers) L) T B n m "outputs" "loss" 0) key) bs st =
                evaluateLoss (netOf (infos layers) L) data.name (fun T B => libNetwork F (ps M T B))
                (fun T B m => Dict.get? (getLossValues a layers fun n => entry (netOf (infos layers) L) T B n m "outputs" "loss" 0) key) [w] st) := by
  have m : Made kwargs a ord layers L := ⟨hk, ho, h, hne, hL⟩
  obtain ⟨data, rest, hdt, F, ps, hps, hboth⟩ := C86_losses kwargs a hk ord ho layers h hne L hL tr num sup
  refine ⟨data, rest, hdt, F, ps, hps, ?_⟩
  intro M st θ hM hst hθ hclock hal d size sh x mb hd ⟨mask, hmask⟩ hmb shuffled hsh rnds rnd
  have hnd := F.laid.wf.outNodup data (by rw [F.ordered.all]; simp)
  obtain ⟨n, T, lens, hf, hl, hsz, e⟩ := Data.create_eq hmb
  have hmb' : Minibatches.create nonzero size sh .nothing d = some ⟨d, (n + size - 1) / size, sh, size, List.replicate n T⟩ := by
    have hl : Data.seqLensOf nonzero d n T .nothing = some (List.replicate n T) := rfl
    unfold Minibatches.create
    rw [hf]
    simp only
    rw [if_neg (by omega), hl]
  obtain ⟨us, bs, u1, b1, C⟩ := minibatches_shortened hnd hd hmb hmb' hmask hsh rnds rnds
  obtain ⟨_, _, _, _, _, i⟩ := hst.inv (netOf_wellLaid F.laid.wf F.laid.shaped F.laid.layout)
  have hlen : mb.length = (n + size - 1) / size := by rw [e]
  obtain ⟨us', w, u2, w1, H1, -⟩ := hboth M st st θ hM hst hst hθ hθ hclock d nonzero size sh .nothing _ hd (Or.inl rfl) hmb' shuffled
    (by rw [hlen] at hsh; exact hsh) rnds rnd
  obtain rfl := Option.some.inj (u1.symm.trans u2)
  have E := evaluate_short m F hdt (ps M) (hps M) hM hal C i hθ hclock
  exact ⟨bs, w, b1, w1, fun hmk key => (E.1 hmk key).symm.trans (H1 key)⟩

/-- **C87, scores.**  So are the scores, if the scorers use the mask. -/
theorem C87_scores :
    ∃ data rest, HasType a data.name (str "Input") ∧ ∃ F : Memory.Fits (infos layers) L data rest,
      ∃ ps : Mode → ∀ T B, ∀ l ∈ rest, LibLayer (infos layers) data l T B,
      (∀ M T B l (hl : l ∈ rest) t, HasType a l.name t → Describes M t (kwargs l.name) (ps M T B l hl)) ∧
      ∀ (M : Mode) (st : State ℝ) (θ : List ℝ), M.training = false → Reachable (netOf (infos layers) L) st →
        st.read (str "parameters") = some θ →
        (∀ l ts, HasType a l (str "Clockwork") ∨ HasType a l (str "ClockworkLstm") →
          st.read (path l (str "parameters") (str "timing")) = some ts → (0 : ℝ) ∉ ts) →
        DataAlone (infos layers) L data →
        ∀ (d : Dict Name (Arr (List ℝ))) (size : ℕ) (sh : Bool) (x : Name) (m : Minibatches (List ℝ)),
          FitsInput data d → (∃ mask, Dict.get? d x = some mask) → Minibatches.create nonzero size sh (.name x) d = some m →
          ∀ shuffled : List ℕ, shuffled.Perm (List.range m.length) → ∀ (rnds : ℕ → ℕ → ℝ) (rnd : ℕ → ℝ),
          ∃ bs w, batchesOf data (m.call shuffled) rnds = some bs ∧ batchOf data d rnd = some w ∧
            ∀ (out targets : Name) (so sl sx : Struct) (score : List (Scoring.Row ℝ) → ℝ),
              Output a (infos layers) out so → Flat so → Output a (infos layers) targets sl → Flat sl →
              (x, sx) ∈ data.outShapes → Flat sx → sx.featureSize = 1 → Scorer true score →
              ∃ v, evaluateScore (netOf (infos layers) L) data.name (fun T B => libNetwork F (ps M T B))
                  (scored out targets so.featureSize sl.featureSize (some (path data.name (str "outputs") x))) true score bs st = some v ∧
                evaluateScore (netOf (infos layers) L) data.name (fun T B => libNetwork F (ps M T B))
                  (scored out targets so.featureSize sl.featureSize (some (path data.name (str "outputs") x))) true score [w] st = some v := by
  have m : Made kwargs a ord layers L := ⟨hk, ho, h, hne, hL⟩
  obtain ⟨data, rest, hdt, F, ps, hps, hboth⟩ := C86_scores kwargs a hk ord ho layers h hne L hL tr num sup
  refine ⟨data, rest, hdt, F, ps, hps, ?_⟩
  intro M st θ hM hst hθ hclock hal d size sh x mb hd ⟨mask, hmask⟩ hmb shuffled hsh rnds rnd
  have hnd := F.laid.wf.outNodup data (by rw [F.ordered.all]; simp)
  obtain ⟨n, T, lens, hf, hl, hsz, e⟩ := Data.create_eq hmb
  have hmb' : Minibatches.create nonzero size sh .nothing d = some ⟨d, (n + size - 1) / size, sh, size, List.replicate n T⟩ := by
    have hl : Data.seqLensOf nonzero d n T .nothing = some (List.replicate n T) := rfl
    unfold Minibatches.create
    rw [hf]
    simp only
    rw [if_neg (by omega), hl]
  obtain ⟨us, bs, u1, b1, C⟩ := minibatches_shortened hnd hd hmb hmb' hmask hsh rnds rnds
  obtain ⟨_, _, _, _, _, i⟩ := hst.inv (netOf_wellLaid F.laid.wf F.laid.shaped F.laid.layout)
  have hlen : mb.length = (n + size - 1) / size := by rw [e]
  obtain ⟨us', w, u2, w1, H2⟩ := hboth M st st θ hM hst hst hθ hθ hclock d nonzero size sh .nothing _ hd (Or.inl rfl) hmb' shuffled
    (by rw [hlen] at hsh; exact hsh) rnds rnd
  obtain rfl := Option.some.inj (u1.symm.trans u2)
  have E := evaluate_short m F hdt (ps M) (hps M) hM hal C i hθ hclock
  refine ⟨bs, w, b1, w1, ?_⟩
  intro out targets so sl sx score ho hfo hl hfl hx hfx hx1 hsc
  have hxo : Output a (infos layers) (path data.name (str "outputs") x) sx :=
    ⟨data, by rw [F.ordered.all]; simp, x, fun e => absurd (m.type_unique e hdt) (by decide), hx, (hd.shapes _ hx).1, rfl⟩
  obtain ⟨_, _, rows, -, -, -, s1, s2⟩ := H2 out targets so sl (some (path data.name (str "outputs") x)) score ho hfo hl hfl
    (fun k hk => by
      obtain rfl := Option.mem_some_iff.1 hk
      exact ⟨sx, hxo, hfx, hx1⟩) hsc
  exact ⟨_, (E.2 out targets so sl sx score ho hl hx (hd.shapes _ hx).1 hx1 hsc).symm.trans s1, s2⟩

end

end Verif.Padding
