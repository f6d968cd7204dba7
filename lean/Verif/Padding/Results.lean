import Verif.Padding.Lemmas

/-!
# C87: losses and gradients of shortened batches
-/

namespace Verif.Padding

open Verif.Architecture hiding demoArch
open Verif.Structure Verif.Layout Verif.Buffers Verif.Instantiate Verif.EndToEnd
open Verif.Memory hiding demoL
open Verif.Setup (Kwargs libEnv infos toInfo inp_some)
open Verif.Session Verif.Determined Verif.Sequence Verif.Descent Verif.Parts
open Verif.Evaluate (Ran loss_entries)

section
variable {kwargs : Name → Kwargs} {a : Arch} {ord : Orders} {layers : Dict Name (LayerObj Kwargs)} {L : Layout} {data : LayerInfo}
  {rest : List LayerInfo}

/-- All Loss layers compute the same for shortened batches. -/
theorem all_losses (m : Made kwargs a ord layers L) (F : Memory.Fits (infos layers) L data rest) (hdt : HasType a data.name (str "Input")) {M : Mode}
    (ps : ∀ T B, ∀ l ∈ rest, LibLayer (infos layers) data l T B)
    (hps : ∀ T B l (hl : l ∈ rest) t, HasType a l.name t → Describes M t (kwargs l.name) (ps T B l hl))
    (hD : M.training = true → ∀ n, ¬ HasType a n (str "Dropout")) {x : Name} (hmask : MaskedBy a (infos layers) data x) {w b : Batch}
    (C : Shortened data x w b) (hal : b.T = w.T ∨ DataAlone (infos layers) L data) {θ : List ℝ} {wst st : State ℝ}
    (hw : Ran (infos layers) L data (fun T B => libNetwork F (ps T B)) θ w wst)
    (hb : Ran (infos layers) L data (fun T B => libNetwork F (ps T B)) θ b st)
    (hclock : ∀ s, Found (infos layers) L data w.T w.B w.data θ (contextRows (netOf (infos layers) L) w.T w.B) s →
      ∀ l ∈ rest, ∀ n, HasType a l.name (str "Clockwork") ∨ HasType a l.name (str "ClockworkLstm") → (str "timing", vec n) ∈ l.paramShapes → ∀ j < n,
      value (netOf (infos layers) L) w.T w.B l.name (forward (libNetwork F (ps w.T w.B)) s) ⟨str "parameters", str "timing", j⟩ ≠ 0)
    {n : Name} (hn : HasType a n (str "Loss")) :
    Evaluate.lossV (netOf (infos layers) L) n w wst = Evaluate.lossV (netOf (infos layers) L) n b st := by
  have hty : ∀ l ∈ infos layers, HasType a l.name (typeIn a l) := fun l hl => typeIn_spec m hl
  have hps' : ∀ T B l hl, Describes { M with training := false } (typeIn a l) (kwargs l.name) (ps T B l hl) := fun T B l hl => by
    have h := hps T B l hl _ (hty l (F.ordered.mem hl))
    cases hM : M.training with
    | true => exact describes_still h fun e => hD hM l.name (e ▸ hty l (F.ordered.mem hl))
    | false =>
      have : { M with training := false } = M := by cases M; simp only at hM; rw [hM]
      rw [this]
      exact h
  have hka : n ∈ Dict.keys a := by
    obtain ⟨d, hd, -⟩ := hn
    exact List.mem_map.2 ⟨_, hd, rfl⟩
  rw [← m.mem_keys, ← m.names, F.ordered.all, List.mem_map] at hka
  obtain ⟨l, hl, rfl⟩ := hka
  rcases List.mem_cons.1 hl with rfl | hl
  · exact absurd (m.type_unique hn hdt) (by decide)
  have hd : typeIn a data ≠ str "Mask" := fun e => by
    have := hty data (by rw [F.ordered.all]; simp)
    rw [m.type_unique this hdt] at e
    exact absurd e (by decide)
  refine loss_same F ps hps' (sited m F ps) m.ctx_le rfl C hal hw hb (fun s H l hl e n hx j hj => hclock s H l hl n ?_ hx j hj) hl
    (m.type_unique (hty l (F.ordered.mem hl)) hn) hd ((hmask l (F.ordered.mem hl) hn).imp id fun h k hk o ho e => ?_)
  · have ht := hty l (F.ordered.mem hl)
    rcases e with e | e
    · exact Or.inl (e ▸ ht)
    · exact Or.inr (e ▸ ht)
  · obtain ⟨h1, h2⟩ := h k hk o ho e
    exact ⟨m.type_unique (hty k hk) h1, h2⟩

/-- The losses of shortened batches are the same functions of the parameters. -/
theorem short_loss (m : Made kwargs a ord layers L) (F : Memory.Fits (infos layers) L data rest) (hdt : HasType a data.name (str "Input")) {M : Mode}
    (ps : ∀ T B, ∀ l ∈ rest, LibLayer (infos layers) data l T B)
    (hps : ∀ T B l (hl : l ∈ rest) t, HasType a l.name t → Describes M t (kwargs l.name) (ps T B l hl))
    (hD : ∀ n, ¬ HasType a n (str "Dropout")) {x : Name} (hmask : MaskedBy a (infos layers) data x) {w b : Batch}
    (C : Shortened data x w b) (hal : b.T = w.T ∨ DataAlone (infos layers) L data)
    (θ : Fin (paramCount (infos layers) L) → ℝ) (h0 : ∀ i : Fin (paramCount (infos layers) L), IsPeriod (infos layers) L i → θ i ≠ 0) :
    lossV (infos layers) L data.name (fun T B => libNetwork F (ps T B)) (reported a layers L) w θ =
      lossV (infos layers) L data.name (fun T B => libNetwork F (ps T B)) (reported a layers L) b θ := by
  have S := sited m F ps
  have hrep := reports m F ps hdt hps
  obtain ⟨st₀, k₀, vs₀, g0, i0⟩ := create_inv (V := ℝ) (netOf_wellLaid F.laid.wf F.laid.shaped F.laid.layout)
  obtain ⟨st, g1, i1, r1, -⟩ := write_report S i0 (θ := List.ofFn θ) (by simp)
  obtain ⟨wst, hw, lw⟩ := ran_loss m F ps S hrep C.good.1 i1 r1
  obtain ⟨bst, hb, lb⟩ := ran_loss m F ps S hrep C.good.2 i1 r1
  rcases loss_entries m (str "total_loss") with hno | ⟨names, hn, hv⟩
  · have := (hno _).symm.trans lw
    cases this
  rw [← Option.some.inj ((hv _).symm.trans lw), ← Option.some.inj ((hv _).symm.trans lb)]
  refine congrArg List.sum (List.map_congr_left fun n hn' => ?_)
  exact all_losses m F hdt ps hps (fun _ => hD) hmask C hal hw hb (fun s H l hl n _ hx j hj => period_value S i1 r1 h0 H (F.ordered.mem hl) hx hj)
    (hn n hn')

/-- The gradients of shortened batches are the same. -/
theorem short_gradient (m : Made kwargs a ord layers L) (F : Memory.Fits (infos layers) L data rest) (hdt : HasType a data.name (str "Input"))
    (hfree : FreePeriods (infos layers)) {M : Mode} (ps : ∀ T B, ∀ l ∈ rest, LibLayer (infos layers) data l T B)
    (hps : ∀ T B l (hl : l ∈ rest) t, HasType a l.name t → Describes M t (kwargs l.name) (ps T B l hl))
    (hD : ∀ n, ¬ HasType a n (str "Dropout")) {x : Name} (hmask : MaskedBy a (infos layers) data x) {w b : Batch}
    (C : Shortened data x w b) (hal : b.T = w.T ∨ DataAlone (infos layers) L data)
    {st : State ℝ} {T B sz k : ℕ} {vs : List (Name × View)} (hi : Inv (netOf (infos layers) L) st T B sz k vs)
    {θ : Fin (paramCount (infos layers) L) → ℝ} (hθ : st.read (str "parameters") = some (List.ofFn θ))
    (h0 : ∀ i : Fin (paramCount (infos layers) L), IsPeriod (infos layers) L i → θ i ≠ 0)
    (hR : RegularAt F ps st w ∧ RegularAt F ps st b) :
    gradD (infos layers) L data.name (fun T B => libNetwork F (ps T B)) w θ =
      gradD (infos layers) L data.name (fun T B => libNetwork F (ps T B)) b θ := by
  funext i
  have S := sited m F ps
  have hrep := reports m F ps hdt hps
  have hdet := determines m F (Or.inr hD) ps hps
  by_cases hp : IsPeriod (infos layers) L i
  · rw [period_gradD F ps hfree S hdet C.good.1 θ i hp, period_gradD F ps hfree S hdet C.good.2 θ i hp]
  · have key : ∀ b : Batch, b.Good data → RegularAt F ps st b →
        HasDerivAt (fun t => lossV (infos layers) L data.name (fun T B => libNetwork F (ps T B)) (reported a layers L) b
        (Function.update θ i (θ i + t))) (gradD (infos layers) L data.name (fun T B => libNetwork F (ps T B)) b θ i) 0 := by
      intro b hb hR
      obtain ⟨s, hs, hreg⟩ := regular_loaded F ps S hb hi hθ hR
      refine (loss_curve F ps S hdet hb hrep hs hreg (fun t => Function.update θ i (θ i + t)) (Pi.single i 1) (by simp) (fun j => ?_)
        fun j hj t => ?_).congr_deriv (by simp [Pi.single_apply])
      · by_cases e : j = i
        · subst e
          simpa using (hasDerivAt_id (0 : ℝ)).const_add (θ j)
        · simpa [Function.update_of_ne e, Pi.single_eq_of_ne e] using hasDerivAt_const (0 : ℝ) (θ j)
      · exact Function.update_of_ne (fun e : j = i => hp (e ▸ hj)) _ _
    have e : (fun t => lossV (infos layers) L data.name (fun T B => libNetwork F (ps T B)) (reported a layers L) w
          (Function.update θ i (θ i + t))) = fun t => lossV (infos layers) L data.name
          (fun T B => libNetwork F (ps T B)) (reported a layers L) b (Function.update θ i (θ i + t)) := by
      funext t
      refine short_loss m F hdt ps hps hD hmask C hal _ fun j hj => ?_
      rw [Function.update_of_ne (fun e : j = i => hp (e ▸ hj))]
      exact h0 j hj
    have d1 := key w C.good.1 hR.1
    rw [e] at d1
    exact d1.unique (key b C.good.2 hR.2)

end

end Verif.Padding
