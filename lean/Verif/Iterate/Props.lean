import Verif.Iterate.Lemmas
import Verif.Evaluate.Props
import Verif.Parts.Props

/-!
# Property C86: `Minibatches` and `Undivided` are interchangeable for evaluation

For accepted architectures, all states that a network can be in, all data, all batch sizes and all orders of the batches.
-/

namespace Verif.Iterate

open Verif.Architecture hiding demoArch
open Verif.Structure Verif.Layout Verif.Buffers Verif.Instantiate Verif.EndToEnd
open Verif.Memory hiding demoL
open Verif.Setup (Kwargs libEnv infos getLossValues)
open Verif.Shapes (Supported)
open Verif.Session Verif.Evaluate
open Verif.Data (Arr Minibatches)

section
variable (kwargs : Name → Kwargs) (a : Arch) (hk : (Dict.keys a).Nodup) (ord : Orders) (ho : ord.Ok)
  (layers : Dict Name (LayerObj Kwargs)) (h : Instantiates (libEnv kwargs) ord a (.ok layers))
  (hne : ∃ n l, Dict.get? layers n = some l ∧ l.shapes.outs ≠ []) (L : Layout) (hL : createLayout (infos layers) = .ok L)
  (tr : Trainable a) (num : Numeric a kwargs)
  (sup : ∀ n l t, Dict.get? layers n = some l → HasType a n t → Supported t l.kwargs l.inShapes)
include hk ho h hne hL tr num sup

/-- **C86 (losses).**  All losses that `evaluate` returns are the same for `Minibatches`, whatever the batch size, with and without
shuffling, as for all data in one batch. -/
theorem C86_losses :
    ∃ data rest, HasType a data.name (str "Input") ∧ ∃ F : Memory.Fits (infos layers) L data rest,
      ∃ ps : Mode → ∀ T B, ∀ l ∈ rest, LibLayer (infos layers) data l T B,
      (∀ M T B l (hl : l ∈ rest) t, HasType a l.name t → Describes M t (kwargs l.name) (ps M T B l hl)) ∧
      ∀ (M : Mode) (st st' : State ℝ) (θ : List ℝ), M.training = false →
        Reachable (netOf (infos layers) L) st → Reachable (netOf (infos layers) L) st' →
        st.read (str "parameters") = some θ → st'.read (str "parameters") = some θ →
        (∀ l ts, HasType a l (str "Clockwork") ∨ HasType a l (str "ClockworkLstm") →
          st'.read (path l (str "parameters") (str "timing")) = some ts → (0 : ℝ) ∉ ts) →
        ∀ (d : Dict Name (Arr (List ℝ))) (nonzero : List ℝ → Option Bool) (size : ℕ) (sh : Bool) (cut : Data.Cut) (m : Minibatches (List ℝ)),
          FitsInput data d → Uncut d cut → Minibatches.create nonzero size sh cut d = some m →
          ∀ shuffled : List ℕ, shuffled.Perm (List.range m.length) → ∀ (rnds : ℕ → ℕ → ℝ) (rnd : ℕ → ℝ),
          ∃ bs w, batchesOf data (m.call shuffled) rnds = some bs ∧ batchOf data d rnd = some w ∧
            (∀ key, evaluateLoss (netOf (infos layers) L) data.name (fun T B => libNetwork F (ps M T B))
              (fun T B m => Dict.get? (getLossValues a layers fun n => entry (netOf (infos layers) L) T B n m "outputs" "loss" 0) key) bs st =
              evaluateLoss (netOf (infos layers) L) data.name (fun T B => libNetwork F (ps M T B))
              (fun T B m => Dict.get? (getLossValues a layers fun n => entry (netOf (infos layers) L) T B n m "outputs" "loss" 0) key) [w] st') ∧
            ∃ st₁ st₂ loss, provide (netOf (infos layers) L) data.name w st' = some st₁ ∧
              forwardPass (netOf (infos layers) L) (fun T B => libNetwork F (ps M T B)) w.rnd st₁ = some st₂ ∧
              reported a layers L w.T w.B (memOf st₂) = some loss ∧
              evaluateLoss (netOf (infos layers) L) data.name (fun T B => libNetwork F (ps M T B)) (reported a layers L) bs st = some loss := by
  obtain ⟨data, rest, hdt, F, ps, hps, H⟩ := C79_losses kwargs a hk ord ho layers h hne L hL tr num sup
  refine ⟨data, rest, hdt, F, ps, hps, ?_⟩
  intro M st st' θ hM hst hst' hθ hθ' hclock d nonzero size sh cut m hd hc hm shuffled hsh rnds rnd
  obtain ⟨bs', w, bs, h1, h2, h3, h4, -⟩ := minibatches_cut (F.laid.wf.outNodup _ (by rw [F.ordered.all]; simp)) hd hc hm hsh rnds rnd
  exact ⟨bs', w, h1, h2, H M st st' w bs θ hM hst hst' hθ hθ' hclock h3 bs' h4⟩

/-- **C86 (scores).**  So are all scores, for all scorers of the library, with or without a mask for the scorer. -/
theorem C86_scores :
    ∃ data rest, HasType a data.name (str "Input") ∧ ∃ F : Memory.Fits (infos layers) L data rest,
      ∃ ps : Mode → ∀ T B, ∀ l ∈ rest, LibLayer (infos layers) data l T B,
      (∀ M T B l (hl : l ∈ rest) t, HasType a l.name t → Describes M t (kwargs l.name) (ps M T B l hl)) ∧
      ∀ (M : Mode) (st st' : State ℝ) (θ : List ℝ), M.training = false →
        Reachable (netOf (infos layers) L) st → Reachable (netOf (infos layers) L) st' →
        st.read (str "parameters") = some θ → st'.read (str "parameters") = some θ →
        (∀ l ts, HasType a l (str "Clockwork") ∨ HasType a l (str "ClockworkLstm") →
          st'.read (path l (str "parameters") (str "timing")) = some ts → (0 : ℝ) ∉ ts) →
        ∀ (d : Dict Name (Arr (List ℝ))) (nonzero : List ℝ → Option Bool) (size : ℕ) (sh : Bool) (cut : Data.Cut) (m : Minibatches (List ℝ)),
          FitsInput data d → Uncut d cut → Minibatches.create nonzero size sh cut d = some m →
          ∀ shuffled : List ℕ, shuffled.Perm (List.range m.length) → ∀ (rnds : ℕ → ℕ → ℝ) (rnd : ℕ → ℝ),
          ∃ bs w, batchesOf data (m.call shuffled) rnds = some bs ∧ batchOf data d rnd = some w ∧
            ∀ (out targets : Name) (so sl : Struct) (mask : Option Name) (score : List (Scoring.Row ℝ) → ℝ),
              Output a (infos layers) out so → Flat so → Output a (infos layers) targets sl → Flat sl →
              (∀ m ∈ mask, ∃ s, Output a (infos layers) m s ∧ Flat s ∧ s.featureSize = 1) → Scorer mask.isSome score →
              ∃ st₁ st₂ rows, provide (netOf (infos layers) L) data.name w st' = some st₁ ∧
                forwardPass (netOf (infos layers) L) (fun T B => libNetwork F (ps M T B)) w.rnd st₁ = some st₂ ∧
                scored out targets so.featureSize sl.featureSize mask (w.T * w.B) st₂ = some rows ∧
                evaluateScore (netOf (infos layers) L) data.name (fun T B => libNetwork F (ps M T B))
                  (scored out targets so.featureSize sl.featureSize mask) mask.isSome score bs st =
                    some (score rows / Scoring.weight mask.isSome rows) ∧
                evaluateScore (netOf (infos layers) L) data.name (fun T B => libNetwork F (ps M T B))
                  (scored out targets so.featureSize sl.featureSize mask) mask.isSome score [w] st' =
                    some (score rows / Scoring.weight mask.isSome rows) := by
  obtain ⟨data, rest, hdt, F, ps, hps, H⟩ := C79_scores kwargs a hk ord ho layers h hne L hL tr num sup
  refine ⟨data, rest, hdt, F, ps, hps, ?_⟩
  intro M st st' θ hM hst hst' hθ hθ' hclock d nonzero size sh cut m hd hc hm shuffled hsh rnds rnd
  obtain ⟨bs', w, bs, h1, h2, h3, h4, -⟩ := minibatches_cut (F.laid.wf.outNodup _ (by rw [F.ordered.all]; simp)) hd hc hm hsh rnds rnd
  exact ⟨bs', w, h1, h2, H M st st' w bs θ hM hst hst' hθ hθ' hclock h3 bs' h4⟩

/-- **C86 (extraction).**  Without shuffling, `extract` returns what the network holds after one forward pass over all data, whatever the
batch size. -/
theorem C86_extract :
    ∃ data rest, HasType a data.name (str "Input") ∧ ∃ F : Memory.Fits (infos layers) L data rest,
      ∃ ps : Mode → ∀ T B, ∀ l ∈ rest, LibLayer (infos layers) data l T B,
      (∀ M T B l (hl : l ∈ rest) t, HasType a l.name t → Describes M t (kwargs l.name) (ps M T B l hl)) ∧
      ∀ (M : Mode) (st st' : State ℝ) (θ : List ℝ), M.training = false →
        Reachable (netOf (infos layers) L) st → Reachable (netOf (infos layers) L) st' →
        st.read (str "parameters") = some θ → st'.read (str "parameters") = some θ →
        (∀ l ts, HasType a l (str "Clockwork") ∨ HasType a l (str "ClockworkLstm") →
          st'.read (path l (str "parameters") (str "timing")) = some ts → (0 : ℝ) ∉ ts) →
        ∀ (d : Dict Name (Arr (List ℝ))) (nonzero : List ℝ → Option Bool) (size : ℕ) (cut : Data.Cut) (m : Minibatches (List ℝ)),
          FitsInput data d → Uncut d cut → Minibatches.create nonzero size false cut d = some m →
          ∀ (rnds : ℕ → ℕ → ℝ) (rnd : ℕ → ℝ),
          ∃ bs w, batchesOf data (m.call (List.range m.length)) rnds = some bs ∧ batchOf data d rnd = some w ∧
            ∀ arrays : List (Name × Struct), arrays ≠ [] → (arrays.map Prod.fst).Nodup → (∀ x ∈ arrays, Output a (infos layers) x.1 x.2) →
              ∃ st₁ st₂ res, provide (netOf (infos layers) L) data.name w st' = some st₁ ∧
                forwardPass (netOf (infos layers) L) (fun T B => libNetwork F (ps M T B)) w.rnd st₁ = some st₂ ∧
                extract (netOf (infos layers) L) data.name (fun T B => libNetwork F (ps M T B)) arrays w.B bs st = some res ∧
                Dict.keys res = arrays.map Prod.fst ∧
                ∀ x ∈ arrays, ∃ A xs, Dict.get? res x.1 = some A ∧ st₂.read x.1 = some xs ∧ A.seqs = w.B ∧
                  A.times = w.T + x.2.contextSize ∧ ∀ t < w.T, A.rows[t]? = (table x.2 w.T w.B xs).rows[t]? := by
  obtain ⟨data, rest, hdt, F, ps, hps, H⟩ := C79_extract kwargs a hk ord ho layers h hne L hL tr num sup
  refine ⟨data, rest, hdt, F, ps, hps, ?_⟩
  intro M st st' θ hM hst hst' hθ hθ' hclock d nonzero size cut m hd hc hm rnds rnd
  obtain ⟨bs', w, bs, h1, h2, h3, h4, h5⟩ := minibatches_cut (F.laid.wf.outNodup _ (by rw [F.ordered.all]; simp)) hd hc hm (List.Perm.refl _) rnds rnd
  obtain rfl := h5 rfl
  exact ⟨bs, w, h1, h2, H M st st' w bs θ hM hst hst' hθ hθ' hclock h3⟩

open Verif.Determined Verif.Descent Verif.Parts in
/-- **C86 (gradients).**  In one pass of `Minibatches` over the data with the same parameters, the mean of the gradients, weighted with the
numbers of sequences, is the gradient for all data in one batch. -/
theorem C86_gradients (hfree : FreePeriods (infos layers)) (hD : ∀ n, ¬ HasType a n (str "Dropout")) :
    ∃ data rest, HasType a data.name (str "Input") ∧ ∃ F : Memory.Fits (infos layers) L data rest,
      ∃ ps : Mode → ∀ T B, ∀ l ∈ rest, LibLayer (infos layers) data l T B,
      (∀ M T B l (hl : l ∈ rest) t, HasType a l.name t → Describes M t (kwargs l.name) (ps M T B l hl)) ∧
      ∀ (M : Mode) (n : ℕ) (st : State ℝ) (θ : Fin n → ℝ), Reachable (netOf (infos layers) L) st →
        st.read (str "parameters") = some (List.ofFn θ) → (∀ i : Fin n, IsPeriod (infos layers) L i → θ i ≠ 0) →
        ∀ (d : Dict Name (Arr (List ℝ))) (nonzero : List ℝ → Option Bool) (size : ℕ) (sh : Bool) (cut : Data.Cut) (m : Minibatches (List ℝ)),
          FitsInput data d → Uncut d cut → Minibatches.create nonzero size sh cut d = some m →
          ∀ shuffled : List ℕ, shuffled.Perm (List.range m.length) → ∀ (rnds : ℕ → ℕ → ℝ) (rnd : ℕ → ℝ),
          ∃ bs w, batchesOf data (m.call shuffled) rnds = some bs ∧ batchOf data d rnd = some w ∧
            ∃ (loss : Batch → ℝ) (g : Batch → Fin n → ℝ),
              (∀ b ∈ w :: bs, Gives (netOf (infos layers) L) data.name (fun T B => libNetwork F (ps M T B)) (reported a layers L) st b
                (loss b) (List.ofFn (g b))) ∧
              (w.B : ℝ) * loss w = (bs.map fun b => (b.B : ℝ) * loss b).sum ∧
              ((∀ b ∈ w :: bs, RegularAt F (ps M) st b) ∨ (NoKinks a kwargs ∧ 0 < w.T) →
                ∀ i, (w.B : ℝ) * g w i = (bs.map fun b => (b.B : ℝ) * g b i).sum) := by
  obtain ⟨data, rest, hdt, F, ps, hps, H⟩ := C85_parts kwargs a hk ord ho layers h hne L hL tr num sup hfree hD
  refine ⟨data, rest, hdt, F, ps, hps, ?_⟩
  intro M n st θ hst hθ h0 d nonzero size sh cut m hd hc hm shuffled hsh rnds rnd
  obtain ⟨bs', w, bs, h1, h2, h3, h4, -⟩ := minibatches_cut (F.laid.wf.outNodup _ (by rw [F.ordered.all]; simp)) hd hc hm hsh rnds rnd
  obtain ⟨loss, g, q1, q2, q3⟩ := H M n st w bs θ hst hθ h0 h3
  have hmem : ∀ b, b ∈ w :: bs' ↔ b ∈ w :: bs := fun b => by simp [h4.mem_iff]
  refine ⟨bs', w, h1, h2, loss, g, fun b hb => q1 b ((hmem b).1 hb), ?_, fun hR i => ?_⟩
  · rw [q2, (h4.map _).sum_eq]
  · rw [q3 (hR.imp (fun hR b hb => hR b ((hmem b).2 hb)) id) i, (h4.map _).sum_eq]

end

end Verif.Iterate
