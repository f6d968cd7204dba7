import Verif.Checkpoint.Props
import Verif.Reload.Props

/-!
# C90: a training that was killed is resumed from a file
-/

namespace Verif.Checkpoint

open Verif.Training (Env Hook Val Logs Res Event St)

section
variable {D P W V : Type}

/-- The state without the calls of `save_as_hdf5`. -/
def plainSt (s : St (W × List (Save D P)) V) : St W V := ⟨s.w.1, s.logs, s.epoch, s.update, s.trace⟩

/-- Saving does not change the training: hooks of the class `SaveNetwork` are hooks that do nothing. -/
theorem run_plain {env : Env W V} {describe : W → Option D} {params : W → P} {files : Dict Name Name} {hooks : List Hook}
    (hfiles : ∀ nm f, Dict.get? files nm = some f → ∀ e u logs w, env.call nm e u logs w = (w, .value .none))
    {s s' : St (W × List (Save D P)) V} {L : List (St (W × List (Save D P)) V × Event V)}
    (h : Training.Run (withSaves env describe params files) hooks s L s') :
    Training.Run env hooks (plainSt s) (L.map fun x => (plainSt x.1, x.2)) (plainSt s') := by
  induction h with
  | nil s => exact .nil _
  | epoch s L s' _ ih => exact .epoch _ _ _ ih
  | cons s ev s₁ L s' h1 _ ih =>
    refine .cons _ _ (plainSt s₁) _ _ ?_ ih
    cases h1 with
    | batch => exact .batch (plainSt s)
    | rolling logs hl => exact .rolling (plainSt s) logs hl
    | call hk w st v logs hm hc hl =>
      refine .call (plainSt s) hk w.1 st v logs hm ?_ hl
      simp only [withSaves] at hc
      cases hg : Dict.get? files hk.name with
      | none =>
        rw [hg] at hc
        simp only [Prod.mk.injEq] at hc
        show env.call hk.name s.epoch s.update s.logs s.w.1 = _
        rw [← hc.1, ← hc.2]
      | some f =>
        rw [hg] at hc
        simp only [Prod.mk.injEq] at hc
        show env.call hk.name s.epoch s.update s.logs s.w.1 = _
        rw [hfiles _ _ hg, ← hc.1, ← hc.2]
        split_ifs with hd
        · rfl
        · exfalso
          have := hc.2
          rw [if_neg hd] at this
          cases st <;> cases this

end

open Verif.Architecture hiding demoArch
open Verif.Structure Verif.Layout Verif.Buffers Verif.Instantiate Verif.EndToEnd
open Verif.Memory hiding demoL
open Verif.Setup (Kwargs libEnv infos toInfo inp_some)
open Verif.Shapes (Supported)
open Verif.Session hiding sgdRun momentumRun nesterovRun round train Stepper
open Verif.Determined (Algorithm CanTrain Same SameMods)
open Verif.Reload (Initial fromHdf5)
open Verif.Trainer (World LibHook Fresh trainingOf batchNr)

section
variable {D : Type} (kwargs : Name → Kwargs) (a : Arch) (hk : (Dict.keys a).Nodup) (ord : Orders) (ho : ord.Ok)
  (layers : Dict Name (LayerObj Kwargs)) (h : Instantiates (libEnv kwargs) ord a (.ok layers))
  (hne : ∃ n l, Dict.get? layers n = some l ∧ l.shapes.outs ≠ []) (L : Layout) (hL : createLayout (infos layers) = .ok L)
  (tr : Trainable a) (num : Numeric a kwargs)
  (sup : ∀ n l t, Dict.get? layers n = some l → HasType a n t → Supported t l.kwargs l.inShapes)
include hk ho h hne hL tr num sup

/-- **C90 (resuming).**  A training as in C82, with hooks of the library and `SaveNetwork` hooks in any number and order, is killed at any point.
Whatever parameters can be loaded from a file afterwards are those that the training had after some number `u` of updates, at which a hook with
this file was called.  If a network is loaded from the file, whatever `initialize` assigns, and its training is continued with the batch
that follows, then it records the losses, and leads to the parameters, of the training that was killed (as far as that one got).  The
stepper must remember what it remembered then (for SgdStepper: nothing), and the modifiers have to be installed again. -/
theorem C90_resume :
    ∃ data rest, HasType a data.name (str "Input") ∧ ∃ F : Memory.Fits (infos layers) L data rest,
      ∃ ps : Mode → ∀ T B, ∀ l ∈ rest, LibLayer (infos layers) data l T B,
      (∀ M T B l (hl : l ∈ rest) t, HasType a l.name t → Describes M t (kwargs l.name) (ps M T B l hl)) ∧
      ∀ (M M' : Mode), M.training = true ∨ (∀ n, ¬ HasType a n (str "Dropout")) →
        ∀ (alg : Algorithm) (epochs : ℕ → List Batch) (hooks : Dict Name (LibHook alg.Memory)) (order : List Hook)
          (describe : World alg.Memory → Option D) (files : Dict Name Name) (s s' : St (World alg.Memory × List (Save D (List ℝ))) ℝ)
          (evs : List (St (World alg.Memory × List (Save D (List ℝ))) ℝ × Event ℝ)) (n : ℕ),
        (∀ e, epochs e ≠ [] ∧ ∀ b ∈ epochs e, b.Good data) →
        (∀ nm dt sc, Dict.get? hooks nm = some (.monitor dt sc) → ∀ e u, ∀ b ∈ dt e u, b.Good data) →
        (∀ nm f, Dict.get? files nm = some f → Dict.get? hooks nm = some (.watch fun _ _ _ _ => .value .none)) →
        Fresh s.w.1 → s.w.2 = [] → CanTrain (infos layers) (netOf (infos layers) L) (alg.Ok n) s.w.1.run →
        (∃ θ₀ : Fin n → ℝ, s.w.1.run.st.read (str "parameters") = some (List.ofFn θ₀)) →
        Training.Run (withSaves (trainingOf a layers L data.name (fun T B => libNetwork F (ps M T B)) (fun T B => libNetwork F (ps M' T B)) alg
          epochs hooks).env describe Trainer.parameters files) order s evs s' →
        ∃ (rates : ℕ → ℝ × ℝ) (r : ℕ → Constrained.Run alg.Memory) (loss : ℕ → ℝ),
          (∀ k ≤ s'.update - s.update,
            Constrained.train (netOf (infos layers) L) data.name (fun T B => libNetwork F (ps M' T B)) (reported a layers L)
              (fun k => alg.run (netOf (infos layers) L) (fun T B => libNetwork F (ps M T B)) (rates k).1 (rates k).2) (batchNr epochs)
              (fun _ => []) s.w.1.run k = some (r k, (List.range k).map loss)) ∧
          ∀ k f found d p, Found (crash (fun _ => none) s'.w.2 k) f found → found.bind load = some (d, p) →
            ∃ u ≤ s'.update - s.update,
              (∃ x ∈ evs, ∃ sc nm e u' st v, x.2 = .call sc nm e u' st v ∧ Dict.get? files nm = some f ∧ x.1.update = s.update + u) ∧
              (r u).st.read (str "parameters") = some p ∧
              ∀ initial, Initial (infos layers) initial → ∃ st', fromHdf5 (netOf (infos layers) L) initial p = some st' ∧
                ∀ gm wm, gm.Good true (infos layers) → wm.Good false (infos layers) → SameMods (infos layers) (r u).grads gm →
                  SameMods (infos layers) (r u).weights wm → ∀ j ≤ s'.update - s.update - u, ∃ r',
                    Constrained.train (netOf (infos layers) L) data.name (fun T B => libNetwork F (ps M' T B)) (reported a layers L)
                      (fun i => alg.run (netOf (infos layers) L) (fun T B => libNetwork F (ps M T B)) (rates (u + i)).1 (rates (u + i)).2)
                      (fun i => batchNr epochs (u + i)) (fun _ => []) ⟨st', (r u).mem, gm, wm⟩ j =
                        some (r', (List.range j).map fun i => loss (u + i)) ∧
                    Same (infos layers) (r (u + j)) r' := by
  have m : Made kwargs a ord layers L := ⟨hk, ho, h, hne, hL⟩
  obtain ⟨data, rest, hdt, F, ps, hps⟩ := functions m tr num sup
  refine ⟨data, rest, hdt, F, ps, hps, ?_⟩
  rintro M M' hM alg epochs hooks order describe files s s' evs n he hmon hfiles hs hs2 hc ⟨θ₀, hθ₀⟩ hrun
  obtain rfl := Determined.Reachable.count F.laid hc.state hθ₀
  have K := Trainer.known (M := M) (M' := M') m F hdt hps hM alg he hmon
  have hp := run_plain (fun nm f hf e u logs w => by
    show Trainer.Setting.call _ nm e u logs w = _
    unfold Trainer.Setting.call
    rw [show Dict.get? (trainingOf a layers L data.name (fun T B => libNetwork F (ps M T B)) (fun T B => libNetwork F (ps M' T B)) alg
      epochs hooks).hooks nm = _ from hfiles nm f hf]) hrun
  obtain ⟨rates, r, loss, T⟩ := Trainer.run_tracks K (s := plainSt s) hs hc hp
  have hN : s'.update - s.update = s'.w.1.nr epochs := T.here.nr
  refine ⟨rates, r, loss, fun k hk => (T.plain k (hN ▸ hk)).1, ?_⟩
  intro k f found d p hf hl
  have e := C90_training _ describe Trainer.parameters files order s s' evs hrun
  rw [hs2, List.nil_append] at e
  obtain ⟨q, q1, q2, q3, q4⟩ := C90_one_save s'.w.2 k f found hf d p hl
  rw [e, List.mem_filterMap] at q1
  obtain ⟨⟨y, ev⟩, hx, hq⟩ := q1
  cases ev with
  | batch => simp [savedAt] at hq
  | rolling => simp [savedAt] at hq
  | call sc nm e' u' st v =>
    simp only [savedAt, Option.map_eq_some_iff] at hq
    obtain ⟨f', g1, rfl⟩ := hq
    obtain ⟨t1, t2⟩ := T.past (plainSt y, .call sc nm e' u' st v) (List.mem_map.2 ⟨_, hx, rfl⟩)
    have hcount : y.update = s.update + y.w.1.nr epochs := t1.count
    have hle : y.w.1.nr epochs ≤ s'.update - s.update := by rw [hN]; exact t2
    obtain ⟨hplain, hcan⟩ := T.plain (y.w.1.nr epochs) t2
    have hread : (r (y.w.1.nr epochs)).st.read (str "parameters") = some p := by
      obtain ⟨θ, hθ⟩ := T.params K
      have h0 : (r (y.w.1.nr epochs)).st.read (str "parameters") = y.w.1.run.st.read (str "parameters") := t1.same.parameters
      rw [h0]
      have h1 : y.w.1.run.st.read (str "parameters") = some (List.ofFn (θ (y.w.1.nr epochs))) := t1.same.parameters.symm.trans (hθ _ t2)
      rw [← q4]
      show y.w.1.run.st.read (str "parameters") = some (Trainer.parameters y.w.1)
      unfold Trainer.parameters
      rw [h1]
      rfl
    refine ⟨y.w.1.nr epochs, hle, ⟨_, hx, sc, nm, e', u', st, v, rfl, by rw [g1, ← q2], hcount⟩, hread, fun initial hini => ?_⟩
    obtain ⟨st', f1, f2, f3⟩ := Reload.fromHdf5_some F.laid hini (Reload.param_length F.laid hcan.state hread)
    refine ⟨st', f1, fun gm wm hg hw sg sw j hj => ?_⟩
    have hb : ∀ i, (batchNr epochs i).Good data := fun i => by
      obtain ⟨e, he'⟩ := Trainer.batchNr_mem (fun e => (he e).1) i
      exact (he e).2 _ he'
    have := fun i => Determined.algorithm_follows K.sited K.det (hb (y.w.1.nr epochs + i)) K.reports alg (rates (y.w.1.nr epochs + i)).1
      (rates (y.w.1.nr epochs + i)).2
    choose rule lossf hfo hfun using this
    obtain ⟨t, t', log, h1, h2, -, -, h3⟩ := Determined.train_same K.sited K.sitedQ K.sitedQ K.reports hfo hfun
      (fun i => hb (y.w.1.nr epochs + i)) (evals := fun _ => []) (evals' := fun _ => []) (by simp) (by simp)
      (Determined.CanTrain.fine K.sited.laid hcan)
      (Determined.CanTrain.fine K.sited.laid (r := ⟨st', (r (y.w.1.nr epochs)).mem, gm, wm⟩) ⟨f2, hcan.mem, hg, hw⟩)
      ⟨hread.trans f3.symm, rfl, sg, sw⟩ j
    have h4 := Determined.train_add hplain j h1
    have h5 := (T.plain (y.w.1.nr epochs + j) (by show _ ≤ s'.w.1.nr epochs; omega)).1
    have h6 := h4.symm.trans h5
    simp only [Option.some.injEq, Prod.mk.injEq] at h6
    obtain ⟨rfl, h7⟩ := h6
    refine ⟨t', ?_, h3⟩
    rw [List.range_add, List.map_append, List.append_cancel_left_eq, List.map_map] at h7
    subst h7
    exact h2

end

end Verif.Checkpoint
