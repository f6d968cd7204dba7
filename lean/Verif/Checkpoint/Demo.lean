import Verif.Checkpoint.Resume
import Verif.Reload.Demo

/-!
# The assumptions of C90_resume are met
-/

namespace Verif.Checkpoint

open Verif.Architecture hiding demoArch
open Verif.Structure Verif.Layout Verif.Buffers Verif.Instantiate Verif.EndToEnd
open Verif.Memory hiding demoL
open Verif.Setup (Kwargs libEnv infos toInfo inp_some)
open Verif.Session
open Verif.Determined
open Verif.Reload (fromHdf5 zeros zeros_initial)
open Verif.Trainer (World LibHook Fresh trainingOf batchNr)
open Verif.Training (Env Hook Val Logs Res Event St)

/-- A network with a dropout layer and any 35 parameters is trained with two batches and saved after the first; then the process is killed.
All assumptions of `C90_resume` are met, the file can be loaded, and a network is made from it. -/
example (M M' : Mode) (hM : M.training = true) (lr : ℝ) (θ₀ : Fin 35 → ℝ) :
    ∃ data rest, HasType dropArch data.name (str "Input") ∧ ∃ F : Memory.Fits (infos dropLayers) dropL data rest,
      ∃ ps : Mode → ∀ T B, ∀ l ∈ rest, LibLayer (infos dropLayers) data l T B,
      ∀ epochs : ℕ → List Batch, (∀ e, epochs e ≠ [] ∧ ∀ b ∈ epochs e, b.Good data) →
        ∃ (s s' : St (World Unit × List (Save String (List ℝ))) ℝ) (evs : _) (found : _) (p : List ℝ) (st' : State ℝ),
          Training.Run (withSaves (trainingOf dropArch dropLayers dropL data.name (fun T B => libNetwork F (ps M T B))
            (fun T B => libNetwork F (ps M' T B)) .sgd epochs [(str "save", .watch fun _ _ _ _ => .value .none)]).env (fun _ => some "net")
            Trainer.parameters [(str "save", str "file")]) [⟨str "save", false, 1⟩] s evs s' ∧ s.update = 0 ∧ s'.update = 2 ∧
          Found (crash (fun _ => none) s'.w.2 6) (str "file") found ∧ found.bind load = some ("net", p) ∧
          fromHdf5 (netOf (infos dropLayers) dropL) (zeros (infos dropLayers)) p = some st' := by
  obtain ⟨data, rest, hdt, F, ps, hps, h⟩ := C90_resume (D := String) dropKwargs dropArch (by decide +kernel) (demoOrders true) (demoOrders_ok true)
    dropLayers drop_instantiates drop_outs dropL drop_layout drop_trainable drop_numeric drop_supported
  refine ⟨data, rest, hdt, F, ps, fun epochs he => ?_⟩
  obtain ⟨st, hst, hθ⟩ := drop_new θ₀
  have good : ∀ g, Constrained.Mods.Good [] g (infos dropLayers) := fun g => ⟨by simp [Dict.keys], by simp⟩
  obtain ⟨Z, hZ⟩ : ∃ Z, Z = trainingOf dropArch dropLayers dropL data.name (fun T B => libNetwork F (ps M T B))
    (fun T B => libNetwork F (ps M' T B)) .sgd epochs [(str "save", .watch fun _ _ _ _ => .value .none)] := ⟨_, rfl⟩
  obtain ⟨w₀, hw₀⟩ : ∃ w₀ : World Unit, w₀ = ⟨⟨st, (), [], []⟩, lr, 0, 0, 0, [], fun _ => ⟨0, none, none⟩, false⟩ := ⟨_, rfl⟩
  have hf : Fresh w₀ := by subst hw₀; exact ⟨rfl, ⟨rfl, rfl⟩, rfl⟩
  have hc : CanTrain (infos dropLayers) (netOf (infos dropLayers) dropL) (Algorithm.Ok 35 .sgd) w₀.run := by
    subst hw₀
    exact ⟨hst, trivial, good _, good _⟩
  have hp : w₀.run.st.read (str "parameters") = some (List.ofFn θ₀) := by subst hw₀; exact hθ
  have hrun : ∃ evs s', Training.Run (withSaves Z.env (fun _ => some "net") Trainer.parameters [(str "save", str "file")])
      [⟨str "save", false, 1⟩] ⟨(w₀, []), [], 0, 0, []⟩ evs s' ∧ s'.update = 2 ∧
      s'.w.2 = [⟨str "file", some "net", Trainer.parameters (Z.env.step w₀)⟩] :=
    ⟨_, _, .cons _ _ _ _ _ (.batch _) (.cons _ _ _ _ _ (.call _ ⟨str "save", false, 1⟩ _ false .none [] (by simp) rfl rfl)
      (.cons _ _ _ _ _ (.batch _) (.nil _))), rfl, rfl⟩
  obtain ⟨evs, s', hrun, hu, hs2⟩ := hrun
  have hfound : Found (crash (fun _ => none) s'.w.2 6) (str "file")
      (some [.info, .format, .description "net", .parameters (Trainer.parameters (Z.env.step w₀))]) := by
    rw [hs2]
    unfold Found
    rw [show crash (fun _ => none) _ 6 (str "file") = some ⟨[.info, .format, .description "net",
      .parameters (Trainer.parameters (Z.env.step w₀))], true⟩ from rfl]
    rfl
  have hload : (some [Entry.info, .format, .description "net", .parameters (Trainer.parameters (Z.env.step w₀))]).bind load =
    some ("net", Trainer.parameters (Z.env.step w₀)) := rfl
  subst hZ
  obtain ⟨rates, r, loss, -, h2⟩ := h M M' (.inl hM) .sgd epochs [(str "save", .watch fun _ _ _ _ => .value .none)] [⟨str "save", false, 1⟩]
    (fun _ => some "net") [(str "save", str "file")] ⟨(w₀, []), [], 0, 0, []⟩ s' evs 35 he
    (by intro nm dt sc hg; have := Dict.mem_of_get? hg; simp at this)
    (by
      intro nm f hg
      have := Dict.mem_of_get? hg
      simp only [List.mem_singleton, Prod.mk.injEq] at this
      obtain ⟨rfl, rfl⟩ := this
      rfl) hf rfl hc ⟨θ₀, hp⟩ hrun
  obtain ⟨u, -, -, -, h3⟩ := h2 _ _ _ _ _ hfound hload
  obtain ⟨st', h4, -⟩ := h3 _ (zeros_initial _)
  exact ⟨_, _, _, _, _, st', hrun, rfl, hu, hfound, hload, h4⟩

end Verif.Checkpoint
