import Verif.Locality.Props
import Verif.Determined.Demo

/-!
# The assumptions of C92 are met

The network of Verif/Determined/Demo.lean: the input goes to a ClockworkRnn layer `Rnn`, then to a FullyConnected layer `Out`, a Dropout layer
`Drop` and a SquaredError layer `SE`, which has the targets.
-/

namespace Verif.Locality

open Verif.Architecture hiding demoArch
open Verif.Structure Verif.Layout Verif.Buffers Verif.Instantiate Verif.EndToEnd
open Verif.Memory hiding demoL Feeds
open Verif.Setup (Kwargs libEnv infos toInfo inp_some)
open Verif.Session
open Verif.Determined

theorem upstream_in (P : List Name) (hP : ∀ c ∈ dropConns, c.endLayer ∈ P → c.startLayer ∈ P) {k n : Name} (hn : n ∈ P)
    (h : Upstream dropArch k n) : k ∈ P := by
  induction h using Relation.ReflTransGen.head_induction_on with
  | refl => exact hn
  | head h _ ih =>
    obtain ⟨c, hc, rfl, rfl⟩ := h
    exact hP c ((drop_conns c).1 hc) ih

theorem drop_input {n : Name} (h : HasType dropArch n (str "Input")) : n = str "Input" := by
  rw [drop_types] at h
  have e : ∀ x : Name × Name, x ∈ [(str "Input", str "Input"), (str "Rnn", str "Clockwork"),
    (str "Out", str "FullyConnected"), (str "Drop", str "Dropout"), (str "SE", str "SquaredError"), (str "Loss", str "Loss")] →
      x.2 = str "Input" → x.1 = str "Input" := by decide +kernel
  exact e (n, _) h rfl

/-- What is predicted does not depend on the targets: two batches with the same input and any targets. -/
example (st : State ℝ) (hst : Reachable (netOf (infos dropLayers) dropL) st) (M : Mode) (T B : ℕ) (rnd : ℕ → ℝ) (x t t' : List ℝ) :
    ∃ data rest, data.name = str "Input" ∧ ∃ F : Memory.Fits (infos dropLayers) dropL data rest,
      ∃ ps : Mode → ∀ T B, ∀ l ∈ rest, LibLayer (infos dropLayers) data l T B,
      ((Batch.mk T B [(str "default", x), (str "targets", t)] rnd).Good data →
       (Batch.mk T B [(str "default", x), (str "targets", t')] rnd).Good data → ∃ st₁ st₂ st₁' st₂',
        provide (netOf (infos dropLayers) dropL) (str "Input") ⟨T, B, [(str "default", x), (str "targets", t)], rnd⟩ st = some st₁ ∧
        forwardPass (netOf (infos dropLayers) dropL) (fun T B => libNetwork F (ps M T B)) rnd st₁ = some st₂ ∧
        provide (netOf (infos dropLayers) dropL) (str "Input") ⟨T, B, [(str "default", x), (str "targets", t')], rnd⟩ st = some st₁' ∧
        forwardPass (netOf (infos dropLayers) dropL) (fun T B => libNetwork F (ps M T B)) rnd st₁' = some st₂' ∧
        ∃ xs, st₂.read (str "SE.outputs.predictions") = some xs ∧ st₂'.read (str "SE.outputs.predictions") = some xs) := by
  obtain ⟨data, rest, hdt, F, ps, -, h⟩ := C92_predictions dropKwargs dropArch (by decide +kernel) (demoOrders true) (demoOrders_ok true)
    dropLayers drop_instantiates drop_outs dropL drop_layout drop_trainable drop_numeric drop_supported
  have hn := drop_input hdt
  refine ⟨data, rest, hn, F, ps, fun hb hb' => ?_⟩
  obtain ⟨st₁, st₂, st₁', st₂', p1, p2, p1', p2', e⟩ := h st st hst hst M _ _ hb hb' rfl rfl rfl
  rw [hn] at p1 p1' e
  refine ⟨st₁, st₂, st₁', st₂', p1, p2, p1', p2', ?_⟩
  have hname : (toInfo ((Dict.get? dropLayers (str "SE")).get (by decide +kernel))).name = str "SE" := by decide +kernel
  have h1 := e (toInfo ((Dict.get? dropLayers (str "SE")).get (by decide +kernel))) (by decide +kernel) (by decide +kernel)
    (fun _ _ _ _ _ _ => rfl) ?_ (by decide +kernel)
  · rw [hname] at h1
    exact h1
  · rw [hname]
    intro c hc hs hto xs
    have hc' := (drop_conns c).1 hc
    have key : c.outputName = str "default" := by
      have h2 : ∀ c ∈ dropConns, c.startLayer = str "Input" →
          (c.endLayer = str "SE" ∧ c.inputName = str "default") ∨ c.endLayer ∈ [str "Input", str "Rnn", str "Out", str "Drop"] →
          c.outputName = str "default" := by decide +kernel
      refine h2 c hc' hs (hto.imp id ?_)
      rintro ⟨e, he, hup, h3, h4⟩
      refine upstream_in _ (by decide +kernel) ?_ hup
      have h5 : ∀ c ∈ dropConns, c.endLayer = str "SE" → c.inputName = str "default" →
        c.startLayer ∈ [str "Input", str "Rnn", str "Out", str "Drop"] := by decide +kernel
      exact h5 e ((drop_conns e).1 he) h3 h4
    rw [key]
    have hne : str "default" ≠ str "targets" := by decide
    simp [hne]

/-- The outputs of `Rnn` do not depend on the parameters of `Out`: two networks in which the parameters of `Rnn` are the same. -/
example (st st' : State ℝ) (hst : Reachable (netOf (infos dropLayers) dropL) st) (hst' : Reachable (netOf (infos dropLayers) dropL) st')
    (hs : ∀ x, st.read (path (str "Rnn") (str "parameters") x) = st'.read (path (str "Rnn") (str "parameters") x)) (M : Mode) :
    ∃ data rest, data.name = str "Input" ∧ ∃ F : Memory.Fits (infos dropLayers) dropL data rest,
      ∃ ps : Mode → ∀ T B, ∀ l ∈ rest, LibLayer (infos dropLayers) data l T B, ∀ b : Batch, b.Good data → ∃ st₁ st₂ st₁' st₂',
        provide (netOf (infos dropLayers) dropL) (str "Input") b st = some st₁ ∧
        forwardPass (netOf (infos dropLayers) dropL) (fun T B => libNetwork F (ps M T B)) b.rnd st₁ = some st₂ ∧
        provide (netOf (infos dropLayers) dropL) (str "Input") b st' = some st₁' ∧
        forwardPass (netOf (infos dropLayers) dropL) (fun T B => libNetwork F (ps M T B)) b.rnd st₁' = some st₂' ∧
        ∃ xs, st₂.read (str "Rnn.outputs.default") = some xs ∧ st₂'.read (str "Rnn.outputs.default") = some xs := by
  obtain ⟨data, rest, hdt, F, ps, -, h⟩ := C92_locality dropKwargs dropArch (by decide +kernel) (demoOrders true) (demoOrders_ok true)
    dropLayers drop_instantiates drop_outs dropL drop_layout drop_trainable drop_numeric drop_supported
  have hn := drop_input hdt
  refine ⟨data, rest, hn, F, ps, fun b hb => ?_⟩
  obtain ⟨st₁, st₂, st₁', st₂', p1, p2, p1', p2', e⟩ := h st st' hst hst' M b b hb hb rfl rfl rfl
  rw [hn] at p1 p1' e
  refine ⟨st₁, st₂, st₁', st₂', p1, p2, p1', p2', ?_⟩
  have hname : (toInfo ((Dict.get? dropLayers (str "Rnn")).get (by decide +kernel))).name = str "Rnn" := by decide +kernel
  have h1 := e (toInfo ((Dict.get? dropLayers (str "Rnn")).get (by decide +kernel))) (by decide +kernel) (by decide +kernel)
    ?_ (fun _ _ _ _ _ => Iff.rfl) (str "default") ⟨[.T, .B, .n 3], 1, false⟩ (by decide +kernel)
  · rw [hname] at h1
    exact h1
  · rw [hname]
    intro k hk hup x s hx
    have hk' := upstream_in [str "Input", str "Rnn"] (by decide +kernel) (by decide) hup
    have hp : ∀ k ∈ infos dropLayers, k.name = str "Input" → k.paramShapes = [] := by decide +kernel
    simp only [List.mem_cons, List.not_mem_nil, or_false] at hk'
    rcases hk' with hk' | hk'
    · rw [hp k hk hk'] at hx; cases hx
    · rw [hk']; exact hs x

/-- There are two such networks in which the parameters of `Out` differ: the 35 parameters are laid out so that those of `Rnn` are not all of
them. -/
example : ((infos dropLayers).map fun l => (l.paramShapes.map fun e => e.2.featureSize).sum) = [0, 27, 8, 0, 0, 0] := by decide +kernel

end Verif.Locality
