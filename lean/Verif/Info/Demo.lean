import Verif.Info.Props
import Verif.Determined.Demo

/-!
# The assumptions of C91 are met
-/

namespace Verif.Info

open Verif.Structure Verif.Layout Verif.Buffers Verif.Instantiate Verif.Architecture Verif.Determined Verif.EndToEnd
open Verif.Setup (Kwargs libEnv infos toInfo)

theorem counts_eq {K : Type} {ls : List (LayerObj K)} {rs : List LayerReport} (h : List.Forall₂ Right ls rs) :
    rs.map LayerReport.count = ls.map fun l => (l.shapes.params.map fun e => (declared e.2).prod).sum := by
  induction h with
  | nil => rfl
  | cons h1 _ ih => simp only [List.map_cons, ih, h1.count]

/-- A network with a clockwork and a fully connected layer, after data for 5 time steps and 3 sequences was provided, with the
names of the parameters in reverse order: 27 parameters in the one and 8 in the other. -/
example : ∃ st₀ st : State ℝ, create (netOf (infos dropLayers) dropL) = some st₀ ∧
    run (netOf (infos dropLayers) dropL) st₀ [.provide 5 3 []] = some st ∧
    ∃ rs, getNetworkInfo (fun n => (((Dict.get? dropLayers n).map fun l => l.shapes.params.map Prod.fst).getD []).reverse) dropLayers st =
      some (35, rs) ∧ rs.map LayerReport.count = [0, 27, 8, 0, 0, 0] := by
  obtain ⟨hwf, hsh⟩ := Setup.C63_ready dropKwargs dropArch (by decide +kernel) (demoOrders true) (demoOrders_ok true) dropLayers drop_instantiates
  obtain ⟨⟨st₀, h0⟩, h1⟩ := C15_total (V := ℝ) _ (netOf_wellLaid hwf (hsh drop_outs) drop_layout)
  obtain ⟨st, h2⟩ := (h1 st₀ st₀ [] h0 rfl).1 5 3
  have h3 : run (netOf (infos dropLayers) dropL) st₀ [.provide 5 3 []] = some st := by simp [run, h2]
  have hn : ∀ x ∈ dropLayers, x.2.name = x.1 := by decide +kernel
  obtain ⟨n, rs, θ, g1, g2, -, -, g3⟩ := C91_info ℝ dropKwargs dropArch (by decide +kernel) (demoOrders true) (demoOrders_ok true) dropLayers
    drop_instantiates (by
      have : ∀ l ∈ infos dropLayers, l.name ≠ str "parameters" ∧ l.name ≠ str "gradients" := by decide +kernel
      exact this) drop_outs dropL drop_layout st₀ st _ h0 h3
    (fun n => (((Dict.get? dropLayers n).map fun l => l.shapes.params.map Prod.fst).getD []).reverse) (by
      intro n l hl
      rw [hn _ (Dict.mem_of_get? hl)]
      simp only [hl, Option.map_some, Option.getD_some]
      exact List.reverse_perm _)
  have hc : rs.map LayerReport.count = [0, 27, 8, 0, 0, 0] := by rw [counts_eq g2]; decide +kernel
  rw [hc] at g3
  have : n = 35 := g3.symm
  subst this
  exact ⟨st₀, st, h0, h3, rs, g1, hc⟩

end Verif.Info
