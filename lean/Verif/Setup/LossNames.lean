import Verif.Setup.Props
import Verif.Instantiate.Checks
import Verif.Scoring.Props

/-!
# The losses of a network of library layers (C23)
-/

namespace Verif.Setup

open Verif.Structure Verif.Instantiate Verif.Architecture Verif.Scoring

/-- `_get_loss_layers` (network.py:540-541).  The class of a layer is the one its architecture names; no library class
inherits from `LossLayerImpl`. -/
def lossLayers (a : Arch) (layers : Dict Name (LayerObj Kwargs)) : List Name :=
  (Dict.keys layers).filter (fun n => decide (((Dict.get? a n).map (fun d => d.type)) = some (.string (str "Loss"))))

/-- `get_loss_values` (network.py:447-475) of an instantiated network, given the value of the output of each loss layer. -/
def getLossValues {K : Type} [Field K] [LinearOrder K] (a : Arch) (layers : Dict Name (LayerObj Kwargs)) (value : Name → K) : Dict Name K :=
  lossValues ((lossLayers a layers).map (fun n => (n, value n)))

/-- **C23 (networks).** In every network of library layers, `get_loss_values` reports under 'total_loss' the sum of the losses
of all its loss layers.  With one loss layer this is the only entry; otherwise every loss layer also has an entry under its
own name, and nothing else is reported.  No loss layer can be called 'total_loss'. -/
theorem C23_network {K : Type} [Field K] [LinearOrder K] [IsStrictOrderedRing K] (kwargs : Name → Kwargs) (a : Arch) (hk : (Dict.keys a).Nodup) (ord : Orders)
    (ho : ord.Ok) (layers : Dict Name (LayerObj Kwargs)) (h : Instantiates (libEnv kwargs) ord a (.ok layers))
    (value : Name → K) :
    ∃ names : List Name, names.Nodup ∧
      (∀ n, n ∈ names ↔ ∃ d, (n, d) ∈ a ∧ d.type = .string (str "Loss")) ∧ str "total_loss" ∉ names ∧
      getLossValues a layers value = if names.length = 1 then [(str "total_loss", (names.map value).sum)]
        else names.map (fun n => (n, value n)) ++ [(str "total_loss", (names.map value).sum)] := by
  have hI := inst_of (libEnv kwargs) (fun _ _ _ _ _ _ h1 h2 => libEnv_good h1 h2) a hk ord ho layers h
  have hP : (libEnv kwargs).Plain := fun t cls n kw ins sh h1 h2 => (libEnv_good h1 h2).plain
  obtain ⟨order, hord, hkeys, -⟩ := C59_layers (libEnv kwargs) hP a hk ord ho layers h
  have hperm := C04_perm a hk order hord
  have hmem : ∀ n, n ∈ lossLayers a layers ↔ ∃ d, (n, d) ∈ a ∧ d.type = .string (str "Loss") := by
    intro n
    unfold lossLayers
    rw [List.mem_filter, hkeys, hperm.mem_iff]
    constructor
    · rintro ⟨h1, h2⟩
      rw [decide_eq_true_eq, Option.map_eq_some_iff] at h2
      obtain ⟨d, h2, h3⟩ := h2
      exact ⟨d, Dict.mem_of_get? h2, h3⟩
    · rintro ⟨d, h1, h2⟩
      refine ⟨List.mem_map_of_mem (f := Prod.fst) h1, ?_⟩
      rw [Dict.get?_of_mem hk h1, decide_eq_true_eq, Option.map_some, h2]
  have hnd : (lossLayers a layers).Nodup := hI.nodup.filter _
  have hno : str "total_loss" ∉ lossLayers a layers := by
    intro hm
    obtain ⟨d, h1, h2⟩ := (hmem _).1 hm
    have : str "total_loss" ∈ Dict.keys layers := (List.mem_filter.1 hm).1
    obtain ⟨l, hl⟩ := Option.isSome_iff_exists.1 ((Dict.mem_keys_iff _ _).1 this)
    obtain ⟨d', t, cls, e1, e2, e3, -, e4⟩ := C59_acceptable (libEnv kwargs) a hk ord layers h _ l hl
    rw [Dict.get?_of_mem hk h1] at e1
    cases e1
    rw [h2] at e2
    cases e2
    have hc : (libEnv kwargs).classOf (str "Loss" ++ str "LayerImpl") = some loss.toClass := rfl
    rw [hc] at e3
    cases e3
    simp only [DeclClass.toClass, loss, if_true] at e4
    cases hin : inp l.inShapes (str "default") with
    | none => rw [hin] at e4; cases e4
    | some x => rw [hin] at e4; cases e4
  refine ⟨_, hnd, hmem, hno, ?_⟩
  unfold getLossValues
  rw [C23_loss_values _ (by rw [List.map_map]; simpa [Function.comp_def] using hnd)
    (by rw [List.map_map]; simpa [Function.comp_def] using hno)]
  simp only [List.length_map, List.map_map, Function.comp_def]

/-- The classifier of `Setup/Props` has one loss layer. -/
example : ((match instantiateFuel 8 (libEnv demoKwargs) (demoOrders true) demoArch with
    | some (.ok ls) => some (getLossValues (K := ℚ) demoArch ls (fun _ => 3))
    | _ => none)) = some [(str "total_loss", 3)] := by
  decide +kernel

end Verif.Setup
