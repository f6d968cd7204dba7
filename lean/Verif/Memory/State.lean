import Verif.Memory.Props

/-!
# The memory of C72 is the full buffer of the buffer manager
-/

namespace Verif.Memory

open Verif.Structure Verif.Layout Verif.Buffers

/-- The contents of the full buffer. -/
def memOf (st : State ℝ) : Mem := fun a => match st.full with
  | some b => (block st.heap b).getD a 0
  | none => 0

section
variable {layers : List LayerInfo} {L : Layout}

/-- **C72, views.**  After any sequence of operations, reading an array by its name gives the contents of the full
buffer at the addresses `cells`. -/
theorem C72_read (hL : Laid layers L) (st₀ st : State ℝ) (ops : List (Op ℝ)) (hc : create (netOf layers L) = some st₀)
    (hr : run (netOf layers L) st₀ ops = some st) (n : Name)
    (hn : n ∈ (networkArrays layers).map Prod.fst ∨ n = str "parameters" ∨ n = str "gradients") :
    st.read n = some ((cells (netOf layers L) (lastRequest ops).1 (lastRequest ops).2 n).map (memOf st)) := by
  have hwl := netOf_wellLaid hL.wf hL.shaped hL.layout
  obtain ⟨b, vs, hi⟩ := run_inv hwl hc hr
  have he : ∃ e, Dict.get? (netOf layers L).layout n = some e := by
    rcases hn with hn | rfl | rfl
    · obtain ⟨⟨p, s⟩, hp, rfl⟩ := List.mem_map.1 hn
      cases he : Dict.get? (netOf layers L).layout p with
      | some e => exact ⟨e, rfl⟩
      | none =>
        have := (Dict.get?_eq_none_iff _ _).1 he
        exact absurd (by simp only [Dict.keys, netOf, List.map_cons, List.mem_cons, List.map_map, List.mem_map]
                         exact Or.inr (Or.inr ⟨(p, s), hp, rfl⟩)) this
    · exact ⟨(rootOf L (str "parameters")).2, by simp [netOf, rootOf, Dict.get?]⟩
    · exact ⟨(rootOf L (str "gradients")).2, by
        have h : str "parameters" ≠ str "gradients" := by decide
        simp [netOf, rootOf, Dict.get?, h]⟩
  obtain ⟨e, he⟩ := he
  obtain ⟨v, hv, -⟩ := viewOf_fits (hwl.fits _ (Dict.mem_of_get? he)) (lastRequest ops).1 (lastRequest ops).2
  have hvs : Dict.get? vs n = some v := by rw [get?_createViews hi.created, he]; exact hv
  have e1 : cells (netOf layers L) (lastRequest ops).1 (lastRequest ops).2 n = v.cells := by simp [cells, he, hv]
  have e2 : memOf st = fun a => (block st.heap b).getD a 0 := by funext a; simp [memOf, hi.full]
  rw [e1, e2]
  simp only [State.read, hi.view, hvs, Option.map_some]
  rfl

/-- **C72, clearing.**  `clear_backward_buffers` clears the addresses `backCells` of the full buffer, and no
others. -/
theorem C72_clear (hL : Laid layers L) (st₀ st : State ℝ) (ops : List (Op ℝ)) (hc : create (netOf layers L) = some st₀)
    (hr : run (netOf layers L) st₀ ops = some st) :
    ∃ st', clearBackward (netOf layers L) st = some st' ∧
      memOf st' = clear (backCells (netOf layers L) (lastRequest ops).1 (lastRequest ops).2) (memOf st) := by
  have hwl := netOf_wellLaid hL.wf hL.shaped hL.layout
  obtain ⟨b, vs, hi⟩ := run_inv hwl hc hr
  unfold clearBackward State.onFull
  simp only [hi.full, hi.time, hi.batch]
  refine ⟨_, rfl, ?_⟩
  funext a
  have key := zeroFold (V := ℝ) (P := fun x => x.1.backwardOnly = true)
    (cs := fun x => hubCells (netOf layers L) (lastRequest ops).1 (lastRequest ops).2 x.2 []) (netOf layers L).hubs.zipIdx
    (block st.heap b) a
  have hiff : (∃ x ∈ (netOf layers L).hubs.zipIdx, x.1.backwardOnly = true ∧
      a ∈ hubCells (netOf layers L) (lastRequest ops).1 (lastRequest ops).2 x.2 []) ↔
      a ∈ backCells (netOf layers L) (lastRequest ops).1 (lastRequest ops).2 := by
    constructor
    · rintro ⟨⟨h, k⟩, hx, hb, ha⟩
      obtain ⟨hk, hh⟩ := mem_zipIdx_hubs.1 hx
      exact ⟨k, h, List.getElem?_eq_some_iff.2 ⟨hk, hh⟩, hb, ha⟩
    · rintro ⟨k, h, hk, hb, ha⟩
      obtain ⟨hk', hh⟩ := List.getElem?_eq_some_iff.1 hk
      exact ⟨(h, k), mem_zipIdx_hubs.2 ⟨hk', hh⟩, hb, ha⟩
  simp only [memOf, clear, hi.full, block_set hi.alloc]
  by_cases ha : a ∈ backCells (netOf layers L) (lastRequest ops).1 (lastRequest ops).2
  · rw [if_pos ha]; exact key.1 (hiff.2 ha)
  · rw [if_neg ha]; exact key.2.1 (fun h => ha (hiff.1 h))

end

end Verif.Memory
