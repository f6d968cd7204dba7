import Verif.Session.Spec
import Verif.Buffers.ForwardProps
import Verif.Memory.Slots

/-! # Proofs for C77: passes and assignments, and the memory -/

namespace Verif.Session

open Verif.Structure Verif.Layout Verif.Buffers Verif.Memory

section
variable {net : Net} {st : State ℝ} {T B sz b : ℕ} {vs : List (Name × View)}

theorem memOf_eq (h : Inv net st T B sz b vs) (c : ℕ) : memOf st c = (block st.heap b).getD c 0 := by
  simp [memOf, h.full]

/-- Changing the full buffer. -/
theorem onFull_inv (h : Inv net st T B sz b vs) {f : ℕ → ℕ → List ℝ → List ℝ}
    (hf : ∀ m, (f T B m).length = m.length) :
    ∃ st', st.onFull f = some st' ∧ Inv net st' T B sz b vs ∧ ∀ c, memOf st' c = (f T B (block st.heap b)).getD c 0 := by
  refine ⟨{ st with heap := st.heap.set b (f T B (block st.heap b)) }, ?_, h.withHeap (by rw [hf, h.len]), fun c => ?_⟩
  · simp [State.onFull, h.full, h.time, h.batch]
  · rw [memOf_eq (h.withHeap (by rw [hf, h.len]))]
    simp [block_set h.alloc]

theorem onMemory_inv (h : Inv net st T B sz b vs) (rnd : ℕ → ℝ) (f : ℕ → ℕ → Mem → Mem) :
    ∃ st', onMemory net rnd f st = some st' ∧ Inv net st' T B sz b vs ∧
      ∀ c < total net T B, memOf st' c = f T B (seen net T B rnd (memOf st)) c := by
  obtain ⟨st', h1, h2, h3⟩ := onFull_inv h (f := fun T B m => m.mapIdx fun c x => if c < total net T B then
    f T B (seen net T B rnd fun c => m.getD c 0) c else x) (by simp)
  refine ⟨st', h1, h2, fun c hc => ?_⟩
  have e : (fun c => (block st.heap b).getD c 0) = memOf st := funext fun c => (memOf_eq h c).symm
  have hl : c < (block st.heap b).length := by
    have := h.enough
    rw [h.len]
    exact lt_of_lt_of_le hc this
  rw [h3, e]
  simp [List.getD_eq_getElem?_getD, List.getElem?_mapIdx, List.getElem?_eq_getElem hl, hc]

/-- The rows that `clear_context` clears. -/
def contextRows (net : Net) (T B : ℕ) : Set ℕ :=
  { c | ∃ k h, net.hubs[k]? = some h ∧ (h.btype = 2 ∧ h.ctx ≠ 0) ∧ c ∈ hubCells net T B k [(clearStart T h.ctx, T + h.ctx)] }

theorem clearContext_inv (h : Inv net st T B sz b vs) :
    ∃ st', clearContext net st = some st' ∧ Inv net st' T B sz b vs ∧
      memOf st' = clear (contextRows net T B) (memOf st) := by
  have key := fun m c => zeroFold (V := ℝ) (P := fun x => x.1.btype = 2 ∧ x.1.ctx ≠ 0)
    (cs := fun x => hubCells net T B x.2 [(clearStart T x.1.ctx, T + x.1.ctx)]) net.hubs.zipIdx m c
  obtain ⟨st', h1, h2, h3⟩ := onFull_inv h (f := fun T B m => net.hubs.zipIdx.foldl (fun m (hk : HubInfo × ℕ) =>
    if hk.1.btype = 2 ∧ hk.1.ctx ≠ 0 then
      zeroCells m (hubCells net T B hk.2 [(clearStart T hk.1.ctx, T + hk.1.ctx)])
    else m) m) (fun m => (key m 0).2.2)
  refine ⟨st', h1, h2, funext fun c => ?_⟩
  have hiff : (∃ x ∈ net.hubs.zipIdx, (x.1.btype = 2 ∧ x.1.ctx ≠ 0) ∧
      c ∈ hubCells net T B x.2 [(clearStart T x.1.ctx, T + x.1.ctx)]) ↔ c ∈ contextRows net T B := by
    constructor
    · rintro ⟨⟨h, k⟩, hx, hb, ha⟩
      obtain ⟨hk, hh⟩ := mem_zipIdx_hubs.1 hx
      exact ⟨k, h, List.getElem?_eq_some_iff.2 ⟨hk, hh⟩, hb, ha⟩
    · rintro ⟨k, h, hk, hb, ha⟩
      obtain ⟨hk', hh⟩ := List.getElem?_eq_some_iff.1 hk
      exact ⟨(h, k), mem_zipIdx_hubs.2 ⟨hk', hh⟩, hb, ha⟩
  rw [h3]
  unfold clear
  by_cases hc : c ∈ contextRows net T B
  · rw [if_pos hc]; exact (key _ c).1 (hiff.2 hc)
  · rw [if_neg hc, memOf_eq h]; exact (key _ c).2.1 fun h' => hc (hiff.1 h')

theorem clearBackward_inv (h : Inv net st T B sz b vs) :
    ∃ st', clearBackward net st = some st' ∧ Inv net st' T B sz b vs ∧
      memOf st' = clear (backCells net T B) (memOf st) := by
  have key := fun m c => zeroFold (V := ℝ) (P := fun x => x.1.backwardOnly = true)
    (cs := fun x => hubCells net T B x.2 []) net.hubs.zipIdx m c
  obtain ⟨st', h1, h2, h3⟩ := onFull_inv h (f := fun T B m => net.hubs.zipIdx.foldl (fun m (hk : HubInfo × ℕ) =>
    if hk.1.backwardOnly then zeroCells m (hubCells net T B hk.2 []) else m) m) (fun m => (key m 0).2.2)
  refine ⟨st', h1, h2, funext fun c => ?_⟩
  have hiff : (∃ x ∈ net.hubs.zipIdx, x.1.backwardOnly = true ∧ c ∈ hubCells net T B x.2 []) ↔ c ∈ backCells net T B := by
    constructor
    · rintro ⟨⟨h, k⟩, hx, hb, ha⟩
      obtain ⟨hk, hh⟩ := mem_zipIdx_hubs.1 hx
      exact ⟨k, h, List.getElem?_eq_some_iff.2 ⟨hk, hh⟩, hb, ha⟩
    · rintro ⟨k, h, hk, hb, ha⟩
      obtain ⟨hk', hh⟩ := List.getElem?_eq_some_iff.1 hk
      exact ⟨(h, k), mem_zipIdx_hubs.2 ⟨hk', hh⟩, hb, ha⟩
  rw [h3]
  unfold clear
  by_cases hc : c ∈ backCells net T B
  · rw [if_pos hc]; exact (key _ c).1 (hiff.2 hc)
  · rw [if_neg hc, memOf_eq h]; exact (key _ c).2.1 fun h' => hc (hiff.1 h')

/-- The memory that the layers find at the beginning of a forward pass. -/
noncomputable def before (net : Net) (T B : ℕ) (rnd : ℕ → ℝ) (st : State ℝ) : Mem :=
  seen net T B rnd (clear (contextRows net T B) (memOf st))

theorem forwardPass_inv (h : Inv net st T B sz b vs) (P : ℕ → ℕ → List MLayer) (rnd : ℕ → ℝ) :
    ∃ st', forwardPass net P rnd st = some st' ∧ Inv net st' T B sz b vs ∧
      ∀ c < total net T B, memOf st' c = forward (P T B) (before net T B rnd st) c := by
  obtain ⟨st₁, h1, h2, h3⟩ := clearContext_inv h
  obtain ⟨st₂, h4, h5, h6⟩ := onMemory_inv h2 rnd fun T B => forward (P T B)
  refine ⟨st₂, by simp [forwardPass, h1, h4], h5, fun c hc => ?_⟩
  rw [h6 c hc, h3]
  rfl

theorem backwardPass_inv (h : Inv net st T B sz b vs) (P : ℕ → ℕ → List MLayer) (rnd : ℕ → ℝ) {m : Mem}
    (hm : ∀ c < total net T B, memOf st c = m c) (hr : ∀ c, total net T B ≤ c → m c = rnd (c - total net T B))
    (hb : ∀ c ∈ backCells net T B, c < total net T B) :
    ∃ st', backwardPass net P rnd st = some st' ∧ Inv net st' T B sz b vs ∧
      ∀ c < total net T B, memOf st' c = backward (backCells net T B) (P T B) m c := by
  obtain ⟨st₁, h1, h2, h3⟩ := clearBackward_inv h
  obtain ⟨st₂, h4, h5, h6⟩ := onMemory_inv h2 rnd fun T B m => (P T B).reverse.foldl (fun m l => l.bwd m) m
  refine ⟨st₂, by unfold backwardPass; rw [h1]; exact h4, h5, fun c hc => ?_⟩
  rw [h6 c hc, h3]
  have : seen net T B rnd (clear (backCells net T B) (memOf st)) = clear (backCells net T B) m := by
    funext c
    unfold seen clear
    by_cases hc : c < total net T B
    · rw [if_pos hc, hm c hc]
    · rw [if_neg hc, if_neg (fun h => hc (hb c h)), hr c (by omega)]
  rw [this]
  rfl

end

section
variable {layers : List LayerInfo} {L : Layout} {T B sz b : ℕ} {vs : List (Name × View)} {st : State ℝ}

/-- Reading an array. -/
theorem read_inv (hL : Laid layers L) (h : Inv (netOf layers L) st T B sz b vs) {n : Name} {e : ArrayEntry}
    (he : Dict.get? (netOf layers L).layout n = some e) :
    st.read n = some ((cells (netOf layers L) T B n).map (memOf st)) := by
  have hwl := netOf_wellLaid hL.wf hL.shaped hL.layout
  obtain ⟨v, hv, -⟩ := viewOf_fits (hwl.fits _ (Dict.mem_of_get? he)) T B
  have e1 : cells (netOf layers L) T B n = v.cells := by simp [cells, he, hv]
  have e2 : memOf st = fun a => (block st.heap b).getD a 0 := funext (memOf_eq h)
  rw [h.read, e1, e2, he]
  simp [hv, readCells]

theorem params_entry : ∃ e, Dict.get? (netOf layers L).layout (str "parameters") = some e :=
  ⟨(rootOf L (str "parameters")).2, by simp [netOf, rootOf, Dict.get?]⟩

theorem grads_entry : ∃ e, Dict.get? (netOf layers L).layout (str "gradients") = some e :=
  ⟨(rootOf L (str "gradients")).2, by
    have h : str "parameters" ≠ str "gradients" := by decide
    simp [netOf, rootOf, Dict.get?, h]⟩

/-- Assigning to an array. -/
theorem write_inv (hL : Laid layers L) (h : Inv (netOf layers L) st T B sz b vs) {n : Name} {e : ArrayEntry}
    (he : Dict.get? (netOf layers L).layout n = some e) {vals : List ℝ}
    (hl : (cells (netOf layers L) T B n).length = vals.length) :
    ∃ st', st.write n vals = some st' ∧ Inv (netOf layers L) st' T B sz b vs ∧ st'.read n = some vals ∧
      ∀ c, c ∉ cells (netOf layers L) T B n → memOf st' c = memOf st c := by
  have hwl := netOf_wellLaid hL.wf hL.shaped hL.layout
  obtain ⟨v, hv, -⟩ := viewOf_fits (hwl.fits _ (Dict.mem_of_get? he)) T B
  have hvs : Dict.get? vs n = some v := by rw [get?_createViews h.created, he]; exact hv
  have e1 : cells (netOf layers L) T B n = v.cells := by simp [cells, he, hv]
  obtain ⟨st', h1, h2, h3, h4⟩ := h.write hvs (by rw [← e1]; exact hl)
  refine ⟨st', h1, h2, h3, fun c hc => ?_⟩
  rw [memOf_eq h2, memOf_eq h, h4, getD_writeCells_of_not _ _ (by rw [← e1]; exact hc)]

/-- The number of parameters does not depend on the sizes. -/
theorem params_length (hL : Laid layers L) (T B T' B' : ℕ) :
    (cells (netOf layers L) T B (str "parameters")).length = (cells (netOf layers L) T' B' (str "parameters")).length := by
  have hwl := netOf_wellLaid hL.wf hL.shaped hL.layout
  obtain ⟨e, he, hpv⟩ := hwl.paramView
  have key : ∀ T B, (cells (netOf layers L) T B (str "parameters")).length = e.slice.2 - e.slice.1 := by
    intro T B
    obtain ⟨vs, hvs⟩ := createViews_some (T := T) (B := B) hwl.fits
    obtain ⟨v, -, hv, hl⟩ := hpv T B vs hvs
    simp [cells, he, hv, hl]
  rw [key, key]

/-- Parameters of layers are parameters of the network. -/
theorem root_of_par (hL : Laid layers L) {l : LayerInfo} (hl : l ∈ layers) {x : Name} {s : Struct} (hx : (x, s) ∈ l.paramShapes)
    {c : ℕ} (hc : c ∈ cells (netOf layers L) T B (path l.name (str "parameters") x)) :
    c ∈ cells (netOf layers L) T B (str "parameters") := by
  obtain ⟨hp, hg, n, hrp, -, hal, -⟩ := aligned layers hL.wf L hL.layout
  obtain ⟨lo, hlo, -, hle⟩ := hal l hl (x, s) hx
  obtain ⟨e, he⟩ := cells_entry hc
  obtain ⟨h, hE⟩ := hL.entry (T := T) (B := B) he
  have he' : Dict.get? (netOf layers L).layout (str "parameters") = some (rootOf L (str "parameters")).2 := by
    simp [netOf, rootOf, Dict.get?]
  obtain ⟨h', hE'⟩ := hL.entry (T := T) (B := B) he'
  obtain ⟨e1, e2⟩ := layout_hub he hlo
  obtain ⟨row, f, h1, h2, h3, rfl⟩ := (hE.mem c).1 hc
  have hst := netOf_struct hL.wf (array_get hL.wf hl (by simp [layerCats]) hx) he
  have hb := hL.shaped.params l hl _ hx
  have hrow : row = 0 := by
    have : rows e.struct T B = 1 := by
      simp [rows, hst, show s.bufferType = 0 from hb]
    omega
  have hroot : (rootOf L (str "parameters")).2.hub = hp ∧ (rootOf L (str "parameters")).2.slice = (0, n) := by
    simp [rootOf, hrp]
  have hh : h = h' := by
    have a1 := hE.hub
    have a2 := hE'.hub
    rw [e1] at a1
    rw [hroot.1, a1] at a2
    exact Option.some.inj a2
  refine (hE'.mem _).2 ⟨0, f, ?_, ?_, ?_, ?_⟩
  · have : (rootOf L (str "parameters")).2.struct.bufferType = 0 := by simp [rootOf, Struct.bufferType, typeOf]
    simp [rows, this]
  · rw [hroot.2]; exact Nat.zero_le _
  · rw [hroot.2]; rw [e2] at h3; exact lt_of_lt_of_le h3 hle
  · rw [hroot.1, e1, hrow, hh]

end

end Verif.Session
