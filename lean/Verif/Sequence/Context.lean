import Verif.Sequence.Model
import Verif.Sequence.Cells
import Verif.Buffers.ContextProps

/-!
# C78: the context is handed over
-/

namespace Verif.Sequence

open Verif.Structure Verif.Layout Verif.Buffers Verif.Memory
open Verif.Session

theorem mapM_some {α β : Type} {f : α → Option β} {g : α → β} : ∀ {l : List α}, (∀ x ∈ l, f x = some (g x)) → l.mapM f = some (l.map g)
  | [], _ => rfl
  | a :: l, h => by
    rw [List.mapM_cons, h a List.mem_cons_self, mapM_some fun x hx => h x (List.mem_cons_of_mem _ hx)]
    rfl

theorem applyLoop_some (net : Net) (T B : ℕ) : ∀ (l : List (Option (List ℝ) × HubInfo × ℕ)) (m : List ℝ),
    (∀ c h k, (some c, h, k) ∈ l → (hubCells net T B k [(T, T + h.ctx)]).length = c.length) → ∃ m', applyLoop net T B l m = some m'
  | [], m, _ => ⟨m, rfl⟩
  | (none, h, k) :: l, m, hl => applyLoop_some net T B l m fun c h k hc => hl c h k (List.mem_cons_of_mem _ hc)
  | (some c, h, k) :: l, m, hl => by
    obtain ⟨m', hm'⟩ := applyLoop_some net T B l (writeCells m (hubCells net T B k [(T, T + h.ctx)]) c)
      fun c h k hc => hl c h k (List.mem_cons_of_mem _ hc)
    exact ⟨m', by simp [applyLoop, applyOne, hl c h k List.mem_cons_self, hm']⟩

theorem applyLoop_other (net : Net) (T B : ℕ) : ∀ (l : List (Option (List ℝ) × HubInfo × ℕ)) (m m' : List ℝ),
    applyLoop net T B l m = some m' → ∀ c, (∀ o h k, (some o, h, k) ∈ l → c ∉ hubCells net T B k [(T, T + h.ctx)]) →
    m'.getD c 0 = m.getD c 0
  | [], m, m', h, c, _ => by
    simp only [applyLoop, Option.some.injEq] at h
    rw [h]
  | (none, h, k) :: l, m, m', hl, c, hc => applyLoop_other net T B l m m' hl c fun o h k hm => hc o h k (List.mem_cons_of_mem _ hm)
  | (some o, h, k) :: l, m, m', hl, c, hc => by
    simp only [applyLoop] at hl
    split at hl
    · cases hl
    · rename_i m₁ hm₁
      simp only [applyOne] at hm₁
      split at hm₁
      · simp only [Option.some.injEq] at hm₁
        rw [applyLoop_other net T B l m₁ m' hl c fun o h k hm => hc o h k (List.mem_cons_of_mem _ hm), ← hm₁]
        exact getD_writeCells_of_not _ _ (hc _ _ _ List.mem_cons_self)
      · cases hm₁

section
variable {net : Net} {st st₁ : State ℝ} {T T' B sz sz₁ k k₁ : ℕ} {vs vs₁ : List (Name × View)}

theorem rowCells_length {k : ℕ} (hk : k < net.hubs.length) (hb : net.hubs[k].btype = 2) {T B a z : ℕ} (hz : z ≤ T + net.hubs[k].ctx) :
    (hubCells net T B k [(a, z)]).length = (z - a) * (B * net.hubs[k].size) := by
  rw [hubCells_eq _ _ _ _ hk, drop2_shape _ _ _ hb, cellsOf_rows _ _ _ _ _ _ hz,
    length_flatMap_const _ _ (B * net.hubs[k].size), List.length_range]
  intro i
  rw [length_flatMap_const _ _ net.hubs[k].size, List.length_range]
  simp

/-- The context that `get_context` returns. -/
noncomputable def contextOf (net : Net) (T B : ℕ) (m : List ℝ) : Context :=
  net.hubs.zipIdx.map fun hk => if hk.1.btype ≠ 2 ∨ hk.1.ctx = 0 then none else
    some (readCells m (hubCells net T B hk.2 [(T - hk.1.ctx, T)]))

theorem getContext_some (h : Inv net st T B sz k vs) (hc : ∀ h ∈ net.hubs, h.ctx ≤ T) :
    getContext net st = some (contextOf net T B (block st.heap k)) := by
  unfold getContext contextOf
  simp only [h.full, h.time, h.batch]
  refine mapM_some fun x hx => ?_
  obtain ⟨hk, hh⟩ := mem_zipIdx_hubs.1 hx
  have := hc x.1 (by rw [← hh]; exact List.getElem_mem _)
  rw [if_neg (Nat.not_lt.2 this)]
  split <;> rfl

/-- The context of one state, applied to another one. -/
theorem applyContext_inv (h : Inv net st T B sz k vs) (hc : ∀ h ∈ net.hubs, h.ctx ≤ T) (h₁ : Inv net st₁ T' B sz₁ k₁ vs₁) :
    ∃ st₂, applyContext net st₁ (contextOf net T B (block st.heap k)) = some st₂ ∧ Inv net st₂ T' B sz₁ k₁ vs₁ ∧
      (∀ j h, net.hubs[j]? = some h → h.btype = 2 → ∀ i < h.ctx, ∀ b < B, ∀ f < h.size,
        memOf st₂ (hubBase net.hubs T' B j + ((T' + i) * B + b) * h.size + f) =
          memOf st (hubBase net.hubs T B j + ((T - h.ctx + i) * B + b) * h.size + f)) ∧
      ∀ c, (∀ j h, net.hubs[j]? = some h → h.btype = 2 → h.ctx ≠ 0 → c ∉ hubCells net T' B j [(T', T' + h.ctx)]) →
        memOf st₂ c = memOf st₁ c := by
  set ctx := contextOf net T B (block st.heap k) with hctx
  have hzip : ∀ o h j, (o, h, j) ∈ ctx.zip net.hubs.zipIdx → (∃ hj : j < net.hubs.length, net.hubs[j] = h) ∧
      o = if h.btype ≠ 2 ∨ h.ctx = 0 then none else some (readCells (block st.heap k) (hubCells net T B j [(T - h.ctx, T)])) := by
    intro o h j hm
    obtain ⟨i, hi⟩ := List.mem_iff_getElem?.1 hm
    rw [List.getElem?_zip_eq_some] at hi
    refine ⟨mem_zipIdx_hubs.1 (List.mem_of_getElem? hi.2), ?_⟩
    have h1 := hi.1
    rw [hctx, contextOf, List.getElem?_map, hi.2] at h1
    simpa using h1.symm
  obtain ⟨m', hm'⟩ := applyLoop_some net T' B (ctx.zip net.hubs.zipIdx) (block st₁.heap k₁) (by
    intro c h j hm
    obtain ⟨⟨hj, rfl⟩, ho⟩ := hzip _ _ _ hm
    split at ho
    · cases ho
    · rename_i hne
      rw [not_or, not_not] at hne
      simp only [Option.some.injEq] at ho
      have hle := hc _ (List.getElem_mem hj)
      rw [ho, readCells, List.length_map, rowCells_length hj hne.1 (by omega), rowCells_length hj hne.1 (by omega)]
      congr 1
      omega)
  have hnd : ((ctx.zip net.hubs.zipIdx).map (fun x => x.2.2)).Nodup := by
    have hsub : ((ctx.zip net.hubs.zipIdx).map (fun x => x.2)).Sublist net.hubs.zipIdx := map_snd_zip_sublist _ _
    have := (hsub.map Prod.snd).nodup (by
      rw [List.zipIdx_map_snd]
      exact List.nodup_range')
    rw [List.map_map] at this
    exact this
  obtain ⟨j1, j2, j3⟩ := applyLoop_spec net T' B _ _ _ (fun x hx => (hzip x.1 x.2.1 x.2.2 hx).1) hnd
    (by rw [h₁.len]; exact h₁.enough) hm'
  have hI : Inv net { st₁ with heap := st₁.heap.set k₁ m' } T' B sz₁ k₁ vs₁ := h₁.withHeap (by rw [j1, h₁.len])
  have hmem : ∀ c, memOf { st₁ with heap := st₁.heap.set k₁ m' } c = m'.getD c 0 := by
    intro c
    rw [memOf_eq hI]
    simp only [block_set h₁.alloc]
  refine ⟨{ st₁ with heap := st₁.heap.set k₁ m' }, by simp [applyContext, h₁.full, h₁.time, h₁.batch, hm'], hI, ?_, ?_⟩
  · intro j h' hj hb i hi b hb' f hf
    obtain ⟨hj', rfl⟩ := List.getElem?_eq_some_iff.1 hj
    have hle := hc _ (List.getElem_mem hj')
    have hzi : net.hubs.zipIdx[j]? = some (net.hubs[j], j) := by
      rw [List.getElem?_zipIdx, List.getElem?_eq_getElem hj']; simp
    have hm : (some (readCells (block st.heap k) (hubCells net T B j [(T - net.hubs[j].ctx, T)])), net.hubs[j], j) ∈ ctx.zip net.hubs.zipIdx := by
      refine List.mem_of_getElem? (i := j) ?_
      rw [List.getElem?_zip_eq_some]
      refine ⟨?_, hzi⟩
      rw [hctx, contextOf, List.getElem?_map, hzi]
      simp [hb, show net.hubs[j].ctx ≠ 0 by omega]
    have hput := j2 _ _ _ hm
    rw [hubCells_eq net T' B _ hj', hubCells_eq net T B _ hj', drop2_shape _ T B hb, drop2_shape _ T' B hb,
      cellsOf_rows _ _ _ _ _ _ (by omega), cellsOf_rows _ _ _ _ _ _ (by omega)] at hput
    have := congrArg (fun l : List ℝ => l[(i * B + b) * net.hubs[j].size + f]?) hput
    simp only [readCells, List.getElem?_map] at this
    rw [getElem?_rows _ _ _ _ _ _ _ (by omega) hb' hf, getElem?_rows _ _ _ _ _ _ _ (by omega) hb' hf] at this
    simp only [Option.map_some, Option.some.injEq] at this
    rw [hmem, memOf_eq h]
    have e1 : hubBase net.hubs T' B j + ((T' + i) * B + b) * net.hubs[j].size + f =
        hubBase net.hubs T' B j + (T' + i) * (B * net.hubs[j].size) + b * net.hubs[j].size + f := by ring
    have e2 : hubBase net.hubs T B j + ((T - net.hubs[j].ctx + i) * B + b) * net.hubs[j].size + f =
        hubBase net.hubs T B j + (T - net.hubs[j].ctx + i) * (B * net.hubs[j].size) + b * net.hubs[j].size + f := by ring
    rw [e1, e2]
    exact this
  · intro c hcn
    rw [hmem, memOf_eq h₁]
    refine applyLoop_other net T' B _ _ _ hm' c fun o h' j hx => ?_
    obtain ⟨⟨hj, rfl⟩, ho⟩ := hzip _ _ _ hx
    split at ho
    · cases ho
    · rename_i hne
      rw [not_or, not_not] at hne
      exact hcn j _ (List.getElem?_eq_getElem hj) hne.1 hne.2

end

end Verif.Sequence
