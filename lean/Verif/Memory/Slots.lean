import Verif.Memory.Example
import Mathlib.Data.List.GetD

/-!
# Layers that find their numbers in their arrays

A layer given by functions on arrays (`VLayer`) is placed into the memory of a network by saying for each number
that it deals with in which array, and where in this array, it is.
-/

namespace Verif.Memory

open Verif.Structure Verif.Layout Verif.Buffers Verif.Network

/-! ### Specification -/

/-- An entry of an array of a layer: the category (`inputs`, `outputs`, `parameters`, `internals`), the name of the
array, and the position in the order of C (row by row). -/
structure Slot where
  cat : Name
  array : Name
  pos : ℕ
deriving DecidableEq

/-- The number of entries of an array. -/
def size (s : Struct) (T B : ℕ) : ℕ := (structShape s T B).prod

/-- The number of entries of an array without its context rows, which come last. -/
def mainSize (s : Struct) (T B : ℕ) : ℕ := (structShape { s with contextSize := 0 } T B).prod

/-- The address of an entry of an array of the layer called `n`. -/
def Slot.addr (net : Net) (T B : ℕ) (n : Name) (s : Slot) : ℕ := (cells net T B (path n s.cat s.array)).getD s.pos 0

/-- For each number that a layer deals with the entry where it is; what is read without computing deltas may also lie
outside of the buffer (random numbers). -/
structure Slots (I O K P : Type) where
  i : I → Slot
  o : O → Slot
  k : K → Slot
  p : P → Slot ⊕ ℕ

/-- The address of what is read without computing deltas. -/
def fixedAddr (net : Net) (T B : ℕ) (n : Name) : Slot ⊕ ℕ → ℕ :=
  Sum.elim (Slot.addr net T B n) (fun j => (totalSizeSlicesShapes net.hubs T B).1 + j)

/-- The only layer that feeds the input `x` of the layer `l` is the Input layer `data`. -/
def OnlyData (layers : List LayerInfo) (data l : LayerInfo) (x : Name) : Prop :=
  ∀ k ∈ layers, ∀ o ∈ k.outgoing, o.endLayer = l.name → o.endInput = x → k = data ∧ o.kind = .outputs

/-- The entries are where the layer `V` may have them. -/
structure Slots.Ok {I O K P : Type} (layers : List LayerInfo) (data l : LayerInfo) (T B : ℕ) (V : VLayer I O K P)
    (S : Slots I O K P) : Prop where
  i_inj : Function.Injective S.i
  o_inj : Function.Injective S.o
  k_inj : Function.Injective S.k
  /-- Deltas are computed for inputs and parameters. -/
  ins : ∀ a, ((S.i a).cat = str "inputs" ∧ ∃ s, ((S.i a).array, s) ∈ l.inShapes ∧ (S.i a).pos < size s T B) ∨
    ((S.i a).cat = str "parameters" ∧ ∃ s, ((S.i a).array, s) ∈ l.paramShapes ∧ (S.i a).pos < size s T B)
  outs : ∀ a, (S.o a).cat = str "outputs" ∧ ∃ s, ((S.o a).array, s) ∈ l.outShapes ∧ (S.o a).pos < mainSize s T B
  /-- Outputs that are not among the numbers `O` are not connected. -/
  outsAll : ∀ o ∈ l.outgoing, o.kind = .outputs → ∀ s, (o.buffer, s) ∈ l.outShapes → ∀ j < mainSize s T B,
    ∃ b, S.o b = ⟨str "outputs", o.buffer, j⟩
  /-- What the layer keeps for its backward pass are internals, or outputs. -/
  own : ∀ a, ((S.k a).cat = str "internals" ∧ ∃ s, ((S.k a).array, s) ∈ l.internalShapes ∧ (S.k a).pos < mainSize s T B ∧
      s.backwardOnly = false) ∨
    ((S.k a).cat = str "outputs" ∧ (∀ b, S.o b ≠ S.k a) ∧
      ∃ s, ((S.k a).array, s) ∈ l.outShapes ∧ (S.k a).pos < mainSize s T B)
  /-- Without computing deltas the layer reads data, parameters and context rows. -/
  fixed : ∀ a q, S.p a = .inl q →
    (q.cat = str "inputs" ∧ (∃ s, (q.array, s) ∈ l.inShapes ∧ q.pos < size s T B) ∧ OnlyData layers data l q.array) ∨
    (q.cat = str "parameters" ∧ ∃ s, (q.array, s) ∈ l.paramShapes ∧ q.pos < size s T B) ∨
    (q.cat = str "outputs" ∧ ∃ s, (q.array, s) ∈ l.outShapes ∧ mainSize s T B ≤ q.pos ∧ q.pos < size s T B) ∨
    (q.cat = str "internals" ∧ ∃ s, (q.array, s) ∈ l.internalShapes ∧ mainSize s T B ≤ q.pos ∧ q.pos < size s T B ∧
      s.backwardOnly = false)
  /-- Losses are not connected. -/
  loss : V.isLoss = true → ∀ o ∈ l.outgoing, o.kind = .outputs → ∀ b, (S.o b).array ≠ o.buffer
  /-- Gradients that are overwritten belong to parameters that are not connected. -/
  over : ∀ a, V.over a = true → (S.i a).cat = str "parameters" ∧
    ∀ o ∈ l.outgoing, o.kind = .parameters → o.buffer ≠ (S.i a).array

/-- No array is connected to two inputs of the same layer, and no parameter to an input of its own layer. -/
structure Unmixed (layers : List LayerInfo) : Prop where
  once : ∀ k ∈ layers, ∀ o ∈ k.outgoing, ∀ o' ∈ k.outgoing, o.kind = o'.kind → o.buffer = o'.buffer →
    o.endLayer = o'.endLayer → o.endInput = o'.endInput
  apart : ∀ k ∈ layers, ∀ o ∈ k.outgoing, o.kind = .parameters → o.endLayer ≠ k.name

/-! ### Proofs -/

theorem flatMap_range_prefix {α : Type} (f : ℕ → List α) (m n : ℕ) :
    (List.range m).flatMap f <+: (List.range (m + n)).flatMap f := by
  rw [List.range_add, List.flatMap_append]
  exact List.prefix_append _ _

section
variable {layers : List LayerInfo} {L : Layout} {T B : ℕ}

/-- What is known of the addresses of an array. -/
structure Row (layers : List LayerInfo) (L : Layout) (T B : ℕ) (t : Name) (s : Struct) : Prop where
  length : (cells (netOf layers L) T B t).length = size s T B
  nodup : (cells (netOf layers L) T B t).Nodup
  main : mainCells (netOf layers L) T B t <+: cells (netOf layers L) T B t
  mainLength : (mainCells (netOf layers L) T B t).length = mainSize s T B

theorem Laid.row (hL : Laid layers L) {t : Name} {s : Struct} (hs : Dict.get? (networkArrays layers) t = some s) :
    Row layers L T B t s := by
  have hwl := netOf_wellLaid hL.wf hL.shaped hL.layout
  have hm : entryOf L (t, s) ∈ (netOf layers L).layout := by
    unfold netOf
    exact List.mem_cons_of_mem _ (List.mem_cons_of_mem _ (List.mem_map.2 ⟨_, Dict.mem_of_get? hs, rfl⟩))
  have he := Dict.get?_of_mem hwl.nodup hm
  have hf : Fits (netOf layers L).hubs (entryOf L (t, s)).2 := hwl.fits _ hm
  have hf' := fits_noContext hf
  obtain ⟨v, hv, hvs, h0, h1, h2⟩ := viewOf_fits hf T B
  obtain ⟨v', hv', hvs', h0', h1', h2'⟩ := viewOf_fits hf' T B
  have e1 : cells (netOf layers L) T B t = v.cells := by
    have : Dict.get? (netOf layers L).layout t = some (entryOf L (t, s)).2 := he
    simp [cells, this, hv]
  have e2 : mainCells (netOf layers L) T B t = v'.cells := by
    have : Dict.get? (netOf layers L).layout t = some (entryOf L (t, s)).2 := he
    simp [mainCells, this, hv']
  obtain ⟨-, -, -, -, -, -, hlen⟩ := viewOf_cells hv
  obtain ⟨-, -, -, -, -, -, hlen'⟩ := viewOf_cells hv'
  have hst : (entryOf L (t, s)).2.struct = s := rfl
  refine ⟨?_, ?_, ?_, ?_⟩
  · rw [e1, hlen, hvs]; rfl
  · rw [e1]; exact viewOf_nodup hv
  · rw [e1, e2]
    have h12 := typeOf_le s.shape
    have hk : (entryOf L (t, s)).2.hub < (netOf layers L).hubs.length := hf.choose
    obtain hb | hb | hb : s.bufferType = 0 ∨ s.bufferType = 1 ∨ s.bufferType = 2 := by
      have : s.bufferType ≤ 2 := h12
      omega
    · rw [h0 hb, h0' hb]; exact List.prefix_rfl
    · rw [h1 hk hb, h1' hk hb]; exact List.prefix_rfl
    · rw [h2 hk hb, h2' hk hb]; exact flatMap_range_prefix _ _ _
  · rw [e2, hlen', hvs']; rfl

theorem Row.mem {t : Name} {s : Struct} (h : Row layers L T B t s) {j : ℕ} (hj : j < size s T B) :
    (cells (netOf layers L) T B t).getD j 0 ∈ cells (netOf layers L) T B t := by
  rw [List.getD_eq_getElem _ _ (by rw [h.length]; exact hj)]
  exact List.getElem_mem _

theorem Row.mem_main {t : Name} {s : Struct} (h : Row layers L T B t s) {j : ℕ} (hj : j < size s T B) :
    (cells (netOf layers L) T B t).getD j 0 ∈ mainCells (netOf layers L) T B t ↔ j < mainSize s T B := by
  rw [List.getD_eq_getElem _ _ (by rw [h.length]; exact hj)]
  obtain ⟨r, hr⟩ := h.main
  have hlen := h.mainLength
  have hj' : j < (mainCells (netOf layers L) T B t ++ r).length := by rw [hr, h.length]; exact hj
  have e : (cells (netOf layers L) T B t)[j]'(by rw [h.length]; exact hj) = (mainCells (netOf layers L) T B t ++ r)[j] := by
    simp only [hr]
  rw [e]
  have hnd := h.nodup
  rw [← hr] at hnd
  constructor
  · intro hm
    by_contra hlt
    rw [List.getElem_append_right (by omega)] at hm
    exact List.disjoint_of_nodup_append hnd hm (List.getElem_mem _)
  · intro hlt
    rw [List.getElem_append_left (by omega)]
    exact List.getElem_mem _

theorem Row.inj {t : Name} {s : Struct} (h : Row layers L T B t s) {i j : ℕ} (hi : i < size s T B) (hj : j < size s T B)
    (he : (cells (netOf layers L) T B t).getD i 0 = (cells (netOf layers L) T B t).getD j 0) : i = j := by
  rw [List.getD_eq_getElem _ _ (by rw [h.length]; exact hi), List.getD_eq_getElem _ _ (by rw [h.length]; exact hj)] at he
  exact (List.Nodup.getElem_inj_iff h.nodup).1 he

theorem mainSize_le {t : Name} {s : Struct} (h : Row layers L T B t s) : mainSize s T B ≤ size s T B := by
  rw [← h.length, ← h.mainLength]
  exact h.main.length_le

theorem array_get (hw : WellFormedLayers layers) {l : LayerInfo} (hl : l ∈ layers) {cat : Name} {sh : List (Name × Struct)}
    (hc : (cat, false, sh) ∈ layerCats l) {x : Name} {s : Struct} (hx : (x, s) ∈ sh) :
    Dict.get? (networkArrays layers) (path l.name cat x) = some s := by
  refine Dict.get?_of_mem (networkArrays_nodup hw) ?_
  simp only [networkArrays, layerArrays, List.mem_flatMap]
  refine ⟨l, hl, _, hc, ?_⟩
  simp only [category, List.mem_map]
  exact ⟨_, hx, rfl⟩

theorem Laid.row_in (hL : Laid layers L) {l : LayerInfo} (hl : l ∈ layers) {x : Name} {s : Struct} (hx : (x, s) ∈ l.inShapes) :
    Row layers L T B (path l.name (str "inputs") x) s := hL.row (array_get hL.wf hl (by simp [layerCats]) hx)

theorem Laid.row_out (hL : Laid layers L) {l : LayerInfo} (hl : l ∈ layers) {x : Name} {s : Struct} (hx : (x, s) ∈ l.outShapes) :
    Row layers L T B (path l.name (str "outputs") x) s := hL.row (array_get hL.wf hl (by simp [layerCats]) hx)

theorem Laid.row_par (hL : Laid layers L) {l : LayerInfo} (hl : l ∈ layers) {x : Name} {s : Struct} (hx : (x, s) ∈ l.paramShapes) :
    Row layers L T B (path l.name (str "parameters") x) s := hL.row (array_get hL.wf hl (by simp [layerCats]) hx)

theorem Laid.row_int (hL : Laid layers L) {l : LayerInfo} (hl : l ∈ layers) {x : Name} {s : Struct} (hx : (x, s) ∈ l.internalShapes) :
    Row layers L T B (path l.name (str "internals") x) s := hL.row (array_get hL.wf hl (by simp [layerCats]) hx)

variable {data : LayerInfo} {rest : List LayerInfo}

/-- Where the numbers of an input come from. -/
theorem input_source (hL : Laid layers L) (ho : Ordered layers data rest) {l : LayerInfo} (hl : l ∈ rest) {x : Name}
    (hx : x ∈ l.inShapes.map Prod.fst) {a : ℕ} (hm : a ∈ cells (netOf layers L) T B (path l.name (str "inputs") x)) :
    ∃ k ∈ layers, ∃ o ∈ k.outgoing, o.endLayer = l.name ∧ o.endInput = x ∧
      ((o.kind = .outputs ∧ ∃ s, Home layers L T B k .out o.buffer s a ∧ Main layers L T B k .out o.buffer a) ∨
        (o.kind = .parameters ∧ ∃ s, Home layers L T B k .par o.buffer s a)) := by
  have hl' : l ∈ layers := by rw [ho.all]; simp [hl]
  obtain ⟨conns, hc⟩ := hL.conns
  have hkv : (Key.arr .inp l x).Valid layers := ⟨hl', hx⟩
  obtain ⟨k, hk, o, hok, e1, e2⟩ := ho.fed l hl x hx
  have hfed : ∃ p, (p, path l.name (str "inputs") x) ∈ conns := by
    have hkind : o.kind = .outputs ∨ o.kind = .parameters := by
      have := hL.noInternal k hk o hok
      cases h : o.kind <;> simp_all
    rcases hkind with h | h
    · have hfl : Flow layers (.arr .out k o.buffer) (.arr .inp l x) := by
        rw [← e2]; exact .out hk hok h hl' e1.symm
      exact ⟨_, (conn_key hL.wf hL.noInternal hc (hfl.valid hL.wf).1 hkv false).2 hfl⟩
    · have hfl : Flow layers (.arr .par k o.buffer) (.arr .inp l x) := by
        rw [← e2]; exact .par hk hok h hl' e1.symm
      exact ⟨_, (conn_key hL.wf hL.noInternal hc (hfl.valid hL.wf).1 hkv false).2 hfl⟩
  obtain ⟨p, hp, hpm⟩ := hL.input_cover hc (t := path l.name (str "inputs") x) (key_array hkv (by simp) false) hfed hm
  obtain ⟨k', hf, rfl⟩ := conn_into hL.wf hL.noInternal hc (t := .arr .inp l x) (b := false) hkv hp
  have hv := (hf.valid hL.wf).1
  cases hf with
  | @out k e o' hk ho' hkd he hen =>
    obtain ⟨s, hs⟩ := shape_of hv.2
    exact ⟨k, hk, o', ho', hen.symm, rfl, Or.inl ⟨hkd, s, Home.of_main (c := .out) hL hs hpm, hpm⟩⟩
  | @par k e o' hk ho' hkd he hen =>
    obtain ⟨s, hs⟩ := shape_of hv.2
    exact ⟨k, hk, o', ho', hen.symm, rfl, Or.inr ⟨hkd, s, Home.of_main (c := .par) hL hs hpm⟩⟩

end

end Verif.Memory
