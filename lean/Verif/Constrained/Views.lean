import Verif.Constrained.Spec
import Verif.Session.Passes
import Verif.Layout.ParamProps

/-! # Proofs for C80: the views of parameters and gradients -/

namespace Verif.Constrained

open Verif.Structure Verif.Layout Verif.Buffers Verif.Memory Verif.Session

section
variable {layers : List LayerInfo} {L : Layout} {T B : ℕ}

/-- The categories of arrays that modifiers act on. -/
def Cat (c : Src) : Prop := c = .par ∨ c = .grad

theorem Cat.shapes {c : Src} (h : Cat c) (l : LayerInfo) : c.shapes l = l.paramShapes := by
  rcases h with rfl | rfl <;> rfl

/-- The array of a parameter, or of its gradients. -/
theorem entry_of (hL : Laid layers L) {c : Src} (hc : Cat c) {l : LayerInfo} (hl : l ∈ layers) {x : Name} {s : Struct}
    (hx : (x, s) ∈ l.paramShapes) :
    ∃ e, Dict.get? (netOf layers L).layout (path l.name c.str x) = some e ∧ e.struct.bufferType = 0 ∧
      structShape e.struct T B = shapeS s := by
  have hx' : (x, s) ∈ c.shapes l := by rw [hc.shapes]; exact hx
  have hb := hL.shaped.params l hl _ hx
  have key : ∃ s' : Struct, Dict.get? (networkArrays layers) (path l.name c.str x) = some s' ∧ s'.bufferType = s.bufferType ∧
      s'.featureShape = s.featureShape := by
    rcases hc with rfl | rfl
    · exact ⟨s, array_get hL.wf hl (cat := str "parameters") (sh := l.paramShapes) (by simp [layerCats]) hx, rfl, rfl⟩
    · refine ⟨{ s with backwardOnly := true }, ?_, rfl, rfl⟩
      refine Dict.get?_of_mem (networkArrays_nodup hL.wf) ?_
      simp only [networkArrays, layerArrays, List.mem_flatMap]
      refine ⟨l, hl, (str "gradients", true, l.paramShapes), by simp [layerCats], ?_⟩
      simp only [category, List.mem_map]
      exact ⟨_, hx, rfl⟩
  obtain ⟨s', h1, h2, h3⟩ := key
  obtain ⟨e, he⟩ := array_entry hL h1
  have hst := netOf_struct hL.wf h1 he
  refine ⟨e, he, by rw [hst, h2]; exact hb, ?_⟩
  have h0 : s'.bufferType = 0 := by rw [h2]; exact hb
  rw [hst]
  simp [structShape, h0, h3, shapeS]

theorem drop_take_map_range {α : Type} (f : ℕ → α) {lo k n : ℕ} (h : lo + k ≤ n) :
    (((List.range n).map f).drop lo).take k = (List.range k).map fun j => f (lo + j) := by
  refine List.ext_getElem (by simp; omega) fun j h1 h2 => ?_
  simp

/-- The addresses of a parameter are a part of the addresses of all parameters, and the addresses of its gradients are the same part
of those of all gradients. -/
theorem cells_part (hL : Laid layers L) {c : Src} (hc : Cat c) {l : LayerInfo} (hl : l ∈ layers) {x : Name} {s : Struct}
    (hx : (x, s) ∈ l.paramShapes) (T B : ℕ) :
    cells (netOf layers L) T B (path l.name c.str x) =
      ((cells (netOf layers L) T B c.str).drop (startOf L l.name x)).take s.featureSize ∧
    startOf L l.name x + s.featureSize ≤ (cells (netOf layers L) T B c.str).length := by
  obtain ⟨hp, hg, n, hrp, hrg, hal, -⟩ := aligned layers hL.wf L hL.layout
  obtain ⟨lo, hlo, hlo', hle⟩ := hal l hl (x, s) hx
  have hstart : startOf L l.name x = lo := by simp [startOf, hlo]
  obtain ⟨e, he, h0, -⟩ := entry_of (T := T) (B := B) hL hc hl hx
  have hwl := netOf_wellLaid hL.wf hL.shaped hL.layout
  obtain ⟨v, hv, -, hcell, -⟩ := viewOf_fits (hwl.fits _ (Dict.mem_of_get? he)) T B
  have hhub : ∃ hub, L.root c.str = (hub, (0, n)) ∧ L.get (path l.name c.str x) = some (hub, (lo, lo + s.featureSize)) := by
    rcases hc with rfl | rfl
    · exact ⟨hp, hrp, hlo⟩
    · exact ⟨hg, hrg, hlo'⟩
  obtain ⟨hub, hr, hget⟩ := hhub
  obtain ⟨e1, e2⟩ := layout_hub he hget
  have he' : Dict.get? (netOf layers L).layout c.str = some (rootOf L c.str).2 := by
    have h : str "parameters" ≠ str "gradients" := by decide
    rcases hc with rfl | rfl
    · simp [netOf, rootOf, Dict.get?, Src.str]
    · simp [netOf, rootOf, Dict.get?, Src.str, h]
  obtain ⟨v', hv', -, hcell', -⟩ := viewOf_fits (hwl.fits _ (Dict.mem_of_get? he')) T B
  have hroot : (rootOf L c.str).2.hub = hub ∧ (rootOf L c.str).2.slice = (0, n) ∧ (rootOf L c.str).2.struct.bufferType = 0 := by
    simp [rootOf, hr, Struct.bufferType, typeOf]
  have E1 : cells (netOf layers L) T B (path l.name c.str x) = v.cells := by simp [cells, he, hv]
  have E2 : cells (netOf layers L) T B c.str = v'.cells := by simp [cells, he', hv']
  rw [E1, E2, hcell h0, hcell' hroot.2.2, hroot.1, hroot.2.1, e1, e2, hstart]
  simp only at hle
  refine ⟨?_, by simpa using hle⟩
  rw [drop_take_map_range _ (by simpa using hle)]
  simp

/-- Arrays of different parameters, or of parameters and gradients, have no address in common. -/
theorem cells_apart (hL : Laid layers L) {c c' : Src} (hc : Cat c) (hc' : Cat c') {l l' : LayerInfo} (hl : l ∈ layers)
    (hl' : l' ∈ layers) {x x' : Name} {s s' : Struct} (hx : (x, s) ∈ l.paramShapes) (hx' : (x', s') ∈ l'.paramShapes) {a : ℕ}
    (ha : a ∈ cells (netOf layers L) T B (path l.name c.str x)) (ha' : a ∈ cells (netOf layers L) T B (path l'.name c'.str x')) :
    l = l' ∧ c = c' ∧ x = x' :=
  Home.inj (T := T) (B := B) hL hl hl' (c := c) (c' := c') ⟨by rw [hc.shapes]; exact hx, ha⟩ ⟨by rw [hc'.shapes]; exact hx', ha'⟩

/-- Parameters are not gradients. -/
theorem par_not_grad (hL : Laid layers L) {a : ℕ} (ha : a ∈ cells (netOf layers L) T B (str "parameters")) {l : LayerInfo}
    (hl : l ∈ layers) {x : Name} {s : Struct} (hx : (x, s) ∈ l.paramShapes) :
    a ∉ cells (netOf layers L) T B (path l.name (str "gradients") x) := by
  intro h
  obtain ⟨k, hk, y, hy, hc⟩ := hL.root_cover ha
  obtain ⟨sh, hsh⟩ := shape_of hy
  have := cells_apart (c := .par) (c' := .grad) hL (Or.inl rfl) (Or.inr rfl) hk hl hsh hx hc h
  cases this.2.1

variable {st : State ℝ} {sz b : ℕ} {vs : List (Name × View)}

theorem shapeOf_inv (hL : Laid layers L) (h : Inv (netOf layers L) st T B sz b vs) {c : Src} (hc : Cat c) {l : LayerInfo}
    (hl : l ∈ layers) {x : Name} {s : Struct} (hx : (x, s) ∈ l.paramShapes) : shapeOf st (path l.name c.str x) = some (shapeS s) := by
  obtain ⟨e, he, -, hs⟩ := entry_of (T := T) (B := B) hL hc hl hx
  have hwl := netOf_wellLaid hL.wf hL.shaped hL.layout
  obtain ⟨v, hv, hsh, -⟩ := viewOf_fits (hwl.fits _ (Dict.mem_of_get? he)) T B
  have hvs : Dict.get? vs (path l.name c.str x) = some v := by rw [get?_createViews h.created, he]; exact hv
  simp [shapeOf, h.view, hvs, hsh, hs]

/-- Reading a parameter is reading its part of all parameters. -/
theorem read_part (hL : Laid layers L) (h : Inv (netOf layers L) st T B sz b vs) {c : Src} (hc : Cat c) {l : LayerInfo}
    (hl : l ∈ layers) {x : Name} {s : Struct} (hx : (x, s) ∈ l.paramShapes) {θ : List ℝ} (hθ : st.read c.str = some θ) :
    st.read (path l.name c.str x) = some (part L l.name x s θ) := by
  obtain ⟨e, he, -⟩ := entry_of (T := T) (B := B) hL hc hl hx
  have he' : ∃ e, Dict.get? (netOf layers L).layout c.str = some e := by
    rcases hc with rfl | rfl
    · exact params_entry
    · exact grads_entry
  obtain ⟨e', he'⟩ := he'
  rw [read_inv hL h he', Option.some.injEq] at hθ
  rw [read_inv hL h he, (cells_part hL hc hl hx T B).1, ← hθ]
  simp [part, List.map_take, List.map_drop]

theorem part_length (hL : Laid layers L) {l : LayerInfo} (hl : l ∈ layers) {x : Name} {s : Struct} (hx : (x, s) ∈ l.paramShapes)
    {θ : List ℝ} (hθ : θ.length = paramCount layers L) : (part L l.name x s θ).length = (shapeS s).prod := by
  have := (cells_part (c := .par) hL (Or.inl rfl) hl hx 0 0).2
  have e : (cells (netOf layers L) 0 0 (Src.par.str)).length = paramCount layers L := rfl
  rw [e] at this
  have e2 : s.featureSize = (shapeS s).prod := by
    rw [featureSize_prod]; rfl
  simp only [part, List.length_take, List.length_drop, hθ, ← e2]
  omega

end

end Verif.Constrained
