import Verif.Memory.Delta
import Verif.Memory.Sim

/-!
# Layers that keep to the arrays that the layout gives them
-/

namespace Verif.Memory

open Verif.Structure Verif.Layout Verif.Buffers

/-! ### Specification -/

/-- The arrays of a layer that are not part of other arrays, by category. -/
inductive Src
  | out | par | int | dout | grad
deriving DecidableEq

/-- The category in the layout. -/
def Src.str : Src → Name
  | .out => Verif.str "outputs"
  | .par => Verif.str "parameters"
  | .int => Verif.str "internals"
  | .dout => Verif.str "output_deltas"
  | .grad => Verif.str "gradients"

/-- The arrays of the category. -/
def Src.shapes : Src → LayerInfo → List (Name × Struct)
  | .out, l => l.outShapes
  | .par, l => l.paramShapes
  | .int, l => l.internalShapes
  | .dout, l => l.outShapes
  | .grad, l => l.paramShapes

section
variable (layers : List LayerInfo) (L : Layout) (T B : Nat)

/-- Address `a` belongs to the array `x` with shape `s` of the layer `l`. -/
def Home (l : LayerInfo) (c : Src) (x : Name) (s : Struct) (a : Nat) : Prop :=
  (x, s) ∈ c.shapes l ∧ a ∈ cells (netOf layers L) T B (path l.name c.str x)

/-- Address `a` is in a row of a time step of the array `x`. -/
def Main (l : LayerInfo) (c : Src) (x : Name) (a : Nat) : Prop :=
  a ∈ mainCells (netOf layers L) T B (path l.name c.str x)

/-- The layer `m` keeps to the arrays of the layer `l` of the network, whose first layer, which holds the data, is
`data`. -/
structure Site (data l : LayerInfo) (m : MLayer) : Prop where
  /-- Deltas are computed for inputs and parameters of the layer. -/
  ins : ∀ a ∈ m.ins, (∃ x ∈ l.inShapes.map Prod.fst, a ∈ cells (netOf layers L) T B (path l.name (str "inputs") x)) ∨
    ∃ x s, Home layers L T B l .par x s a
  /-- What the layer outputs are its outputs. -/
  outs : ∀ a ∈ m.outs, ∃ x s, Home layers L T B l .out x s a ∧ Main layers L T B l .out x a
  /-- Among them are all outputs that are connected. -/
  outsAll : ∀ o ∈ l.outgoing, o.kind = .outputs → ∀ a, Main layers L T B l .out o.buffer a → a ∈ m.outs
  /-- The layer uses as its own the internals, except for context rows that the backward pass does not clear, the
  context rows of the deltas of the outputs, and outputs whose deltas it ignores. -/
  own : ∀ a ∈ m.own, (∃ x s, Home layers L T B l .int x s a ∧ (Main layers L T B l .int x a ∨ s.backwardOnly = true)) ∨
    (∃ x s, Home layers L T B l .dout x s a ∧ ¬ Main layers L T B l .dout x a) ∨
    (a ∉ m.outs ∧ ∃ x s, Home layers L T B l .out x s a ∧ Main layers L T B l .out x a)
  /-- Without computing deltas it reads data, its parameters, the context rows of outputs and internals, and
  what lies outside of the buffer, for example random numbers. -/
  fixed : ∀ a ∈ m.fixed, (∃ x s, Home layers L T B data .out x s a ∧ Main layers L T B data .out x a) ∨
    (∃ x s, Home layers L T B l .par x s a) ∨
    (∃ x s, Home layers L T B l .out x s a ∧ ¬ Main layers L T B l .out x a) ∨
    (∃ x s, Home layers L T B l .int x s a ∧ ¬ Main layers L T B l .int x a ∧ s.backwardOnly = false) ∨
    (totalSizeSlicesShapes (netOf layers L).hubs T B).1 ≤ a
  /-- Losses are outputs that are not connected. -/
  losses : ∀ a ∈ m.losses, a ∈ m.outs ∧ ∀ o ∈ l.outgoing, o.kind = .outputs → ¬ Main layers L T B l .out o.buffer a
  /-- Gradients that are overwritten belong to parameters that are not connected to other layers. -/
  over : ∀ a ∈ m.over, a ∈ m.ins ∧ ∃ x s, Home layers L T B l .par x s a ∧
    ∀ o ∈ l.outgoing, o.kind = .parameters → o.buffer ≠ x

/-- The network can be run: `data` is the Input layer, the other layers `rest` are in topological order, and all
their inputs are connected.  Outputs and parameters are not declared to be used in the backward pass only. -/
structure Ordered (data : LayerInfo) (rest : List LayerInfo) : Prop where
  all : layers = data :: rest
  order : rest.Pairwise (fun a b => ∀ o ∈ b.outgoing, o.kind = .outputs → o.endLayer ≠ a.name)
  noLoop : ∀ l ∈ rest, ∀ o ∈ l.outgoing, o.kind = .outputs → o.endLayer ≠ l.name
  fed : ∀ l ∈ rest, ∀ x ∈ l.inShapes.map Prod.fst, ∃ k ∈ layers, ∃ o ∈ k.outgoing, o.endLayer = l.name ∧ o.endInput = x
  outs : ∀ l ∈ layers, ∀ e ∈ l.outShapes, e.2.backwardOnly = false
  params : ∀ l ∈ layers, ∀ e ∈ l.paramShapes, e.2.backwardOnly = false

/-- The addresses of all parameters and of the data. -/
def given (data : LayerInfo) : Finset ℕ :=
  (layers.flatMap fun l => l.paramShapes.flatMap fun e => cells (netOf layers L) T B (path l.name (str "parameters") e.1)).toFinset ∪
  (data.outShapes.flatMap fun e => mainCells (netOf layers L) T B (path data.name (str "outputs") e.1)).toFinset

end

/-! ### Proofs -/

section
variable {layers : List LayerInfo} {L : Layout} {T B : Nat}

theorem Src.noDot (c : Src) : '.' ∉ c.str := by cases c <;> decide

theorem Src.str_inj {c d : Src} (h : c.str = d.str) : c = d := by
  revert h
  cases c <;> cases d <;> decide

theorem Src.ne_inp (c : Src) (b : Bool) : c.str ≠ Cat.inp.str b := by cases c <;> cases b <;> decide

/-- Whether the array is used in the backward pass only. -/
def Src.back : Src → Struct → Bool
  | .dout, _ => true
  | .grad, _ => true
  | _, s => s.backwardOnly

theorem Src.array (hw : WellFormedLayers layers) {l : LayerInfo} (hl : l ∈ layers) {c : Src} {x : Name} {s : Struct}
    (h : (x, s) ∈ c.shapes l) : ∃ s', Dict.get? (networkArrays layers) (path l.name c.str x) = some s' ∧
      s'.backwardOnly = c.back s := by
  have key : ∀ cat back sh, (cat, back, sh) ∈ layerCats l → (x, s) ∈ sh →
      Dict.get? (networkArrays layers) (path l.name cat x) = some (if back = true then { s with backwardOnly := true } else s) := by
    intro cat back sh h1 h2
    refine Dict.get?_of_mem (networkArrays_nodup hw) ?_
    simp only [networkArrays, layerArrays, List.mem_flatMap]
    refine ⟨l, hl, _, h1, ?_⟩
    simp only [category, List.mem_map]
    exact ⟨_, h2, rfl⟩
  cases c
  · exact ⟨_, key _ false _ (by simp [layerCats, Src.str, Src.shapes]) h, rfl⟩
  · exact ⟨_, key _ false _ (by simp [layerCats, Src.str, Src.shapes]) h, rfl⟩
  · exact ⟨_, key _ false _ (by simp [layerCats, Src.str, Src.shapes]) h, rfl⟩
  · exact ⟨_, key _ true _ (by simp [layerCats, Src.str, Src.shapes]) h, rfl⟩
  · exact ⟨_, key _ true _ (by simp [layerCats, Src.str, Src.shapes]) h, rfl⟩

theorem Src.not_end (hL : Laid layers L) {conns : List (Name × Name)} (hc : getConnections layers = .ok conns)
    {l : LayerInfo} (hl : l ∈ layers) (c : Src) (x : Name) : path l.name c.str x ∉ conns.map Prod.snd := by
  intro h
  obtain ⟨⟨p, t⟩, hm, he⟩ := List.mem_map.1 h
  simp only at he
  subst he
  obtain ⟨b, k, t, hf, he⟩ := (conns_iff hL.wf hL.noInternal hc _).1 hm
  simp only [Prod.mk.injEq] at he
  have hv := (hf.valid hL.wf).2
  cases hf with
  | out hl' ho hk he' hen =>
    have := (path_inj (hL.wf.noDot l hl) (hL.wf.noDot _ hv.1) c.noDot (Cat.noDot _ _) he.2).2.1
    exact c.ne_inp b this
  | par hl' ho hk he' hen =>
    have := (path_inj (hL.wf.noDot l hl) (hL.wf.noDot _ hv.1) c.noDot (Cat.noDot _ _) he.2).2.1
    exact c.ne_inp b this
  | root hl' hx => exact path_ne_roleCat he.2

theorem Laid.conns (hL : Laid layers L) : ∃ conns, getConnections layers = .ok conns := by
  obtain ⟨forced, conns, gs, hP⟩ := createLayout_ok hL.layout
  exact ⟨conns, hP.connsOk⟩

/-- An address belongs to one array. -/
theorem Home.inj (hL : Laid layers L) {l l' : LayerInfo} (hl : l ∈ layers) (hl' : l' ∈ layers) {c c' : Src} {x x' : Name}
    {s s' : Struct} {a : Nat} (h : Home layers L T B l c x s a) (h' : Home layers L T B l' c' x' s' a) :
    l = l' ∧ c = c' ∧ x = x' := by
  obtain ⟨conns, hc⟩ := hL.conns
  obtain ⟨t, ht, -⟩ := Src.array hL.wf hl h.1
  obtain ⟨t', ht', -⟩ := Src.array hL.wf hl' h'.1
  have := hL.disjoint hc (List.mem_map.2 ⟨_, Dict.mem_of_get? ht, rfl⟩) (List.mem_map.2 ⟨_, Dict.mem_of_get? ht', rfl⟩)
    (Src.not_end hL hc hl _ _) (Src.not_end hL hc hl' _ _) h.2 h'.2
  obtain ⟨e1, e2, e3⟩ := path_inj (hL.wf.noDot l hl) (hL.wf.noDot l' hl') c.noDot c'.noDot this
  exact ⟨List.inj_on_of_nodup_map hL.wf.names hl hl' e1, Src.str_inj e2, e3⟩

theorem Home.back_iff (hL : Laid layers L) {l : LayerInfo} (hl : l ∈ layers) {c : Src} {x : Name} {s : Struct} {a : Nat}
    (h : Home layers L T B l c x s a) : a ∈ backCells (netOf layers L) T B ↔ c.back s = true := by
  obtain ⟨conns, hc⟩ := hL.conns
  obtain ⟨t, ht, hb⟩ := Src.array hL.wf hl h.1
  rw [← hb]
  exact hL.back_iff hc ht (Src.not_end hL hc hl _ _) h.2

theorem Home.lt_total {l : LayerInfo} {c : Src} {x : Name} {s : Struct} {a : Nat}
    (h : Home layers L T B l c x s a) : a < (totalSizeSlicesShapes (netOf layers L).hubs T B).1 := by
  have h2 := h.2
  cases he : Dict.get? (netOf layers L).layout (path l.name c.str x) with
  | none => simp [cells, he] at h2
  | some e =>
    cases hv : viewOf (netOf layers L).hubs T B e with
    | none => simp [cells, he, hv] at h2
    | some v =>
      refine viewOf_lt_total hv a ?_
      simpa [cells, he, hv] using h2

theorem back_lt_total {a : Nat} (h : a ∈ backCells (netOf layers L) T B) :
    a < (totalSizeSlicesShapes (netOf layers L).hubs T B).1 := by
  obtain ⟨k, h', hk, -, hm⟩ := h
  obtain ⟨hk', -⟩ := List.getElem?_eq_some_iff.1 hk
  rw [hubCells_eq _ _ _ _ hk', mem_cellsOf_all, ← hubBase_succ _ _ _ _ hk'] at hm
  rw [total_eq]
  have := hubBase_mono (netOf layers L).hubs T B (show k + 1 ≤ _ from hk')
  omega

theorem Home.of_main (hL : Laid layers L) {l : LayerInfo} {c : Src} {x : Name} {s : Struct} {a : Nat}
    (h : (x, s) ∈ c.shapes l) (hm : Main layers L T B l c x a) : Home layers L T B l c x s a := ⟨h, hL.main_sub hm⟩

theorem shape_of {sh : List (Name × Struct)} {x : Name} (h : x ∈ sh.map Prod.fst) : ∃ s, (x, s) ∈ sh := by
  obtain ⟨⟨x', s⟩, hs, rfl⟩ := List.mem_map.1 h
  exact ⟨s, hs⟩

theorem mem_given {data : LayerInfo} (a : ℕ) : a ∈ given layers L T B data ↔
    (∃ l ∈ layers, ∃ x s, Home layers L T B l .par x s a) ∨
    ∃ x s, (x, s) ∈ data.outShapes ∧ Main layers L T B data .out x a := by
  simp only [given, Finset.mem_union, List.mem_toFinset, List.mem_flatMap, Home, Main, Src.shapes, Src.str]
  constructor
  · rintro (⟨l, hl, ⟨x, s⟩, h1, h2⟩ | ⟨⟨x, s⟩, h1, h2⟩)
    · exact Or.inl ⟨l, hl, x, s, h1, h2⟩
    · exact Or.inr ⟨x, s, h1, h2⟩
  · rintro (⟨l, hl, x, s, h1, h2⟩ | ⟨x, s, h1, h2⟩)
    · exact Or.inl ⟨l, hl, ⟨x, s⟩, h1, h2⟩
    · exact Or.inr ⟨⟨x, s⟩, h1, h2⟩

/-- Where the addresses of inputs come from. -/
theorem Site.ins_home (hL : Laid layers L) {data : LayerInfo} {rest : List LayerInfo} (ho : Ordered layers data rest)
    {l : LayerInfo} (hl : l ∈ rest) {m : MLayer} (hs : Site layers L T B data l m) {a : ℕ} (ha : a ∈ m.ins) :
    (∃ x s, Home layers L T B l .par x s a) ∨
    (∃ k ∈ layers, ∃ o ∈ k.outgoing, o.kind = .outputs ∧ o.endLayer = l.name ∧ (∃ s, Home layers L T B k .out o.buffer s a) ∧
      Main layers L T B k .out o.buffer a) ∨
    (∃ k ∈ layers, ∃ o ∈ k.outgoing, o.kind = .parameters ∧ o.endLayer = l.name ∧ ∃ s, Home layers L T B k .par o.buffer s a) := by
  have hl' : l ∈ layers := by rw [ho.all]; simp [hl]
  rcases hs.ins a ha with ⟨x, hx, hm⟩ | h
  · right
    obtain ⟨conns, hc⟩ := hL.conns
    have hkv : (Key.arr .inp l x).Valid layers := ⟨hl', hx⟩
    obtain ⟨k, hk, o, hok, e1, e2⟩ := ho.fed l hl x hx
    have hfed : ∃ p, (p, path l.name (str "inputs") x) ∈ conns := by
      have hkind : o.kind = .outputs ∨ o.kind = .parameters := by
        have := hL.noInternal k hk o hok
        cases h : o.kind <;> simp_all
      rcases hkind with h | h
      · have hfl : Flow layers (.arr .out k o.buffer) (.arr .inp l x) := by
          rw [← e2]; exact .out hk hok h hl' e1.symm
        exact ⟨_, (conn_key hL.wf hL.noInternal hc (hfl.valid hL.wf).1 hkv false).2 hfl⟩
      · have hfl : Flow layers (.arr .par k o.buffer) (.arr .inp l x) := by
          rw [← e2]; exact .par hk hok h hl' e1.symm
        exact ⟨_, (conn_key hL.wf hL.noInternal hc (hfl.valid hL.wf).1 hkv false).2 hfl⟩
    obtain ⟨p, hp, hpm⟩ := hL.input_cover hc (t := path l.name (str "inputs") x) (key_array hkv (by simp) false) hfed hm
    obtain ⟨k', hf, rfl⟩ := conn_into hL.wf hL.noInternal hc (t := .arr .inp l x) (b := false) hkv hp
    have hv := (hf.valid hL.wf).1
    cases hf with
    | @out k e o' hk ho' hkd he hen =>
      left
      obtain ⟨s, hs⟩ := shape_of hv.2
      exact ⟨k, hk, o', ho', hkd, hen.symm, ⟨s, Home.of_main (c := .out) hL hs hpm⟩, hpm⟩
    | @par k e o' hk ho' hkd he hen =>
      right
      obtain ⟨s, hs⟩ := shape_of hv.2
      exact ⟨k, hk, o', ho', hkd, hen.symm, ⟨s, Home.of_main (c := .par) hL hs hpm⟩⟩
  · exact Or.inl h

/-- What a layer writes in the forward pass. -/
theorem Site.written {data l : LayerInfo} {m : MLayer} (hs : Site layers L T B data l m) {a : ℕ}
    (ha : a ∈ m.outs ∨ a ∈ m.own) :
    (∃ x s, Home layers L T B l .out x s a ∧ Main layers L T B l .out x a) ∨
    (∃ x s, Home layers L T B l .int x s a ∧ (Main layers L T B l .int x a ∨ s.backwardOnly = true)) ∨
    ∃ x s, Home layers L T B l .dout x s a ∧ ¬ Main layers L T B l .dout x a := by
  rcases ha with ha | ha
  · exact Or.inl (hs.outs a ha)
  · rcases hs.own a ha with h | h | ⟨-, h⟩
    · exact Or.inr (Or.inl h)
    · exact Or.inr (Or.inr h)
    · exact Or.inl h

theorem internal_eq (hw : WellFormedLayers layers) {l : LayerInfo} (hl : l ∈ layers) {x : Name} {s s' : Struct}
    (h : (x, s) ∈ l.internalShapes) (h' : (x, s') ∈ l.internalShapes) : s = s' := by
  have h1 := Dict.get?_of_mem (hw.internalNodup l hl) h
  have h2 := Dict.get?_of_mem (hw.internalNodup l hl) h'
  rw [h1] at h2
  exact Option.some.inj h2

/-- What a layer writes is not what a layer reads without computing deltas. -/
theorem written_fixed (hL : Laid layers L) {data : LayerInfo} {rest : List LayerInfo} (ho : Ordered layers data rest)
    {l k : LayerInfo} (hl : l ∈ rest) (hk : k ∈ rest) {m n : MLayer} (hs : Site layers L T B data l m)
    (ht : Site layers L T B data k n) {a : ℕ} (ha : a ∈ m.outs ∨ a ∈ m.own) : a ∉ n.fixed := by
  intro hf
  have hl' : l ∈ layers := by rw [ho.all]; simp [hl]
  have hk' : k ∈ layers := by rw [ho.all]; simp [hk]
  have hd' : data ∈ layers := by rw [ho.all]; simp
  have hne : l ≠ data := by
    rintro rfl
    have := hL.wf.names
    rw [ho.all] at this
    simp only [List.map_cons, List.nodup_cons, List.mem_map, not_exists, not_and] at this
    exact this.1 l hl rfl
  rcases hs.written ha with ⟨x, s, h, hm⟩ | ⟨x, s, h, hm⟩ | ⟨x, s, h, hm⟩ <;>
    rcases ht.fixed a hf with ⟨x', s', h', hm'⟩ | ⟨x', s', h'⟩ | ⟨x', s', h', hm'⟩ | ⟨x', s', h', hm', hb'⟩ | h'
  · exact hne (Home.inj hL hl' hd' h h').1
  · exact absurd (Home.inj hL hl' hk' h h').2.1 (by simp)
  · obtain ⟨rfl, -, rfl⟩ := Home.inj hL hl' hk' h h'
    exact hm' hm
  · exact absurd (Home.inj hL hl' hk' h h').2.1 (by simp)
  · exact absurd h.lt_total (by omega)
  · exact absurd (Home.inj hL hl' hd' h h').2.1 (by simp)
  · exact absurd (Home.inj hL hl' hk' h h').2.1 (by simp)
  · exact absurd (Home.inj hL hl' hk' h h').2.1 (by simp)
  · obtain ⟨rfl, -, rfl⟩ := Home.inj hL hl' hk' h h'
    have := internal_eq hL.wf hl' h.1 h'.1
    subst this
    rcases hm with hm | hm
    · exact hm' hm
    · rw [hm] at hb'; cases hb'
  · exact absurd h.lt_total (by omega)
  · exact absurd (Home.inj hL hl' hd' h h').2.1 (by simp)
  · exact absurd (Home.inj hL hl' hk' h h').2.1 (by simp)
  · exact absurd (Home.inj hL hl' hk' h h').2.1 (by simp)
  · exact absurd (Home.inj hL hl' hk' h h').2.1 (by simp)
  · exact absurd h.lt_total (by omega)

/-- What a layer writes is not read by layers that do not come after it. -/
theorem written_ins (hL : Laid layers L) {data : LayerInfo} {rest : List LayerInfo} (ho : Ordered layers data rest)
    {l k : LayerInfo} (hl : l ∈ rest) (hk : k ∈ rest) {m n : MLayer} (hs : Site layers L T B data l m)
    (ht : Site layers L T B data k n) (hno : ∀ o ∈ l.outgoing, o.kind = .outputs → o.endLayer ≠ k.name) {a : ℕ}
    (ha : a ∈ m.outs ∨ a ∈ m.own) : a ∉ n.ins := by
  intro hf
  have hl' : l ∈ layers := by rw [ho.all]; simp [hl]
  have hk' : k ∈ layers := by rw [ho.all]; simp [hk]
  rcases hs.written ha with ⟨x, s, h, hm⟩ | ⟨x, s, h, hm⟩ | ⟨x, s, h, hm⟩ <;>
    rcases ht.ins_home hL ho hk hf with ⟨x', s', h'⟩ | ⟨j, hj, o, hoj, ho1, ho2, ⟨s', h'⟩, -⟩ | ⟨j, hj, o, hoj, ho1, ho2, s', h'⟩
  · exact absurd (Home.inj hL hl' hk' h h').2.1 (by simp)
  · obtain ⟨rfl, -, -⟩ := Home.inj hL hl' hj h h'
    exact hno o hoj ho1 ho2
  · exact absurd (Home.inj hL hl' hj h h').2.1 (by simp)
  · exact absurd (Home.inj hL hl' hk' h h').2.1 (by simp)
  · exact absurd (Home.inj hL hl' hj h h').2.1 (by simp)
  · exact absurd (Home.inj hL hl' hj h h').2.1 (by simp)
  · exact absurd (Home.inj hL hl' hk' h h').2.1 (by simp)
  · exact absurd (Home.inj hL hl' hj h h').2.1 (by simp)
  · exact absurd (Home.inj hL hl' hj h h').2.1 (by simp)

/-- Different layers write different addresses. -/
theorem written_written (hL : Laid layers L) {data : LayerInfo}
    {l k : LayerInfo} (hl' : l ∈ layers) (hk' : k ∈ layers) (hne : l ≠ k) {m n : MLayer} (hs : Site layers L T B data l m)
    (ht : Site layers L T B data k n) {a : ℕ} (ha : a ∈ m.outs ∨ a ∈ m.own) : ¬ (a ∈ n.outs ∨ a ∈ n.own) := by
  intro hb
  rcases hs.written ha with ⟨x, s, h, -⟩ | ⟨x, s, h, -⟩ | ⟨x, s, h, -⟩ <;>
    rcases ht.written hb with ⟨x', s', h', -⟩ | ⟨x', s', h', -⟩ | ⟨x', s', h', -⟩ <;>
    exact hne (Home.inj hL hl' hk' h h').1

theorem outs_own (hL : Laid layers L) {data : LayerInfo}
    {l : LayerInfo} (hl' : l ∈ layers) {m : MLayer} (hs : Site layers L T B data l m) {a : ℕ} (ha : a ∈ m.outs) : a ∉ m.own := by
  intro hb
  obtain ⟨x, s, h, -⟩ := hs.outs a ha
  rcases hs.own a hb with ⟨x', s', h', -⟩ | ⟨x', s', h', -⟩ | ⟨h', -⟩
  · exact absurd (Home.inj hL hl' hl' h h').2.1 (by simp)
  · exact absurd (Home.inj hL hl' hl' h h').2.1 (by simp)
  · exact h' ha

theorem written_given (hL : Laid layers L) {data : LayerInfo} {rest : List LayerInfo} (ho : Ordered layers data rest)
    {l : LayerInfo} (hl : l ∈ rest) {m : MLayer} (hs : Site layers L T B data l m) {a : ℕ}
    (ha : a ∈ m.outs ∨ a ∈ m.own) : a ∉ given layers L T B data := by
  intro hg
  have hl' : l ∈ layers := by rw [ho.all]; simp [hl]
  have hd' : data ∈ layers := by rw [ho.all]; simp
  have hne : l ≠ data := by
    rintro rfl
    have := hL.wf.names
    rw [ho.all] at this
    simp only [List.map_cons, List.nodup_cons, List.mem_map, not_exists, not_and] at this
    exact this.1 l hl rfl
  rcases (mem_given a).1 hg with ⟨k, hk', x', s', h'⟩ | ⟨x', s', h', hm'⟩
  · rcases hs.written ha with ⟨x, s, h, hm⟩ | ⟨x, s, h, hm⟩ | ⟨x, s, h, hm⟩ <;>
    exact absurd (Home.inj hL hl' hk' h h').2.1 (by simp)
  · have h' : Home layers L T B data .out x' s' a := Home.of_main hL h' hm'
    rcases hs.written ha with ⟨x, s, h, hm⟩ | ⟨x, s, h, hm⟩ | ⟨x, s, h, hm⟩ <;>
    exact hne (Home.inj hL hl' hd' h h').1

end

end Verif.Memory
