import Verif.Layout.Create
import Verif.Layout.GroupProps

namespace Verif.Layout

open Verif.Structure

/-! ### Specification: well-formed layers -/

/-- What instantiated layers always satisfy: distinct names without dots,
distinct buffer names, connections between existing buffers. -/
structure WellFormedLayers (layers : List LayerInfo) : Prop where
  names : (layers.map LayerInfo.name).Nodup
  noDot : ∀ l ∈ layers, '.' ∉ l.name
  inNodup : ∀ l ∈ layers, (l.inShapes.map Prod.fst).Nodup
  outNodup : ∀ l ∈ layers, (l.outShapes.map Prod.fst).Nodup
  paramNodup : ∀ l ∈ layers, (l.paramShapes.map Prod.fst).Nodup
  internalNodup : ∀ l ∈ layers, (l.internalShapes.map Prod.fst).Nodup
  starts : ∀ l ∈ layers, ∀ o ∈ l.outgoing,
    match o.kind with
    | .outputs => o.buffer ∈ l.outShapes.map Prod.fst
    | .parameters => o.buffer ∈ l.paramShapes.map Prod.fst
    | .internals => o.buffer ∈ l.internalShapes.map Prod.fst
  ends : ∀ l ∈ layers, ∀ o ∈ l.outgoing, ∃ e ∈ layers, e.name = o.endLayer ∧
    o.endInput ∈ e.inShapes.map Prod.fst

/-! ### Paths -/

theorem sep_inj {l l' r r' : Name} (h1 : '.' ∉ l) (h2 : '.' ∉ l') (h : l ++ '.' :: r = l' ++ '.' :: r') :
    l = l' ∧ r = r' := by
  induction l generalizing l' with
  | nil =>
    cases l' with
    | nil => simpa using h
    | cons c l' =>
      simp only [List.nil_append, List.cons_append, List.cons.injEq] at h
      exact absurd (h.1 ▸ List.mem_cons_self) h2
  | cons a l ih =>
    cases l' with
    | nil =>
      simp only [List.nil_append, List.cons_append, List.cons.injEq] at h
      exact absurd (h.1 ▸ List.mem_cons_self) h1
    | cons c l' =>
      simp only [List.cons_append, List.cons.injEq] at h
      simp only [List.mem_cons, not_or] at h1 h2
      obtain ⟨e1, e2⟩ := ih h1.2 h2.2 h.2
      exact ⟨by rw [h.1, e1], e2⟩

theorem path_inj {l l' c c' b b' : Name} (h1 : '.' ∉ l) (h2 : '.' ∉ l') (h3 : '.' ∉ c) (h4 : '.' ∉ c')
    (h : path l c b = path l' c' b') : l = l' ∧ c = c' ∧ b = b' := by
  obtain ⟨e1, e2⟩ := sep_inj h1 h2 h
  exact ⟨e1, sep_inj h3 h4 e2⟩

theorem path_inj_buf {l c b b' : Name} (h : path l c b = path l c b') : b = b' := by
  simpa [path] using h

theorem dot_mem_path (l c b : Name) : '.' ∈ path l c b := by simp [path]

theorem path_ne_root {l c b : Name} : path l c b ≠ str "parameters" ∧ path l c b ≠ str "gradients" := by
  constructor
  · intro h
    have := dot_mem_path l c b
    rw [h] at this
    exact absurd this (by decide)
  · intro h
    have := dot_mem_path l c b
    rw [h] at this
    exact absurd this (by decide)

theorem cat_noDot {l : LayerInfo} {c : Name × Bool × List (Name × Struct)} (hc : c ∈ layerCats l) :
    '.' ∉ c.1 := by
  simp only [layerCats, List.mem_cons, List.not_mem_nil, or_false] at hc
  rcases hc with rfl | rfl | rfl | rfl | rfl | rfl | rfl <;> simp only <;> decide

theorem cats_nodup (l : LayerInfo) : ((layerCats l).map Prod.fst).Nodup := by
  simp only [layerCats, List.map_cons, List.map_nil]
  decide

theorem cat_shapes_nodup {layers : List LayerInfo} (hw : WellFormedLayers layers) {l : LayerInfo} (hl : l ∈ layers)
    {c : Name × Bool × List (Name × Struct)} (hc : c ∈ layerCats l) : (c.2.2.map Prod.fst).Nodup := by
  simp only [layerCats, List.mem_cons, List.not_mem_nil, or_false] at hc
  rcases hc with rfl | rfl | rfl | rfl | rfl | rfl | rfl
  · exact hw.inNodup l hl
  · exact hw.outNodup l hl
  · exact hw.paramNodup l hl
  · exact hw.internalNodup l hl
  · exact hw.inNodup l hl
  · exact hw.outNodup l hl
  · exact hw.paramNodup l hl

theorem mem_category {L cat : Name} {back : Bool} {shapes : List (Name × Struct)} {p : Name} :
    p ∈ (category L cat back shapes).map Prod.fst ↔ ∃ b ∈ shapes.map Prod.fst, p = path L cat b := by
  simp only [category, List.map_map, List.mem_map, Function.comp]
  constructor
  · rintro ⟨e, he, rfl⟩; exact ⟨e.1, ⟨e, he, rfl⟩, rfl⟩
  · rintro ⟨b, ⟨e, he, rfl⟩, rfl⟩; exact ⟨e, he, rfl⟩

theorem mem_networkArrays {layers : List LayerInfo} {p : Name} :
    p ∈ (networkArrays layers).map Prod.fst ↔
      ∃ l ∈ layers, ∃ c ∈ layerCats l, ∃ b ∈ c.2.2.map Prod.fst, p = path l.name c.1 b := by
  simp only [networkArrays, layerArrays, List.map_flatMap, List.mem_flatMap, mem_category]

theorem networkArrays_nodup {layers : List LayerInfo} (hw : WellFormedLayers layers) :
    ((networkArrays layers).map Prod.fst).Nodup := by
  simp only [networkArrays, List.map_flatMap]
  rw [List.nodup_flatMap]
  refine ⟨fun l hl => ?_, ?_⟩
  · simp only [layerArrays, List.map_flatMap]
    rw [List.nodup_flatMap]
    refine ⟨fun c hc => ?_, ?_⟩
    · have := cat_shapes_nodup hw hl hc
      have h2 : (category l.name c.1 c.2.1 c.2.2).map Prod.fst = (c.2.2.map Prod.fst).map (path l.name c.1) := by
        simp [category]
      rw [h2]
      exact this.map (fun _ _ h => path_inj_buf h)
    · have hnd := List.pairwise_map.1 (cats_nodup l)
      refine hnd.imp_of_mem ?_
      intro c c' hc hc' hne p h1 h2
      obtain ⟨b, -, e1⟩ := mem_category.1 h1
      obtain ⟨b', -, e2⟩ := mem_category.1 h2
      rw [e1] at e2
      exact hne (path_inj (hw.noDot l hl) (hw.noDot l hl) (cat_noDot hc) (cat_noDot hc') e2).2.1
  · have hnd := List.pairwise_map.1 hw.names
    refine hnd.imp_of_mem ?_
    intro l l' hl hl' hne p h1 h2
    simp only [layerArrays, List.map_flatMap, List.mem_flatMap, mem_category] at h1 h2
    obtain ⟨c, hc, b, -, e1⟩ := h1
    obtain ⟨c', hc', b', -, e2⟩ := h2
    rw [e1] at e2
    exact hne (path_inj (hw.noDot l hl) (hw.noDot l' hl') (cat_noDot hc) (cat_noDot hc') e2).1

/-! ### Connections -/

theorem mem_layerConns {l : LayerInfo} {os : List Outgoing} {cs : List (Name × Name)}
    (h : layerConns l os = .ok cs) (c : Name × Name) :
    c ∈ cs ↔ ∃ o ∈ os, c = fwdConn l o ∨ bwdConn l o = .ok c := by
  induction os generalizing cs with
  | nil => simp [layerConns] at h; subst h; simp
  | cons o rest ih =>
    simp only [layerConns] at h
    cases hb : bwdConn l o with
    | error e => simp [hb] at h
    | ok b =>
      simp only [hb] at h
      cases hr : layerConns l rest with
      | error e => simp [hr] at h
      | ok cs' =>
        simp only [hr, Except.ok.injEq] at h
        subst h
        simp only [List.mem_cons, ih hr, exists_eq_or_imp, hb, Except.ok.injEq, or_assoc, eq_comm (a := b)]

theorem layerConns_bwd {l : LayerInfo} {os : List Outgoing} {cs : List (Name × Name)}
    (h : layerConns l os = .ok cs) : ∀ o ∈ os, ∃ b, bwdConn l o = .ok b := by
  induction os generalizing cs with
  | nil => simp
  | cons o rest ih =>
    simp only [layerConns] at h
    cases hb : bwdConn l o with
    | error e => simp [hb] at h
    | ok b =>
      simp only [hb] at h
      cases hr : layerConns l rest with
      | error e => simp [hr] at h
      | ok cs' =>
        intro o' ho'
        rcases List.mem_cons.1 ho' with rfl | ho'
        · exact ⟨b, hb⟩
        · exact ih hr o' ho'

theorem mem_flowConns {layers : List LayerInfo} {cs : List (Name × Name)}
    (h : flowConns layers = .ok cs) (c : Name × Name) :
    c ∈ cs ↔ ∃ l ∈ layers, ∃ o ∈ l.outgoing, c = fwdConn l o ∨ bwdConn l o = .ok c := by
  induction layers generalizing cs with
  | nil => simp [flowConns] at h; subst h; simp
  | cons l rest ih =>
    simp only [flowConns] at h
    cases hb : layerConns l l.outgoing with
    | error e => simp [hb] at h
    | ok a =>
      simp only [hb] at h
      cases hr : flowConns rest with
      | error e => simp [hr] at h
      | ok b =>
        simp only [hr, Except.ok.injEq] at h
        subst h
        simp only [List.mem_append, mem_layerConns hb, ih hr, List.exists_mem_cons_iff]

theorem flowConns_bwd {layers : List LayerInfo} {cs : List (Name × Name)}
    (h : flowConns layers = .ok cs) : ∀ l ∈ layers, ∀ o ∈ l.outgoing, ∃ b, bwdConn l o = .ok b := by
  induction layers generalizing cs with
  | nil => simp
  | cons l rest ih =>
    simp only [flowConns] at h
    cases hb : layerConns l l.outgoing with
    | error e => simp [hb] at h
    | ok a =>
      simp only [hb] at h
      cases hr : flowConns rest with
      | error e => simp [hr] at h
      | ok b =>
        intro l' hl'
        rcases List.mem_cons.1 hl' with rfl | hl'
        · exact layerConns_bwd hb
        · exact ih hr l' hl'

/-- The connections of a network. -/
theorem mem_getConnections {layers : List LayerInfo} {conns : List (Name × Name)}
    (h : getConnections layers = .ok conns) (c : Name × Name) :
    c ∈ conns ↔ ∃ l ∈ layers,
      (∃ o ∈ l.outgoing, c = fwdConn l o ∨ bwdConn l o = .ok c) ∨
      (∃ x ∈ l.paramShapes.map Prod.fst, c = (path l.name (str "parameters") x, str "parameters") ∨
        c = (path l.name (str "gradients") x, str "gradients")) := by
  unfold getConnections at h
  cases hf : flowConns layers with
  | error e => simp [hf] at h
  | ok cs =>
    simp only [hf, Except.ok.injEq] at h
    subst h
    rw [mem_sortBy, List.mem_append, mem_flowConns hf]
    simp only [paramConns, List.mem_flatMap, List.mem_cons, List.not_mem_nil, or_false, List.mem_map]
    constructor
    · rintro (⟨l, hl, h⟩ | ⟨l, hl, e, he, h⟩)
      · exact ⟨l, hl, Or.inl h⟩
      · exact ⟨l, hl, Or.inr ⟨e.1, ⟨e, he, rfl⟩, h⟩⟩
    · rintro ⟨l, hl, h | ⟨x, ⟨e, he, rfl⟩, h⟩⟩
      · exact Or.inl ⟨l, hl, h⟩
      · exact Or.inr ⟨l, hl, e, he, h⟩

/-- The end of a connection is a layer input, an input delta or a root array. -/
theorem conn_end {layers : List LayerInfo} (hw : WellFormedLayers layers) {conns : List (Name × Name)}
    (h : getConnections layers = .ok conns) {c : Name × Name} (hc : c ∈ conns) :
    (∃ e ∈ layers, ∃ y, c.2 = path e.name (str "inputs") y) ∨
    (∃ e ∈ layers, ∃ y, c.2 = path e.name (str "input_deltas") y) ∨
    c.2 = str "parameters" ∨ c.2 = str "gradients" := by
  obtain ⟨l, hl, hcase⟩ := (mem_getConnections h c).1 hc
  rcases hcase with ⟨o, ho, hfb⟩ | ⟨x, hx, hpg⟩
  · obtain ⟨e, he, hen, -⟩ := hw.ends l hl o ho
    rcases hfb with rfl | hb
    · left; exact ⟨e, he, o.endInput, by simp [fwdConn, hen]⟩
    · right; left
      refine ⟨e, he, o.endInput, ?_⟩
      unfold bwdConn at hb
      simp only at hb
      split at hb
      · simp at hb; rw [← hb, hen]
      · simp at hb; rw [← hb, hen]
      · split at hb
        · simp at hb; rw [← hb, hen]
        · simp at hb
  · rcases hpg with rfl | rfl
    · right; right; left; rfl
    · right; right; right; rfl

/-- The start of a connection is an output, a parameter, an internal buffer, an
output delta or a gradient of a layer. -/
theorem conn_start {layers : List LayerInfo} (hw : WellFormedLayers layers) {conns : List (Name × Name)}
    (h : getConnections layers = .ok conns) {c : Name × Name} (hc : c ∈ conns) :
    ∃ l ∈ layers, ∃ k ∈ layerCats l, k.1 ≠ str "inputs" ∧ k.1 ≠ str "input_deltas" ∧
      ∃ b ∈ k.2.2.map Prod.fst, c.1 = path l.name k.1 b := by
  obtain ⟨l, hl, hcase⟩ := (mem_getConnections h c).1 hc
  refine ⟨l, hl, ?_⟩
  rcases hcase with ⟨o, ho, hfb⟩ | ⟨x, hx, hpg⟩
  · have hst := hw.starts l hl o ho
    rcases hfb with rfl | hb
    · unfold fwdConn
      cases hk : o.kind with
      | outputs =>
        rw [hk] at hst
        exact ⟨(str "outputs", false, l.outShapes), by simp [layerCats], by simp only; decide, by simp only; decide, o.buffer, hst, rfl⟩
      | parameters =>
        rw [hk] at hst
        exact ⟨(str "parameters", false, l.paramShapes), by simp [layerCats], by simp only; decide, by simp only; decide, o.buffer, hst, rfl⟩
      | internals =>
        rw [hk] at hst
        exact ⟨(str "internals", false, l.internalShapes), by simp [layerCats], by simp only; decide, by simp only; decide, o.buffer, hst, rfl⟩
    · unfold bwdConn at hb
      cases hk : o.kind with
      | outputs =>
        rw [hk] at hst hb
        simp at hb
        exact ⟨(str "output_deltas", true, l.outShapes), by simp [layerCats], by simp only; decide, by simp only; decide, o.buffer, hst, by rw [← hb]⟩
      | parameters =>
        rw [hk] at hst hb
        simp at hb
        exact ⟨(str "gradients", true, l.paramShapes), by simp [layerCats], by simp only; decide, by simp only; decide, o.buffer, hst, by rw [← hb]⟩
      | internals =>
        rw [hk] at hst hb
        simp only at hb
        split at hb
        · rename_i hmem
          simp at hb
          exact ⟨(str "internals", false, l.internalShapes), by simp [layerCats], by simp only; decide, by simp only; decide, 'd' :: o.buffer, hmem, by rw [← hb]⟩
        · simp at hb
  · rcases hpg with rfl | rfl
    · exact ⟨(str "parameters", false, l.paramShapes), by simp [layerCats], by simp only; decide, by simp only; decide, x, hx, rfl⟩
    · exact ⟨(str "gradients", true, l.paramShapes), by simp [layerCats], by simp only; decide, by simp only; decide, x, hx, rfl⟩

/-- No array that starts a connection is a sink. -/
theorem start_not_sink {layers : List LayerInfo} (hw : WellFormedLayers layers) {conns : List (Name × Name)}
    (h : getConnections layers = .ok conns) {c : Name × Name} (hc : c ∈ conns) :
    c.1 ∈ (networkArrays layers).map Prod.fst ∧ c.1 ∉ conns.map Prod.snd ∧
      c.1 ≠ str "parameters" ∧ c.1 ≠ str "gradients" := by
  obtain ⟨l, hl, k, hk, hk1, hk2, b, hb, e⟩ := conn_start hw h hc
  refine ⟨mem_networkArrays.2 ⟨l, hl, k, hk, b, hb, e⟩, ?_, ?_, ?_⟩
  · intro hmem
    obtain ⟨d, hd, hde⟩ := List.mem_map.1 hmem
    rcases conn_end hw h hd with ⟨e', he', y, h1⟩ | ⟨e', he', y, h1⟩ | h1 | h1
    · rw [hde, e] at h1
      exact hk1 (path_inj (hw.noDot l hl) (hw.noDot e' he') (cat_noDot hk) (by decide) h1).2.1
    · rw [hde, e] at h1
      exact hk2 (path_inj (hw.noDot l hl) (hw.noDot e' he') (cat_noDot hk) (by decide) h1).2.1
    · rw [hde, e] at h1
      exact path_ne_root.1 h1
    · rw [hde, e] at h1
      exact path_ne_root.2 h1
  · rw [e]; exact path_ne_root.1
  · rw [e]; exact path_ne_root.2

/-! ### Forced orders -/

theorem getForcedOrders_ok {layers : List LayerInfo} {forced : List (List Name)}
    (h : getForcedOrders layers = .ok forced) :
    (∀ fo, fo ∈ forced ↔ fo ≠ [] ∧ ∃ l ∈ layers, fo = paramOrder l ∨ fo = gradOrder l) ∧
    forced.Pairwise (fun a b => ∀ x ∈ a, x ∉ b) := by
  unfold getForcedOrders at h
  simp only at h
  split at h
  · rename_i hp
    simp only [Except.ok.injEq] at h
    subst h
    refine ⟨fun fo => ?_, hp⟩
    simp only [List.mem_filter, List.mem_append, List.mem_map, decide_eq_true_eq]
    constructor
    · rintro ⟨⟨l, hl, rfl⟩ | ⟨l, hl, rfl⟩, h2⟩
      · exact ⟨h2, l, hl, Or.inl rfl⟩
      · exact ⟨h2, l, hl, Or.inr rfl⟩
    · rintro ⟨h2, l, hl, rfl | rfl⟩
      · exact ⟨Or.inl ⟨l, hl, rfl⟩, h2⟩
      · exact ⟨Or.inr ⟨l, hl, rfl⟩, h2⟩
  · simp at h

theorem mem_paramOrder {l : LayerInfo} {p : Name} :
    p ∈ paramOrder l ↔ ∃ x ∈ l.paramShapes.map Prod.fst, p = path l.name (str "parameters") x := by
  simp only [paramOrder, List.mem_map]
  constructor
  · rintro ⟨e, he, rfl⟩; exact ⟨e.1, ⟨e, he, rfl⟩, rfl⟩
  · rintro ⟨x, ⟨e, he, rfl⟩, rfl⟩; exact ⟨e, he, rfl⟩

theorem mem_gradOrder {l : LayerInfo} {p : Name} :
    p ∈ gradOrder l ↔ ∃ x ∈ l.paramShapes.map Prod.fst, p = path l.name (str "gradients") x := by
  simp only [gradOrder, List.mem_map]
  constructor
  · rintro ⟨e, he, rfl⟩; exact ⟨e.1, ⟨e, he, rfl⟩, rfl⟩
  · rintro ⟨x, ⟨e, he, rfl⟩, rfl⟩; exact ⟨e, he, rfl⟩

theorem orders_nodup {layers : List LayerInfo} (hw : WellFormedLayers layers) {l : LayerInfo} (hl : l ∈ layers) :
    (paramOrder l).Nodup ∧ (gradOrder l).Nodup := by
  have hp := hw.paramNodup l hl
  constructor
  · have : paramOrder l = (l.paramShapes.map Prod.fst).map (path l.name (str "parameters")) := by simp [paramOrder]
    rw [this]; exact hp.map (fun _ _ h => path_inj_buf h)
  · have : gradOrder l = (l.paramShapes.map Prod.fst).map (path l.name (str "gradients")) := by simp [gradOrder]
    rw [this]; exact hp.map (fun _ _ h => path_inj_buf h)

/-! ### Sources -/

/-- Loop invariant of `get_all_sources`. -/
structure SourceInv (forced : List (List Name)) (sinks done : List Name) (acc : List Item) : Prop where
  nodup : (acc.flatMap Item.flat).Nodup
  tuples : ∀ l, Item.tup l ∈ acc → l ∈ forced
  singles : ∀ p, Item.one p ∈ acc → ∀ l ∈ forced, p ∉ l
  covered : ∀ s ∈ done, s ∉ sinks → s ≠ str "parameters" → s ≠ str "gradients" → s ∈ acc.flatMap Item.flat
  subset : forced = [] → ∀ p ∈ acc.flatMap Item.flat, p ∈ done
  notSink : ∀ p, Item.one p ∈ acc → p ∉ sinks ∧ p ≠ str "parameters" ∧ p ≠ str "gradients"

theorem sourceInv_step {forced : List (List Name)} {sinks done : List Name} {acc : List Item} {s : Name}
    (hf : ∀ fo ∈ forced, fo.Nodup) (hd : forced.Pairwise (fun a b => ∀ x ∈ a, x ∉ b))
    (hs : s ∉ done) (h : SourceInv forced sinks done acc) :
    SourceInv forced sinks (done ++ [s]) (addSource forced sinks acc s) := by
  unfold addSource
  split_ifs with h1 h2 h3
  · refine ⟨h.nodup, h.tuples, h.singles, ?_, fun hf p hp => List.mem_append_left _ (h.subset hf p hp), h.notSink⟩
    intro x hx hx1 hx2 hx3
    rcases List.mem_append.1 hx with hx | hx
    · exact h.covered x hx hx1 hx2 hx3
    · rw [List.mem_singleton] at hx; subst hx; tauto
  · subst h2
    refine ⟨?_, ?_, by simp, ?_, ?_, ?_⟩
    · rw [List.flatMap_append, List.nodup_append]
      refine ⟨h.nodup, by simp [Item.flat], ?_⟩
      intro a ha b hb hab
      simp [Item.flat] at hb
      subst hb; subst hab
      exact hs (h.subset rfl _ ha)
    · intro l hl
      rcases List.mem_append.1 hl with hl | hl
      · exact h.tuples l hl
      · simp at hl
    · intro x hx hx1 hx2 hx3
      rw [List.flatMap_append]
      rcases List.mem_append.1 hx with hx | hx
      · exact List.mem_append_left _ (h.covered x hx hx1 hx2 hx3)
      · rw [List.mem_singleton] at hx; subst hx; simp [Item.flat]
    · intro _ p hp
      rw [List.flatMap_append] at hp
      rcases List.mem_append.1 hp with hp | hp
      · exact List.mem_append_left _ (h.subset rfl p hp)
      · simp [Item.flat] at hp; simp [hp]
    · intro p hp
      rcases List.mem_append.1 hp with hp | hp
      · exact h.notSink p hp
      · simp at hp; subst hp; tauto
  · refine ⟨h.nodup, h.tuples, h.singles, ?_, fun hf p hp => List.mem_append_left _ (h.subset hf p hp), h.notSink⟩
    intro x hx hx1 hx2 hx3
    rcases List.mem_append.1 hx with hx | hx
    · exact h.covered x hx hx1 hx2 hx3
    · rw [List.mem_singleton] at hx; subst hx; exact h3
  · split
    · rename_i fo hfind
      have hfo := List.mem_of_find?_eq_some hfind
      have hsfo : s ∈ fo := by simpa using List.find?_some hfind
      refine ⟨?_, ?_, ?_, ?_, fun hf => absurd hf h2, ?_⟩
      · rw [List.flatMap_append, List.nodup_append]
        refine ⟨h.nodup, by simpa [Item.flat] using hf fo hfo, ?_⟩
        intro a ha b hb hab
        simp [Item.flat] at hb
        subst hab
        obtain ⟨it, hit, hai⟩ := List.mem_flatMap.1 ha
        cases it with
        | one p =>
          simp [Item.flat] at hai; subst hai
          exact h.singles _ hit fo hfo hb
        | tup l =>
          have e1 := mergeNode_of_mem hd (h.tuples l hit) hai
          have e2 := mergeNode_of_mem hd hfo hb
          rw [e1] at e2
          cases e2
          exact h3 (List.mem_flatMap.2 ⟨_, hit, hsfo⟩)
      · intro l hl
        rcases List.mem_append.1 hl with hl | hl
        · exact h.tuples l hl
        · simp at hl; subst hl; exact hfo
      · intro p hp
        rcases List.mem_append.1 hp with hp | hp
        · exact h.singles p hp
        · simp at hp
      · intro x hx hx1 hx2 hx3
        rw [List.flatMap_append]
        rcases List.mem_append.1 hx with hx | hx
        · exact List.mem_append_left _ (h.covered x hx hx1 hx2 hx3)
        · rw [List.mem_singleton] at hx; subst hx; simp [Item.flat, hsfo]
      · intro p hp
        rcases List.mem_append.1 hp with hp | hp
        · exact h.notSink p hp
        · simp at hp
    · rename_i hfind
      rw [List.find?_eq_none] at hfind
      refine ⟨?_, ?_, ?_, ?_, fun hf => absurd hf h2, ?_⟩
      · rw [List.flatMap_append, List.nodup_append]
        refine ⟨h.nodup, by simp [Item.flat], ?_⟩
        intro a ha b hb hab
        simp [Item.flat] at hb
        subst hb; subst hab
        exact h3 ha
      · intro l hl
        rcases List.mem_append.1 hl with hl | hl
        · exact h.tuples l hl
        · simp at hl
      · intro p hp
        rcases List.mem_append.1 hp with hp | hp
        · exact h.singles p hp
        · simp at hp; subst hp
          intro l hl hpl
          exact hfind l hl (by simpa using hpl)
      · intro x hx hx1 hx2 hx3
        rw [List.flatMap_append]
        rcases List.mem_append.1 hx with hx | hx
        · exact List.mem_append_left _ (h.covered x hx hx1 hx2 hx3)
        · rw [List.mem_singleton] at hx; subst hx; simp [Item.flat]
      · intro p hp
        rcases List.mem_append.1 hp with hp | hp
        · exact h.notSink p hp
        · simp at hp; subst hp; tauto

theorem sourceInv_fold {forced : List (List Name)} {sinks : List Name}
    (hf : ∀ fo ∈ forced, fo.Nodup) (hd : forced.Pairwise (fun a b => ∀ x ∈ a, x ∉ b)) :
    ∀ (rest done : List Name) (acc : List Item), (done ++ rest).Nodup → SourceInv forced sinks done acc →
      SourceInv forced sinks (done ++ rest) (rest.foldl (addSource forced sinks) acc) := by
  intro rest
  induction rest with
  | nil => intro done acc _ h; simpa using h
  | cons s rest ih =>
    intro done acc hnd h
    have hs : s ∉ done := by
      intro hmem
      rw [List.nodup_append] at hnd
      exact hnd.2.2 s hmem s (by simp) rfl
    have := ih (done ++ [s]) _ (by simpa using hnd) (sourceInv_step hf hd hs h)
    simpa using this

theorem sources_inv {layers : List LayerInfo} (hw : WellFormedLayers layers) {forced : List (List Name)}
    (hforced : getForcedOrders layers = .ok forced) (sinks : List Name) :
    SourceInv forced sinks ((networkArrays layers).map Prod.fst)
      (((networkArrays layers).map Prod.fst).foldl (addSource forced sinks) []) := by
  obtain ⟨h1, h2⟩ := getForcedOrders_ok hforced
  have := sourceInv_fold (sinks := sinks) (forced := forced) (fun fo hfo => by
    obtain ⟨-, l, hl, rfl | rfl⟩ := (h1 fo).1 hfo
    · exact (orders_nodup hw hl).1
    · exact (orders_nodup hw hl).2) h2 ((networkArrays layers).map Prod.fst) [] []
      (by simpa using networkArrays_nodup hw)
      ⟨by simp, by simp, by simp, by simp, by simp, by simp⟩
  simpa using this

theorem sources_wellNested {layers : List LayerInfo} (hw : WellFormedLayers layers) {forced : List (List Name)}
    (hforced : getForcedOrders layers = .ok forced) {conns : List (Name × Name)}
    (hconns : getConnections layers = .ok conns) :
    WellNested conns forced (getAllSources forced conns ((networkArrays layers).map Prod.fst)) := by
  have hinv := sources_inv hw hforced (conns.map Prod.snd)
  obtain ⟨h1, h2⟩ := getForcedOrders_ok hforced
  refine ⟨hinv.nodup, hinv.tuples, hinv.singles, h2, ?_, ?_, fun l hl => ((h1 l).1 hl).1⟩
  · intro c hc l hl hmem
    obtain ⟨-, k, hk, hor⟩ := (h1 l).1 hl
    have hpath : ∃ cat x, cat ≠ str "inputs" ∧ cat ≠ str "input_deltas" ∧ '.' ∉ cat ∧ c.2 = path k.name cat x := by
      rcases hor with rfl | rfl
      · obtain ⟨x, -, e⟩ := mem_paramOrder.1 hmem
        exact ⟨str "parameters", x, by decide, by decide, by decide, e⟩
      · obtain ⟨x, -, e⟩ := mem_gradOrder.1 hmem
        exact ⟨str "gradients", x, by decide, by decide, by decide, e⟩
    obtain ⟨cat, x, hne1, hne2, hdot, e⟩ := hpath
    rcases conn_end hw hconns hc with ⟨e', he', y, h⟩ | ⟨e', he', y, h⟩ | h | h
    · rw [e] at h; exact hne1 (path_inj (hw.noDot k hk) (hw.noDot e' he') hdot (by decide) h).2.1
    · rw [e] at h; exact hne2 (path_inj (hw.noDot k hk) (hw.noDot e' he') hdot (by decide) h).2.1
    · rw [e] at h; exact path_ne_root.1 h
    · rw [e] at h; exact path_ne_root.2 h
  · intro c hc
    obtain ⟨ha, hb, hc1, hc2⟩ := start_not_sink hw hconns hc
    exact hinv.covered _ ha hb hc1 hc2

end Verif.Layout
