import Verif.Layout.Mirror

/-!
# C71: deltas are laid out like the values they belong to
-/

namespace Verif.Layout

open Verif.Structure

/-! ### Specification -/

/-- `d` is the path of the deltas of the values at `p`: the deltas of an input or output of a layer, the gradient
of a parameter, or all gradients for all parameters. -/
def DeltaOf (layers : List LayerInfo) (p d : Name) : Prop :=
  (∃ l ∈ layers, ∃ x ∈ l.inShapes.map Prod.fst,
    p = path l.name (str "inputs") x ∧ d = path l.name (str "input_deltas") x) ∨
  (∃ l ∈ layers, ∃ x ∈ l.outShapes.map Prod.fst,
    p = path l.name (str "outputs") x ∧ d = path l.name (str "output_deltas") x) ∨
  (∃ l ∈ layers, ∃ x ∈ l.paramShapes.map Prod.fst,
    p = path l.name (str "parameters") x ∧ d = path l.name (str "gradients") x) ∨
  (∃ l ∈ layers, l.paramShapes ≠ [] ∧ p = str "parameters" ∧ d = str "gradients")

/-! ### Proofs -/

theorem DeltaOf.key {layers : List LayerInfo} {p d : Name} (h : DeltaOf layers p d) :
    ∃ k : Key, k.Valid layers ∧ (k = .root → ∃ l ∈ layers, l.paramShapes ≠ []) ∧ p = k.name false ∧ d = k.name true := by
  rcases h with ⟨l, hl, x, hx, rfl, rfl⟩ | ⟨l, hl, x, hx, rfl, rfl⟩ | ⟨l, hl, x, hx, rfl, rfl⟩ | ⟨l, hl, hne, rfl, rfl⟩
  · exact ⟨.arr .inp l x, ⟨hl, hx⟩, by simp, rfl, rfl⟩
  · exact ⟨.arr .out l x, ⟨hl, hx⟩, by simp, rfl, rfl⟩
  · exact ⟨.arr .par l x, ⟨hl, hx⟩, by simp, rfl, rfl⟩
  · exact ⟨.root, trivial, fun _ => ⟨l, hl, hne⟩, rfl, rfl⟩

theorem create_full {structOf : Name → Option Struct} {conns : List (Name × Name)} {sources : List Item}
    {sinks : List Name} {h : Hub} (hc : Hub.create structOf conns sources sinks = .ok h) :
    ∃ structs, lookupAll structOf ((sortBy itemLe sources).flatMap Item.flat) = .ok structs ∧
      ensureUniform (structs.map Struct.bufferType) = .ok h.btype ∧
      h.contextSize = (structs.map Struct.contextSize).foldl max 0 ∧
      permuteRows (connTable ((sortBy itemLe sources).flatMap Item.flat) (sortBy nameLe sinks) conns)
        (sortBy nameLe sinks).length (nestedIndices 0 (sortBy itemLe sources)) = .ok h.perm ∧
      h.flatSources = h.perm.map (fun i => ((sortBy itemLe sources).flatMap Item.flat).getD i []) ∧
      h.sizes = h.perm.map (fun i => (structs.getD i ⟨[], 0, false⟩).featureSize) := by
  unfold Hub.create at hc
  cases hsort : sortedItems sources with
  | error e => simp [hsort] at hc
  | ok sorted =>
    have := sortedItems_eq hsort
    subst this
    simp only [hsort] at hc
    cases hlook : lookupAll structOf ((sortBy itemLe sources).flatMap Item.flat) with
    | error e => simp [hlook] at hc
    | ok structs =>
      simp only [hlook] at hc
      cases hbt : ensureUniform (structs.map Struct.bufferType) with
      | error e => simp [hbt] at hc
      | ok bt =>
        simp only [hbt] at hc
        cases hperm : permuteRows (connTable ((sortBy itemLe sources).flatMap Item.flat) (sortBy nameLe sinks) conns)
            (sortBy nameLe sinks).length (nestedIndices 0 (sortBy itemLe sources)) with
        | error e => simp [hperm] at hc
        | ok p =>
          simp only [hperm] at hc
          cases hbw : ensureUniform ((p.map (fun i => structs.getD i ⟨[], 0, false⟩)).map Struct.backwardOnly) with
          | error e => simp only [hbw] at hc; simp at hc
          | ok bw =>
            simp only [hbw, Except.ok.injEq] at hc
            subst hc
            exact ⟨structs, rfl, hbt, rfl, rfl, rfl, by simp⟩

section
variable {layers : List LayerInfo} {L : Layout} {forced : List (List Name)} {conns : List (Name × Name)}
  {gs : List Group}

/-- Values and deltas have the same shape. -/
theorem key_struct (hw : WellFormedLayers layers) {k : Key} (hk : k.Valid layers) (hr : k ≠ .root) :
    ∃ s0 : Struct, ∀ b, ∃ s, Dict.get? (networkArrays layers) (k.name b) = some s ∧ s.shape = s0.shape ∧
      s.contextSize = s0.contextSize := by
  cases k with
  | root => exact absurd rfl hr
  | arr c l x =>
    obtain ⟨hl, hx⟩ := hk
    obtain ⟨e, he, rfl⟩ := List.mem_map.1 hx
    refine ⟨e.2, fun b => ⟨if b then { e.2 with backwardOnly := true } else e.2, ?_, ?_, ?_⟩⟩
    · refine Dict.get?_of_mem (networkArrays_nodup hw) ?_
      simp only [networkArrays, layerArrays, List.mem_flatMap]
      refine ⟨l, hl, (c.str b, b, c.shapes l), ?_, ?_⟩
      · cases c <;> cases b <;> simp [layerCats, Cat.str, Cat.shapes]
      · simp only [category, List.mem_map]
        exact ⟨e, he, rfl⟩
    · cases b <;> rfl
    · cases b <;> rfl

/-- Sinks of twins correspond. -/
theorem Parts.sink_key (hP : Parts layers L forced conns gs) (hw : WellFormedLayers layers)
    (hni : NoInternalConns layers) {b c : Bool} {g g' : Group} (hg : g ∈ gs) (hg' : g' ∈ gs)
    (ht : Twin layers b c g g') {q : Name} (hq : q ∈ g.sinks) :
    ∃ t : Key, t.Valid layers ∧ q = t.name b ∧ t.name c ∈ g'.sinks := by
  obtain ⟨p, hp, hc⟩ := (hP.sink_iff hw hg).1 hq
  obtain ⟨k, hk, rfl, hkc⟩ := ht.left p hp
  obtain ⟨t, hf, rfl⟩ := conn_from hw hni hP.connsOk hk hc
  have htv := (hf.valid hw).2
  exact ⟨t, htv, rfl, (hP.sink_iff hw hg').2 ⟨_, hkc, (conn_key hw hni hP.connsOk hk htv c).2 hf⟩⟩

theorem keys_flat (iks : List IKey) (b : Bool) :
    (iks.map (fun ik => ik.item b)).flatMap Item.flat = (iks.flatMap IKey.keys).map (fun k => k.name b) := by
  simp only [List.flatMap_map, IKey.flat, List.map_flatMap]

theorem Parts.test_key (hP : Parts layers L forced conns gs) (hw : WellFormedLayers layers)
    (hni : NoInternalConns layers) {b c : Bool} {g g' : Group} (hg : g ∈ gs) (hg' : g' ∈ gs)
    (ht : Twin layers b c g g') {ks : List Key} (hks : ∀ k ∈ ks, k.Valid layers)
    (hnd : (ks.map (fun k => k.name b)).Nodup) (hnd' : (ks.map (fun k => k.name c)).Nodup)
    {rows : List Nat} (hr : ∀ i ∈ rows, i < ks.length)
    (h : singleBuffer (connTable (ks.map (fun k => k.name b)) (sortBy nameLe g.sinks) conns)
      (sortBy nameLe g.sinks).length rows = true) :
    singleBuffer (connTable (ks.map (fun k => k.name c)) (sortBy nameLe g'.sinks) conns)
      (sortBy nameLe g'.sinks).length rows = true := by
  obtain ⟨-, hns, -⟩ := hP.created hw hg
  obtain ⟨-, hns', -⟩ := hP.created hw hg'
  rw [singleBuffer_names hnd ((sortBy_perm _ _).nodup_iff.2 hns) (by simpa using hr)] at h
  rw [singleBuffer_names hnd' ((sortBy_perm _ _).nodup_iff.2 hns') (by simpa using hr)]
  intro q hq
  obtain ⟨t, htv, rfl, htb⟩ := hP.sink_key hw hni hg' hg ht.symm (mem_sortBy.1 hq)
  have := h _ (mem_sortBy.2 htb)
  rw [Consecutive.map_iff] at this ⊢
  refine (Consecutive.congr ?_).1 this
  intro i hi
  have hi' := hr i hi
  simp only [List.getD, List.getElem?_map, List.getElem?_eq_getElem hi', Option.map_some, Option.getD_some]
  rw [conn_key hw hni hP.connsOk (hks _ (List.getElem_mem hi')) htv,
    conn_key hw hni hP.connsOk (hks _ (List.getElem_mem hi')) htv]

/-- Twins have the same order, sizes and attributes. -/
theorem Parts.twin_same (hP : Parts layers L forced conns gs) (hw : WellFormedLayers layers)
    (hni : NoInternalConns layers) {b c : Bool} {g g' : Group} (hg : g ∈ gs) (hg' : g' ∈ gs)
    (ht : Twin layers b c g g') :
    ∃ ks : List Key, (∀ k ∈ ks, k.Valid layers) ∧ g.hub.flatSources = ks.map (fun k => k.name b) ∧
      g'.hub.flatSources = ks.map (fun k => k.name c) ∧ g'.hub.sizes = g.hub.sizes ∧ g'.hub.size = g.hub.size ∧
      g'.hub.btype = g.hub.btype ∧ g'.hub.contextSize = g.hub.contextSize := by
  obtain ⟨iks, hgood, hs, hs'⟩ := hP.sorted_key hw hg hg' ht
  obtain ⟨hnd, hns, -, hc, order, hcr⟩ := hP.created hw hg
  obtain ⟨hnd', hns', -, hc', order', hcr'⟩ := hP.created hw hg'
  obtain ⟨structs, h1, h2, h3, h4, h5, h6⟩ := create_full hc
  obtain ⟨structs', h1', h2', h3', h4', h5', h6'⟩ := create_full hc'
  set ks := iks.flatMap IKey.keys with hks
  have hval : ∀ k ∈ ks, k.Valid layers ∧ k ≠ .root := by
    intro k hk
    obtain ⟨ik, hik, hk'⟩ := List.mem_flatMap.1 hk
    exact IKey.valid (hgood ik hik) k hk'
  have hf : (sortBy itemLe g.sources).flatMap Item.flat = ks.map (fun k => k.name b) := by rw [hs, keys_flat]
  have hf' : (sortBy itemLe g'.sources).flatMap Item.flat = ks.map (fun k => k.name c) := by rw [hs', keys_flat]
  have hndb : (ks.map (fun k => k.name b)).Nodup := by
    rw [← hf]; exact ((sortBy_perm itemLe g.sources).flatMap_right Item.flat).nodup_iff.2 hnd
  have hndc : (ks.map (fun k => k.name c)).Nodup := by
    rw [← hf']; exact ((sortBy_perm itemLe g'.sources).flatMap_right Item.flat).nodup_iff.2 hnd'
  rw [hf] at h1 h4 h5
  rw [hf'] at h1' h4' h5'
  have hnest : nestedIndices 0 (sortBy itemLe g'.sources) = nestedIndices 0 (sortBy itemLe g.sources) := by
    apply nestedIndices_congr
    rw [hs, hs']
    simp [IKey.flat, Function.comp_def]
  rw [hnest] at h4'
  have hrange : ∀ rows ∈ (perms (nestedIndices 0 (sortBy itemLe g.sources))).map List.flatten, ∀ i ∈ rows, i < ks.length := by
    intro rows hrows i hi
    obtain ⟨q, hq, rfl⟩ := List.mem_map.1 hrows
    obtain ⟨k, hk, hik⟩ := List.mem_flatten.1 hi
    have := nestedIndices_lt _ 0 k ((mem_perms.1 hq).subset hk) i hik
    rw [hf] at this
    simpa using this
  have hperm : g'.hub.perm = g.hub.perm ∧ ∀ i ∈ g.hub.perm, i < ks.length := by
    unfold permuteRows at h4 h4'
    have hfind : ((perms (nestedIndices 0 (sortBy itemLe g.sources))).map List.flatten).find?
        (singleBuffer (connTable (ks.map (fun k => k.name b)) (sortBy nameLe g.sinks) conns) (sortBy nameLe g.sinks).length) =
        ((perms (nestedIndices 0 (sortBy itemLe g.sources))).map List.flatten).find?
        (singleBuffer (connTable (ks.map (fun k => k.name c)) (sortBy nameLe g'.sinks) conns) (sortBy nameLe g'.sinks).length) := by
      apply find?_congr'
      intro rows hrows
      rw [Bool.eq_iff_iff]
      exact ⟨hP.test_key hw hni hg hg' ht (fun k hk => (hval k hk).1) hndb hndc (hrange rows hrows),
        hP.test_key hw hni hg' hg ht.symm (fun k hk => (hval k hk).1) hndc hndb (hrange rows hrows)⟩
    rw [hfind] at h4
    split at h4
    · rename_i p hp0
      rw [hp0] at h4'
      simp only [Except.ok.injEq] at h4 h4'
      refine ⟨by rw [← h4, ← h4'], ?_⟩
      rw [← h4]
      exact hrange p (List.mem_of_find?_eq_some hp0)
    · simp at h4
  obtain ⟨hpe, hlt⟩ := hperm
  have hstr : structs'.map (fun s => (s.shape, s.contextSize)) = structs.map (fun s => (s.shape, s.contextSize)) := by
    obtain ⟨hl, hst⟩ := lookupAll_ok h1
    obtain ⟨hl', hst'⟩ := lookupAll_ok h1'
    simp only [List.length_map] at hl hl'
    apply List.ext_getElem
    · simp [hl, hl']
    · intro i hi hi'
      simp only [List.length_map] at hi hi'
      have hik : i < ks.length := by omega
      have e1 := hst i (by simpa using hik)
      have e2 := hst' i (by simpa using hik)
      simp only [List.getElem_map] at e1 e2 ⊢
      rw [List.getElem?_eq_getElem hi'] at e1
      rw [List.getElem?_eq_getElem hi] at e2
      obtain ⟨s0, hs0⟩ := key_struct hw (hval _ (List.getElem_mem hik)).1 (hval _ (List.getElem_mem hik)).2
      obtain ⟨s1, g1, g2, g3⟩ := hs0 b
      obtain ⟨s2, k1, k2, k3⟩ := hs0 c
      rw [g1, Option.some.injEq] at e1
      rw [k1, Option.some.injEq] at e2
      rw [← e1, ← e2, g2, g3, k2, k3]
  have hbts : structs'.map Struct.bufferType = structs.map Struct.bufferType := by
    have := congrArg (List.map (fun q : List Tok × Nat => typeOf q.1)) hstr
    rw [List.map_map, List.map_map] at this
    exact this
  have hctx : structs'.map Struct.contextSize = structs.map Struct.contextSize := by
    have := congrArg (List.map (fun q : List Tok × Nat => q.2)) hstr
    simpa [Function.comp_def] using this
  have hfs : structs'.map Struct.featureSize = structs.map Struct.featureSize := by
    have := congrArg (List.map (fun q : List Tok × Nat => (⟨q.1, q.2, false⟩ : Struct).featureSize)) hstr
    rw [List.map_map, List.map_map] at this
    exact this
  have hsz : g'.hub.sizes = g.hub.sizes := by
    rw [h6, h6', hpe]
    refine List.map_congr_left fun i hi => ?_
    have e : ∀ ss : List Struct, (ss.getD i ⟨[], 0, false⟩).featureSize =
        (ss.map Struct.featureSize).getD i (⟨[], 0, false⟩ : Struct).featureSize := by
      intro ss; simp only [List.getD, List.getElem?_map]
      cases ss[i]? <;> rfl
    rw [e, e, hfs]
  refine ⟨g.hub.perm.map (fun i => ks.getD i .root), ?_, ?_, ?_, hsz, ?_, ?_, ?_⟩
  · intro k hk
    obtain ⟨i, hi, rfl⟩ := List.mem_map.1 hk
    have := hlt i hi
    rw [show ks.getD i .root = ks[i] by simp [List.getD, this]]
    exact (hval _ (List.getElem_mem this)).1
  · rw [h5, List.map_map]
    refine List.map_congr_left fun i hi => ?_
    have := hlt i hi
    simp [List.getD, this]
  · rw [h5', hpe, List.map_map]
    refine List.map_congr_left fun i hi => ?_
    have := hlt i hi
    simp [List.getD, this]
  · rw [hcr.size, hcr'.size, hsz]
  · rw [hbts, h2] at h2'
    simpa using h2'.symm
  · rw [h3, h3', hctx]

/-- Corresponding arrays have the same slice. -/
theorem Parts.twin_slice (hP : Parts layers L forced conns gs) (hw : WellFormedLayers layers)
    (hni : NoInternalConns layers) {b c : Bool} {g g' : Group} (hg : g ∈ gs) (hg' : g' ∈ gs)
    (ht : Twin layers b c g g') {k : Key} (hk : k.Valid layers) {sl : Nat × Nat}
    (h : (k.name b, sl) ∈ g.hub.getIndices) : (k.name c, sl) ∈ g'.hub.getIndices := by
  obtain ⟨ks, hval, hf, hf', hsz, -, -, -⟩ := hP.twin_same hw hni hg hg' ht
  obtain ⟨-, hns, -, -, order, hcr⟩ := hP.created hw hg
  obtain ⟨-, hns', -, -, order', hcr'⟩ := hP.created hw hg'
  have hlen : g.hub.flatSources.length = ks.length := by rw [hf]; simp
  have hlen' : g'.hub.flatSources.length = ks.length := by rw [hf']; simp
  rw [mem_getIndices] at h ⊢
  rcases h with ⟨i, hi, he⟩ | ⟨j, hj, he⟩
  · left
    simp only [Prod.mk.injEq] at he
    have hik : i < ks.length := by omega
    refine ⟨i, by omega, ?_⟩
    have e1 : k.name b = (ks[i]).name b := by rw [he.1]; simp [hf]
    obtain ⟨rfl, -⟩ := Key.inj hw hk (hval _ (List.getElem_mem hik)) e1
    rw [hsz, Prod.mk.injEq]
    exact ⟨by simp [hf'], he.2⟩
  · right
    simp only [Prod.mk.injEq] at he
    have hm : k.name b ∈ g.sinks := by
      have := List.getElem_mem hj
      rw [← he.1, hcr.sinkList, mem_sortBy] at this
      exact this
    obtain ⟨t, htv, het, htc⟩ := hP.sink_key hw hni hg hg' ht hm
    obtain ⟨rfl, -⟩ := Key.inj hw hk htv het
    have hm' : k.name c ∈ g'.hub.sinks := by rw [hcr'.sinkList, mem_sortBy]; exact htc
    obtain ⟨j', hj', hje'⟩ := List.getElem_of_mem hm'
    refine ⟨j', hj', ?_⟩
    rw [Prod.mk.injEq]
    refine ⟨hje'.symm, ?_⟩
    have hcol : g'.hub.column j' = g.hub.column j := by
      unfold Hub.column
      rw [hlen, hlen']
      refine List.map_congr_left fun r hr => ?_
      have hr' := List.mem_range.1 hr
      rw [Bool.eq_iff_iff, hcr.table r j (by omega) hj, hcr'.table r j' (by omega) hj', hje', ← he.1]
      have e1 : g.hub.flatSources[r]'(by omega) = (ks[r]).name b := by simp [hf]
      have e2 : g'.hub.flatSources[r]'(by omega) = (ks[r]).name c := by simp [hf']
      rw [e1, e2, conn_key hw hni hP.connsOk (hval _ (List.getElem_mem hr')) hk,
        conn_key hw hni hP.connsOk (hval _ (List.getElem_mem hr')) hk]
    rw [he.2]
    unfold Hub.sinkSlice
    rw [hcol, hsz, hlen, hlen']

/-- Every array with deltas is in a hub, and the hub has a twin that holds the other side. -/
theorem Parts.place (hP : Parts layers L forced conns gs) (hw : WellFormedLayers layers)
    (hni : NoInternalConns layers) {k : Key} (hk : k.Valid layers)
    (hr : k = .root → ∃ l ∈ layers, l.paramShapes ≠ []) (b c : Bool) :
    ∃ g ∈ gs, ∃ g' ∈ gs, Twin layers b c g g' ∧ ∃ sl, (k.name b, sl) ∈ g.hub.getIndices ∧
      (k.name c, sl) ∈ g'.hub.getIndices := by
  have hn := hP.nested hw
  have hg : ∃ g ∈ gs, k.name b ∈ g.names ∧ ∃ k' : Key, k'.Valid layers ∧ k'.name b ∈ g.arrays := by
    by_cases hs : ∃ k', Flow layers k' k
    · obtain ⟨k', hf⟩ := hs
      have hk' := (hf.valid hw).1
      obtain ⟨i, hi, hp, htk, -⟩ := C08_connections _ _ _ _ _ hn hP.groupsOk _ _
        ((conn_key hw hni hP.connsOk hk' hk b).2 hf)
      exact ⟨gs[i], List.getElem_mem hi, List.mem_append_right _ htk, k', hk', hp⟩
    · have hroot : k ≠ .root := by
        rintro rfl
        obtain ⟨l, hl, hne⟩ := hr rfl
        obtain ⟨x, hx⟩ := List.exists_mem_of_ne_nil (l.paramShapes.map Prod.fst) (by simpa using hne)
        exact hs ⟨_, .root hl hx⟩
      have hsrc := (hP.source_key hw hni hk b).2 ⟨hroot, fun k' hf => hs ⟨k', hf⟩⟩
      obtain ⟨i, hi, hp, -⟩ := (C08_partition _ _ _ _ _ hn hP.groupsOk).2 _ hsrc
      exact ⟨gs[i], List.getElem_mem hi, List.mem_append_left _ hp, k, hk, hp⟩
  obtain ⟨g, hgm, hname, k', hk', hka⟩ := hg
  obtain ⟨g', hgm', ht⟩ := hP.twin hw hni hgm hk' hka c
  obtain ⟨⟨n, sl⟩, hmem, he⟩ := List.mem_map.1 ((hP.names_perm hw hgm).symm.subset hname)
  simp only at he
  subst he
  exact ⟨g, hgm, g', hgm', ht, sl, hmem, hP.twin_slice hw hni hgm hgm' ht hk hmem⟩

/-- What a twin holds is of one side only. -/
theorem Parts.twin_side (hP : Parts layers L forced conns gs) (hw : WellFormedLayers layers)
    (hni : NoInternalConns layers) {b c : Bool} {g g' : Group} (hg : g ∈ gs) (hg' : g' ∈ gs)
    (ht : Twin layers b c g g') {k : Key} (hk : k.Valid layers) {d : Bool} {sl : Nat × Nat}
    (h : (k.name d, sl) ∈ g.hub.getIndices) : d = b := by
  have hm := (hP.names_perm hw hg).subset (List.mem_map_of_mem h)
  rcases List.mem_append.1 hm with hm | hm
  · obtain ⟨k', hk', he, -⟩ := ht.left _ hm
    exact (Key.inj hw hk hk' he).2
  · obtain ⟨t, htv, he, -⟩ := hP.sink_key hw hni hg hg' ht hm
    exact (Key.inj hw hk htv he).2

end

/-! ### Properties -/

/-- **C71.**  In a network without connections from internals that can be laid out, values and their deltas
have the same slice, in two different hubs that have the same size, buffer type and context size. -/
theorem C71_same_place (layers : List LayerInfo) (hw : WellFormedLayers layers) (_hroot : NoRootNames layers)
    (hni : NoInternalConns layers)
    (L : Layout) (h : createLayout layers = .ok L) (p d : Name) (hpd : DeltaOf layers p d) :
    ∃ i j slice, ∃ hi : i < L.groups.length, ∃ hj : j < L.groups.length,
      L.get p = some (i, slice) ∧ L.get d = some (j, slice) ∧ i ≠ j ∧
      L.groups[j].hub.size = L.groups[i].hub.size ∧ L.groups[j].hub.btype = L.groups[i].hub.btype ∧
      L.groups[j].hub.contextSize = L.groups[i].hub.contextSize := by
  obtain ⟨forced, conns, gs, hP⟩ := createLayout_ok h
  obtain ⟨k, hk, hr, rfl, rfl⟩ := hpd.key
  obtain ⟨g, hg, g', hg', ht, sl, hs, hs'⟩ := hP.place hw hni hk hr false true
  obtain ⟨-, -, -, -, -, e1, e2, e3⟩ := hP.twin_same hw hni hg hg' ht
  obtain ⟨i, hi, rfl, hget⟩ := hP.get_eq hw hg
  obtain ⟨j, hj, rfl, hget'⟩ := hP.get_eq hw hg'
  refine ⟨i, j, sl, hi, hj, hget _ _ hs, hget' _ _ hs', ?_, e1, e2, e3⟩
  rintro rfl
  exact absurd (hP.twin_side hw hni hg hg' ht hk hs') (by decide)

/-- **C71** (sharing).  Two arrays of values lie in the same hub exactly if their deltas do: with
`C71_same_place`, deltas overlap exactly where the values overlap, and a part of the values has the deltas at the
same distance from the start. -/
theorem C71_same_sharing (layers : List LayerInfo) (hw : WellFormedLayers layers) (_hroot : NoRootNames layers)
    (hni : NoInternalConns layers)
    (L : Layout) (h : createLayout layers = .ok L) (p d q e : Name) (hpd : DeltaOf layers p d)
    (hqe : DeltaOf layers q e) (i j i' j' : Nat) (s s' t t' : Nat × Nat) (hp : L.get p = some (i, s))
    (hd : L.get d = some (j, t)) (hq : L.get q = some (i', s')) (he : L.get e = some (j', t')) :
    i = i' ↔ j = j' := by
  obtain ⟨forced, conns, gs, hP⟩ := createLayout_ok h
  have key : ∀ (b c : Bool) (k k' : Key), k.Valid layers → k'.Valid layers →
      (k = .root → ∃ l ∈ layers, l.paramShapes ≠ []) → (k' = .root → ∃ l ∈ layers, l.paramShapes ≠ []) →
      ∀ i j i' j' s s' t t', L.get (k.name b) = some (i, s) → L.get (k.name c) = some (j, t) →
        L.get (k'.name b) = some (i', s') → L.get (k'.name c) = some (j', t') → i = i' → j = j' := by
    intro b c k k' hk hk' hr hr' i j i' j' s s' t t' h1 h2 h3 h4 hii
    obtain ⟨g, hg, g', hg', ht, sl, hs, hs'⟩ := hP.place hw hni hk hr b c
    obtain ⟨g2, hg2, g2', hg2', ht2, sl2, hs2, hs2'⟩ := hP.place hw hni hk' hr' b c
    obtain ⟨i1, hi1, rfl, hget⟩ := hP.get_eq hw hg
    obtain ⟨j1, hj1, rfl, hget'⟩ := hP.get_eq hw hg'
    obtain ⟨i2, hi2, rfl, hget2⟩ := hP.get_eq hw hg2
    obtain ⟨j2, hj2, rfl, hget2'⟩ := hP.get_eq hw hg2'
    rw [hget _ _ hs] at h1
    rw [hget' _ _ hs'] at h2
    rw [hget2 _ _ hs2] at h3
    rw [hget2' _ _ hs2'] at h4
    simp only [Option.some.injEq, Prod.mk.injEq] at h1 h2 h3 h4
    obtain ⟨rfl, rfl⟩ := h1
    obtain ⟨rfl, rfl⟩ := h2
    obtain ⟨rfl, rfl⟩ := h3
    obtain ⟨rfl, rfl⟩ := h4
    subst hii
    -- the other array also has its deltas in the first twin
    have := hget' _ _ (hP.twin_slice hw hni hg hg' ht hk' hs2)
    rw [hget2' _ _ hs2'] at this
    simp only [Option.some.injEq, Prod.mk.injEq] at this
    exact this.1.symm
  obtain ⟨k, hk, hr, rfl, rfl⟩ := hpd.key
  obtain ⟨k', hk', hr', rfl, rfl⟩ := hqe.key
  exact ⟨key false true k k' hk hk' hr hr' i j i' j' s s' t t' hp hd hq he,
    key true false k k' hk hk' hr hr' j i j' i' t t' s s' hd hp he hq⟩

/-! ### A network that meets the hypotheses -/

/-- Two layers side by side feed one layer, and a parameter feeds a penalty. -/
def mirrorDemo : List LayerInfo :=
  let tb (n : Nat) : Struct := ⟨[.T, .B, .n n], 0, false⟩
  [ ⟨str "Input", [], [(str "default", tb 3)], [], [],
      [⟨.outputs, str "default", str "B", str "default"⟩, ⟨.outputs, str "default", str "A", str "default"⟩]⟩,
    ⟨str "B", [(str "default", tb 3)], [(str "default", tb 2)],
      [(str "W", ⟨[.n 2, .n 3], 0, false⟩)], [], [⟨.outputs, str "default", str "C", str "default"⟩]⟩,
    ⟨str "A", [(str "default", tb 3)], [(str "default", tb 4)],
      [(str "W", ⟨[.n 4, .n 3], 0, false⟩)], [], [⟨.outputs, str "default", str "C", str "default"⟩,
       ⟨.parameters, str "W", str "L2", str "default"⟩]⟩,
    ⟨str "C", [(str "default", tb 6)], [(str "default", tb 1)], [], [(str "H", tb 1)], []⟩,
    ⟨str "L2", [(str "default", ⟨[.n 4, .n 3], 0, false⟩)], [(str "loss", ⟨[.n 1], 0, false⟩)], [], [], []⟩ ]

example : WellFormedLayers mirrorDemo where
  names := by decide +kernel
  noDot := by decide +kernel
  inNodup := by decide +kernel
  outNodup := by decide +kernel
  paramNodup := by decide +kernel
  internalNodup := by decide +kernel
  starts := by
    intro l hl o ho
    simp only [mirrorDemo, List.mem_cons, List.not_mem_nil, or_false] at hl
    rcases hl with rfl | rfl | rfl | rfl | rfl <;> simp at ho
    · rcases ho with rfl | rfl <;> simp
    · subst ho; simp
    · rcases ho with rfl | rfl <;> simp
  ends := by decide +kernel

example : NoRootNames mirrorDemo := by unfold NoRootNames; decide +kernel

example : NoInternalConns mirrorDemo := by unfold NoInternalConns; decide +kernel

example : DeltaOf mirrorDemo (path (str "C") (str "inputs") (str "default"))
    (path (str "C") (str "input_deltas") (str "default")) := by
  refine Or.inl ⟨_, by rw [mirrorDemo]; exact List.mem_cons_of_mem _ (List.mem_cons_of_mem _
    (List.mem_cons_of_mem _ List.mem_cons_self)), str "default", by decide, rfl, rfl⟩

/-- Hubs and slices of values and of their deltas. -/
example : ((createLayout mirrorDemo).toOption.map (fun L =>
    [L.get (path (str "A") (str "outputs") (str "default")), L.get (path (str "A") (str "output_deltas") (str "default")),
     L.get (path (str "B") (str "outputs") (str "default")), L.get (path (str "B") (str "output_deltas") (str "default")),
     L.get (path (str "C") (str "inputs") (str "default")), L.get (path (str "C") (str "input_deltas") (str "default")),
     L.get (path (str "L2") (str "inputs") (str "default")), L.get (path (str "L2") (str "input_deltas") (str "default"))]) ==
    some [some (3, (0, 4)), some (9, (0, 4)), some (3, (4, 6)), some (9, (4, 6)), some (3, (0, 6)), some (9, (0, 6)),
      some (0, (0, 12)), some (6, (0, 12))]) = true := by
  decide +kernel

end Verif.Layout
