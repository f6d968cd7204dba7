import Verif.Layout.Entries
import Verif.Buffers.Network

/-!
# When a whole network can be laid out
-/

namespace Verif.Layout

open Verif.Structure Verif.Buffers

/-! ### Specification -/

/-- The outputs of all layers: name of the layer and name of the output. -/
def outputsOf (layers : List LayerInfo) : List (Name × Name) := layers.flatMap fun l => l.outShapes.map fun e => (l.name, e.1)

/-- The output `p` is connected to the input `y` of the layer `e`. -/
def ConnectedTo (layers : List LayerInfo) (p : Name × Name) (e y : Name) : Prop :=
  ∃ l ∈ layers, ∃ o ∈ l.outgoing, l.name = p.1 ∧ o.buffer = p.2 ∧ o.endLayer = e ∧ o.endInput = y

/-- The outputs of the network can be put into an order in which the outputs that are connected to an input stand next to each
other, for all inputs. -/
def Orderable (layers : List LayerInfo) : Prop :=
  ∃ order : List (Name × Name), order.Perm (outputsOf layers) ∧
    ∀ e y, Consecutive (fun p => ConnectedTo layers p e y) order

/-! ### One hub -/

theorem Consecutive.filter {α : Type} {P : α → Prop} {l : List α} (h : Consecutive P l) (q : α → Bool) :
    Consecutive P (l.filter q) := by
  obtain ⟨pre, mid, post, rfl, h1, h2⟩ := h
  refine ⟨pre.filter q, mid.filter q, post.filter q, by simp, fun x hx => h1 x (List.mem_filter.1 hx).1, fun x hx => ?_⟩
  refine h2 x ?_
  rw [← List.filter_append] at hx
  exact (List.mem_filter.1 hx).1

theorem consecutive_all {α : Type} {P : α → Prop} {l : List α} (h : ∀ x ∈ l, P x) : Consecutive P l :=
  ⟨[], l, [], by simp, h, by simp⟩

theorem consecutive_none {α : Type} {P : α → Prop} {l : List α} (h : ∀ x ∈ l, ¬ P x) : Consecutive P l :=
  ⟨l, [], [], by simp, by simp, by simpa using h⟩

theorem consecutive_one {α : Type} {P : α → Prop} (x : α) : Consecutive P [x] := by
  by_cases h : P x
  · exact consecutive_all (by simpa using h)
  · exact consecutive_none (by simpa using h)

theorem lookupAll_some {structOf : Name → Option Struct} : ∀ {l : List Name}, (∀ p ∈ l, (structOf p).isSome) →
    ∃ ss, lookupAll structOf l = .ok ss ∧ ∀ s ∈ ss, ∃ p ∈ l, structOf p = some s
  | [], _ => ⟨[], rfl, by simp⟩
  | p :: l, h => by
    obtain ⟨s, hs⟩ := Option.isSome_iff_exists.1 (h p (by simp))
    obtain ⟨ss, h1, h2⟩ := lookupAll_some (l := l) fun q hq => h q (by simp [hq])
    refine ⟨s :: ss, by simp [lookupAll, hs, h1], ?_⟩
    intro x hx
    rcases List.mem_cons.1 hx with rfl | hx
    · exact ⟨p, by simp, hs⟩
    · obtain ⟨q, hq, e⟩ := h2 x hx
      exact ⟨q, by simp [hq], e⟩

theorem ensureUniform_some {α : Type} [DecidableEq α] {l : List α} (hne : l ≠ []) {x : α} (h : ∀ y ∈ l, y = x) :
    ensureUniform l = .ok x := by
  cases l with
  | nil => exact absurd rfl hne
  | cons a as =>
    have ha := h a (by simp)
    subst ha
    simp only [ensureUniform]
    rw [if_pos]
    rw [List.all_eq_true]
    intro y hy
    simpa using h y (by simp [hy])

/-- When `Hub.create` succeeds. -/
theorem create_succeeds {structOf : Name → Option Struct} {conns : List (Name × Name)} {sources : List Item} {sinks : List Name}
    (hf : (sources.flatMap Item.flat).Nodup) (hs : sinks.Nodup) (hne : sources.flatMap Item.flat ≠ [])
    (hkind : (∀ it ∈ sources, ∃ p, it = .one p) ∨ ∀ it ∈ sources, ∃ l, it = .tup l)
    (hst : ∀ p ∈ sources.flatMap Item.flat, (structOf p).isSome) (bt : Nat) (bw : Bool)
    (hu : ∀ p ∈ sources.flatMap Item.flat, ∀ s, structOf p = some s → s.bufferType = bt ∧ s.backwardOnly = bw)
    (order : List Item) (ho : order.Perm sources) (hfeed : FeedsContiguously conns sinks order) :
    ∃ hub, Hub.create structOf conns sources sinks = .ok hub := by
  have hsort : sortedItems sources = .ok (sortBy itemLe sources) := by
    unfold sortedItems
    rw [if_pos]
    rcases hkind with h | h
    · left
      rw [List.all_eq_true]
      intro it hit
      obtain ⟨p, rfl⟩ := h it hit
      rfl
    · right
      rw [List.all_eq_true]
      intro it hit
      obtain ⟨p, rfl⟩ := h it hit
      rfl
  have hps := sortedItems_ok hsort
  generalize sortBy itemLe sources = sorted at hsort hps
  have hfp := hps.flatMap_right Item.flat
  have hf' : (sorted.flatMap Item.flat).Nodup := hfp.nodup_iff.2 hf
  have hs' : (sortBy nameLe sinks).Nodup := (sortBy_perm _ _).nodup_iff.2 hs
  obtain ⟨structs, hlook, hall⟩ := lookupAll_some (structOf := structOf) (l := sorted.flatMap Item.flat)
    (fun p hp => hst p (hfp.mem_iff.1 hp))
  obtain ⟨hlen, -⟩ := lookupAll_ok hlook
  have hu' : ∀ s ∈ structs, s.bufferType = bt ∧ s.backwardOnly = bw := by
    intro s hs
    obtain ⟨p, hp, e⟩ := hall s hs
    exact hu p (hfp.mem_iff.1 hp) s e
  have hne' : sorted.flatMap Item.flat ≠ [] := by
    intro h
    rw [h] at hfp
    exact hne (List.nil_perm.1 hfp)
  have hsne : structs ≠ [] := by
    intro h
    rw [h] at hlen
    exact hne' (List.length_eq_zero_iff.1 hlen.symm)
  have hbt : ensureUniform (structs.map Struct.bufferType) = .ok bt := by
    refine ensureUniform_some (by simpa using hsne) ?_
    intro y hy
    obtain ⟨s, hs, rfl⟩ := List.mem_map.1 hy
    exact (hu' s hs).1
  obtain ⟨hok, herr⟩ := permuteRows_spec (conns := conns) hf' hs'
  unfold Hub.create
  simp only [hsort, hlook, hbt]
  cases hperm : permuteRows (connTable (sorted.flatMap Item.flat) (sortBy nameLe sinks) conns)
      (sortBy nameLe sinks).length (nestedIndices 0 sorted) with
  | error e => exact absurd (FeedsContiguously.sort.2 hfeed) (herr e hperm order (ho.trans hps.symm))
  | ok p =>
    obtain ⟨order', -, -, hprange, -⟩ := hok p hperm
    have hbw : ensureUniform ((p.map (fun i => structs.getD i ⟨[], 0, false⟩)).map Struct.backwardOnly) = .ok bw := by
      refine ensureUniform_some ?_ ?_
      · intro h
        rw [List.map_eq_nil_iff, List.map_eq_nil_iff] at h
        rw [h] at hprange
        have := List.nil_perm.1 hprange
        rw [List.range_eq_nil] at this
        exact hne' (List.length_eq_zero_iff.1 this)
      · intro y hy
        obtain ⟨s, hs, rfl⟩ := List.mem_map.1 hy
        obtain ⟨i, hi, rfl⟩ := List.mem_map.1 hs
        have hlt : i < structs.length := by
          rw [hlen]; exact List.mem_range.1 (hprange.subset hi)
        rw [getD_of_lt hlt]
        exact (hu' _ (List.getElem_mem hlt)).2
    simp only [hbw]
    exact ⟨_, rfl⟩

/-! ### Grouping -/

theorem removeSources_succeeds : ∀ {src rem : List Item}, src.Nodup → (∀ s ∈ src, s ∈ rem) → ∃ out, removeSources rem src = .ok out
  | [], rem, _, _ => ⟨rem, rfl⟩
  | s :: src, rem, hn, h => by
    obtain ⟨h1, h2⟩ := List.nodup_cons.1 hn
    simp only [removeSources]
    rw [if_pos (h s (by simp))]
    refine removeSources_succeeds h2 ?_
    intro x hx
    exact (List.mem_erase_of_ne (fun e : x = s => h1 (e ▸ hx))).2 (h x (by simp [hx]))

theorem sinkNames_succeeds : ∀ {l : List Item}, (∀ t ∈ l, ∃ q, t = .one q) → ∃ ns, sinkNames l = .ok ns
  | [], _ => ⟨[], rfl⟩
  | t :: l, h => by
    obtain ⟨q, rfl⟩ := h t (by simp)
    obtain ⟨ns, e⟩ := sinkNames_succeeds (l := l) fun t ht => h t (by simp [ht])
    exact ⟨q :: ns, by simp [sinkNames, e]⟩

theorem groupFuel_succeeds {structOf : Name → Option Struct} {conns : List (Name × Name)} {mcons : List Conn}
    (hsink : ∀ s t, (s, t) ∈ mcons → ∃ q, t = .one q) :
    ∀ (k : Nat) (rem : List Item), rem.length ≤ k → rem.Nodup →
      (∀ a ∈ rem, ∀ b, Relation.EqvGen (ShareSink mcons) a b → b ∈ rem) →
      (∀ node ∈ rem, ∀ src sinks, ClosureDone mcons node src (sinks.map Item.one) →
        ∃ hub, Hub.create structOf conns src sinks = .ok hub) →
      ∃ gs, groupFuel structOf conns mcons k rem = .ok gs := by
  intro k
  induction k with
  | zero =>
    intro rem hk _ _ _
    have : rem = [] := List.length_eq_zero_iff.1 (by omega)
    subst this
    exact ⟨[], rfl⟩
  | succ k ih =>
    intro rem hk hnd hcl hhub
    cases rem with
    | nil => exact ⟨[], rfl⟩
    | cons node rest =>
      obtain ⟨⟨src, snk⟩, hr, hdone⟩ := closure_terminates mcons node
      have hsub : ∀ s ∈ src, s ∈ node :: rest := fun s hs => hcl node (by simp) s ((hdone.srcs s).1 hs)
      obtain ⟨remaining, hrem⟩ := removeSources_succeeds hdone.nodupSrc hsub
      obtain ⟨names, hsn⟩ := sinkNames_succeeds (l := snk) (by
        intro t ht
        obtain ⟨s, -, hc⟩ := (hdone.snks t).1 ht
        exact hsink s t hc)
      have hdone' : ClosureDone mcons node src (names.map Item.one) := by simpa only [← sinkNames_ok hsn] using hdone
      obtain ⟨hub, hcr⟩ := hhub node (by simp) src names hdone'
      have hp := removeSources_ok hrem
      have hnd' := hp.nodup_iff.2 hnd
      have hmem : ∀ x, x ∈ remaining ↔ x ∈ node :: rest ∧ x ∉ src := by
        intro x
        rw [← hp.mem_iff, List.mem_append]
        rw [List.nodup_append] at hnd'
        constructor
        · intro hx
          exact ⟨.inr hx, fun h => hnd'.2.2 x h x hx rfl⟩
        · rintro ⟨h | h, h'⟩
          · exact absurd h h'
          · exact h
      have hlen : remaining.length ≤ k := by
        have h1 := hp.length_eq
        have h2 : node ∈ src := (hdone.srcs node).2 (.refl _)
        have h3 := List.length_pos_iff.2 (List.ne_nil_of_mem h2)
        simp at h1 hk
        omega
      obtain ⟨gs, hgs⟩ := ih remaining hlen (List.nodup_append.1 hnd').2.1 (by
        intro a ha b hab
        obtain ⟨h1, h2⟩ := (hmem a).1 ha
        refine (hmem b).2 ⟨hcl a h1 b hab, fun hb => h2 ?_⟩
        exact (hdone.srcs a).2 (((hdone.srcs b).1 hb).trans _ _ _ (hab.symm)))
        (fun n hn => hhub n ((hmem n).1 hn).1)
      refine ⟨⟨src, names, hub⟩ :: gs, ?_⟩
      simp only [groupFuel, hr, hrem, hsn, hcr, hgs]

/-! ### Sorts of arrays -/

/-- Sources that feed something, by sort: outputs, their deltas, parameters and gradients of a layer. -/
inductive SourceSort (layers : List LayerInfo) : Nat → Item → Prop
  | out {l b} : l ∈ layers → b ∈ l.outShapes.map Prod.fst → SourceSort layers 0 (.one (path l.name (str "outputs") b))
  | delta {l b} : l ∈ layers → b ∈ l.outShapes.map Prod.fst → SourceSort layers 1 (.one (path l.name (str "output_deltas") b))
  | param {l} : l ∈ layers → paramOrder l ≠ [] → SourceSort layers 2 (.tup (paramOrder l))
  | grad {l} : l ∈ layers → gradOrder l ≠ [] → SourceSort layers 3 (.tup (gradOrder l))

/-- What they feed. -/
inductive SinkSort (layers : List LayerInfo) : Nat → Name → Prop
  | inp {e y} : e ∈ layers → y ∈ e.inShapes.map Prod.fst → SinkSort layers 0 (path e.name (str "inputs") y)
  | delta {e y} : e ∈ layers → y ∈ e.inShapes.map Prod.fst → SinkSort layers 1 (path e.name (str "input_deltas") y)
  | param : SinkSort layers 2 (str "parameters")
  | grad : SinkSort layers 3 (str "gradients")

section
variable {layers : List LayerInfo} (hw : WellFormedLayers layers)
include hw

theorem sinkSort_unique {k k' : Nat} {q : Name} (h : SinkSort layers k q) (h' : SinkSort layers k' q) : k = k' := by
  have key : ∀ e ∈ layers, ∀ e' ∈ layers, ∀ y y', path e.name (str "inputs") y ≠ path e'.name (str "input_deltas") y' := by
    intro e he e' he' y y' h
    have := (path_inj (hw.noDot e he) (hw.noDot e' he') (by decide) (by decide) h).2.1
    exact absurd this (by decide)
  generalize hq' : q = q' at h'
  cases h <;> cases h' <;> first | rfl | skip
  · exact absurd hq' (key _ ‹_› _ ‹_› _ _)
  · exact absurd hq' path_ne_root.1
  · exact absurd hq' path_ne_root.2
  · exact absurd hq'.symm (key _ ‹_› _ ‹_› _ _)
  · exact absurd hq' path_ne_root.1
  · exact absurd hq' path_ne_root.2
  · exact absurd hq'.symm path_ne_root.1
  · exact absurd hq'.symm path_ne_root.1
  · exact absurd hq' (by decide)
  · exact absurd hq'.symm path_ne_root.2
  · exact absurd hq'.symm path_ne_root.2
  · exact absurd hq' (by decide)

theorem sourceSort_unique {k k' : Nat} {it : Item} (h : SourceSort layers k it) (h' : SourceSort layers k' it) : k = k' := by
  have key : ∀ e ∈ layers, ∀ e' ∈ layers, ∀ y y', path e.name (str "outputs") y ≠ path e'.name (str "output_deltas") y' := by
    intro e he e' he' y y' h
    have := (path_inj (hw.noDot e he) (hw.noDot e' he') (by decide) (by decide) h).2.1
    exact absurd this (by decide)
  have key' : ∀ e ∈ layers, ∀ e' ∈ layers, paramOrder e ≠ [] → paramOrder e ≠ gradOrder e' := by
    intro e he e' he' hne h
    obtain ⟨p, hp⟩ := List.exists_mem_of_ne_nil _ hne
    obtain ⟨x, -, e1⟩ := mem_paramOrder.1 hp
    rw [h] at hp
    obtain ⟨x', -, e2⟩ := mem_gradOrder.1 hp
    rw [e1] at e2
    exact absurd (path_inj (hw.noDot e he) (hw.noDot e' he') (by decide) (by decide) e2).2.1 (by decide)
  generalize hq' : it = it' at h'
  cases h <;> cases h' <;> first | rfl | cases hq' | skip
  · exact absurd (Item.one.inj hq') (key _ ‹_› _ ‹_› _ _)
  · exact absurd (Item.one.inj hq').symm (key _ ‹_› _ ‹_› _ _)
  · exact absurd (Item.tup.inj hq') (key' _ ‹_› _ ‹_› ‹_›)
  · exact absurd (Item.tup.inj hq').symm (key' _ ‹_› _ ‹_› ‹_›)

theorem forced_succeeds : ∃ forced, getForcedOrders layers = .ok forced := by
  unfold getForcedOrders
  simp only
  rw [if_pos]
  · exact ⟨_, rfl⟩
  refine List.Pairwise.filter _ ?_
  rw [List.pairwise_append]
  have hnd := List.pairwise_map.1 hw.names
  refine ⟨?_, ?_, ?_⟩
  · rw [List.pairwise_map]
    refine hnd.imp_of_mem ?_
    intro l l' hl hl' hne p h1 h2
    obtain ⟨x, -, e1⟩ := mem_paramOrder.1 h1
    obtain ⟨y, -, e2⟩ := mem_paramOrder.1 h2
    rw [e1] at e2
    exact hne (path_inj (hw.noDot l hl) (hw.noDot l' hl') (by decide) (by decide) e2).1
  · rw [List.pairwise_map]
    refine hnd.imp_of_mem ?_
    intro l l' hl hl' hne p h1 h2
    obtain ⟨x, -, e1⟩ := mem_gradOrder.1 h1
    obtain ⟨y, -, e2⟩ := mem_gradOrder.1 h2
    rw [e1] at e2
    exact hne (path_inj (hw.noDot l hl) (hw.noDot l' hl') (by decide) (by decide) e2).1
  · intro a ha b hb p h1 h2
    obtain ⟨l, hl, rfl⟩ := List.mem_map.1 ha
    obtain ⟨l', hl', rfl⟩ := List.mem_map.1 hb
    obtain ⟨x, -, e1⟩ := mem_paramOrder.1 h1
    obtain ⟨y, -, e2⟩ := mem_gradOrder.1 h2
    rw [e1] at e2
    exact absurd (path_inj (hw.noDot l hl) (hw.noDot l' hl') (by decide) (by decide) e2).2.1 (by decide)

end

theorem layerConns_succeeds {l : LayerInfo} : ∀ {os : List Outgoing}, (∀ o ∈ os, o.kind = .outputs) → ∃ cs, layerConns l os = .ok cs
  | [], _ => ⟨[], rfl⟩
  | o :: os, h => by
    obtain ⟨cs, e⟩ := layerConns_succeeds (l := l) (os := os) fun o ho => h o (by simp [ho])
    simp [layerConns, bwdConn, h o (by simp), e]

theorem flowConns_succeeds : ∀ {layers : List LayerInfo}, (∀ l ∈ layers, ∀ o ∈ l.outgoing, o.kind = .outputs) →
    ∃ cs, flowConns layers = .ok cs
  | [], _ => ⟨[], rfl⟩
  | l :: ls, h => by
    obtain ⟨a, ea⟩ := layerConns_succeeds (l := l) (h l (by simp))
    obtain ⟨b, eb⟩ := flowConns_succeeds (layers := ls) fun l hl => h l (by simp [hl])
    simp [flowConns, ea, eb]

theorem connections_succeed {layers : List LayerInfo} (h : ∀ l ∈ layers, ∀ o ∈ l.outgoing, o.kind = .outputs) :
    ∃ conns, getConnections layers = .ok conns := by
  obtain ⟨cs, e⟩ := flowConns_succeeds h
  simp [getConnections, e]

section
variable {layers : List LayerInfo} (hw : WellFormedLayers layers) (hout : ∀ l ∈ layers, ∀ o ∈ l.outgoing, o.kind = .outputs)
  {forced : List (List Name)} {conns : List (Name × Name)}
  (hforced : getForcedOrders layers = .ok forced) (hconns : getConnections layers = .ok conns)

/-- The connections, if they all start at outputs. -/
theorem conn_cases (hout : ∀ l ∈ layers, ∀ o ∈ l.outgoing, o.kind = .outputs) (hconns : getConnections layers = .ok conns)
    (c : Name × Name) : c ∈ conns ↔
    (∃ p e y, ConnectedTo layers p e y ∧ (c = (path p.1 (str "outputs") p.2, path e (str "inputs") y) ∨
      c = (path p.1 (str "output_deltas") p.2, path e (str "input_deltas") y))) ∨
    ∃ l ∈ layers, ∃ x ∈ l.paramShapes.map Prod.fst, c = (path l.name (str "parameters") x, str "parameters") ∨
        c = (path l.name (str "gradients") x, str "gradients") := by
  rw [mem_getConnections hconns]
  constructor
  · rintro ⟨l, hl, ⟨o, ho, h⟩ | h⟩
    · left
      refine ⟨(l.name, o.buffer), o.endLayer, o.endInput, ⟨l, hl, o, ho, rfl, rfl, rfl, rfl⟩, ?_⟩
      have hk := hout l hl o ho
      rcases h with rfl | h
      · left; simp only [fwdConn, hk]; rfl
      · right; simp only [bwdConn, hk, Except.ok.injEq] at h; exact h.symm
    · exact .inr ⟨l, hl, h⟩
  · rintro (⟨p, e, y, ⟨l, hl, o, ho, h1, h2, h3, h4⟩, h⟩ | ⟨l, hl, h⟩)
    · refine ⟨l, hl, .inl ⟨o, ho, ?_⟩⟩
      have hk := hout l hl o ho
      rcases h with rfl | rfl
      · left; simp only [fwdConn, hk, h1, h2, h3, h4]; rfl
      · right; simp only [bwdConn, hk, h1, h2, h3, h4]
    · exact ⟨l, hl, .inr h⟩

include hw hout hforced hconns

/-- The sorts of both ends of a connection agree. -/
theorem conn_sort {it : Item} {t : Item} (hc : (it, t) ∈ mergeConnections conns forced) :
    ∃ k q, t = .one q ∧ SourceSort layers k it ∧ SinkSort layers k q ∧ ∀ p ∈ it.flat, (p, q) ∈ conns := by
  have hW := sources_wellNested hw hforced hconns
  obtain ⟨hfo, hdis⟩ := getForcedOrders_ok hforced
  have hit := hW.item_of hc
  obtain ⟨p, hp, q, rfl, hpq⟩ := (hW.mem_merged hit).1 hc
  have hm := hW.mergeNode_eq hit hp
  have hall := conn_cases hout hconns
  have hpq' := hpq
  rcases (hall _).1 hpq with ⟨a, e, y, ⟨l, hl, o, ho, h1, h2, h3, h4⟩, h⟩ | ⟨l, hl, x, hx, h⟩
  · have hst := hw.starts l hl o ho
    rw [hout l hl o ho] at hst
    simp only [h2] at hst
    obtain ⟨e', he', e1, e2⟩ := hw.ends l hl o ho
    rw [h3] at e1
    rw [h4] at e2
    have hno : ∀ cat, '.' ∉ cat → cat ≠ str "parameters" → cat ≠ str "gradients" → ∀ fo ∈ forced, path l.name cat a.2 ∉ fo := by
      intro cat hcat hc1 hc2 fo hfo' hmem
      obtain ⟨-, l', hl', rfl | rfl⟩ := (hfo fo).1 hfo'
      · obtain ⟨x, -, ex⟩ := mem_paramOrder.1 hmem
        exact hc1 (path_inj (hw.noDot l hl) (hw.noDot l' hl') hcat (by decide) ex).2.1
      · obtain ⟨x, -, ex⟩ := mem_gradOrder.1 hmem
        exact hc2 (path_inj (hw.noDot l hl) (hw.noDot l' hl') hcat (by decide) ex).2.1
    rw [← h1, ← e1] at h
    rcases h with h | h <;> obtain ⟨rfl, rfl⟩ := Prod.mk.inj h
    · rw [mergeNode_of_not (hno _ (by decide) (by decide) (by decide))] at hm
      subst hm
      exact ⟨0, _, rfl, .out hl hst, .inp he' e2, fun p hp => by
        rw [Item.flat, List.mem_singleton] at hp
        subst hp
        exact hpq'⟩
    · rw [mergeNode_of_not (hno _ (by decide) (by decide) (by decide))] at hm
      subst hm
      exact ⟨1, _, rfl, .delta hl hst, .delta he' e2, fun p hp => by
        rw [Item.flat, List.mem_singleton] at hp
        subst hp
        exact hpq'⟩
  · rcases h with h | h <;> obtain ⟨rfl, rfl⟩ := Prod.mk.inj h
    · have hpm : path l.name (str "parameters") x ∈ paramOrder l := mem_paramOrder.2 ⟨x, hx, rfl⟩
      have hne : paramOrder l ≠ [] := List.ne_nil_of_mem hpm
      rw [mergeNode_of_mem hdis ((hfo _).2 ⟨hne, l, hl, .inl rfl⟩) hpm] at hm
      subst hm
      refine ⟨2, _, rfl, .param hl hne, .param, fun p hp => ?_⟩
      obtain ⟨x', hx', rfl⟩ := mem_paramOrder.1 hp
      exact (hall _).2 (.inr ⟨l, hl, x', hx', .inl rfl⟩)
    · have hpm : path l.name (str "gradients") x ∈ gradOrder l := mem_gradOrder.2 ⟨x, hx, rfl⟩
      have hne : gradOrder l ≠ [] := List.ne_nil_of_mem hpm
      rw [mergeNode_of_mem hdis ((hfo _).2 ⟨hne, l, hl, .inr rfl⟩) hpm] at hm
      subst hm
      refine ⟨3, _, rfl, .grad hl hne, .grad, fun p hp => ?_⟩
      obtain ⟨x', hx', rfl⟩ := mem_gradOrder.1 hp
      exact (hall _).2 (.inr ⟨l, hl, x', hx', .inr rfl⟩)

/-- Sources that are linked are of the same sort. -/
theorem linked_sort {a b : Item} (h : Relation.EqvGen (ShareSink (mergeConnections conns forced)) a b) :
    a = b ∨ ∃ k, SourceSort layers k a ∧ SourceSort layers k b := by
  induction h with
  | rel a b hr =>
    obtain ⟨t, h1, h2⟩ := hr
    obtain ⟨k, q, rfl, s1, s2, -⟩ := conn_sort hw hout hforced hconns h1
    obtain ⟨k', q', e, s3, s4, -⟩ := conn_sort hw hout hforced hconns h2
    cases e
    obtain rfl := sinkSort_unique hw s2 s4
    exact .inr ⟨k, s1, s3⟩
  | refl a => exact .inl rfl
  | symm a b _ ih =>
    rcases ih with rfl | ⟨k, h1, h2⟩
    · exact .inl rfl
    · exact .inr ⟨k, h2, h1⟩
  | trans a b c _ _ ih1 ih2 =>
    rcases ih1 with rfl | ⟨k, h1, h2⟩
    · exact ih2
    · rcases ih2 with rfl | ⟨k', h3, h4⟩
      · exact .inr ⟨k, h1, h2⟩
      · obtain rfl := sourceSort_unique hw h2 h3
        exact .inr ⟨k, h1, h4⟩

end

end Verif.Layout
