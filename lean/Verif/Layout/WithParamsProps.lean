import Verif.Layout.WithParams

/-!
# Property C10: when a whole network with connections from parameters can be laid out
-/

namespace Verif.Layout

open Verif.Structure Verif.Buffers

namespace Par

variable {layers : List LayerInfo}

section
variable (hw : WellFormedLayers layers) (hsh : Shaped layers)
  (hbw : ∀ l ∈ layers, ∀ e ∈ l.outShapes ++ l.paramShapes, e.2.backwardOnly = false)
  (hint : ∀ l ∈ layers, ∀ o ∈ l.outgoing, o.kind ≠ .internals)
  {forced : List (List Name)} {conns : List (Name × Name)}
  (hforced : getForcedOrders layers = .ok forced) (hconns : getConnections layers = .ok conns)

include hw hint hconns in
/-- Which outputs feed an input. -/
theorem conn_output (d : Bool) {p : Name × Name} (hp : p ∈ outputsOf layers) {e : LayerInfo} (he : e ∈ layers) (y : Name) :
    (oPath d p, path e.name (iCat d) y) ∈ conns ↔ FedBy layers .outputs p e.name y := by
  rw [conn_cases hint hconns]
  constructor
  · rintro (⟨p', e', y', d', h, hc⟩ | ⟨p', e', y', d', h, hc⟩ | ⟨l, hl, p', hp', d', hc⟩)
    · obtain ⟨h1, -, e'', he'', rfl, -⟩ := fedBy_ends hw h
      obtain ⟨rfl, rfl⟩ := oPath_inj' hw hp (h1 rfl) (Prod.mk.inj hc).1
      obtain ⟨e1, -, e2⟩ := iPath_inj hw he he'' (Prod.mk.inj hc).2
      rw [e1, e2]
      exact h
    · obtain ⟨-, h1, -⟩ := fedBy_ends hw h
      obtain ⟨l, hl, hp'⟩ := h1 rfl
      exact absurd (Prod.mk.inj hc).1 (oPath_ne_pPath hw hp hl hp')
    · exact absurd (Prod.mk.inj hc).2 path_ne_pCat
  · exact fun h => .inl ⟨p, e.name, y, d, h, rfl⟩

include hw hint hconns in
/-- Which parameters feed an input. -/
theorem conn_param (d : Bool) {l : LayerInfo} (hl : l ∈ layers) {p : Name × Name} (hp : p ∈ paramsOf l) {e : LayerInfo}
    (he : e ∈ layers) (y : Name) :
    (pPath d p, path e.name (iCat d) y) ∈ conns ↔ FedBy layers .parameters p e.name y := by
  rw [conn_cases hint hconns]
  constructor
  · rintro (⟨p', e', y', d', h, hc⟩ | ⟨p', e', y', d', h, hc⟩ | ⟨l', hl', p', hp', d', hc⟩)
    · obtain ⟨h1, -⟩ := fedBy_ends hw h
      exact absurd (Prod.mk.inj hc).1.symm (oPath_ne_pPath hw (h1 rfl) hl hp)
    · obtain ⟨-, h1, e'', he'', rfl, -⟩ := fedBy_ends hw h
      obtain ⟨l', hl', hp'⟩ := h1 rfl
      obtain ⟨rfl, rfl⟩ := pPath_inj hw hl hl' hp hp' (Prod.mk.inj hc).1
      obtain ⟨e1, -, e2⟩ := iPath_inj hw he he'' (Prod.mk.inj hc).2
      rw [e1, e2]
      exact h
    · exact absurd (Prod.mk.inj hc).2 path_ne_pCat
  · exact fun h => .inr (.inl ⟨p, e.name, y, d, h, rfl⟩)

include hint hconns in
/-- All parameters are part of the array of all parameters. -/
theorem conn_root (d : Bool) {l : LayerInfo} (hl : l ∈ layers) {p : Name × Name} (hp : p ∈ paramsOf l) :
    (pPath d p, pCat d) ∈ conns :=
  (conn_cases hint hconns _).2 (.inr (.inr ⟨l, hl, p, hp, d, rfl⟩))

include hw hint hsh hforced hconns in
theorem linked_type (hap : ∀ p q e y, FedBy layers .outputs p e y → ¬ FedBy layers .parameters q e y) {a b : Item}
    (h : Relation.EqvGen (ShareSink (mergeConnections conns forced)) a b) : itemType layers a = itemType layers b := by
  induction h with
  | refl => rfl
  | symm a b _ ih => exact ih.symm
  | trans a b c _ _ ih1 ih2 => exact ih1.trans ih2
  | rel a b hr =>
    obtain ⟨t, h1, h2⟩ := hr
    obtain ⟨k, d, q, rfl, s1, s2, pa, hpa, c1⟩ := conn_sort hw hint hforced hconns h1
    obtain ⟨k', d', q', e, s3, s4, pb, hpb, c2⟩ := conn_sort hw hint hforced hconns h2
    cases e
    obtain ⟨rfl, rfl⟩ := sinkSort_unique hw hap s2 s4
    have harr : ∀ p ∈ outputsOf layers, ∃ s, Dict.get? (networkArrays layers) (oPath d p) = some s := by
      intro p hp
      obtain ⟨l, hl, hn, hb⟩ := mem_outputsOf.1 hp
      obtain ⟨e, he, hpe⟩ := List.mem_map.1 hb
      rw [oPath, ← hn, ← hpe]
      cases d
      · exact ⟨_, struct_of hw hl (c := (str "outputs", false, l.outShapes)) (by simp [layerCats]) he⟩
      · exact ⟨_, struct_of hw hl (c := (str "output_deltas", true, l.outShapes)) (by simp [layerCats]) he⟩
    cases s1 with
    | out hp =>
      cases s3 with
      | out hp' =>
        cases s2 with
        | @out _ _ e y he hy hf =>
          obtain ⟨s, hs⟩ : ∃ s, Dict.get? (networkArrays layers) (path e.name (iCat d) y) = some s := by
            obtain ⟨x, hx, rfl⟩ := List.mem_map.1 hy
            cases d
            · exact ⟨_, struct_of hw he (c := (str "inputs", false, e.inShapes)) (by simp [layerCats]) hx⟩
            · exact ⟨_, struct_of hw he (c := (str "input_deltas", true, e.inShapes)) (by simp [layerCats]) hx⟩
          simp only [Item.flat, List.mem_singleton] at hpa hpb
          subst hpa hpb
          obtain ⟨srcs, -, hm, -, -, hty⟩ := hsh.sinks conns hconns _ s hs ⟨_, c1⟩
          obtain ⟨sa, ea⟩ := harr _ hp
          obtain ⟨sb, eb⟩ := harr _ hp'
          simp only [itemType, ea, eb, Option.map_some]
          rw [hty _ ((hm _).2 c1) sa ea, hty _ ((hm _).2 c2) sb eb]
    | param hl hn => cases s3 with | param => rfl

include hw hint hsh hbw hforced hconns in
/-- The hub of outputs that are linked. -/
theorem outputs_hub (ho : Plannable layers) (d : Bool) {node : Item}
    (hnode : node ∈ getAllSources forced conns ((networkArrays layers).map Prod.fst)) {src : List Item} {sinks : List Name}
    (hd : ClosureDone (mergeConnections conns forced) node src (sinks.map Item.one))
    (hk : ∀ it ∈ src, ∃ p ∈ outputsOf layers, it = .one (oPath d p))
    (hs : ∀ t ∈ sinks, ∃ e ∈ layers, ∃ y, t = path e.name (iCat d) y) :
    ∃ hub, Hub.create (Dict.get? (networkArrays layers)) conns src sinks = .ok hub := by
  obtain ⟨order, hperm, hcons⟩ := ho.outputs
  have hflat : ∀ p, p ∈ src.flatMap Item.flat ↔ Item.one p ∈ src := by
    intro p
    rw [List.mem_flatMap]
    constructor
    · rintro ⟨it, hit, hp⟩
      obtain ⟨p', -, rfl⟩ := hk it hit
      simp only [Item.flat, List.mem_singleton] at hp
      subst hp
      exact hit
    · intro h
      exact ⟨_, h, by simp [Item.flat]⟩
  have hfl : src.flatMap Item.flat = src.map (fun it => match it with | .one p => p | .tup _ => []) := by
    have : ∀ l : List Item, (∀ it ∈ l, ∃ p ∈ outputsOf layers, it = .one (oPath d p)) →
        l.flatMap Item.flat = l.map (fun it => match it with | .one p => p | .tup _ => []) := by
      intro l hl
      induction l with
      | nil => rfl
      | cons a l ih =>
        obtain ⟨p, -, rfl⟩ := hl a (by simp)
        simp only [List.flatMap_cons, List.map_cons, Item.flat, List.singleton_append]
        rw [ih fun it hit => hl it (by simp [hit])]
    exact this src hk
  have hnodesrc : node ∈ src := (hd.srcs node).2 (.refl _)
  have hordnd : order.Nodup := hperm.nodup_iff.2 (outputsOf_nodup hw)
  set items := order.map (fun p => Item.one (oPath d p)) with hitems
  have hitnd : items.Nodup := by
    refine List.Nodup.map_on ?_ hordnd
    intro p hp q hq h
    exact oPath_inj hw (hperm.subset hp) (hperm.subset hq) (Item.one.inj h)
  obtain ⟨p0, hp0, hn0⟩ := hk node hnodesrc
  have hstruct : ∀ p ∈ outputsOf layers, ∃ s, Dict.get? (networkArrays layers) (oPath d p) = some s ∧ s.backwardOnly = d := by
    intro p hp
    obtain ⟨l, hl, hn, hb⟩ := mem_outputsOf.1 hp
    obtain ⟨e, he, hpe⟩ := List.mem_map.1 hb
    have hback := hbw l hl e (by simp [he])
    cases d
    · have := struct_of hw hl (c := (str "outputs", false, l.outShapes)) (by simp [layerCats]) he
      exact ⟨_, by rw [oPath, oCat, ← hn, ← hpe]; exact this, by simpa using hback⟩
    · have := struct_of hw hl (c := (str "output_deltas", true, l.outShapes)) (by simp [layerCats]) he
      exact ⟨_, by rw [oPath, oCat, ← hn, ← hpe]; exact this, by simp⟩
  obtain ⟨s0, hs0, -⟩ := hstruct p0 hp0
  refine create_succeeds (bt := s0.bufferType) (bw := d) (order := items.filter (fun it => decide (it ∈ src))) ?_ (List.Nodup.of_map _ hd.nodupSnk) ?_ (.inl ?_) ?_ ?_ ?_ ?_
  · rw [hfl]
    refine List.Nodup.map_on ?_ hd.nodupSrc
    intro a ha b hb h
    obtain ⟨p, -, rfl⟩ := hk a ha
    obtain ⟨q, -, rfl⟩ := hk b hb
    simpa using h
  · intro h
    rw [hfl, List.map_eq_nil_iff] at h
    rw [h] at hnodesrc
    simp at hnodesrc
  · intro it hit
    obtain ⟨p, -, rfl⟩ := hk it hit
    exact ⟨_, rfl⟩
  · intro p hp
    obtain ⟨q, hq, e⟩ := hk _ ((hflat p).1 hp)
    cases e
    obtain ⟨s, hs, -⟩ := hstruct q hq
    rw [hs]; rfl
  · intro p hp s hs
    have hm := (hflat p).1 hp
    obtain ⟨q, hq, e⟩ := hk _ hm
    cases e
    obtain ⟨s', hs', hb⟩ := hstruct q hq
    rw [hs] at hs'
    cases hs'
    refine ⟨?_, hb⟩
    have := linked_type hw hsh hint hforced hconns ho.apart ((hd.srcs _).1 hm)
    rw [hn0] at this
    simp only [itemType, hs0, hs, Option.map_some, Option.some.injEq] at this
    exact this.symm
  · refine (List.perm_ext_iff_of_nodup (hitnd.filter _) hd.nodupSrc).2 ?_
    intro it
    rw [List.mem_filter]
    simp only [decide_eq_true_eq]
    constructor
    · exact fun h => h.2
    · intro h
      obtain ⟨p, hp, rfl⟩ := hk it h
      exact ⟨List.mem_map.2 ⟨p, hperm.symm.subset hp, rfl⟩, h⟩
  · intro t ht
    obtain ⟨e, he, y, rfl⟩ := hs t ht
    have : (items.filter (fun it => decide (it ∈ src))).flatMap Item.flat =
        (order.filter (fun p => decide (Item.one (oPath d p) ∈ src))).map (oPath d) := by
      rw [hitems]
      clear hitems hitnd hordnd hcons hperm
      clear items
      induction order with
      | nil => rfl
      | cons a order ih =>
        simp only [List.map_cons, List.filter_cons]
        split
        · simp only [List.flatMap_cons, List.map_cons, Item.flat, List.singleton_append]
          rw [ih]
        · exact ih
    rw [this, Consecutive.map_iff]
    rw [Consecutive.congr (Q := fun p => FedBy layers .outputs p e.name y)]
    · exact (hcons e.name y).filter _
    · intro p hp
      exact conn_output hw hint hconns d (hperm.subset (List.mem_filter.1 hp).1) he y
include hw hint hsh hbw hforced hconns in
/-- The hub of parameters or of gradients. -/
theorem params_hub (ho : Plannable layers) (d : Bool) {node : Item}
    (hnode : node ∈ getAllSources forced conns ((networkArrays layers).map Prod.fst)) {src : List Item} {sinks : List Name}
    (hd : ClosureDone (mergeConnections conns forced) node src (sinks.map Item.one))
    (hk : ∀ it ∈ src, ∃ l ∈ layers, pOrder d l ≠ [] ∧ it = .tup (pOrder d l))
    (hs : ∀ t ∈ sinks, t = pCat d ∨ ∃ e ∈ layers, ∃ y, t = path e.name (iCat d) y) :
    ∃ hub, Hub.create (Dict.get? (networkArrays layers)) conns src sinks = .ok hub := by
  have hW := sources_wellNested hw hforced hconns
  obtain ⟨order, hperm, hcons⟩ := ho.params
  have hnodesrc : node ∈ src := (hd.srcs node).2 (.refl _)
  have hsub : ∀ it ∈ src, it ∈ getAllSources forced conns ((networkArrays layers).map Prod.fst) :=
    fun it hit => (hW.link ((hd.srcs it).1 hit)).1.1 hnode
  have hflat : ∀ x ∈ src.flatMap Item.flat, ∃ l ∈ layers, ∃ p ∈ paramsOf l, x = pPath d p := by
    intro x hx
    obtain ⟨it, hit, hpi⟩ := List.mem_flatMap.1 hx
    obtain ⟨l, hl, -, rfl⟩ := hk it hit
    obtain ⟨p, hp, rfl⟩ := List.mem_map.1 hpi
    exact ⟨l, hl, p, hp, rfl⟩
  have hstruct : ∀ l ∈ layers, ∀ p ∈ paramsOf l, ∃ s, Dict.get? (networkArrays layers) (pPath d p) = some s ∧
      s.bufferType = 0 ∧ s.backwardOnly = d := by
    intro l hl p hp
    obtain ⟨e, he, rfl⟩ := List.mem_map.1 hp
    have hback := hbw l hl e (by simp [he])
    have hty := hsh.params l hl e he
    cases d
    · have := struct_of hw hl (c := (str "parameters", false, l.paramShapes)) (by simp [layerCats]) he
      exact ⟨_, this, by simpa using hty, by simpa using hback⟩
    · have := struct_of hw hl (c := (str "gradients", true, l.paramShapes)) (by simp [layerCats]) he
      exact ⟨_, this, by simpa [Struct.bufferType] using hty, by simp⟩
  -- all groups of parameters are linked, as they are part of the array of all parameters
  have hmerged : ∀ l ∈ layers, pOrder d l ≠ [] → (Item.tup (pOrder d l), Item.one (pCat d)) ∈ mergeConnections conns forced := by
    intro l hl hne
    obtain ⟨x, hx⟩ := List.exists_mem_of_ne_nil _ hne
    obtain ⟨p, hp, rfl⟩ := List.mem_map.1 hx
    have hc := conn_root hint hconns d hl hp
    obtain ⟨it, hit, hpi⟩ := List.mem_flatMap.1 (hW.starts _ hc)
    have hm := hW.mergeNode_eq hit hpi
    rw [merge_param hforced hl hp] at hm
    subst hm
    exact (hW.mem_merged hit).2 ⟨_, hpi, _, rfl, hc⟩
  have hallsrc : ∀ l ∈ layers, pOrder d l ≠ [] → Item.tup (pOrder d l) ∈ src := by
    intro l hl hne
    obtain ⟨l0, hl0, hne0, hn0⟩ := hk node hnodesrc
    refine (hd.srcs _).2 (.rel _ _ ⟨.one (pCat d), ?_, hmerged l hl hne⟩)
    rw [hn0]
    exact hmerged l0 hl0 hne0
  have hordnd : (order.map LayerInfo.name).Nodup := (hperm.map _).nodup_iff.2 hw.names
  set items := (order.filter (fun l => decide (pOrder d l ≠ []))).map (fun l => Item.tup (pOrder d l)) with hitems
  have hitnd : items.Nodup := by
    rw [hitems]
    refine List.Nodup.map_on ?_ ((List.Nodup.of_map _ hordnd).filter _)
    intro l hl l' hl' h
    obtain ⟨h1, h2⟩ := List.mem_filter.1 hl
    obtain ⟨h1', h2'⟩ := List.mem_filter.1 hl'
    simp only [decide_eq_true_eq] at h2
    obtain ⟨x, hx⟩ := List.exists_mem_of_ne_nil _ h2
    obtain ⟨p, hp, e1⟩ := List.mem_map.1 hx
    rw [Item.tup.inj h] at hx
    obtain ⟨p', hp', e2⟩ := List.mem_map.1 hx
    obtain ⟨rfl, -⟩ := pPath_inj hw (hperm.subset h1) (hperm.subset h1') hp hp' (e1.trans e2.symm)
    exact List.inj_on_of_nodup_map hordnd h1 h1' ((mem_paramsOf.1 hp).1.symm.trans (mem_paramsOf.1 hp').1)
  refine create_succeeds (bt := 0) (bw := d) (order := items) ?_ (List.Nodup.of_map _ hd.nodupSnk) ?_ (.inr ?_) ?_ ?_ ?_ ?_
  · have hnd := hW.nodup
    rw [List.nodup_flatMap] at hnd ⊢
    refine ⟨fun it hit => hnd.1 it (hsub it hit), ?_⟩
    refine hd.nodupSrc.imp_of_mem ?_
    intro a b ha hb hab p h1 h2
    exact hab (hW.item_unique (hsub a ha) (hsub b hb) h1 h2)
  · obtain ⟨l, hl, hne, e⟩ := hk node hnodesrc
    obtain ⟨p, hp⟩ := List.exists_mem_of_ne_nil _ hne
    exact List.ne_nil_of_mem (List.mem_flatMap.2 ⟨node, hnodesrc, by rw [e]; exact hp⟩)
  · intro it hit
    obtain ⟨l, -, -, e⟩ := hk it hit
    exact ⟨_, e⟩
  · intro x hx
    obtain ⟨l, hl, p, hp, rfl⟩ := hflat x hx
    obtain ⟨s, hs, -⟩ := hstruct l hl p hp
    rw [hs]; rfl
  · intro x hx s hs
    obtain ⟨l, hl, p, hp, rfl⟩ := hflat x hx
    obtain ⟨s', hs', h1, h2⟩ := hstruct l hl p hp
    rw [hs] at hs'
    cases hs'
    exact ⟨h1, h2⟩
  · refine (List.perm_ext_iff_of_nodup hitnd hd.nodupSrc).2 fun it => ?_
    constructor
    · intro h
      obtain ⟨l, hl, rfl⟩ := List.mem_map.1 h
      obtain ⟨h1, h2⟩ := List.mem_filter.1 hl
      exact hallsrc l (hperm.subset h1) (by simpa using h2)
    · intro h
      obtain ⟨l, hl, hne, rfl⟩ := hk it h
      exact List.mem_map.2 ⟨l, List.mem_filter.2 ⟨hperm.symm.subset hl, by simpa using hne⟩, rfl⟩
  · intro t ht
    have hitf : items.flatMap Item.flat = (order.flatMap paramsOf).map (pPath d) := by
      rw [hitems]
      clear hitems hitnd hordnd hcons hperm
      clear items
      induction order with
      | nil => rfl
      | cons a order ih =>
        rw [List.filter_cons, List.flatMap_cons, List.map_append, ← ih]
        split
        · rfl
        · rename_i h
          simp only [decide_eq_true_eq, not_not] at h
          rw [← pOrder, h, List.nil_append]
    have hmem : ∀ p ∈ order.flatMap paramsOf, ∃ l ∈ layers, p ∈ paramsOf l := by
      intro p hp
      obtain ⟨l, hl, hp⟩ := List.mem_flatMap.1 hp
      exact ⟨l, hperm.subset hl, hp⟩
    rw [hitf, Consecutive.map_iff]
    rcases hs t ht with rfl | ⟨e, he, y, rfl⟩
    · refine consecutive_all fun p hp => ?_
      obtain ⟨l, hl, hp⟩ := hmem p hp
      exact conn_root hint hconns d hl hp
    · rw [Consecutive.congr (Q := fun p => FedBy layers .parameters p e.name y)]
      · exact hcons e.name y
      · intro p hp
        obtain ⟨l, hl, hp⟩ := hmem p hp
        exact conn_param hw hint hconns d hl hp he y

include hw hint hsh hbw hforced hconns in
/-- All hubs can be created. -/
theorem hub_exists (ho : Plannable layers) {node : Item}
    (hnode : node ∈ getAllSources forced conns ((networkArrays layers).map Prod.fst)) {src : List Item} {sinks : List Name}
    (hd : ClosureDone (mergeConnections conns forced) node src (sinks.map Item.one)) :
    ∃ hub, Hub.create (Dict.get? (networkArrays layers)) conns src sinks = .ok hub := by
  by_cases h : ∃ k d, SourceSort layers k d node
  · obtain ⟨k, d, hk⟩ := h
    have hall : ∀ it ∈ src, SourceSort layers k d it := by
      intro it hit
      rcases linked_sort hw hint hforced hconns ho.apart ((hd.srcs it).1 hit) with rfl | ⟨k', d', h1, h2⟩
      · exact hk
      · obtain ⟨rfl, rfl⟩ := sourceSort_unique hw hk h1
        exact h2
    have hsn : ∀ t ∈ sinks, SinkSort layers k d t := by
      intro t ht
      obtain ⟨it, hit, hc⟩ := (hd.snks (.one t)).1 (List.mem_map_of_mem ht)
      obtain ⟨k', d', q, e, h1, h2, -⟩ := conn_sort hw hint hforced hconns hc
      cases e
      obtain ⟨rfl, rfl⟩ := sourceSort_unique hw (hall it hit) h1
      exact h2
    clear hk
    cases k with
    | false =>
      refine outputs_hub hw hsh hbw hint hforced hconns ho d hnode hd ?_ ?_
      · intro it hit
        cases hall it hit with
        | out hp => exact ⟨_, hp, rfl⟩
      · intro t ht
        cases hsn t ht with
        | out he hy hf => exact ⟨_, he, _, rfl⟩
    | true =>
      refine params_hub hw hsh hbw hint hforced hconns ho d hnode hd ?_ ?_
      · intro it hit
        cases hall it hit with
        | param hl hn => exact ⟨_, hl, hn, rfl⟩
      · intro t ht
        cases hsn t ht with
        | param he hy hf => exact .inr ⟨_, he, _, rfl⟩
        | root => exact .inl rfl
  · have hsrc : src = [node] := by
      have h1 : ∀ it ∈ src, it = node := by
        intro it hit
        rcases linked_sort hw hint hforced hconns ho.apart ((hd.srcs it).1 hit) with rfl | ⟨k', d', h1, h2⟩
        · rfl
        · exact absurd ⟨k', d', h1⟩ h
      have h2 : node ∈ src := (hd.srcs node).2 (.refl _)
      have h3 := hd.nodupSrc
      rcases src with _ | ⟨a, _ | ⟨b, src⟩⟩
      · simp at h2
      · rw [h1 a (by simp)]
      · have ea := h1 a (by simp)
        have eb := h1 b (by simp)
        rw [ea, eb] at h3
        simp at h3
    subst hsrc
    cases node with
    | tup l =>
      have := (sources_inv hw hforced (conns.map Prod.snd)).tuples l hnode
      obtain ⟨hne, l', hl', d, rfl⟩ := (forced_mem hforced l).1 this
      exact absurd ⟨true, d, .param hl' hne⟩ h
    | one p =>
      have hp : p ∈ (networkArrays layers).map Prod.fst := by
        rcases single_mem hnode with h | h
        · simp at h
        · exact h
      obtain ⟨s, hs⟩ : ∃ s, Dict.get? (networkArrays layers) p = some s := by
        obtain ⟨e, he, rfl⟩ := List.mem_map.1 hp
        exact ⟨_, Dict.get?_of_mem (networkArrays_nodup hw) he⟩
      refine create_succeeds (bt := s.bufferType) (bw := s.backwardOnly) (order := [.one p]) (by simp [Item.flat])
        (List.Nodup.of_map _ hd.nodupSnk) (by simp [Item.flat]) (.inl (by simp)) ?_ ?_ (.refl _) ?_
      · intro q hq
        simp only [List.flatMap_cons, Item.flat, List.flatMap_nil, List.append_nil, List.mem_singleton] at hq
        subst hq
        rw [hs]; rfl
      · intro q hq s' hs'
        simp only [List.flatMap_cons, Item.flat, List.flatMap_nil, List.append_nil, List.mem_singleton] at hq
        subst hq
        rw [hs] at hs'
        cases hs'
        exact ⟨rfl, rfl⟩
      · intro t _
        exact consecutive_one p

end

/-- See `C10_parameters`. -/
theorem layout_exists (hw : WellFormedLayers layers) (hsh : Shaped layers)
    (hbw : ∀ l ∈ layers, ∀ e ∈ l.outShapes ++ l.paramShapes, e.2.backwardOnly = false)
    (hint : ∀ l ∈ layers, ∀ o ∈ l.outgoing, o.kind ≠ .internals) (ho : Plannable layers) : ∃ L, createLayout layers = .ok L := by
  obtain ⟨forced, hforced⟩ := forced_succeeds hw
  obtain ⟨conns, hconns⟩ := connections_succeed hint
  have hW := sources_wellNested hw hforced hconns
  obtain ⟨gs, hgs⟩ := groupFuel_succeeds (structOf := Dict.get? (networkArrays layers)) (conns := conns)
    (mcons := mergeConnections conns forced) (by
      intro s t hc
      obtain ⟨k, d, q, e, -⟩ := conn_sort hw hint hforced hconns hc
      exact ⟨q, e⟩) _ (getAllSources forced conns ((networkArrays layers).map Prod.fst)) (le_refl _) hW.nodupItems
    (fun a ha b hab => (hW.link hab).1.1 ha)
    (fun node hnode src sinks hd => hub_exists hw hsh hbw hint hforced hconns ho hnode hd)
  have hg : groupIntoHubs (Dict.get? (networkArrays layers)) conns forced
    (getAllSources forced conns ((networkArrays layers).map Prod.fst)) = .ok gs := hgs
  have hP : Parts layers ⟨sortBy hubLe gs, layoutHubs 0 (sortBy hubLe gs)⟩ forced conns gs := ⟨hforced, hconns, hg, rfl, rfl⟩
  refine ⟨⟨sortBy hubLe gs, layoutHubs 0 (sortBy hubLe gs)⟩, ?_⟩
  unfold createLayout
  simp only [hforced, hconns, hg]
  rw [if_pos]
  rw [List.all_eq_true]
  intro e he
  have hn : e.name ∈ (layoutHubs 0 (sortBy hubLe gs)).map Entry.name := List.mem_map_of_mem he
  rw [layoutHubs_names, List.mem_flatMap] at hn
  obtain ⟨g, hg', hn⟩ := hn
  have hg'' : g ∈ gs := (sortBy_perm _ _).subset hg'
  have hn' := (hP.names_perm hw hg'').subset hn
  simp only [decide_eq_true_eq]
  rcases List.mem_append.1 hn' with hn' | hn'
  · obtain ⟨-, -, -, -, order, hcr⟩ := hP.created hw hg''
    have hmem : e.name ∈ g.hub.flatSources := by
      rw [hcr.flat]
      exact (hcr.perm.flatMap_right _).symm.subset hn'
    obtain ⟨i, hi, hie⟩ := List.getElem_of_mem hmem
    obtain ⟨s, hs, -⟩ := hcr.sizes i hi
    rw [hie] at hs
    exact .inl (List.mem_map.2 ⟨_, Dict.mem_of_get? hs, rfl⟩)
  · obtain ⟨p, -, hc⟩ := (hP.sink_iff hw hg'').1 hn'
    have harr : ∀ e' ∈ layers, ∀ y ∈ e'.inShapes.map Prod.fst, ∀ d, path e'.name (iCat d) y ∈ (networkArrays layers).map Prod.fst := by
      intro e' he' y hy d
      rw [mem_networkArrays]
      cases d
      · exact ⟨e', he', (str "inputs", false, e'.inShapes), by simp [layerCats], y, hy, rfl⟩
      · exact ⟨e', he', (str "input_deltas", true, e'.inShapes), by simp [layerCats], y, hy, rfl⟩
    rcases (conn_cases hint hconns _).1 hc with ⟨a, e', y, d, hf, h⟩ | ⟨a, e', y, d, hf, h⟩ | ⟨l, hl, a, ha, d, h⟩
    · obtain ⟨-, -, e'', he'', rfl, hy⟩ := fedBy_ends hw hf
      left
      rw [(Prod.mk.inj h).2]
      exact harr e'' he'' y hy d
    · obtain ⟨-, -, e'', he'', rfl, hy⟩ := fedBy_ends hw hf
      left
      rw [(Prod.mk.inj h).2]
      exact harr e'' he'' y hy d
    · right
      rw [(Prod.mk.inj h).2]
      cases d
      · exact .inl rfl
      · exact .inr rfl

/-! ### Only if -/

/-- The sources of a hub are all single arrays or all groups (`sorted` compares them). -/
theorem create_kind {structOf : Name → Option Struct} {conns : List (Name × Name)} {sources : List Item} {sinks : List Name} {h : Hub}
    (hc : Hub.create structOf conns sources sinks = .ok h) :
    (∀ it ∈ sources, ∃ p, it = .one p) ∨ ∀ it ∈ sources, ∃ l, it = .tup l := by
  unfold Hub.create at hc
  cases hs : sortedItems sources with
  | error e => simp [hs] at hc
  | ok sorted =>
    unfold sortedItems at hs
    split at hs
    · rename_i hor
      rcases hor with hor | hor <;> rw [List.all_eq_true] at hor
      · left
        intro it hit
        have := hor it hit
        cases it with
        | one p => exact ⟨p, rfl⟩
        | tup l => simp at this
      · right
        intro it hit
        have := hor it hit
        cases it with
        | one p => simp at this
        | tup l => exact ⟨l, rfl⟩
    · simp at hs

/-- See `C10_parameters`. -/
theorem apart_of_layout (hw : WellFormedLayers layers) (hint : ∀ l ∈ layers, ∀ o ∈ l.outgoing, o.kind ≠ .internals)
    {L : Layout} (h : createLayout layers = .ok L) :
    ∀ p q e y, FedBy layers .outputs p e y → ¬ FedBy layers .parameters q e y := by
  intro p q e y hp hq
  obtain ⟨forced, conns, gs, hP⟩ := createLayout_ok h
  have hW := hP.nested hw
  obtain ⟨h1, -, e', he', rfl, -⟩ := fedBy_ends hw hp
  obtain ⟨-, h2, -⟩ := fedBy_ends hw hq
  have h1 := h1 rfl
  obtain ⟨l, hl, h2⟩ := h2 rfl
  have c1 := (conn_output hw hint hP.connsOk false h1 he' y).2 hp
  have c2 := (conn_param hw hint hP.connsOk false hl h2 he' y).2 hq
  obtain ⟨i, hi, ha, hs, hu⟩ := C08_connections _ _ _ _ _ hW hP.groupsOk _ _ c1
  obtain ⟨j, hj, ha', hs', hu'⟩ := C08_connections _ _ _ _ _ hW hP.groupsOk _ _ c2
  have e1 := hu' i hi (.inr hs)
  subst e1
  have hmem : ∀ it ∈ gs[i].sources, it ∈ getAllSources forced conns ((networkArrays layers).map Prod.fst) := fun it hit =>
    (groupIntoHubs_ok hP.groupsOk).perm.subset (List.mem_flatMap.2 ⟨_, List.getElem_mem hi, hit⟩)
  obtain ⟨it, hit, hpi⟩ := List.mem_flatMap.1 ha
  obtain ⟨it', hit', hpi'⟩ := List.mem_flatMap.1 ha'
  have m1 := hW.mergeNode_eq (hmem it hit) hpi
  have m2 := hW.mergeNode_eq (hmem it' hit') hpi'
  rw [merge_out hw hP.forcedOk h1] at m1
  rw [merge_param hP.forcedOk hl h2] at m2
  obtain ⟨-, -, -, hc, -⟩ := hP.created hw (List.getElem_mem hi)
  rcases create_kind hc with hk | hk
  · obtain ⟨x, hx⟩ := hk it' hit'
    rw [hx] at m2
    cases m2
  · obtain ⟨x, hx⟩ := hk it hit
    rw [hx] at m1
    cases m1

/-- See `C10_parameters`. -/
theorem params_of_layout (hw : WellFormedLayers layers) (hint : ∀ l ∈ layers, ∀ o ∈ l.outgoing, o.kind ≠ .internals)
    {L : Layout} (h : createLayout layers = .ok L) :
    ∃ order : List LayerInfo, order.Perm layers ∧
      ∀ e y, Consecutive (fun p => FedBy layers .parameters p e y) (order.flatMap paramsOf) := by
  have hap := apart_of_layout hw hint h
  obtain ⟨forced, conns, gs, hP⟩ := createLayout_ok h
  have hW := hP.nested hw
  by_cases hex : ∃ l ∈ layers, ∃ p, p ∈ paramsOf l
  swap
  · refine ⟨layers, .refl _, fun e y => consecutive_none fun p hp => ?_⟩
    obtain ⟨l, hl, hp⟩ := List.mem_flatMap.1 hp
    exact absurd ⟨l, hl, p, hp⟩ hex
  obtain ⟨l0, hl0, p0, hp0⟩ := hex
  obtain ⟨i, hi, ha, hs, hu⟩ := C08_connections _ _ _ _ _ hW hP.groupsOk _ _ (conn_root hint hP.connsOk false hl0 hp0)
  have hmem : ∀ it ∈ gs[i].sources, it ∈ getAllSources forced conns ((networkArrays layers).map Prod.fst) := fun it hit =>
    (groupIntoHubs_ok hP.groupsOk).perm.subset (List.mem_flatMap.2 ⟨_, List.getElem_mem hi, hit⟩)
  have hall : ∀ l ∈ layers, ∀ p ∈ paramsOf l, pPath false p ∈ gs[i].arrays := by
    intro l hl p hp
    obtain ⟨j, hj, ha', hs', hu'⟩ := C08_connections _ _ _ _ _ hW hP.groupsOk _ _ (conn_root hint hP.connsOk false hl hp)
    have := hu j hj (.inr hs')
    subst this
    exact ha'
  have htup : ∀ l ∈ layers, ∀ p ∈ paramsOf l, Item.tup (pOrder false l) ∈ gs[i].sources := by
    intro l hl p hp
    obtain ⟨it, hit, hpi⟩ := List.mem_flatMap.1 (hall l hl p hp)
    have m := hW.mergeNode_eq (hmem it hit) hpi
    rw [merge_param hP.forcedOk hl hp] at m
    rw [m]
    exact hit
  obtain ⟨node, -, hd, -⟩ := (groupIntoHubs_ok hP.groupsOk).done _ (List.getElem_mem hi)
  have hne0 : pOrder false l0 ≠ [] := List.ne_nil_of_mem (List.mem_map_of_mem (f := pPath false) hp0)
  have hsort : ∀ it ∈ gs[i].sources, ∃ l ∈ layers, pOrder false l ≠ [] ∧ it = .tup (pOrder false l) := by
    intro it hit
    have hl := (((hd.srcs _).1 (htup l0 hl0 p0 hp0)).symm).trans _ _ _ ((hd.srcs it).1 hit)
    rcases linked_sort hw hint hP.forcedOk hP.connsOk hap hl with h | ⟨k, d, h1, h2⟩
    · exact ⟨l0, hl0, hne0, h.symm⟩
    · obtain ⟨rfl, rfl⟩ := sourceSort_unique hw (.param (d := false) hl0 hne0) h1
      cases h2 with
      | param hl' hn => exact ⟨_, hl', hn, rfl⟩
  obtain ⟨-, -, -, -, order', hcr⟩ := hP.created hw (List.getElem_mem hi)
  have hsrcnd : gs[i].sources.Nodup := hd.nodupSrc
  set full := layers.filter (fun l => decide (pOrder false l ≠ [])) with hfull
  have hlnd : layers.Nodup := List.Nodup.of_map _ hw.names
  have hperm : order'.Perm (full.map (fun l => Item.tup (pOrder false l))) := by
    refine hcr.perm.trans ((List.perm_ext_iff_of_nodup hsrcnd ?_).2 fun it => ?_)
    · refine List.Nodup.map_on ?_ (hlnd.filter _)
      intro l hl l' hl' h
      obtain ⟨h1, h2⟩ := List.mem_filter.1 hl
      obtain ⟨h1', -⟩ := List.mem_filter.1 hl'
      simp only [decide_eq_true_eq] at h2
      obtain ⟨x, hx⟩ := List.exists_mem_of_ne_nil _ h2
      obtain ⟨p, hp, e1⟩ := List.mem_map.1 hx
      rw [Item.tup.inj h] at hx
      obtain ⟨p', hp', e2⟩ := List.mem_map.1 hx
      obtain ⟨rfl, -⟩ := pPath_inj hw h1 h1' hp hp' (e1.trans e2.symm)
      exact List.inj_on_of_nodup_map hw.names h1 h1' ((mem_paramsOf.1 hp).1.symm.trans (mem_paramsOf.1 hp').1)
    · constructor
      · intro h
        obtain ⟨l, hl, hne, rfl⟩ := hsort it h
        exact List.mem_map.2 ⟨l, List.mem_filter.2 ⟨hl, by simpa using hne⟩, rfl⟩
      · intro h
        obtain ⟨l, hl, rfl⟩ := List.mem_map.1 h
        obtain ⟨h1, h2⟩ := List.mem_filter.1 hl
        simp only [decide_eq_true_eq] at h2
        obtain ⟨x, hx⟩ := List.exists_mem_of_ne_nil _ h2
        obtain ⟨p, hp, -⟩ := List.mem_map.1 hx
        exact htup l h1 p hp
  obtain ⟨order1, ho1, heq⟩ := exists_perm_of_perm_map hperm
  set empty := layers.filter (fun l => !decide (pOrder false l ≠ [])) with hempty
  refine ⟨order1 ++ empty, (ho1.append_right _).trans (List.filter_append_perm _ _), fun e y => ?_⟩
  have hemp : empty.flatMap paramsOf = [] := by
    rw [List.flatMap_eq_nil_iff]
    intro l hl
    have := (List.mem_filter.1 hl).2
    simpa [pOrder] using this
  rw [List.flatMap_append, hemp, List.append_nil]
  have hm1 : ∀ p ∈ order1.flatMap paramsOf, ∃ l ∈ layers, p ∈ paramsOf l := by
    intro p hp
    obtain ⟨l, hl, hp⟩ := List.mem_flatMap.1 hp
    exact ⟨l, (List.mem_filter.1 (ho1.subset hl)).1, hp⟩
  by_cases hf : ∃ p, FedBy layers .parameters p e y
  · obtain ⟨p, hp⟩ := hf
    obtain ⟨-, h2, e', he', rfl, -⟩ := fedBy_ends hw hp
    obtain ⟨l, hl, h2⟩ := h2 rfl
    have hc := (conn_param hw hint hP.connsOk false hl h2 he' y).2 hp
    obtain ⟨j, hj, ha', hs', hu'⟩ := C08_connections _ _ _ _ _ hW hP.groupsOk _ _ hc
    have := hu' i hi (.inl (hall l hl p h2))
    subst this
    have hcon := hcr.feeds _ hs'
    rw [← heq] at hcon
    have hfl : (order1.map (fun l => Item.tup (pOrder false l))).flatMap Item.flat = (order1.flatMap paramsOf).map (pPath false) := by
      rw [List.flatMap_map, List.map_flatMap]
      rfl
    rw [hfl, Consecutive.map_iff] at hcon
    refine (Consecutive.congr fun q hq => ?_).1 hcon
    obtain ⟨l', hl', hq⟩ := hm1 q hq
    exact conn_param hw hint hP.connsOk false hl' hq he' y
  · exact consecutive_none fun p _ hp => hf ⟨p, hp⟩

/-- See `C10_parameters`. -/
theorem outputs_of_layout (hw : WellFormedLayers layers) (hint : ∀ l ∈ layers, ∀ o ∈ l.outgoing, o.kind ≠ .internals)
    {L : Layout} (h : createLayout layers = .ok L) :
    ∃ order : List (Name × Name), order.Perm (outputsOf layers) ∧
      ∀ e y, Consecutive (fun p => FedBy layers .outputs p e y) order := by
  obtain ⟨forced, conns, gs, hP⟩ := createLayout_ok h
  have hW := hP.nested hw
  have hpart := C08_partition _ _ _ _ _ hW hP.groupsOk
  have hflat : ∀ g ∈ gs, ∀ x, x ∈ g.hub.flatSources ↔ x ∈ g.arrays := by
    intro g hg x
    obtain ⟨-, -, -, -, order, hcr⟩ := hP.created hw hg
    rw [hcr.flat]
    exact (hcr.perm.flatMap_right _).mem_iff
  set names := (gs.flatMap (fun g => g.hub.flatSources)).filter (fun x => decide (x ∈ (outputsOf layers).map (oPath false))) with hnames
  have hnd : (gs.flatMap (fun g => g.hub.flatSources)).Nodup := by
    rw [List.nodup_flatMap]
    refine ⟨fun g hg => ?_, ?_⟩
    · obtain ⟨-, -, -, -, order, hcr⟩ := hP.created hw hg
      exact hcr.nodup
    · refine (hP.names_disjoint hw).imp_of_mem ?_
      intro a b ha hb hab x h1 h2
      exact hab x (List.mem_append_left _ ((hflat a ha x).1 h1)) (List.mem_append_left _ ((hflat b hb x).1 h2))
  have hperm : names.Perm ((outputsOf layers).map (oPath false)) := by
    refine (List.perm_ext_iff_of_nodup (hnd.filter _) ?_).2 ?_
    · exact List.Nodup.map_on (fun p hp q hq h => oPath_inj hw hp hq h) (outputsOf_nodup hw)
    · intro x
      rw [List.mem_filter]
      simp only [decide_eq_true_eq]
      refine ⟨fun h => h.2, fun hx => ⟨?_, hx⟩⟩
      obtain ⟨p, hp, rfl⟩ := List.mem_map.1 hx
      obtain ⟨l, hl, h1, h2⟩ := mem_outputsOf.1 hp
      have harr : oPath false p ∈ (networkArrays layers).map Prod.fst :=
        mem_networkArrays.2 ⟨l, hl, (str "outputs", false, l.outShapes), by simp [layerCats], p.2, h2, by rw [h1]; rfl⟩
      have hsrc := (sources_inv hw hP.forcedOk (conns.map Prod.snd)).covered (oPath false p) harr (by
          intro hc
          obtain ⟨c, hc, he⟩ := List.mem_map.1 hc
          rw [oPath, ← h1] at he
          have hdot := hw.noDot l hl
          rcases conn_end hw hP.connsOk hc with ⟨e, he', y, h3⟩ | ⟨e, he', y, h3⟩ | h3 | h3
          · rw [h3] at he
            exact absurd (path_inj (hw.noDot e he') hdot (by decide) (by decide) he).2.1 (by decide)
          · rw [h3] at he
            exact absurd (path_inj (hw.noDot e he') hdot (by decide) (by decide) he).2.1 (by decide)
          · rw [h3] at he
            exact path_ne_root.1 he.symm
          · rw [h3] at he
            exact path_ne_root.2 he.symm) path_ne_root.1 path_ne_root.2
      obtain ⟨i, hi, hmem, -⟩ := hpart.2 _ hsrc
      exact List.mem_flatMap.2 ⟨gs[i], List.getElem_mem hi, (hflat _ (List.getElem_mem hi) _).2 hmem⟩
  obtain ⟨order, ho, heq⟩ := exists_perm_of_perm_map hperm
  refine ⟨order, ho, ?_⟩
  intro e y
  by_cases hex : ∃ p, FedBy layers .outputs p e y
  · obtain ⟨p, hp⟩ := hex
    obtain ⟨hpo, -, e', he', rfl, -⟩ := fedBy_ends hw hp
    have hpo := hpo rfl
    rw [← Consecutive.congr (P := fun q => (oPath false q, path e'.name (iCat false) y) ∈ conns)
      (fun q hq => conn_output hw hint hP.connsOk false (ho.subset hq) he' y)]
    rw [← Consecutive.map_iff (P := fun x => (x, path e'.name (iCat false) y) ∈ conns), heq, hnames]
    refine Consecutive.filter ?_ _
    have hc := (conn_output hw hint hP.connsOk false hpo he' y).2 hp
    obtain ⟨i, hi, hpi, hti, hu⟩ := C08_connections _ _ _ _ _ hW hP.groupsOk _ _ hc
    refine consecutive_flatMap hi ?_ ?_
    · obtain ⟨-, -, -, -, order, hcr⟩ := hP.created hw (List.getElem_mem hi)
      rw [hcr.flat]
      exact hcr.feeds _ hti
    · intro j hj hne x hx hxc
      obtain ⟨i', hi', -, hti', hu'⟩ := C08_connections _ _ _ _ _ hW hP.groupsOk _ _ hxc
      have e1 := hu i' hi' (.inr hti')
      have e2 := hu' j hj (.inl ((hflat _ (List.getElem_mem hj) x).1 hx))
      exact hne (e2.trans e1)
  · exact consecutive_none fun p _ hp => hex ⟨p, hp⟩

/-- At most one source is consecutive in any order. -/
theorem consecutive_unique {α : Type} {P : α → Prop} {l : List α} (hnd : l.Nodup) (h : ∀ p q, P p → P q → p = q) : Consecutive P l := by
  by_cases hex : ∃ p ∈ l, P p
  · obtain ⟨p, hp, hc⟩ := hex
    obtain ⟨pre, post, hl⟩ := List.append_of_mem hp
    rw [hl] at hnd ⊢
    refine ⟨pre, [p], post, by simp, by simpa using hc, ?_⟩
    intro x hx hxc
    have := h x p hxc hc
    subst this
    rw [List.nodup_append] at hnd
    rcases List.mem_append.1 hx with hx | hx
    · exact hnd.2.2 x hx x (by simp) rfl
    · exact (List.nodup_cons.1 hnd.2.1).1 hx
  · exact consecutive_none fun p hp hc => hex ⟨p, hp, hc⟩

end Par

/-! ## The property -/

/-- **C10** (connections from outputs and parameters).  Take layers whose connections start at outputs or at parameters.  A layout for
them is found exactly if the outputs can be put into one order in which those that feed an input stand next to each other, the layers
can be put into one order in which the parameters that feed an input stand next to each other, and no input is fed by outputs as well
as by parameters. -/
theorem C10_parameters (layers : List LayerInfo) (hw : WellFormedLayers layers) (hsh : Shaped layers)
    (hbw : ∀ l ∈ layers, ∀ e ∈ l.outShapes ++ l.paramShapes, e.2.backwardOnly = false)
    (hint : ∀ l ∈ layers, ∀ o ∈ l.outgoing, o.kind ≠ .internals) :
    (∃ L, createLayout layers = .ok L) ↔ Plannable layers :=
  ⟨fun ⟨_, h⟩ => ⟨Par.outputs_of_layout hw hint h, Par.params_of_layout hw hint h, Par.apart_of_layout hw hint h⟩,
    Par.layout_exists hw hsh hbw hint⟩

/-- **C10** (single sources).  In particular a layout is found if every input is fed by one output or one parameter. -/
theorem C10_single_parameters (layers : List LayerInfo) (hw : WellFormedLayers layers) (hsh : Shaped layers)
    (hbw : ∀ l ∈ layers, ∀ e ∈ l.outShapes ++ l.paramShapes, e.2.backwardOnly = false)
    (hint : ∀ l ∈ layers, ∀ o ∈ l.outgoing, o.kind ≠ .internals)
    (hone : ∀ k k' p q e y, FedBy layers k p e y → FedBy layers k' q e y → k = k' ∧ p = q) : ∃ L, createLayout layers = .ok L := by
  refine Par.layout_exists hw hsh hbw hint ⟨⟨outputsOf layers, .refl _, fun e y => ?_⟩, ⟨layers, .refl _, fun e y => ?_⟩, ?_⟩
  · exact Par.consecutive_unique (outputsOf_nodup hw) fun p q hp hq => (hone _ _ p q e y hp hq).2
  · refine Par.consecutive_unique ?_ fun p q hp hq => (hone _ _ p q e y hp hq).2
    rw [List.nodup_flatMap]
    refine ⟨fun l hl => ?_, ?_⟩
    · have e : paramsOf l = (l.paramShapes.map Prod.fst).map (fun x => (l.name, x)) := by simp [paramsOf]
      rw [e]
      exact (hw.paramNodup l hl).map fun _ _ h => (Prod.mk.inj h).2
    · refine (List.pairwise_map.1 hw.names).imp ?_
      intro a b hab x h1 h2
      exact hab ((Par.mem_paramsOf.1 h1).1.symm.trans (Par.mem_paramsOf.1 h2).1)
  · intro p q e y hp hq
    exact absurd (hone _ _ p q e y hp hq).1 (by decide)

/-! ### Non-vacuity -/

/-- A fully connected layer `b` behind the inputs `a`; the layer `d` gets its weights and its bias if `both`, else only its weights.  With `mixed`, the layer `d` gets outputs of `b` too. -/
def paramNet (both mixed : Bool) : List LayerInfo :=
  let tb (n : Nat) : Struct := ⟨[.T, .B, .n n], 0, false⟩
  [⟨str "a", [], [(str "default", tb 2)], [], [], [⟨.outputs, str "default", str "b", str "default"⟩]⟩,
   ⟨str "b", [(str "default", tb 2)], [(str "default", tb 3), (str "probs", ⟨[.n 1], 0, false⟩)],
      [(str "W", ⟨[.n 3, .n 2], 0, false⟩), (str "bias", ⟨[.n 3], 0, false⟩)], [],
      [⟨.outputs, str "default", str "c", str "default"⟩, ⟨.parameters, str "W", str "d", str "default"⟩] ++
      (if both then [⟨.parameters, str "bias", str "d", str "default"⟩] else []) ++
      (if mixed then [⟨.outputs, str "probs", str "d", str "default"⟩] else [])⟩,
   ⟨str "c", [(str "default", tb 3)], [(str "default", tb 3)], [(str "W", ⟨[.n 3, .n 3], 0, false⟩)], [], []⟩,
   ⟨str "d", [(str "default", ⟨[.n (6 + (if both then 3 else 0) + (if mixed then 1 else 0))], 0, false⟩)],
      [(str "loss", ⟨[.n 1], 0, false⟩)], [], [], []⟩]

theorem paramNet_ok (both mixed : Bool) : WellFormedLayers (paramNet both mixed) ∧ Shaped (paramNet both mixed) ∧
    (∀ l ∈ paramNet both mixed, ∀ e ∈ l.outShapes ++ l.paramShapes, e.2.backwardOnly = false) ∧
    ∀ l ∈ paramNet both mixed, ∀ o ∈ l.outgoing, o.kind ≠ .internals := by
  have hk : ∀ l ∈ paramNet both mixed, ∀ o ∈ l.outgoing, o.kind ≠ .internals := by
    cases both <;> cases mixed <;> decide +kernel
  have hs : ∀ l ∈ paramNet both mixed, ∀ o ∈ l.outgoing,
      (o.kind = .outputs ∧ o.buffer ∈ l.outShapes.map Prod.fst) ∨ (o.kind = .parameters ∧ o.buffer ∈ l.paramShapes.map Prod.fst) := by
    cases both <;> cases mixed <;> decide +kernel
  refine ⟨⟨?_, ?_, ?_, ?_, ?_, ?_, ?_, ?_⟩, ?_, ?_, hk⟩
  · cases both <;> cases mixed <;> decide +kernel
  · cases both <;> cases mixed <;> decide +kernel
  · cases both <;> cases mixed <;> decide +kernel
  · cases both <;> cases mixed <;> decide +kernel
  · cases both <;> cases mixed <;> decide +kernel
  · cases both <;> cases mixed <;> decide +kernel
  · intro l hl o ho
    rcases hs l hl o ho with ⟨h1, h2⟩ | ⟨h1, h2⟩ <;> rw [h1] <;> exact h2
  · cases both <;> cases mixed <;> decide +kernel
  · refine shaped_of_check ?_
    cases both <;> cases mixed <;> decide +kernel
  · cases both <;> cases mixed <;> decide +kernel

/-- The weights and the bias of a layer stand next to each other. -/
example : ∃ L, createLayout (paramNet true false) = .ok L := by
  obtain ⟨h1, h2, h3, h4⟩ := paramNet_ok true false
  have hk : ∀ l ∈ paramNet true false, ∀ o ∈ l.outgoing,
      (o.kind, l.name, o.buffer, o.endLayer, o.endInput) ∈
        [(Kind.outputs, str "a", str "default", str "b", str "default"), (Kind.outputs, str "b", str "default", str "c", str "default"),
         (Kind.parameters, str "b", str "W", str "d", str "default"), (Kind.parameters, str "b", str "bias", str "d", str "default")] := by
    decide +kernel
  refine (C10_parameters _ h1 h2 h3 h4).2 ⟨⟨outputsOf (paramNet true false), .refl _, fun e y => ?_⟩,
    ⟨paramNet true false, .refl _, fun e y => ?_⟩, ?_⟩
  · refine Par.consecutive_unique (outputsOf_nodup h1) ?_
    rintro ⟨p1, p2⟩ ⟨q1, q2⟩ ⟨l, hl, o, ho, k1, rfl, rfl, rfl, rfl⟩ ⟨l', hl', o', ho', k1', rfl, rfl, h5, h6⟩
    have m := hk l hl o ho
    have m' := hk l' hl' o' ho'
    rw [k1] at m
    rw [k1', h5, h6] at m'
    simp only [List.mem_cons, Prod.mk.injEq, List.not_mem_nil, or_false] at m m'
    rcases m with ⟨-, a1, a2, a3, a4⟩ | ⟨-, a1, a2, a3, a4⟩ | ⟨a, -⟩ | ⟨a, -⟩ <;>
    rcases m' with ⟨-, b1, b2, b3, b4⟩ | ⟨-, b1, b2, b3, b4⟩ | ⟨b, -⟩ | ⟨b, -⟩ <;> first
      | cases a
      | cases b
      | exact Prod.ext (a1.trans b1.symm) (a2.trans b2.symm)
      | exact absurd (a3.symm.trans b3) (by decide)
  · by_cases hd : e = str "d" ∧ y = str "default"
    · obtain ⟨rfl, rfl⟩ := hd
      exact ⟨[], [(str "b", str "W"), (str "b", str "bias")], [(str "c", str "W")], rfl, by unfold FedBy; decide +kernel,
        by unfold FedBy; decide +kernel⟩
    · refine consecutive_none ?_
      rintro p - ⟨l, hl, o, ho, k1, -, -, rfl, rfl⟩
      have m := hk l hl o ho
      rw [k1] at m
      simp only [List.mem_cons, Prod.mk.injEq, List.not_mem_nil, or_false] at m
      rcases m with ⟨a, -⟩ | ⟨a, -⟩ | ⟨-, -, -, a⟩ | ⟨-, -, -, a⟩
      · cases a
      · cases a
      · exact hd a
      · exact hd a
  · rintro p q e y ⟨l, hl, o, ho, k1, -, -, rfl, rfl⟩ ⟨l', hl', o', ho', k1', -, -, h5, h6⟩
    have m := hk l hl o ho
    have m' := hk l' hl' o' ho'
    rw [k1] at m
    rw [k1', h5, h6] at m'
    simp only [List.mem_cons, Prod.mk.injEq, List.not_mem_nil, or_false] at m m'
    rcases m with ⟨-, a1, a2, a3, a4⟩ | ⟨-, a1, a2, a3, a4⟩ | ⟨a, -⟩ | ⟨a, -⟩ <;>
    rcases m' with ⟨b, -⟩ | ⟨b, -⟩ | ⟨-, b1, b2, b3, b4⟩ | ⟨-, b1, b2, b3, b4⟩ <;> first
      | cases a
      | cases b
      | exact absurd (a3.symm.trans b3) (by decide)

/-- An input that is fed by an output and by parameters: there is no layout. -/
example : ¬ ∃ L, createLayout (paramNet true true) = .ok L := by
  obtain ⟨h1, h2, h3, h4⟩ := paramNet_ok true true
  rw [C10_parameters _ h1 h2 h3 h4]
  intro h
  exact h.apart (str "b", str "probs") (str "b", str "W") (str "d") (str "default") (by unfold FedBy; decide +kernel)
    (by unfold FedBy; decide +kernel)

end Verif.Layout
