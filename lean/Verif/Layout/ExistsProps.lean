import Verif.Layout.Exists
import Verif.Buffers.NetworkProps

/-!
# Property C10: when a whole network can be laid out
-/

namespace Verif.Layout

open Verif.Structure Verif.Buffers

variable {layers : List LayerInfo}

/-- The structure of an array. -/
theorem struct_of (hw : WellFormedLayers layers) {l : LayerInfo} (hl : l ∈ layers) {c : Name × Bool × List (Name × Struct)}
    (hc : c ∈ layerCats l) {e : Name × Struct} (he : e ∈ c.2.2) :
    Dict.get? (networkArrays layers) (path l.name c.1 e.1) =
      some (if c.2.1 then { e.2 with backwardOnly := true } else e.2) := by
  refine Dict.get?_of_mem (networkArrays_nodup hw) ?_
  simp only [networkArrays, layerArrays, List.mem_flatMap]
  exact ⟨l, hl, _, hc, List.mem_map.2 ⟨e, he, rfl⟩⟩

/-- Single sources are arrays of the network. -/
theorem single_mem {forced : List (List Name)} {sinks : List Name} : ∀ {arrays : List Name} {acc : List Item} {p : Name},
    Item.one p ∈ arrays.foldl (addSource forced sinks) acc → Item.one p ∈ acc ∨ p ∈ arrays
  | [], acc, p, h => .inl h
  | s :: arrays, acc, p, h => by
    rw [List.foldl_cons] at h
    rcases single_mem h with h | h
    · unfold addSource at h
      split at h
      · exact .inl h
      · split at h
        · rcases List.mem_append.1 h with h | h
          · exact .inl h
          · right; simp at h; simp [h]
        · split at h
          · exact .inl h
          · split at h
            · rcases List.mem_append.1 h with h | h
              · exact .inl h
              · simp at h
            · rcases List.mem_append.1 h with h | h
              · exact .inl h
              · right; simp at h; simp [h]
    · exact .inr (by simp [h])

/-- The type of the buffer of a single source. -/
def itemType (layers : List LayerInfo) : Item → Option Nat
  | .one p => (Dict.get? (networkArrays layers) p).map Struct.bufferType
  | .tup _ => none

/-- The categories of outputs and inputs on the way forward (`false`) and back (`true`). -/
def oCat (d : Bool) : Name := if d then str "output_deltas" else str "outputs"

@[inherit_doc oCat] def iCat (d : Bool) : Name := if d then str "input_deltas" else str "inputs"

theorem oCat_noDot (d : Bool) : '.' ∉ oCat d := by cases d <;> decide
theorem iCat_noDot (d : Bool) : '.' ∉ iCat d := by cases d <;> decide

/-- The arrays of outputs. -/
def oPath (d : Bool) (p : Name × Name) : Name := path p.1 (oCat d) p.2

theorem mem_outputsOf {p : Name × Name} : p ∈ outputsOf layers ↔ ∃ l ∈ layers, l.name = p.1 ∧ p.2 ∈ l.outShapes.map Prod.fst := by
  simp only [outputsOf, List.mem_flatMap, List.mem_map]
  constructor
  · rintro ⟨l, hl, e, he, rfl⟩
    exact ⟨l, hl, rfl, e, he, rfl⟩
  · rintro ⟨l, hl, h1, e, he, h2⟩
    exact ⟨l, hl, e, he, by rw [h1, h2]⟩

theorem oPath_inj (hw : WellFormedLayers layers) {d : Bool} {p q : Name × Name} (hp : p ∈ outputsOf layers)
    (hq : q ∈ outputsOf layers) (h : oPath d p = oPath d q) : p = q := by
  obtain ⟨l, hl, h1, -⟩ := mem_outputsOf.1 hp
  obtain ⟨l', hl', h1', -⟩ := mem_outputsOf.1 hq
  rw [oPath, oPath, ← h1, ← h1'] at h
  obtain ⟨e1, -, e2⟩ := path_inj (hw.noDot l hl) (hw.noDot l' hl') (oCat_noDot d) (oCat_noDot d) h
  exact Prod.ext (by rw [← h1, ← h1', e1]) e2

theorem outputsOf_nodup (hw : WellFormedLayers layers) : (outputsOf layers).Nodup := by
  unfold outputsOf
  rw [List.nodup_flatMap]
  refine ⟨fun l hl => ?_, ?_⟩
  · have := hw.outNodup l hl
    have e : l.outShapes.map (fun e => (l.name, e.1)) = (l.outShapes.map Prod.fst).map (fun x => (l.name, x)) := by simp
    rw [e]
    exact this.map fun _ _ h => (Prod.mk.inj h).2
  · refine (List.pairwise_map.1 hw.names).imp ?_
    intro a b hab x h1 h2
    simp only [List.mem_map] at h1 h2
    obtain ⟨e, -, rfl⟩ := h1
    obtain ⟨e', -, h⟩ := h2
    exact hab (Prod.mk.inj h).1.symm

section
variable (hw : WellFormedLayers layers) (hsh : Shaped layers)
  (hbw : ∀ l ∈ layers, ∀ e ∈ l.outShapes ++ l.paramShapes, e.2.backwardOnly = false)
  (hout : ∀ l ∈ layers, ∀ o ∈ l.outgoing, o.kind = .outputs)
  {forced : List (List Name)} {conns : List (Name × Name)}
  (hforced : getForcedOrders layers = .ok forced) (hconns : getConnections layers = .ok conns)

include hw hout hconns in
/-- Which outputs feed an input. -/
theorem conn_output (d : Bool) {p : Name × Name} (hp : p ∈ outputsOf layers) {e : LayerInfo} (he : e ∈ layers) (y : Name) :
    (oPath d p, path e.name (iCat d) y) ∈ conns ↔ ConnectedTo layers p e.name y := by
  rw [conn_cases hout hconns]
  constructor
  · rintro (⟨p', e', y', h, hc⟩ | ⟨l, hl, x, hx, h⟩)
    · have hp' : p' ∈ outputsOf layers := by
        obtain ⟨l, hl, o, ho, h1, h2, -, -⟩ := h
        have hst := hw.starts l hl o ho
        rw [hout l hl o ho] at hst
        exact mem_outputsOf.2 ⟨l, hl, h1, by rw [← h2]; exact hst⟩
      obtain ⟨e'', he'', h3⟩ : ∃ e'' ∈ layers, e''.name = e' := by
        obtain ⟨l, hl, o, ho, h1, h2, h3, h4⟩ := h
        obtain ⟨e'', he'', h5, -⟩ := hw.ends l hl o ho
        exact ⟨e'', he'', h5.trans h3⟩
      subst h3
      have hl0 := mem_outputsOf.1 hp
      obtain ⟨l0, hl0, hn0, -⟩ := hl0
      obtain ⟨l1, hl1, hn1, -⟩ := mem_outputsOf.1 hp'
      have key : ∀ d', oPath d p = oPath d' p' → path e.name (iCat d) y = path e''.name (iCat d') y' → ConnectedTo layers p e.name y := by
        intro d' ha hb
        have hd : d = d' := by
          rw [oPath, oPath, ← hn0, ← hn1] at ha
          have := (path_inj (hw.noDot _ hl0) (hw.noDot _ hl1) (oCat_noDot d) (oCat_noDot d') ha).2.1
          cases d <;> cases d' <;> first | rfl | exact absurd this (by decide)
        subst hd
        have e1 := oPath_inj hw hp hp' ha
        obtain ⟨e2, -, e3⟩ := path_inj (hw.noDot _ he) (hw.noDot _ he'') (iCat_noDot d) (iCat_noDot d) hb
        rw [e1, e2, e3]
        exact h
      rcases hc with hc | hc <;> obtain ⟨ha, hb⟩ := Prod.mk.inj hc
      · exact key false ha hb
      · exact key true ha hb
    · rcases h with h | h
      · exact absurd (Prod.mk.inj h).2 path_ne_root.1
      · exact absurd (Prod.mk.inj h).2 path_ne_root.2
  · intro h
    refine .inl ⟨p, e.name, y, h, ?_⟩
    cases d
    · exact .inl rfl
    · exact .inr rfl

include hw hout hsh hforced hconns in
theorem linked_type {a b : Item} (h : Relation.EqvGen (ShareSink (mergeConnections conns forced)) a b) :
    itemType layers a = itemType layers b := by
  induction h with
  | refl => rfl
  | symm a b _ ih => exact ih.symm
  | trans a b c _ _ ih1 ih2 => exact ih1.trans ih2
  | rel a b hr =>
    obtain ⟨t, h1, h2⟩ := hr
    obtain ⟨k, q, rfl, s1, s2, c1⟩ := conn_sort hw hout hforced hconns h1
    obtain ⟨k', q', e, s3, s4, c2⟩ := conn_sort hw hout hforced hconns h2
    cases e
    obtain rfl := sinkSort_unique hw s2 s4
    have key : ∀ pa pb s, Dict.get? (networkArrays layers) q = some s → (pa, q) ∈ conns → (pb, q) ∈ conns →
        (Dict.get? (networkArrays layers) pa).isSome → (Dict.get? (networkArrays layers) pb).isSome →
        itemType layers (.one pa) = itemType layers (.one pb) := by
      intro pa pb s hs ha hb ia ib
      obtain ⟨srcs, -, hm, -, -, hty⟩ := hsh.sinks conns hconns q s hs ⟨pa, ha⟩
      obtain ⟨sa, ea⟩ := Option.isSome_iff_exists.1 ia
      obtain ⟨sb, eb⟩ := Option.isSome_iff_exists.1 ib
      simp only [itemType, ea, eb, Option.map_some]
      rw [hty pa ((hm pa).2 ha) sa ea, hty pb ((hm pb).2 hb) sb eb]
    have out : ∀ {l : LayerInfo} (c : Name × Bool × List (Name × Struct)) {b : Name}, l ∈ layers → c ∈ layerCats l →
        b ∈ c.2.2.map Prod.fst → ∃ s, Dict.get? (networkArrays layers) (path l.name c.1 b) = some s := by
      intro l c b hl hc hb
      obtain ⟨e, he, rfl⟩ := List.mem_map.1 hb
      exact ⟨_, struct_of hw hl hc he⟩
    cases s1 with
    | out hl hb =>
      cases s3 with
      | out hl' hb' =>
        cases s2 with
        | inp he hy =>
          obtain ⟨s, hs⟩ := out (str "inputs", false, _) he (by simp [layerCats]) hy
          exact key _ _ s hs (c1 _ (by simp [Item.flat])) (c2 _ (by simp [Item.flat]))
            (Option.isSome_iff_exists.2 (out (str "outputs", false, _) hl (by simp [layerCats]) hb))
            (Option.isSome_iff_exists.2 (out (str "outputs", false, _) hl' (by simp [layerCats]) hb'))
    | delta hl hb =>
      cases s3 with
      | delta hl' hb' =>
        cases s2 with
        | delta he hy =>
          obtain ⟨s, hs⟩ := out (str "input_deltas", true, _) he (by simp [layerCats]) hy
          exact key _ _ s hs (c1 _ (by simp [Item.flat])) (c2 _ (by simp [Item.flat]))
            (Option.isSome_iff_exists.2 (out (str "output_deltas", true, _) hl (by simp [layerCats]) hb))
            (Option.isSome_iff_exists.2 (out (str "output_deltas", true, _) hl' (by simp [layerCats]) hb'))
    | param hl hn => cases s3 with | param => rfl
    | grad hl hn => cases s3 with | grad => rfl

include hw hout hsh hbw hforced hconns in
/-- The hub of outputs that are linked. -/
theorem outputs_hub (ho : Orderable layers) (d : Bool) {node : Item}
    (hnode : node ∈ getAllSources forced conns ((networkArrays layers).map Prod.fst)) {src : List Item} {sinks : List Name}
    (hd : ClosureDone (mergeConnections conns forced) node src (sinks.map Item.one))
    (hk : ∀ it ∈ src, ∃ p ∈ outputsOf layers, it = .one (oPath d p))
    (hs : ∀ t ∈ sinks, ∃ e ∈ layers, ∃ y, t = path e.name (iCat d) y) :
    ∃ hub, Hub.create (Dict.get? (networkArrays layers)) conns src sinks = .ok hub := by
  obtain ⟨order, hperm, hcons⟩ := ho
  have hflat : ∀ p, p ∈ src.flatMap Item.flat ↔ Item.one p ∈ src := by
    intro p
    rw [List.mem_flatMap]
    constructor
    · rintro ⟨it, hit, hp⟩
      obtain ⟨p', -, rfl⟩ := hk it hit
      simp only [Item.flat, List.mem_singleton] at hp
      subst hp
      exact hit
    · intro h
      exact ⟨_, h, by simp [Item.flat]⟩
  have hfl : src.flatMap Item.flat = src.map (fun it => match it with | .one p => p | .tup _ => []) := by
    have : ∀ l : List Item, (∀ it ∈ l, ∃ p ∈ outputsOf layers, it = .one (oPath d p)) →
        l.flatMap Item.flat = l.map (fun it => match it with | .one p => p | .tup _ => []) := by
      intro l hl
      induction l with
      | nil => rfl
      | cons a l ih =>
        obtain ⟨p, -, rfl⟩ := hl a (by simp)
        simp only [List.flatMap_cons, List.map_cons, Item.flat, List.singleton_append]
        rw [ih fun it hit => hl it (by simp [hit])]
    exact this src hk
  have hnodesrc : node ∈ src := (hd.srcs node).2 (.refl _)
  have hordnd : order.Nodup := hperm.nodup_iff.2 (outputsOf_nodup hw)
  set items := order.map (fun p => Item.one (oPath d p)) with hitems
  have hitnd : items.Nodup := by
    refine List.Nodup.map_on ?_ hordnd
    intro p hp q hq h
    exact oPath_inj hw (hperm.subset hp) (hperm.subset hq) (Item.one.inj h)
  obtain ⟨p0, hp0, hn0⟩ := hk node hnodesrc
  have hstruct : ∀ p ∈ outputsOf layers, ∃ s, Dict.get? (networkArrays layers) (oPath d p) = some s ∧ s.backwardOnly = d := by
    intro p hp
    obtain ⟨l, hl, hn, hb⟩ := mem_outputsOf.1 hp
    obtain ⟨e, he, hpe⟩ := List.mem_map.1 hb
    have hback := hbw l hl e (by simp [he])
    cases d
    · have := struct_of hw hl (c := (str "outputs", false, l.outShapes)) (by simp [layerCats]) he
      exact ⟨_, by rw [oPath, oCat, ← hn, ← hpe]; exact this, by simpa using hback⟩
    · have := struct_of hw hl (c := (str "output_deltas", true, l.outShapes)) (by simp [layerCats]) he
      exact ⟨_, by rw [oPath, oCat, ← hn, ← hpe]; exact this, by simp⟩
  obtain ⟨s0, hs0, -⟩ := hstruct p0 hp0
  refine create_succeeds (bt := s0.bufferType) (bw := d) (order := items.filter (fun it => decide (it ∈ src))) ?_ (List.Nodup.of_map _ hd.nodupSnk) ?_ (.inl ?_) ?_ ?_ ?_ ?_
  · rw [hfl]
    refine List.Nodup.map_on ?_ hd.nodupSrc
    intro a ha b hb h
    obtain ⟨p, -, rfl⟩ := hk a ha
    obtain ⟨q, -, rfl⟩ := hk b hb
    simpa using h
  · intro h
    rw [hfl, List.map_eq_nil_iff] at h
    rw [h] at hnodesrc
    simp at hnodesrc
  · intro it hit
    obtain ⟨p, -, rfl⟩ := hk it hit
    exact ⟨_, rfl⟩
  · intro p hp
    obtain ⟨q, hq, e⟩ := hk _ ((hflat p).1 hp)
    cases e
    obtain ⟨s, hs, -⟩ := hstruct q hq
    rw [hs]; rfl
  · intro p hp s hs
    have hm := (hflat p).1 hp
    obtain ⟨q, hq, e⟩ := hk _ hm
    cases e
    obtain ⟨s', hs', hb⟩ := hstruct q hq
    rw [hs] at hs'
    cases hs'
    refine ⟨?_, hb⟩
    have := linked_type hw hsh hout hforced hconns ((hd.srcs _).1 hm)
    rw [hn0] at this
    simp only [itemType, hs0, hs, Option.map_some, Option.some.injEq] at this
    exact this.symm
  · refine (List.perm_ext_iff_of_nodup (hitnd.filter _) hd.nodupSrc).2 ?_
    intro it
    rw [List.mem_filter]
    simp only [decide_eq_true_eq]
    constructor
    · exact fun h => h.2
    · intro h
      obtain ⟨p, hp, rfl⟩ := hk it h
      exact ⟨List.mem_map.2 ⟨p, hperm.symm.subset hp, rfl⟩, h⟩
  · intro t ht
    obtain ⟨e, he, y, rfl⟩ := hs t ht
    have : (items.filter (fun it => decide (it ∈ src))).flatMap Item.flat =
        (order.filter (fun p => decide (Item.one (oPath d p) ∈ src))).map (oPath d) := by
      rw [hitems]
      clear hitems hitnd hordnd hcons hperm
      clear items
      induction order with
      | nil => rfl
      | cons a order ih =>
        simp only [List.map_cons, List.filter_cons]
        split
        · simp only [List.flatMap_cons, List.map_cons, Item.flat, List.singleton_append]
          rw [ih]
        · exact ih
    rw [this, Consecutive.map_iff]
    rw [Consecutive.congr (Q := fun p => ConnectedTo layers p e.name y)]
    · exact (hcons e.name y).filter _
    · intro p hp
      exact conn_output hw hout hconns d (hperm.subset (List.mem_filter.1 hp).1) he y

include hw hout hsh hbw hforced hconns in
/-- The hub of parameters or of gradients. -/
theorem params_hub (d : Bool) {node : Item}
    (hnode : node ∈ getAllSources forced conns ((networkArrays layers).map Prod.fst)) {src : List Item} {sinks : List Name}
    (hd : ClosureDone (mergeConnections conns forced) node src (sinks.map Item.one))
    (hk : ∀ it ∈ src, ∃ l ∈ layers, (if d then gradOrder l else paramOrder l) ≠ [] ∧ it = .tup (if d then gradOrder l else paramOrder l))
    (hs : ∀ t ∈ sinks, t = if d then str "gradients" else str "parameters") :
    ∃ hub, Hub.create (Dict.get? (networkArrays layers)) conns src sinks = .ok hub := by
  have hW := sources_wellNested hw hforced hconns
  have hnodesrc : node ∈ src := (hd.srcs node).2 (.refl _)
  have hsub : ∀ it ∈ src, it ∈ getAllSources forced conns ((networkArrays layers).map Prod.fst) :=
    fun it hit => (hW.link ((hd.srcs it).1 hit)).1.1 hnode
  have hflat : ∀ p ∈ src.flatMap Item.flat, ∃ l ∈ layers, ∃ e ∈ l.paramShapes,
      p = path l.name (if d then str "gradients" else str "parameters") e.1 := by
    intro p hp
    obtain ⟨it, hit, hpi⟩ := List.mem_flatMap.1 hp
    obtain ⟨l, hl, -, rfl⟩ := hk it hit
    cases d
    · obtain ⟨x, hx, rfl⟩ := mem_paramOrder.1 hpi
      obtain ⟨e, he, rfl⟩ := List.mem_map.1 hx
      exact ⟨l, hl, e, he, rfl⟩
    · obtain ⟨x, hx, rfl⟩ := mem_gradOrder.1 hpi
      obtain ⟨e, he, rfl⟩ := List.mem_map.1 hx
      exact ⟨l, hl, e, he, rfl⟩
  have hstruct : ∀ l ∈ layers, ∀ e ∈ l.paramShapes, ∃ s,
      Dict.get? (networkArrays layers) (path l.name (if d then str "gradients" else str "parameters") e.1) = some s ∧
      s.bufferType = 0 ∧ s.backwardOnly = d := by
    intro l hl e he
    have hback := hbw l hl e (by simp [he])
    have hty := hsh.params l hl e he
    cases d
    · have := struct_of hw hl (c := (str "parameters", false, l.paramShapes)) (by simp [layerCats]) he
      exact ⟨_, this, by simpa using hty, by simpa using hback⟩
    · have := struct_of hw hl (c := (str "gradients", true, l.paramShapes)) (by simp [layerCats]) he
      exact ⟨_, this, by simpa [Struct.bufferType] using hty, by simp⟩
  refine create_succeeds (bt := 0) (bw := d) (order := src) ?_ (List.Nodup.of_map _ hd.nodupSnk) ?_ (.inr ?_) ?_ ?_ (.refl _) ?_
  · have hnd := hW.nodup
    rw [List.nodup_flatMap] at hnd ⊢
    refine ⟨fun it hit => hnd.1 it (hsub it hit), ?_⟩
    refine hd.nodupSrc.imp_of_mem ?_
    intro a b ha hb hab p h1 h2
    exact hab (hW.item_unique (hsub a ha) (hsub b hb) h1 h2)
  · obtain ⟨l, hl, hne, e⟩ := hk node hnodesrc
    obtain ⟨p, hp⟩ := List.exists_mem_of_ne_nil _ hne
    exact List.ne_nil_of_mem (List.mem_flatMap.2 ⟨node, hnodesrc, by rw [e]; exact hp⟩)
  · intro it hit
    obtain ⟨l, -, -, e⟩ := hk it hit
    exact ⟨_, e⟩
  · intro p hp
    obtain ⟨l, hl, e, he, rfl⟩ := hflat p hp
    obtain ⟨s, hs, -⟩ := hstruct l hl e he
    rw [hs]; rfl
  · intro p hp s hs
    obtain ⟨l, hl, e, he, rfl⟩ := hflat p hp
    obtain ⟨s', hs', h1, h2⟩ := hstruct l hl e he
    rw [hs] at hs'
    cases hs'
    exact ⟨h1, h2⟩
  · intro t ht
    rw [hs t ht]
    refine consecutive_all fun p hp => ?_
    obtain ⟨l, hl, e, he, rfl⟩ := hflat p hp
    refine (conn_cases hout hconns _).2 (.inr ⟨l, hl, e.1, List.mem_map_of_mem he, ?_⟩)
    cases d
    · exact .inl rfl
    · exact .inr rfl

include hw hout hsh hbw hforced hconns in
/-- All hubs can be created. -/
theorem hub_exists (ho : Orderable layers) {node : Item}
    (hnode : node ∈ getAllSources forced conns ((networkArrays layers).map Prod.fst)) {src : List Item} {sinks : List Name}
    (hd : ClosureDone (mergeConnections conns forced) node src (sinks.map Item.one)) :
    ∃ hub, Hub.create (Dict.get? (networkArrays layers)) conns src sinks = .ok hub := by
  by_cases h : ∃ k, SourceSort layers k node
  · obtain ⟨k, hk⟩ := h
    have hall : ∀ it ∈ src, SourceSort layers k it := by
      intro it hit
      rcases linked_sort hw hout hforced hconns ((hd.srcs it).1 hit) with rfl | ⟨k', h1, h2⟩
      · exact hk
      · obtain rfl := sourceSort_unique hw hk h1
        exact h2
    have hsn : ∀ t ∈ sinks, SinkSort layers k t := by
      intro t ht
      obtain ⟨it, hit, hc⟩ := (hd.snks (.one t)).1 (List.mem_map_of_mem ht)
      obtain ⟨k', q, e, h1, h2, -⟩ := conn_sort hw hout hforced hconns hc
      cases e
      obtain rfl := sourceSort_unique hw (hall it hit) h1
      exact h2
    clear hk
    rcases Nat.lt_or_ge k 2 with hk2 | hk2
    · obtain ⟨d, hdk⟩ : ∃ d : Bool, k = if d then 1 else 0 := by
        rcases Nat.lt_or_ge k 1 with h | h
        · exact ⟨false, by simp; omega⟩
        · exact ⟨true, by simp; omega⟩
      refine outputs_hub hw hsh hbw hout hforced hconns ho d hnode hd ?_ ?_
      · intro it hit
        have := hall it hit
        cases this with
        | @out l b hl hb =>
          cases d
          · exact ⟨(l.name, b), mem_outputsOf.2 ⟨l, hl, rfl, hb⟩, rfl⟩
          · simp at hdk
        | @delta l b hl hb =>
          cases d
          · simp at hdk
          · exact ⟨(l.name, b), mem_outputsOf.2 ⟨l, hl, rfl, hb⟩, rfl⟩
        | param => omega
        | grad => omega
      · intro t ht
        have := hsn t ht
        cases this with
        | @inp e y he hy =>
          cases d
          · exact ⟨e, he, y, rfl⟩
          · simp at hdk
        | @delta e y he hy =>
          cases d
          · simp at hdk
          · exact ⟨e, he, y, rfl⟩
        | param => omega
        | grad => omega
    · obtain ⟨d, hdk⟩ : ∃ d : Bool, k = (if d then 3 else 2) ∨ (k ≠ 2 ∧ k ≠ 3) := by
        by_cases h : k = 2
        · exact ⟨false, .inl h⟩
        · by_cases h' : k = 3
          · exact ⟨true, .inl h'⟩
          · exact ⟨false, .inr ⟨h, h'⟩⟩
      refine params_hub hw hsh hbw hout hforced hconns d hnode hd ?_ ?_
      · intro it hit
        have := hall it hit
        cases this with
        | out => omega
        | delta => omega
        | @param l hl hn =>
          cases d
          · exact ⟨l, hl, hn, rfl⟩
          · simp at hdk
        | @grad l hl hn =>
          cases d
          · simp at hdk
          · exact ⟨l, hl, hn, rfl⟩
      · intro t ht
        have := hsn t ht
        cases this with
        | inp => omega
        | delta => omega
        | param =>
          cases d
          · rfl
          · simp at hdk
        | grad =>
          cases d
          · simp at hdk
          · rfl
  · have hsrc : src = [node] := by
      have h1 : ∀ it ∈ src, it = node := by
        intro it hit
        rcases linked_sort hw hout hforced hconns ((hd.srcs it).1 hit) with rfl | ⟨k', h1, h2⟩
        · rfl
        · exact absurd ⟨k', h1⟩ h
      have h2 : node ∈ src := (hd.srcs node).2 (.refl _)
      have h3 := hd.nodupSrc
      rcases src with _ | ⟨a, _ | ⟨b, src⟩⟩
      · simp at h2
      · rw [h1 a (by simp)]
      · have ea := h1 a (by simp)
        have eb := h1 b (by simp)
        rw [ea, eb] at h3
        simp at h3
    subst hsrc
    cases node with
    | tup l =>
      have := (sources_inv hw hforced (conns.map Prod.snd)).tuples l hnode
      obtain ⟨hne, l', hl', rfl | rfl⟩ := ((getForcedOrders_ok hforced).1 l).1 this
      · exact absurd ⟨2, .param hl' hne⟩ h
      · exact absurd ⟨3, .grad hl' hne⟩ h
    | one p =>
      have hp : p ∈ (networkArrays layers).map Prod.fst := by
        rcases single_mem hnode with h | h
        · simp at h
        · exact h
      obtain ⟨s, hs⟩ : ∃ s, Dict.get? (networkArrays layers) p = some s := by
        obtain ⟨e, he, rfl⟩ := List.mem_map.1 hp
        exact ⟨_, Dict.get?_of_mem (networkArrays_nodup hw) he⟩
      refine create_succeeds (bt := s.bufferType) (bw := s.backwardOnly) (order := [.one p]) (by simp [Item.flat])
        (List.Nodup.of_map _ hd.nodupSnk) (by simp [Item.flat]) (.inl (by simp)) ?_ ?_ (.refl _) ?_
      · intro q hq
        simp only [List.flatMap_cons, Item.flat, List.flatMap_nil, List.append_nil, List.mem_singleton] at hq
        subst hq
        rw [hs]; rfl
      · intro q hq s' hs'
        simp only [List.flatMap_cons, Item.flat, List.flatMap_nil, List.append_nil, List.mem_singleton] at hq
        subst hq
        rw [hs] at hs'
        cases hs'
        exact ⟨rfl, rfl⟩
      · intro t _
        exact consecutive_one p

end

/-- See `C10_network`. -/
theorem layout_exists (hw : WellFormedLayers layers) (hsh : Shaped layers)
    (hbw : ∀ l ∈ layers, ∀ e ∈ l.outShapes ++ l.paramShapes, e.2.backwardOnly = false)
    (hout : ∀ l ∈ layers, ∀ o ∈ l.outgoing, o.kind = .outputs) (ho : Orderable layers) : ∃ L, createLayout layers = .ok L := by
  obtain ⟨forced, hforced⟩ := forced_succeeds hw
  obtain ⟨conns, hconns⟩ := connections_succeed hout
  have hW := sources_wellNested hw hforced hconns
  obtain ⟨gs, hgs⟩ := groupFuel_succeeds (structOf := Dict.get? (networkArrays layers)) (conns := conns)
    (mcons := mergeConnections conns forced) (by
      intro s t hc
      obtain ⟨k, q, e, -⟩ := conn_sort hw hout hforced hconns hc
      exact ⟨q, e⟩) _ (getAllSources forced conns ((networkArrays layers).map Prod.fst)) (le_refl _) hW.nodupItems
    (fun a ha b hab => (hW.link hab).1.1 ha)
    (fun node hnode src sinks hd => hub_exists hw hsh hbw hout hforced hconns ho hnode hd)
  have hg : groupIntoHubs (Dict.get? (networkArrays layers)) conns forced
    (getAllSources forced conns ((networkArrays layers).map Prod.fst)) = .ok gs := hgs
  have hP : Parts layers ⟨sortBy hubLe gs, layoutHubs 0 (sortBy hubLe gs)⟩ forced conns gs := ⟨hforced, hconns, hg, rfl, rfl⟩
  refine ⟨⟨sortBy hubLe gs, layoutHubs 0 (sortBy hubLe gs)⟩, ?_⟩
  unfold createLayout
  simp only [hforced, hconns, hg]
  rw [if_pos]
  rw [List.all_eq_true]
  intro e he
  have hn : e.name ∈ (layoutHubs 0 (sortBy hubLe gs)).map Entry.name := List.mem_map_of_mem he
  rw [layoutHubs_names, List.mem_flatMap] at hn
  obtain ⟨g, hg', hn⟩ := hn
  have hg'' : g ∈ gs := (sortBy_perm _ _).subset hg'
  have hn' := (hP.names_perm hw hg'').subset hn
  simp only [decide_eq_true_eq]
  rcases List.mem_append.1 hn' with hn' | hn'
  · obtain ⟨-, -, -, -, order, hcr⟩ := hP.created hw hg''
    have hmem : e.name ∈ g.hub.flatSources := by
      rw [hcr.flat]
      exact (hcr.perm.flatMap_right _).symm.subset hn'
    obtain ⟨i, hi, hie⟩ := List.getElem_of_mem hmem
    obtain ⟨s, hs, -⟩ := hcr.sizes i hi
    rw [hie] at hs
    exact .inl (List.mem_map.2 ⟨_, Dict.mem_of_get? hs, rfl⟩)
  · obtain ⟨p, -, hc⟩ := (hP.sink_iff hw hg'').1 hn'
    rcases (conn_cases hout hconns _).1 hc with ⟨a, e', y, ⟨l, hl, o, ho', h1, h2, h3, h4⟩, h⟩ | ⟨l, hl, x, hx, h⟩
    · left
      obtain ⟨e'', he'', h5, h6⟩ := hw.ends l hl o ho'
      rw [mem_networkArrays]
      rw [h4] at h6
      rcases h with h | h
      · exact ⟨e'', he'', (str "inputs", false, e''.inShapes), by simp [layerCats], y, h6, by rw [(Prod.mk.inj h).2, h5, h3]⟩
      · exact ⟨e'', he'', (str "input_deltas", true, e''.inShapes), by simp [layerCats], y, h6, by rw [(Prod.mk.inj h).2, h5, h3]⟩
    · rcases h with h | h
      · exact .inr (.inl (Prod.mk.inj h).2)
      · exact .inr (.inr (Prod.mk.inj h).2)

theorem consecutive_flatMap {α β : Type} {P : β → Prop} {f : α → List β} {l : List α} {i : Nat} (hi : i < l.length)
    (h : Consecutive P (f l[i])) (hn : ∀ j (hj : j < l.length), j ≠ i → ∀ x ∈ f l[j], ¬ P x) : Consecutive P (l.flatMap f) := by
  obtain ⟨pre, mid, post, e, h1, h2⟩ := h
  have hl : l = l.take i ++ l[i] :: l.drop (i + 1) := by
    rw [← List.drop_eq_getElem_cons hi, List.take_append_drop]
  refine ⟨(l.take i).flatMap f ++ pre, mid, post ++ (l.drop (i + 1)).flatMap f, ?_, h1, ?_⟩
  · conv_lhs => rw [hl]
    rw [List.flatMap_append, List.flatMap_cons, e]
    simp
  · intro x hx
    rw [List.mem_append, List.mem_append, List.mem_append] at hx
    have ht : ∀ x ∈ (l.take i).flatMap f, ¬ P x := by
      intro x hx
      obtain ⟨a, ha, hx⟩ := List.mem_flatMap.1 hx
      obtain ⟨j, hj, rfl⟩ := List.getElem_of_mem ha
      rw [List.length_take] at hj
      rw [List.getElem_take] at hx
      exact hn j (by omega) (by omega) x hx
    have hdr : ∀ x ∈ (l.drop (i + 1)).flatMap f, ¬ P x := by
      intro x hx
      obtain ⟨a, ha, hx⟩ := List.mem_flatMap.1 hx
      obtain ⟨j, hj, rfl⟩ := List.getElem_of_mem ha
      rw [List.length_drop] at hj
      rw [List.getElem_drop] at hx
      exact hn (i + 1 + j) (by omega) (by omega) x hx
    rcases hx with (hx | hx) | hx | hx
    · exact ht x hx
    · exact h2 x (by simp [hx])
    · exact h2 x (by simp [hx])
    · exact hdr x hx

/-- See `C10_network`. -/
theorem orderable_of_layout (hw : WellFormedLayers layers) (hout : ∀ l ∈ layers, ∀ o ∈ l.outgoing, o.kind = .outputs)
    {L : Layout} (h : createLayout layers = .ok L) : Orderable layers := by
  obtain ⟨forced, conns, gs, hP⟩ := createLayout_ok h
  have hW := hP.nested hw
  have hpart := C08_partition _ _ _ _ _ hW hP.groupsOk
  have hflat : ∀ g ∈ gs, ∀ x, x ∈ g.hub.flatSources ↔ x ∈ g.arrays := by
    intro g hg x
    obtain ⟨-, -, -, -, order, hcr⟩ := hP.created hw hg
    rw [hcr.flat]
    exact (hcr.perm.flatMap_right _).mem_iff
  set names := (gs.flatMap (fun g => g.hub.flatSources)).filter (fun x => decide (x ∈ (outputsOf layers).map (oPath false))) with hnames
  have hnd : (gs.flatMap (fun g => g.hub.flatSources)).Nodup := by
    rw [List.nodup_flatMap]
    refine ⟨fun g hg => ?_, ?_⟩
    · obtain ⟨-, -, -, -, order, hcr⟩ := hP.created hw hg
      exact hcr.nodup
    · refine (hP.names_disjoint hw).imp_of_mem ?_
      intro a b ha hb hab x h1 h2
      exact hab x (List.mem_append_left _ ((hflat a ha x).1 h1)) (List.mem_append_left _ ((hflat b hb x).1 h2))
  have hperm : names.Perm ((outputsOf layers).map (oPath false)) := by
    refine (List.perm_ext_iff_of_nodup (hnd.filter _) ?_).2 ?_
    · exact List.Nodup.map_on (fun p hp q hq h => oPath_inj hw hp hq h) (outputsOf_nodup hw)
    · intro x
      rw [List.mem_filter]
      simp only [decide_eq_true_eq]
      refine ⟨fun h => h.2, fun hx => ⟨?_, hx⟩⟩
      obtain ⟨p, hp, rfl⟩ := List.mem_map.1 hx
      obtain ⟨l, hl, h1, h2⟩ := mem_outputsOf.1 hp
      have harr : oPath false p ∈ (networkArrays layers).map Prod.fst :=
        mem_networkArrays.2 ⟨l, hl, (str "outputs", false, l.outShapes), by simp [layerCats], p.2, h2, by rw [h1]; rfl⟩
      have hsrc := (sources_inv hw hP.forcedOk (conns.map Prod.snd)).covered (oPath false p) harr (by
          intro hc
          obtain ⟨c, hc, he⟩ := List.mem_map.1 hc
          rw [oPath, ← h1] at he
          have hdot := hw.noDot l hl
          rcases conn_end hw hP.connsOk hc with ⟨e, he', y, h3⟩ | ⟨e, he', y, h3⟩ | h3 | h3
          · rw [h3] at he
            exact absurd (path_inj (hw.noDot e he') hdot (by decide) (by decide) he).2.1 (by decide)
          · rw [h3] at he
            exact absurd (path_inj (hw.noDot e he') hdot (by decide) (by decide) he).2.1 (by decide)
          · rw [h3] at he
            exact path_ne_root.1 he.symm
          · rw [h3] at he
            exact path_ne_root.2 he.symm) path_ne_root.1 path_ne_root.2
      obtain ⟨i, hi, hmem, -⟩ := hpart.2 _ hsrc
      exact List.mem_flatMap.2 ⟨gs[i], List.getElem_mem hi, (hflat _ (List.getElem_mem hi) _).2 hmem⟩
  obtain ⟨order, ho, heq⟩ := exists_perm_of_perm_map hperm
  refine ⟨order, ho, ?_⟩
  intro e y
  by_cases hex : ∃ p, ConnectedTo layers p e y
  · obtain ⟨p, hp⟩ := hex
    obtain ⟨e', he', rfl⟩ : ∃ e' ∈ layers, e'.name = e := by
      obtain ⟨l, hl, o, ho, -, -, h3, -⟩ := hp
      obtain ⟨e', he', h5, -⟩ := hw.ends l hl o ho
      exact ⟨e', he', h5.trans h3⟩
    have hpo : p ∈ outputsOf layers := by
      obtain ⟨l, hl, o, ho, h1, h2, -, -⟩ := hp
      have hst := hw.starts l hl o ho
      rw [hout l hl o ho] at hst
      exact mem_outputsOf.2 ⟨l, hl, h1, by rw [← h2]; exact hst⟩
    rw [← Consecutive.congr (P := fun q => (oPath false q, path e'.name (iCat false) y) ∈ conns)
      (fun q hq => conn_output hw hout hP.connsOk false (ho.subset hq) he' y)]
    rw [← Consecutive.map_iff (P := fun x => (x, path e'.name (iCat false) y) ∈ conns), heq, hnames]
    refine Consecutive.filter ?_ _
    have hc := (conn_output hw hout hP.connsOk false hpo he' y).2 hp
    obtain ⟨i, hi, hpi, hti, hu⟩ := C08_connections _ _ _ _ _ hW hP.groupsOk _ _ hc
    refine consecutive_flatMap hi ?_ ?_
    · obtain ⟨-, -, -, -, order, hcr⟩ := hP.created hw (List.getElem_mem hi)
      rw [hcr.flat]
      exact hcr.feeds _ hti
    · intro j hj hne x hx hxc
      obtain ⟨i', hi', -, hti', hu'⟩ := C08_connections _ _ _ _ _ hW hP.groupsOk _ _ hxc
      have e1 := hu i' hi' (.inr hti')
      have e2 := hu' j hj (.inl ((hflat _ (List.getElem_mem hj) x).1 hx))
      exact hne (e2.trans e1)
  · exact consecutive_none fun p _ hp => hex ⟨p, hp⟩

/-- If every input is fed by at most one output, any order will do. -/
theorem orderable_single (h : ∀ p q e y, ConnectedTo layers p e y → ConnectedTo layers q e y → p = q)
    (hw : WellFormedLayers layers) : Orderable layers := by
  refine ⟨outputsOf layers, .refl _, fun e y => ?_⟩
  have hnd := outputsOf_nodup hw
  by_cases hex : ∃ p ∈ outputsOf layers, ConnectedTo layers p e y
  · obtain ⟨p, hp, hc⟩ := hex
    obtain ⟨pre, post, hl⟩ := List.append_of_mem hp
    rw [hl] at hnd ⊢
    refine ⟨pre, [p], post, by simp, by simpa using hc, ?_⟩
    intro x hx hxc
    have := h x p e y hxc hc
    subst this
    rw [List.nodup_append] at hnd
    rcases List.mem_append.1 hx with hx | hx
    · exact hnd.2.2 x hx x (by simp) rfl
    · exact (List.nodup_cons.1 hnd.2.1).1 hx
  · exact consecutive_none fun p hp hc => hex ⟨p, hp, hc⟩

/-! ## The property -/

/-- **C10** (whole networks).  Take layers whose connections all start at outputs.  A layout for them is found exactly if the outputs of
the network can be put into one order in which, for every input, the outputs that are connected to it stand next to each other. -/
theorem C10_network (layers : List LayerInfo) (hw : WellFormedLayers layers) (hsh : Shaped layers)
    (hbw : ∀ l ∈ layers, ∀ e ∈ l.outShapes ++ l.paramShapes, e.2.backwardOnly = false)
    (hout : ∀ l ∈ layers, ∀ o ∈ l.outgoing, o.kind = .outputs) :
    (∃ L, createLayout layers = .ok L) ↔ Orderable layers :=
  ⟨fun ⟨_, h⟩ => orderable_of_layout hw hout h, layout_exists hw hsh hbw hout⟩

/-- **C10** (single sources).  In particular a layout is found if every input is fed by one output. -/
theorem C10_single (layers : List LayerInfo) (hw : WellFormedLayers layers) (hsh : Shaped layers)
    (hbw : ∀ l ∈ layers, ∀ e ∈ l.outShapes ++ l.paramShapes, e.2.backwardOnly = false)
    (hout : ∀ l ∈ layers, ∀ o ∈ l.outgoing, o.kind = .outputs)
    (hone : ∀ p q e y, ConnectedTo layers p e y → ConnectedTo layers q e y → p = q) : ∃ L, createLayout layers = .ok L :=
  layout_exists hw hsh hbw hout (orderable_single hone hw)

/-! ### Non-vacuity -/

/-- Three outputs; `pairs` says which two of them each of the other layers concatenates. -/
def pairsNet (pairs : List (Nat × Nat)) : List LayerInfo :=
  let tb (n : Nat) : Struct := ⟨[.T, .B, .n n], 0, false⟩
  let nm (k : Nat) : Name := [Char.ofNat (97 + k)]
  (List.range 3).map (fun k => ⟨nm k, [], [(str "default", tb (k + 1))], [], [],
      (pairs.zipIdx.filter (fun p => p.1.1 = k ∨ p.1.2 = k)).map (fun p => ⟨.outputs, str "default", nm (3 + p.2), str "default"⟩)⟩) ++
  pairs.zipIdx.map (fun p => ⟨nm (3 + p.2), [(str "default", tb (p.1.1 + p.1.2 + 2))], [(str "default", tb 1)],
      [(str "W", ⟨[.n 1, .n (p.1.1 + p.1.2 + 2)], 0, false⟩)], [], []⟩)

theorem pairsNet_ok {pairs : List (Nat × Nat)} (h : pairs = [(0, 2), (1, 2)] ∨ pairs = [(0, 1), (1, 2), (0, 2)]) :
    WellFormedLayers (pairsNet pairs) ∧ Shaped (pairsNet pairs) ∧
    (∀ l ∈ pairsNet pairs, ∀ e ∈ l.outShapes ++ l.paramShapes, e.2.backwardOnly = false) ∧
    ∀ l ∈ pairsNet pairs, ∀ o ∈ l.outgoing, o.kind = .outputs := by
  have hk : ∀ l ∈ pairsNet pairs, ∀ o ∈ l.outgoing, o.kind = .outputs := by
    rcases h with rfl | rfl <;> decide +kernel
  have hs : ∀ l ∈ pairsNet pairs, ∀ o ∈ l.outgoing, o.buffer ∈ l.outShapes.map Prod.fst := by
    rcases h with rfl | rfl <;> decide +kernel
  refine ⟨⟨?_, ?_, ?_, ?_, ?_, ?_, ?_, ?_⟩, ?_, ?_, hk⟩
  · rcases h with rfl | rfl <;> decide +kernel
  · rcases h with rfl | rfl <;> decide +kernel
  · rcases h with rfl | rfl <;> decide +kernel
  · rcases h with rfl | rfl <;> decide +kernel
  · rcases h with rfl | rfl <;> decide +kernel
  · rcases h with rfl | rfl <;> decide +kernel
  · intro l hl o ho
    rw [hk l hl o ho]
    exact hs l hl o ho
  · rcases h with rfl | rfl <;> decide +kernel
  · refine shaped_of_check ?_
    rcases h with rfl | rfl <;> decide +kernel
  · rcases h with rfl | rfl <;> decide +kernel

/-- The order `a`, `c`, `b` serves an input with `a` and `c` and one with `b` and `c`. -/
example : ∃ L, createLayout (pairsNet [(0, 2), (1, 2)]) = .ok L := by
  obtain ⟨h1, h2, h3, h4⟩ := pairsNet_ok (.inl rfl)
  refine (C10_network _ h1 h2 h3 h4).2 ⟨[(str "a", str "default"), (str "c", str "default"), (str "b", str "default"),
    (str "d", str "default"), (str "e", str "default")], by decide +kernel, ?_⟩
  intro e y
  have key : ∀ l ∈ pairsNet [(0, 2), (1, 2)], ∀ o ∈ l.outgoing,
      (o.endLayer, o.endInput) ∈ [(str "d", str "default"), (str "e", str "default")] := by decide +kernel
  by_cases hm : (e, y) ∈ [(str "d", str "default"), (str "e", str "default")]
  · simp only [List.mem_cons, Prod.mk.injEq, List.not_mem_nil, or_false] at hm
    rcases hm with ⟨rfl, rfl⟩ | ⟨rfl, rfl⟩
    · exact ⟨[], [(str "a", str "default"), (str "c", str "default")], _, rfl, by unfold ConnectedTo; decide +kernel,
        by unfold ConnectedTo; decide +kernel⟩
    · exact ⟨[(str "a", str "default")], [(str "c", str "default"), (str "b", str "default")], _, rfl,
        by unfold ConnectedTo; decide +kernel, by unfold ConnectedTo; decide +kernel⟩
  · refine consecutive_none fun p _ hc => hm ?_
    obtain ⟨l, hl, o, ho, -, -, rfl, rfl⟩ := hc
    exact key l hl o ho

/-- No order serves all three pairs: there is no layout. -/
example : ¬ Orderable (pairsNet [(0, 1), (1, 2), (0, 2)]) := by
  obtain ⟨h1, h2, h3, h4⟩ := pairsNet_ok (.inr rfl)
  rw [← C10_network _ h1 h2 h3 h4]
  rintro ⟨L, h⟩
  have hc : (match createLayout (pairsNet [(0, 1), (1, 2), (0, 2)]) with | .ok _ => true | .error _ => false) = false := by
    decide +kernel
  rw [h] at hc
  cases hc

end Verif.Layout
