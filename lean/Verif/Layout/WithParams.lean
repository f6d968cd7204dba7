import Verif.Layout.ExistsProps

/-!
# When a whole network can be laid out: connections from outputs and from parameters

The lemmas of `Exists.lean` and `ExistsProps.lean` for networks some of whose inputs are fed by parameters.  (In the layer library the
inputs of `Loss` and `Merge` can be.)
-/

namespace Verif.Layout

open Verif.Structure Verif.Buffers

/-! ### Specification -/

/-- The buffer `p` (name of the layer and name of the buffer) of the given kind is connected to the input `y` of the layer `e`. -/
def FedBy (layers : List LayerInfo) (k : Kind) (p : Name × Name) (e y : Name) : Prop :=
  ∃ l ∈ layers, ∃ o ∈ l.outgoing, o.kind = k ∧ l.name = p.1 ∧ o.buffer = p.2 ∧ o.endLayer = e ∧ o.endInput = y

/-- The parameters of a layer. -/
def paramsOf (l : LayerInfo) : List (Name × Name) := l.paramShapes.map fun e => (l.name, e.1)

/-- What a layout needs: the outputs can be put into one order in which those that feed an input stand next to each other; the layers
can be put into one order in which the parameters that feed an input stand next to each other, where the parameters of each layer
keep their order and stay together; and no input is fed by outputs as well as by parameters. -/
structure Plannable (layers : List LayerInfo) : Prop where
  outputs : ∃ order : List (Name × Name), order.Perm (outputsOf layers) ∧
    ∀ e y, Consecutive (fun p => FedBy layers .outputs p e y) order
  params : ∃ order : List LayerInfo, order.Perm layers ∧
    ∀ e y, Consecutive (fun p => FedBy layers .parameters p e y) (order.flatMap paramsOf)
  apart : ∀ p q e y, FedBy layers .outputs p e y → ¬ FedBy layers .parameters q e y

namespace Par

variable {layers : List LayerInfo}

theorem layerConns_succeeds {l : LayerInfo} : ∀ {os : List Outgoing}, (∀ o ∈ os, o.kind ≠ .internals) → ∃ cs, layerConns l os = .ok cs
  | [], _ => ⟨[], rfl⟩
  | o :: os, h => by
    obtain ⟨cs, e⟩ := layerConns_succeeds (l := l) (os := os) fun o ho => h o (by simp [ho])
    have hk := h o (by simp)
    cases hk' : o.kind with
    | internals => exact absurd hk' hk
    | outputs => simp [layerConns, bwdConn, hk', e]
    | parameters => simp [layerConns, bwdConn, hk', e]

theorem flowConns_succeeds : ∀ {layers : List LayerInfo}, (∀ l ∈ layers, ∀ o ∈ l.outgoing, o.kind ≠ .internals) →
    ∃ cs, flowConns layers = .ok cs
  | [], _ => ⟨[], rfl⟩
  | l :: ls, h => by
    obtain ⟨a, ea⟩ := layerConns_succeeds (l := l) (h l (by simp))
    obtain ⟨b, eb⟩ := flowConns_succeeds (layers := ls) fun l hl => h l (by simp [hl])
    simp [flowConns, ea, eb]

theorem connections_succeed (h : ∀ l ∈ layers, ∀ o ∈ l.outgoing, o.kind ≠ .internals) :
    ∃ conns, getConnections layers = .ok conns := by
  obtain ⟨cs, e⟩ := flowConns_succeeds h
  simp [getConnections, e]

/-- The categories of parameters on the way forward (`false`) and back (`true`). -/
def pCat (d : Bool) : Name := if d then str "gradients" else str "parameters"

theorem pCat_noDot (d : Bool) : '.' ∉ pCat d := by cases d <;> decide

/-- The array of a parameter or its gradient. -/
def pPath (d : Bool) (p : Name × Name) : Name := path p.1 (pCat d) p.2

/-- The parameters of a layer, as they are kept together. -/
def pOrder (d : Bool) (l : LayerInfo) : List Name := (paramsOf l).map (pPath d)

theorem pOrder_false (l : LayerInfo) : pOrder false l = paramOrder l := by
  simp [pOrder, paramsOf, paramOrder, pPath, pCat]

theorem pOrder_true (l : LayerInfo) : pOrder true l = gradOrder l := by
  simp [pOrder, paramsOf, gradOrder, pPath, pCat]

theorem mem_paramsOf {l : LayerInfo} {p : Name × Name} : p ∈ paramsOf l ↔ p.1 = l.name ∧ p.2 ∈ l.paramShapes.map Prod.fst := by
  simp only [paramsOf, List.mem_map]
  constructor
  · rintro ⟨e, he, rfl⟩
    exact ⟨rfl, e, he, rfl⟩
  · rintro ⟨h1, e, he, h2⟩
    exact ⟨e, he, by rw [← h1, h2]⟩

section
variable (hw : WellFormedLayers layers) (hint : ∀ l ∈ layers, ∀ o ∈ l.outgoing, o.kind ≠ .internals)
  {forced : List (List Name)} {conns : List (Name × Name)}
  (hforced : getForcedOrders layers = .ok forced) (hconns : getConnections layers = .ok conns)

/-- Where a connection starts and ends. -/
theorem fedBy_ends (hw : WellFormedLayers layers) {k : Kind} {p : Name × Name} {e y : Name} (h : FedBy layers k p e y) :
    (k = .outputs → p ∈ outputsOf layers) ∧ (k = .parameters → ∃ l ∈ layers, p ∈ paramsOf l) ∧
    ∃ e' ∈ layers, e'.name = e ∧ y ∈ e'.inShapes.map Prod.fst := by
  obtain ⟨l, hl, o, ho, h0, h1, h2, h3, h4⟩ := h
  have hst := hw.starts l hl o ho
  rw [h0] at hst
  refine ⟨?_, ?_, ?_⟩
  · rintro rfl
    exact mem_outputsOf.2 ⟨l, hl, h1, by rw [← h2]; exact hst⟩
  · rintro rfl
    exact ⟨l, hl, mem_paramsOf.2 ⟨h1.symm, by rw [← h2]; exact hst⟩⟩
  · obtain ⟨e', he', h5, h6⟩ := hw.ends l hl o ho
    exact ⟨e', he', h5.trans h3, by rw [← h4]; exact h6⟩

/-- The connections. -/
theorem conn_cases (hint : ∀ l ∈ layers, ∀ o ∈ l.outgoing, o.kind ≠ .internals) (hconns : getConnections layers = .ok conns)
    (c : Name × Name) : c ∈ conns ↔
    (∃ p e y d, FedBy layers .outputs p e y ∧ c = (oPath d p, path e (iCat d) y)) ∨
    (∃ p e y d, FedBy layers .parameters p e y ∧ c = (pPath d p, path e (iCat d) y)) ∨
    ∃ l ∈ layers, ∃ p ∈ paramsOf l, ∃ d, c = (pPath d p, pCat d) := by
  rw [mem_getConnections hconns]
  constructor
  · rintro ⟨l, hl, ⟨o, ho, h⟩ | ⟨x, hx, h⟩⟩
    · cases hk : o.kind with
      | internals => exact absurd hk (hint l hl o ho)
      | outputs =>
        left
        rcases h with rfl | h
        · exact ⟨(l.name, o.buffer), o.endLayer, o.endInput, false, ⟨l, hl, o, ho, hk, rfl, rfl, rfl, rfl⟩, by
            simp only [fwdConn, hk]; rfl⟩
        · simp only [bwdConn, hk, Except.ok.injEq] at h
          exact ⟨(l.name, o.buffer), o.endLayer, o.endInput, true, ⟨l, hl, o, ho, hk, rfl, rfl, rfl, rfl⟩, h.symm⟩
      | parameters =>
        right; left
        rcases h with rfl | h
        · exact ⟨(l.name, o.buffer), o.endLayer, o.endInput, false, ⟨l, hl, o, ho, hk, rfl, rfl, rfl, rfl⟩, by
            simp only [fwdConn, hk]; rfl⟩
        · simp only [bwdConn, hk, Except.ok.injEq] at h
          exact ⟨(l.name, o.buffer), o.endLayer, o.endInput, true, ⟨l, hl, o, ho, hk, rfl, rfl, rfl, rfl⟩, h.symm⟩
    · right; right
      refine ⟨l, hl, (l.name, x), mem_paramsOf.2 ⟨rfl, hx⟩, ?_⟩
      rcases h with rfl | rfl
      · exact ⟨false, rfl⟩
      · exact ⟨true, rfl⟩
  · rintro (⟨p, e, y, d, ⟨l, hl, o, ho, h0, h1, h2, h3, h4⟩, rfl⟩ | ⟨p, e, y, d, ⟨l, hl, o, ho, h0, h1, h2, h3, h4⟩, rfl⟩ |
      ⟨l, hl, p, hp, d, rfl⟩)
    · refine ⟨l, hl, .inl ⟨o, ho, ?_⟩⟩
      cases d
      · left; simp only [fwdConn, h0, h1, h2, h3, h4]; rfl
      · right; simp only [bwdConn, h0, h1, h2, h3, h4]; rfl
    · refine ⟨l, hl, .inl ⟨o, ho, ?_⟩⟩
      cases d
      · left; simp only [fwdConn, h0, h1, h2, h3, h4]; rfl
      · right; simp only [bwdConn, h0, h1, h2, h3, h4]; rfl
    · obtain ⟨h1, h2⟩ := mem_paramsOf.1 hp
      refine ⟨l, hl, .inr ⟨p.2, h2, ?_⟩⟩
      cases d
      · left; simp only [pPath, h1]; rfl
      · right; simp only [pPath, h1]; rfl

/-! ### Sorts of arrays -/

/-- Sources that feed something: outputs and groups of parameters, forward and back. -/
inductive SourceSort (layers : List LayerInfo) : Bool → Bool → Item → Prop
  | out {d p} : p ∈ outputsOf layers → SourceSort layers false d (.one (oPath d p))
  | param {d l} : l ∈ layers → pOrder d l ≠ [] → SourceSort layers true d (.tup (pOrder d l))

/-- What they feed. -/
inductive SinkSort (layers : List LayerInfo) : Bool → Bool → Name → Prop
  | out {d p e y} : e ∈ layers → y ∈ e.inShapes.map Prod.fst → FedBy layers .outputs p e.name y →
      SinkSort layers false d (path e.name (iCat d) y)
  | param {d p e y} : e ∈ layers → y ∈ e.inShapes.map Prod.fst → FedBy layers .parameters p e.name y →
      SinkSort layers true d (path e.name (iCat d) y)
  | root {d} : SinkSort layers true d (pCat d)

theorem path_ne_pCat {a b c : Name} {d : Bool} : path a b c ≠ pCat d := by
  cases d
  · exact path_ne_root.1
  · exact path_ne_root.2

theorem iPath_inj (hw : WellFormedLayers layers) {e e' : LayerInfo} (he : e ∈ layers) (he' : e' ∈ layers) {d d' : Bool} {y y' : Name}
    (h : path e.name (iCat d) y = path e'.name (iCat d') y') : e.name = e'.name ∧ d = d' ∧ y = y' := by
  obtain ⟨h1, h2, h3⟩ := path_inj (hw.noDot e he) (hw.noDot e' he') (iCat_noDot d) (iCat_noDot d') h
  refine ⟨h1, ?_, h3⟩
  cases d <;> cases d' <;> first | rfl | exact absurd h2 (by decide)

theorem pPath_inj (hw : WellFormedLayers layers) {l l' : LayerInfo} (hl : l ∈ layers) (hl' : l' ∈ layers) {d d' : Bool}
    {p q : Name × Name} (hp : p ∈ paramsOf l) (hq : q ∈ paramsOf l') (h : pPath d p = pPath d' q) : p = q ∧ d = d' := by
  have e1 := (mem_paramsOf.1 hp).1
  have e2 := (mem_paramsOf.1 hq).1
  rw [pPath, pPath, e1, e2] at h
  obtain ⟨h1, h2, h3⟩ := path_inj (hw.noDot l hl) (hw.noDot l' hl') (pCat_noDot d) (pCat_noDot d') h
  refine ⟨Prod.ext (by rw [e1, e2, h1]) h3, ?_⟩
  cases d <;> cases d' <;> first | rfl | exact absurd h2 (by decide)

theorem oPath_inj' (hw : WellFormedLayers layers) {d d' : Bool} {p q : Name × Name} (hp : p ∈ outputsOf layers)
    (hq : q ∈ outputsOf layers) (h : oPath d p = oPath d' q) : p = q ∧ d = d' := by
  have hd : d = d' := by
    obtain ⟨l, hl, h1, -⟩ := mem_outputsOf.1 hp
    obtain ⟨l', hl', h1', -⟩ := mem_outputsOf.1 hq
    rw [oPath, oPath, ← h1, ← h1'] at h
    have := (path_inj (hw.noDot l hl) (hw.noDot l' hl') (oCat_noDot d) (oCat_noDot d') h).2.1
    cases d <;> cases d' <;> first | rfl | exact absurd this (by decide)
  subst hd
  exact ⟨oPath_inj hw hp hq h, rfl⟩

theorem oPath_ne_pPath (hw : WellFormedLayers layers) {d d' : Bool} {p q : Name × Name} (hp : p ∈ outputsOf layers) {l : LayerInfo}
    (hl : l ∈ layers) (hq : q ∈ paramsOf l) : oPath d p ≠ pPath d' q := by
  intro h
  obtain ⟨l', hl', h1', -⟩ := mem_outputsOf.1 hp
  rw [oPath, pPath, ← h1', (mem_paramsOf.1 hq).1] at h
  have := (path_inj (hw.noDot l' hl') (hw.noDot l hl) (oCat_noDot d) (pCat_noDot d') h).2.1
  cases d <;> cases d' <;> exact absurd this (by decide)

include hw in
theorem sinkSort_unique (hap : ∀ p q e y, FedBy layers .outputs p e y → ¬ FedBy layers .parameters q e y) {k k' d d' : Bool} {q : Name}
    (h : SinkSort layers k d q) (h' : SinkSort layers k' d' q) : k = k' ∧ d = d' := by
  generalize hq' : q = q' at h'
  cases h with
  | out he hy hf =>
    cases h' with
    | out he' hy' hf' => exact ⟨rfl, (iPath_inj hw he he' hq').2.1⟩
    | param he' hy' hf' =>
      obtain ⟨e1, -, e2⟩ := iPath_inj hw he he' hq'
      rw [← e1, ← e2] at hf'
      exact absurd hf' (hap _ _ _ _ hf)
    | root => exact absurd hq' path_ne_pCat
  | param he hy hf =>
    cases h' with
    | out he' hy' hf' =>
      obtain ⟨e1, -, e2⟩ := iPath_inj hw he he' hq'
      rw [e1, e2] at hf
      exact absurd hf (hap _ _ _ _ hf')
    | param he' hy' hf' => exact ⟨rfl, (iPath_inj hw he he' hq').2.1⟩
    | root => exact absurd hq' path_ne_pCat
  | @root d =>
    cases h' with
    | out => exact absurd hq'.symm path_ne_pCat
    | param => exact absurd hq'.symm path_ne_pCat
    | @root d' =>
      refine ⟨rfl, ?_⟩
      cases d <;> cases d' <;> first | rfl | exact absurd hq' (by decide)

include hw in
theorem sourceSort_unique {k k' d d' : Bool} {it : Item} (h : SourceSort layers k d it) (h' : SourceSort layers k' d' it) :
    k = k' ∧ d = d' := by
  generalize hq' : it = it' at h'
  cases h with
  | out hp =>
    cases h' with
    | out hp' => exact ⟨rfl, (oPath_inj' hw hp hp' (Item.one.inj hq')).2⟩
    | param => cases hq'
  | @param d l hl hne =>
    cases h' with
    | out => cases hq'
    | @param d' l' hl' hne' =>
      have hq := Item.tup.inj hq'
      obtain ⟨x, hx⟩ := List.exists_mem_of_ne_nil _ hne
      obtain ⟨p, hp, e1⟩ := List.mem_map.1 hx
      rw [hq] at hx
      obtain ⟨p', hp', e2⟩ := List.mem_map.1 hx
      exact ⟨rfl, (pPath_inj hw hl hl' hp hp' (e1.trans e2.symm)).2⟩

theorem forced_mem (hforced : getForcedOrders layers = .ok forced) (l : List Name) :
    l ∈ forced ↔ l ≠ [] ∧ ∃ a ∈ layers, ∃ d, l = pOrder d a := by
  rw [(getForcedOrders_ok hforced).1 l]
  refine and_congr_right fun _ => exists_congr fun a => and_congr_right fun _ => ?_
  constructor
  · rintro (h | h)
    · exact ⟨false, by rw [pOrder_false]; exact h⟩
    · exact ⟨true, by rw [pOrder_true]; exact h⟩
  · rintro ⟨d, h⟩
    cases d
    · exact .inl (by rw [← pOrder_false]; exact h)
    · exact .inr (by rw [← pOrder_true]; exact h)

include hw hforced in
/-- How the forced orders merge the starts of connections. -/
theorem merge_out {d : Bool} {p : Name × Name} (hp : p ∈ outputsOf layers) : mergeNode forced (oPath d p) = .one (oPath d p) := by
  refine mergeNode_of_not fun fo hfo hmem => ?_
  obtain ⟨-, l, hl, d', rfl⟩ := (forced_mem hforced fo).1 hfo
  obtain ⟨q, hq, e⟩ := List.mem_map.1 hmem
  exact oPath_ne_pPath hw hp hl hq e.symm

include hforced in
theorem merge_param {d : Bool} {l : LayerInfo} (hl : l ∈ layers) {p : Name × Name} (hp : p ∈ paramsOf l) :
    mergeNode forced (pPath d p) = .tup (pOrder d l) := by
  have hm : pPath d p ∈ pOrder d l := List.mem_map_of_mem hp
  exact mergeNode_of_mem (getForcedOrders_ok hforced).2 ((forced_mem hforced _).2 ⟨List.ne_nil_of_mem hm, l, hl, d, rfl⟩) hm

include hw hint hforced hconns

/-- The sorts of both ends of a connection agree. -/
theorem conn_sort {it : Item} {t : Item} (hc : (it, t) ∈ mergeConnections conns forced) :
    ∃ k d q, t = .one q ∧ SourceSort layers k d it ∧ SinkSort layers k d q ∧ ∃ p ∈ it.flat, (p, q) ∈ conns := by
  have hW := sources_wellNested hw hforced hconns
  have hit := hW.item_of hc
  obtain ⟨p, hp, q, rfl, hpq⟩ := (hW.mem_merged hit).1 hc
  have hm := hW.mergeNode_eq hit hp
  rcases (conn_cases hint hconns _).1 hpq with ⟨a, e, y, d, hf, h⟩ | ⟨a, e, y, d, hf, h⟩ | ⟨l, hl, a, ha, d, h⟩ <;>
    obtain ⟨rfl, rfl⟩ := Prod.mk.inj h
  · obtain ⟨h1, -, e', he', rfl, hy⟩ := fedBy_ends hw hf
    have h1 := h1 rfl
    rw [merge_out hw hforced h1] at hm
    subst hm
    exact ⟨false, d, _, rfl, .out h1, .out he' hy hf, _, hp, hpq⟩
  · obtain ⟨-, h1, e', he', rfl, hy⟩ := fedBy_ends hw hf
    obtain ⟨l, hl, ha⟩ := h1 rfl
    rw [merge_param hforced hl ha] at hm
    subst hm
    exact ⟨true, d, _, rfl, .param hl (List.ne_nil_of_mem hp), .param he' hy hf, _, hp, hpq⟩
  · rw [merge_param hforced hl ha] at hm
    subst hm
    exact ⟨true, d, _, rfl, .param hl (List.ne_nil_of_mem hp), .root, _, hp, hpq⟩

/-- Sources that are linked are of the same sort. -/
theorem linked_sort (hap : ∀ p q e y, FedBy layers .outputs p e y → ¬ FedBy layers .parameters q e y) {a b : Item}
    (h : Relation.EqvGen (ShareSink (mergeConnections conns forced)) a b) :
    a = b ∨ ∃ k d, SourceSort layers k d a ∧ SourceSort layers k d b := by
  induction h with
  | rel a b hr =>
    obtain ⟨t, h1, h2⟩ := hr
    obtain ⟨k, d, q, rfl, s1, s2, -⟩ := conn_sort hw hint hforced hconns h1
    obtain ⟨k', d', q', e, s3, s4, -⟩ := conn_sort hw hint hforced hconns h2
    cases e
    obtain ⟨rfl, rfl⟩ := sinkSort_unique hw hap s2 s4
    exact .inr ⟨k, d, s1, s3⟩
  | refl a => exact .inl rfl
  | symm a b _ ih =>
    rcases ih with rfl | ⟨k, d, h1, h2⟩
    · exact .inl rfl
    · exact .inr ⟨k, d, h2, h1⟩
  | trans a b c _ _ ih1 ih2 =>
    rcases ih1 with rfl | ⟨k, d, h1, h2⟩
    · exact ih2
    · rcases ih2 with rfl | ⟨k', d', h3, h4⟩
      · exact .inr ⟨k, d, h1, h2⟩
      · obtain ⟨rfl, rfl⟩ := sourceSort_unique hw h2 h3
        exact .inr ⟨k, d, h1, h4⟩

end

end Par

end Verif.Layout
