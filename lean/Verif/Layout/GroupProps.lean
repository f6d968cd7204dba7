import Verif.Layout.GroupLemmas

/-!
# C08: hubs partition the arrays and connections never cross hubs
-/

namespace Verif.Layout

open Verif.Structure

/-! ### Specification -/

/-- Two arrays are directly linked: they feed the same sink, or belong to the
same forced order (the parameters, or the gradients, of one layer). -/
def Link (conns : List (Name × Name)) (forced : List (List Name)) (p q : Name) : Prop :=
  (∃ t, (p, t) ∈ conns ∧ (q, t) ∈ conns) ∨ ∃ l ∈ forced, p ∈ l ∧ q ∈ l

/-- How sources, forced orders and connections fit together in a network: the
arrays are distinct, tuples are the forced orders, forced orders do not overlap,
no sink is in a forced order and every connection starts at a source. -/
structure WellNested (conns : List (Name × Name)) (forced : List (List Name)) (sources : List Item) : Prop where
  nodup : (sources.flatMap Item.flat).Nodup
  tuples : ∀ l, Item.tup l ∈ sources → l ∈ forced
  singles : ∀ p, Item.one p ∈ sources → ∀ l ∈ forced, p ∉ l
  disjoint : forced.Pairwise (fun a b => ∀ x ∈ a, x ∉ b)
  sinks : ∀ c ∈ conns, ∀ l ∈ forced, c.2 ∉ l
  starts : ∀ c ∈ conns, c.1 ∈ sources.flatMap Item.flat
  nonempty : ∀ l ∈ forced, l ≠ []

/-- The arrays of a hub. -/
def Group.arrays (g : Group) : List Name := g.sources.flatMap Item.flat

/-! ### Merging -/

theorem mergeNode_tup (forced : List (List Name)) (l : List Name) :
    forced.foldl mergeStep (.tup l) = .tup l := by
  induction forced with
  | nil => rfl
  | cons fo rest ih => simpa [mergeStep] using ih

theorem mergeNode_of_not {forced : List (List Name)} {p : Name} (h : ∀ l ∈ forced, p ∉ l) :
    mergeNode forced p = .one p := by
  unfold mergeNode
  induction forced with
  | nil => rfl
  | cons fo rest ih =>
    simp only [List.foldl_cons, mergeStep]
    rw [if_neg (h fo (by simp))]
    exact ih (fun l hl => h l (by simp [hl]))

theorem mergeNode_of_mem {forced : List (List Name)} {p : Name} {l : List Name}
    (hd : forced.Pairwise (fun a b => ∀ x ∈ a, x ∉ b)) (hl : l ∈ forced) (hp : p ∈ l) :
    mergeNode forced p = .tup l := by
  unfold mergeNode
  induction forced with
  | nil => simp at hl
  | cons fo rest ih =>
    simp only [List.foldl_cons, mergeStep]
    rw [List.pairwise_cons] at hd
    by_cases hpf : p ∈ fo
    · rw [if_pos hpf, mergeNode_tup]
      rcases List.mem_cons.1 hl with rfl | hl
      · rfl
      · exact absurd hp (hd.1 l hl p hpf)
    · rw [if_neg hpf]
      rcases List.mem_cons.1 hl with rfl | hl
      · exact absurd hp hpf
      · exact ih hd.2 hl

theorem WellNested.mergeNode_eq {conns forced sources} (h : WellNested conns forced sources)
    {it : Item} (hit : it ∈ sources) {p : Name} (hp : p ∈ it.flat) : mergeNode forced p = it := by
  cases it with
  | one q =>
    simp only [Item.flat, List.mem_singleton] at hp
    subst hp
    exact mergeNode_of_not (h.singles p hit)
  | tup l => exact mergeNode_of_mem h.disjoint (h.tuples l hit) hp

theorem WellNested.mem_merged {conns forced sources} (h : WellNested conns forced sources)
    {it : Item} (hit : it ∈ sources) {t : Item} :
    (it, t) ∈ mergeConnections conns forced ↔ ∃ p ∈ it.flat, ∃ q, t = .one q ∧ (p, q) ∈ conns := by
  simp only [mergeConnections, List.mem_map, Prod.mk.injEq, Prod.exists]
  constructor
  · rintro ⟨a, b, hc, h1, h2⟩
    obtain ⟨it', hit', ha⟩ := List.mem_flatMap.1 (h.starts _ hc)
    have : it' = it := by rw [← h1]; exact (h.mergeNode_eq hit' ha).symm
    subst this
    refine ⟨a, ha, b, ?_, hc⟩
    rw [← h2]
    exact mergeNode_of_not (h.sinks _ hc)
  · rintro ⟨p, hp, q, rfl, hc⟩
    exact ⟨p, q, hc, h.mergeNode_eq hit hp, mergeNode_of_not (h.sinks _ hc)⟩

theorem WellNested.item_of {conns forced sources} (h : WellNested conns forced sources)
    {it t : Item} (hm : (it, t) ∈ mergeConnections conns forced) : it ∈ sources := by
  simp only [mergeConnections, List.mem_map, Prod.mk.injEq, Prod.exists] at hm
  obtain ⟨a, b, hc, h1, -⟩ := hm
  obtain ⟨it', hit', ha⟩ := List.mem_flatMap.1 (h.starts _ hc)
  rw [← h1, h.mergeNode_eq hit' ha]
  exact hit'

/-- Linking of items gives linking of their arrays. -/
theorem WellNested.link {conns forced sources} (h : WellNested conns forced sources) {a b : Item}
    (hab : Relation.EqvGen (ShareSink (mergeConnections conns forced)) a b) :
    (a ∈ sources ↔ b ∈ sources) ∧
    (a ∈ sources → ∀ p ∈ a.flat, ∀ q ∈ b.flat, Relation.EqvGen (Link conns forced) p q) := by
  have same : ∀ it ∈ sources, ∀ p ∈ it.flat, ∀ q ∈ it.flat, Relation.EqvGen (Link conns forced) p q := by
    intro it hit p hp q hq
    cases it with
    | one r =>
      simp only [Item.flat, List.mem_singleton] at hp hq
      subst hp; subst hq; exact .refl _
    | tup l => exact .rel _ _ (Or.inr ⟨l, h.tuples l hit, hp, hq⟩)
  have nonempty : ∀ it ∈ sources, ∃ p, p ∈ it.flat := by
    intro it hit
    cases it with
    | one r => exact ⟨r, by simp [Item.flat]⟩
    | tup l => exact List.exists_mem_of_ne_nil _ (h.nonempty l (h.tuples l hit))
  induction hab with
  | rel a b hr =>
    obtain ⟨t, h1, h2⟩ := hr
    have ha := h.item_of h1
    have hb := h.item_of h2
    refine ⟨⟨fun _ => hb, fun _ => ha⟩, fun _ p hp q hq => ?_⟩
    obtain ⟨p', hp', t', rfl, hc1⟩ := (h.mem_merged ha).1 h1
    obtain ⟨q', hq', t'', he, hc2⟩ := (h.mem_merged hb).1 h2
    cases he
    exact ((same a ha p hp p' hp').trans _ _ _ (.rel _ _ (Or.inl ⟨t', hc1, hc2⟩))).trans _ _ _
      (same b hb q' hq' q hq)
  | refl a => exact ⟨Iff.rfl, fun ha => same a ha⟩
  | symm a b _ ih =>
    exact ⟨ih.1.symm, fun hb p hp q hq => (ih.2 (ih.1.2 hb) q hq p hp).symm⟩
  | trans a b c _ _ ih1 ih2 =>
    refine ⟨ih1.1.trans ih2.1, fun ha p hp q hq => ?_⟩
    have hb := ih1.1.1 ha
    obtain ⟨r, hr⟩ := nonempty b hb
    exact (ih1.2 ha p hp r hr).trans _ _ _ (ih2.2 hb r hr q hq)

/-! ### Properties -/

theorem Grouped.index_unique {structOf conns mcons} {rem : List Item} {gs : List Group}
    (h : Grouped structOf conns mcons rem gs) (hnd : rem.Nodup) {i j : Nat} (hi : i < gs.length)
    (hj : j < gs.length) {it : Item} (h1 : it ∈ gs[i].sources) (h2 : it ∈ gs[j].sources) : i = j := by
  have hnd' : (gs.flatMap Group.sources).Nodup := h.perm.nodup_iff.2 hnd
  rw [List.nodup_flatMap] at hnd'
  by_contra hne
  rcases Nat.lt_or_gt_of_ne hne with hlt | hlt
  · exact (List.pairwise_iff_getElem.1 hnd'.2 i j hi hj hlt) h1 h2
  · exact (List.pairwise_iff_getElem.1 hnd'.2 j i hj hi hlt) h2 h1

theorem nodup_items {sources : List Item} (h : (sources.flatMap Item.flat).Nodup)
    (hne : ∀ it ∈ sources, it.flat ≠ []) : sources.Nodup := by
  induction sources with
  | nil => simp
  | cons it rest ih =>
    rw [List.flatMap_cons, List.nodup_append] at h
    rw [List.nodup_cons]
    refine ⟨fun hmem => ?_, ih h.2.1 (fun x hx => hne x (by simp [hx]))⟩
    obtain ⟨p, hp⟩ := List.exists_mem_of_ne_nil _ (hne it (by simp))
    exact h.2.2 p hp p (List.mem_flatMap.2 ⟨it, hmem, hp⟩) rfl

theorem WellNested.nodupItems {conns forced sources} (h : WellNested conns forced sources) : sources.Nodup := by
  refine nodup_items h.nodup (fun it hit => ?_)
  cases it with
  | one p => simp [Item.flat]
  | tup l => exact h.nonempty l (h.tuples l hit)

theorem WellNested.item_unique {conns forced sources} (h : WellNested conns forced sources) {a b : Item}
    (ha : a ∈ sources) (hb : b ∈ sources) {p : Name} (hpa : p ∈ a.flat) (hpb : p ∈ b.flat) : a = b := by
  rw [← h.mergeNode_eq ha hpa, h.mergeNode_eq hb hpb]

/-- **C08** (partition).  Every source array of the network lies in exactly one
hub. -/
theorem C08_partition (structOf : Name → Option Struct) (conns : List (Name × Name))
    (forced : List (List Name)) (sources : List Item) (gs : List Group)
    (hw : WellNested conns forced sources)
    (h : groupIntoHubs structOf conns forced sources = .ok gs) :
    (∀ g ∈ gs, ∀ p ∈ g.arrays, p ∈ sources.flatMap Item.flat) ∧
    ∀ p ∈ sources.flatMap Item.flat, ∃ i, ∃ hi : i < gs.length, p ∈ gs[i].arrays ∧
      ∀ j, ∀ hj : j < gs.length, p ∈ gs[j].arrays → j = i := by
  have hg := groupIntoHubs_ok h
  have hp := hg.perm
  have hmem : ∀ g ∈ gs, ∀ it ∈ g.sources, it ∈ sources := fun g hg' it hit =>
    hp.subset (List.mem_flatMap.2 ⟨g, hg', hit⟩)
  constructor
  · intro g hg' p hpa
    obtain ⟨it, hit, hpi⟩ := List.mem_flatMap.1 hpa
    exact List.mem_flatMap.2 ⟨it, hmem g hg' it hit, hpi⟩
  · intro p hps
    obtain ⟨it, hit, hpi⟩ := List.mem_flatMap.1 hps
    obtain ⟨g, hgm, hig⟩ := List.mem_flatMap.1 (hp.symm.subset hit)
    obtain ⟨i, hi, rfl⟩ := List.getElem_of_mem hgm
    refine ⟨i, hi, List.mem_flatMap.2 ⟨it, hig, hpi⟩, ?_⟩
    intro j hj hpj
    obtain ⟨it', hit', hpi'⟩ := List.mem_flatMap.1 hpj
    have : it' = it := hw.item_unique (hmem _ (List.getElem_mem hj) _ hit') hit hpi' hpi
    subst this
    exact hg.index_unique hw.nodupItems hj hi hit' hig

/-- **C08** (connections).  Both ends of every connection lie in the same hub,
and in no other hub. -/
theorem C08_connections (structOf : Name → Option Struct) (conns : List (Name × Name))
    (forced : List (List Name)) (sources : List Item) (gs : List Group)
    (hw : WellNested conns forced sources)
    (h : groupIntoHubs structOf conns forced sources = .ok gs)
    (p t : Name) (hc : (p, t) ∈ conns) :
    ∃ i, ∃ hi : i < gs.length, p ∈ gs[i].arrays ∧ t ∈ gs[i].sinks ∧
      ∀ j, ∀ hj : j < gs.length, p ∈ gs[j].arrays ∨ t ∈ gs[j].sinks → j = i := by
  have hg := groupIntoHubs_ok h
  have hp := hg.perm
  have hmem : ∀ g ∈ gs, ∀ it ∈ g.sources, it ∈ sources := fun g hg' it hit =>
    hp.subset (List.mem_flatMap.2 ⟨g, hg', hit⟩)
  obtain ⟨i, hi, hpi, huniq⟩ := (C08_partition structOf conns forced sources gs hw h).2 p (hw.starts _ hc)
  obtain ⟨it, hit, hpit⟩ := List.mem_flatMap.1 hpi
  have hits := hmem _ (List.getElem_mem hi) _ hit
  have hcm : (it, Item.one t) ∈ mergeConnections conns forced :=
    (hw.mem_merged hits).2 ⟨p, hpit, t, rfl, hc⟩
  obtain ⟨node, -, hd, -⟩ := hg.done _ (List.getElem_mem hi)
  have hti : t ∈ gs[i].sinks := by
    have := (hd.snks (.one t)).2 ⟨it, hit, hcm⟩
    simpa using this
  refine ⟨i, hi, hpi, hti, ?_⟩
  intro j hj hor
  rcases hor with hpj | htj
  · exact huniq j hj hpj
  · obtain ⟨node', -, hd', -⟩ := hg.done _ (List.getElem_mem hj)
    have ht' : Item.one t ∈ gs[j].sinks.map Item.one := List.mem_map_of_mem htj
    obtain ⟨it', hit', hc'⟩ := (hd'.snks _).1 ht'
    have hl : it ∈ gs[j].sources := (hd'.srcs it).2
      (((hd'.srcs it').1 hit').trans _ _ _ (.rel _ _ ⟨_, hc', hcm⟩))
    exact hg.index_unique hw.nodupItems hj hi hl hit

/-- **C08** (nothing else is merged).  Two arrays share a hub exactly when a
chain of common sinks and forced orders links them. -/
theorem C08_linked (structOf : Name → Option Struct) (conns : List (Name × Name))
    (forced : List (List Name)) (sources : List Item) (gs : List Group)
    (hw : WellNested conns forced sources)
    (h : groupIntoHubs structOf conns forced sources = .ok gs)
    (i : Nat) (hi : i < gs.length) (p q : Name) (hp : p ∈ gs[i].arrays)
    (hqs : q ∈ sources.flatMap Item.flat) :
    q ∈ gs[i].arrays ↔ Relation.EqvGen (Link conns forced) p q := by
  have hg := groupIntoHubs_ok h
  have hpm := hg.perm
  have hmem : ∀ g ∈ gs, ∀ it ∈ g.sources, it ∈ sources := fun g hg' it hit =>
    hpm.subset (List.mem_flatMap.2 ⟨g, hg', hit⟩)
  obtain ⟨node, -, hd, -⟩ := hg.done _ (List.getElem_mem hi)
  constructor
  · intro hq
    obtain ⟨a, ha, hpa⟩ := List.mem_flatMap.1 hp
    obtain ⟨b, hb, hqb⟩ := List.mem_flatMap.1 hq
    exact (hw.link ((((hd.srcs a).1 ha).symm).trans _ _ _ ((hd.srcs b).1 hb))).2
      (hmem _ (List.getElem_mem hi) _ ha) p hpa q hqb
  · intro hl
    have hpart := C08_partition structOf conns forced sources gs hw h
    have step : ∀ x y, Link conns forced x y → (x ∈ sources.flatMap Item.flat ↔ y ∈ sources.flatMap Item.flat) →
        (x ∈ gs[i].arrays ↔ y ∈ gs[i].arrays) := by
      have one : ∀ x y, Link conns forced x y → y ∈ sources.flatMap Item.flat → x ∈ gs[i].arrays → y ∈ gs[i].arrays := by
        rintro x y (⟨t, h1, h2⟩ | ⟨l, hl, h1, h2⟩) hys hx
        · obtain ⟨j, hj, hy, htj, hju⟩ := C08_connections structOf conns forced sources gs hw h y t h2
          obtain ⟨k, hk, hx', htk, hku⟩ := C08_connections structOf conns forced sources gs hw h x t h1
          have e1 := hku i hi (Or.inl hx)
          have e2 := hju k hk (Or.inr htk)
          subst e1; subst e2; exact hy
        · obtain ⟨a, ha, hxa⟩ := List.mem_flatMap.1 hx
          obtain ⟨b, hb, hyb⟩ := List.mem_flatMap.1 hys
          have e1 := hw.mergeNode_eq (hmem _ (List.getElem_mem hi) _ ha) hxa
          have e2 := hw.mergeNode_eq hb hyb
          rw [mergeNode_of_mem hw.disjoint hl h1] at e1
          rw [mergeNode_of_mem hw.disjoint hl h2] at e2
          have : b = a := e2.symm.trans e1
          subst this
          exact List.mem_flatMap.2 ⟨b, ha, hyb⟩
      intro x y hxy hiff
      constructor
      · intro hx
        exact one x y hxy (hiff.1 (hpart.1 _ (List.getElem_mem hi) _ hx)) hx
      · intro hy
        refine one y x ?_ (hiff.2 (hpart.1 _ (List.getElem_mem hi) _ hy)) hy
        rcases hxy with ⟨t, h1, h2⟩ | ⟨l, hl, h1, h2⟩
        · exact Or.inl ⟨t, h2, h1⟩
        · exact Or.inr ⟨l, hl, h2, h1⟩
    -- forced orders may contain arrays that are not sources only if the whole tuple is absent
    have srcs : ∀ x y, Link conns forced x y → (x ∈ sources.flatMap Item.flat ↔ y ∈ sources.flatMap Item.flat) := by
      have one : ∀ x y, Link conns forced x y → x ∈ sources.flatMap Item.flat → y ∈ sources.flatMap Item.flat := by
        rintro x y (⟨t, h1, h2⟩ | ⟨l, hl, h1, h2⟩) hx
        · exact hw.starts _ h2
        · obtain ⟨a, ha, hxa⟩ := List.mem_flatMap.1 hx
          have e1 := hw.mergeNode_eq ha hxa
          rw [mergeNode_of_mem hw.disjoint hl h1] at e1
          subst e1
          exact List.mem_flatMap.2 ⟨_, ha, h2⟩
      intro x y hxy
      refine ⟨one x y hxy, one y x ?_⟩
      rcases hxy with ⟨t, h1, h2⟩ | ⟨l, hl, h1, h2⟩
      · exact Or.inl ⟨t, h2, h1⟩
      · exact Or.inr ⟨l, hl, h2, h1⟩
    have key : ∀ x y, Relation.EqvGen (Link conns forced) x y → (x ∈ gs[i].arrays ↔ y ∈ gs[i].arrays) := by
      intro x y hxy
      induction hxy with
      | rel x y hr => exact step x y hr (srcs x y hr)
      | refl x => rfl
      | symm x y _ ih => exact ih.symm
      | trans x y z _ _ ih1 ih2 => exact ih1.trans ih2
    exact (key p q hl).1 hp

/-- Grouping always ends: the closure search needs at most
`2 * number of connections + 2` rounds. -/
theorem C08_terminates (mcons : List Conn) (node : Item) :
    ∃ src snk, forwardClosure mcons (closureBound mcons) node = some (src, snk) := by
  obtain ⟨⟨src, snk⟩, h, -⟩ := closure_terminates mcons node
  exact ⟨src, snk, h⟩

/-! ### The hypotheses are met: two layers with parameters, one shared input -/

def demoForced : List (List Name) := [[str "A.W", str "A.b"], [str "B.W"]]

def demoGConns : List (Name × Name) :=
  [(str "A.W", str "parameters"), (str "A.b", str "parameters"), (str "B.W", str "parameters"),
   (str "A.o", str "C.i"), (str "B.o", str "C.i")]

def demoGSources : List Item :=
  [.tup [str "A.W", str "A.b"], .one (str "A.o"), .tup [str "B.W"], .one (str "B.o"), .one (str "C.o")]

def demoGStructs : Name → Option Struct := fun p =>
  if p = str "A.W" then some ⟨[.n 2, .n 3], 0, false⟩
  else if p = str "A.b" then some ⟨[.n 2], 0, false⟩
  else if p = str "B.W" then some ⟨[.n 4], 0, false⟩
  else if p = str "A.o" then some ⟨[.T, .B, .n 2], 0, false⟩
  else if p = str "B.o" then some ⟨[.T, .B, .n 3], 0, false⟩
  else if p = str "C.o" then some ⟨[.T, .B, .n 1], 0, false⟩
  else none

example : WellNested demoGConns demoForced demoGSources where
  nodup := by decide +kernel
  tuples := by
    intro l hl
    simp only [demoGSources, demoForced, List.mem_cons, Item.tup.injEq, reduceCtorEq, List.not_mem_nil,
      or_false, false_or] at hl ⊢
    exact hl
  singles := by
    intro p hp
    simp only [demoGSources, List.mem_cons, Item.one.injEq, reduceCtorEq, List.not_mem_nil,
      or_false, false_or] at hp
    rcases hp with rfl | rfl | rfl <;> decide +kernel
  disjoint := by decide +kernel
  sinks := by decide +kernel
  starts := by decide +kernel
  nonempty := by decide +kernel

example : (groupIntoHubs demoGStructs demoGConns demoForced demoGSources).toOption.map
    (fun gs => gs.map (fun g => (g.arrays, g.sinks))) =
    some [([str "A.W", str "A.b", str "B.W"], [str "parameters"]),
          ([str "A.o", str "B.o"], [str "C.i"]), ([str "C.o"], [])] := by decide +kernel

end Verif.Layout
