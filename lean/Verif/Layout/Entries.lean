import Verif.Layout.CreateLemmas

/-! Every array gets exactly one entry in the layout. -/

namespace Verif.Layout

open Verif.Structure

/-- The pieces of a successful `create_layout`. -/
structure Parts (layers : List LayerInfo) (L : Layout) (forced : List (List Name))
    (conns : List (Name × Name)) (gs : List Group) : Prop where
  forcedOk : getForcedOrders layers = .ok forced
  connsOk : getConnections layers = .ok conns
  groupsOk : groupIntoHubs (Dict.get? (networkArrays layers)) conns forced
    (getAllSources forced conns ((networkArrays layers).map Prod.fst)) = .ok gs
  sorted : L.groups = sortBy hubLe gs
  entries : L.entries = layoutHubs 0 L.groups

theorem createLayout_ok {layers : List LayerInfo} {L : Layout} (h : createLayout layers = .ok L) :
    ∃ forced conns gs, Parts layers L forced conns gs := by
  unfold createLayout at h
  cases hf : getForcedOrders layers with
  | error e => simp [hf] at h
  | ok forced =>
    simp only [hf] at h
    cases hc : getConnections layers with
    | error e => simp [hc] at h
    | ok conns =>
      simp only [hc] at h
      cases hg : groupIntoHubs (Dict.get? (networkArrays layers)) conns forced
          (getAllSources forced conns ((networkArrays layers).map Prod.fst)) with
      | error e => simp [hg] at h
      | ok gs =>
        simp only [hg] at h
        split at h
        · simp only [Except.ok.injEq] at h
          subst h
          exact ⟨forced, conns, gs, hf, hc, hg, rfl, rfl⟩
        · simp at h

theorem getIndices_names (h : Hub) : h.getIndices.map Prod.fst = h.flatSources ++ h.sinks := by
  simp only [Hub.getIndices, List.map_append, List.map_map]
  congr 1
  · rw [show (Prod.fst ∘ fun e : Name × Nat => (e.1, offset h.sizes e.2, offset h.sizes (e.2 + 1))) = Prod.fst from rfl,
      List.zipIdx_map_fst]
  · rw [show (Prod.fst ∘ fun e : Name × Nat => (e.1, h.sinkSlice e.2)) = Prod.fst from rfl, List.zipIdx_map_fst]

/-- All names laid out in a group. -/
def Group.names (g : Group) : List Name := g.arrays ++ g.sinks

section
variable {layers : List LayerInfo} {L : Layout} {forced : List (List Name)} {conns : List (Name × Name)}
  {gs : List Group}

theorem Parts.nested (hP : Parts layers L forced conns gs) (hw : WellFormedLayers layers) :
    WellNested conns forced (getAllSources forced conns ((networkArrays layers).map Prod.fst)) :=
  sources_wellNested hw hP.forcedOk hP.connsOk

/-- Arrays of hubs are not sinks. -/
theorem Parts.source_not_sink (hP : Parts layers L forced conns gs) (hw : WellFormedLayers layers) {p : Name}
    (hp : p ∈ (getAllSources forced conns ((networkArrays layers).map Prod.fst)).flatMap Item.flat) :
    p ∉ conns.map Prod.snd := by
  obtain ⟨it, hit, hpi⟩ := List.mem_flatMap.1 hp
  have hn := hP.nested hw
  cases it with
  | one q =>
    simp [Item.flat] at hpi
    subst hpi
    exact ((sources_inv hw hP.forcedOk (conns.map Prod.snd)).notSink _ hit).1
  | tup l =>
    intro hmem
    obtain ⟨c, hc, rfl⟩ := List.mem_map.1 hmem
    exact hn.sinks c hc l (hn.tuples l hit) hpi

theorem Parts.sink_iff (hP : Parts layers L forced conns gs) (hw : WellFormedLayers layers) {g : Group} (hg : g ∈ gs)
    {t : Name} : t ∈ g.sinks ↔ ∃ p ∈ g.arrays, (p, t) ∈ conns := by
  have hgr := groupIntoHubs_ok hP.groupsOk
  have hn := hP.nested hw
  obtain ⟨node, -, hd, -⟩ := hgr.done g hg
  have hmem : ∀ it ∈ g.sources, it ∈ getAllSources forced conns ((networkArrays layers).map Prod.fst) := fun it hit =>
    hgr.perm.subset (List.mem_flatMap.2 ⟨g, hg, hit⟩)
  constructor
  · intro ht
    obtain ⟨it, hit, hc⟩ := (hd.snks (.one t)).1 (List.mem_map_of_mem ht)
    obtain ⟨p, hp, q, he, hc'⟩ := (hn.mem_merged (hmem it hit)).1 hc
    cases he
    exact ⟨p, List.mem_flatMap.2 ⟨it, hit, hp⟩, hc'⟩
  · rintro ⟨p, hp, hc⟩
    obtain ⟨it, hit, hpi⟩ := List.mem_flatMap.1 hp
    have := (hd.snks (.one t)).2 ⟨it, hit, (hn.mem_merged (hmem it hit)).2 ⟨p, hpi, t, rfl, hc⟩⟩
    simpa using this

theorem Parts.arrays_subset (hP : Parts layers L forced conns gs) (hw : WellFormedLayers layers) {g : Group}
    (hg : g ∈ gs) {p : Name} (hp : p ∈ g.arrays) :
    p ∈ (getAllSources forced conns ((networkArrays layers).map Prod.fst)).flatMap Item.flat :=
  (C08_partition _ _ _ _ _ (hP.nested hw) hP.groupsOk).1 g hg p hp

/-- What `Hub.create` guarantees for each group. -/
theorem Parts.created (hP : Parts layers L forced conns gs) (hw : WellFormedLayers layers) {g : Group} (hg : g ∈ gs) :
    g.arrays.Nodup ∧ g.sinks.Nodup ∧ (∀ s ∈ g.arrays, s ∉ g.sinks) ∧
    Hub.create (Dict.get? (networkArrays layers)) conns g.sources g.sinks = .ok g.hub ∧
    ∃ order, Created (Dict.get? (networkArrays layers)) conns g.sources g.sinks g.hub order := by
  have hgr := groupIntoHubs_ok hP.groupsOk
  have hn := hP.nested hw
  obtain ⟨node, -, hd, hc⟩ := hgr.done g hg
  have hnd : g.arrays.Nodup := by
    have h1 : ((gs.flatMap Group.sources).flatMap Item.flat).Nodup :=
      (hgr.perm.flatMap_right _).nodup_iff.2 hn.nodup
    rw [List.flatMap_assoc, List.nodup_flatMap] at h1
    exact h1.1 g hg
  have hns : g.sinks.Nodup := List.Nodup.of_map _ hd.nodupSnk
  refine ⟨hnd, hns, ?_, hc, create_ok hnd hns hc⟩
  intro s hs hsk
  obtain ⟨p, -, hpc⟩ := (hP.sink_iff hw hg).1 hsk
  exact hP.source_not_sink hw (hP.arrays_subset hw hg hs) (List.mem_map.2 ⟨_, hpc, rfl⟩)

theorem Parts.names_perm (hP : Parts layers L forced conns gs) (hw : WellFormedLayers layers) {g : Group} (hg : g ∈ gs) :
    (g.hub.getIndices.map Prod.fst).Perm g.names := by
  obtain ⟨-, -, -, -, order, hcr⟩ := hP.created hw hg
  rw [getIndices_names, hcr.flat, hcr.sinkList]
  exact (hcr.perm.flatMap_right _).append (sortBy_perm _ _)

theorem Parts.names_disjoint (hP : Parts layers L forced conns gs) (hw : WellFormedLayers layers) :
    gs.Pairwise (fun g g' => ∀ n ∈ g.names, n ∉ g'.names) := by
  have hn := hP.nested hw
  rw [List.pairwise_iff_getElem]
  intro i j hi hj hij n h1 h2
  have hne : j ≠ i := by omega
  have hpart := (C08_partition _ _ _ _ _ hn hP.groupsOk)
  rcases List.mem_append.1 h1 with h1 | h1 <;> rcases List.mem_append.1 h2 with h2 | h2
  · obtain ⟨k, hk, -, hu⟩ := hpart.2 n (hpart.1 _ (List.getElem_mem hi) _ h1)
    exact hne ((hu j hj h2).trans (hu i hi h1).symm)
  · obtain ⟨p, -, hc⟩ := (hP.sink_iff hw (List.getElem_mem hj)).1 h2
    exact hP.source_not_sink hw (hP.arrays_subset hw (List.getElem_mem hi) h1) (List.mem_map.2 ⟨_, hc, rfl⟩)
  · obtain ⟨p, -, hc⟩ := (hP.sink_iff hw (List.getElem_mem hi)).1 h1
    exact hP.source_not_sink hw (hP.arrays_subset hw (List.getElem_mem hj) h2) (List.mem_map.2 ⟨_, hc, rfl⟩)
  · obtain ⟨p, hp, hc⟩ := (hP.sink_iff hw (List.getElem_mem hi)).1 h1
    obtain ⟨k, hk, -, -, hu⟩ := C08_connections _ _ _ _ _ hn hP.groupsOk p n hc
    exact hne ((hu j hj (Or.inr h2)).trans (hu i hi (Or.inr h1)).symm)

theorem layoutHubs_names (k : Nat) (gs : List Group) :
    (layoutHubs k gs).map Entry.name = gs.flatMap (fun g => g.hub.getIndices.map Prod.fst) := by
  induction gs generalizing k with
  | nil => rfl
  | cons g gs ih => simp [layoutHubs, ih, Function.comp_def]

theorem mem_layoutHubs {k : Nat} {gs : List Group} {e : Entry} :
    e ∈ layoutHubs k gs ↔ ∃ i, ∃ hi : i < gs.length, e.hub = k + i ∧ (e.name, e.slice) ∈ gs[i].hub.getIndices := by
  induction gs generalizing k with
  | nil => simp [layoutHubs]
  | cons g gs ih =>
    simp only [layoutHubs, List.mem_append, List.mem_map, ih]
    constructor
    · rintro (⟨x, hx, rfl⟩ | ⟨i, hi, h1, h2⟩)
      · exact ⟨0, by simp, by simp, by simpa using hx⟩
      · exact ⟨i + 1, by simpa using hi, by omega, by simpa using h2⟩
    · rintro ⟨i, hi, h1, h2⟩
      cases i with
      | zero =>
        left
        refine ⟨(e.name, e.slice), by simpa using h2, ?_⟩
        cases e; simp at h1; simp [h1]
      | succ i => right; exact ⟨i, by simpa using hi, by omega, by simpa using h2⟩

theorem Parts.entries_nodup (hP : Parts layers L forced conns gs) (hw : WellFormedLayers layers) :
    (L.entries.map Entry.name).Nodup := by
  rw [hP.entries, layoutHubs_names, List.nodup_flatMap]
  have hperm : L.groups.Perm gs := by rw [hP.sorted]; exact sortBy_perm _ _
  refine ⟨fun g hg => ?_, ?_⟩
  · have hg' := hperm.subset hg
    rw [(hP.names_perm hw hg').nodup_iff]
    obtain ⟨h1, h2, h3, -⟩ := hP.created hw hg'
    exact List.nodup_append.2 ⟨h1, h2, fun a ha b hb hab => h3 a ha (hab ▸ hb)⟩
  · have hd := hP.names_disjoint hw
    have hsymm : ∀ {x y : Group}, (∀ n ∈ x.names, n ∉ y.names) → ∀ n ∈ y.names, n ∉ x.names :=
      fun h n h1 h2 => h n h2 h1
    have hd' := (hperm.pairwise_iff hsymm).2 hd
    refine hd'.imp_of_mem ?_
    intro a b ha hb hab n h1 h2
    exact hab n ((hP.names_perm hw (hperm.subset ha)).subset h1) ((hP.names_perm hw (hperm.subset hb)).subset h2)

theorem find_reverse {es : List Entry} (hnd : (es.map Entry.name).Nodup) {e : Entry} (he : e ∈ es) :
    es.reverse.find? (fun x => x.name = e.name) = some e := by
  have hex : ∃ x, es.reverse.find? (fun x => decide (x.name = e.name)) = some x := by
    rw [← Option.isSome_iff_exists, List.find?_isSome]
    exact ⟨e, by simpa using he, by simp⟩
  obtain ⟨x, hx⟩ := hex
  have h1 : x ∈ es := by simpa using List.mem_of_find?_eq_some hx
  have h2 : x.name = e.name := by simpa using List.find?_some hx
  rw [hx, List.inj_on_of_nodup_map hnd h1 he h2]

theorem Parts.get_eq (hP : Parts layers L forced conns gs) (hw : WellFormedLayers layers) {g : Group} (hg : g ∈ gs) :
    ∃ k, ∃ hk : k < L.groups.length, L.groups[k] = g ∧
      ∀ n sl, (n, sl) ∈ g.hub.getIndices → L.get n = some (k, sl) := by
  have hperm : L.groups.Perm gs := by rw [hP.sorted]; exact sortBy_perm _ _
  obtain ⟨k, hk, rfl⟩ := List.getElem_of_mem (hperm.symm.subset hg)
  refine ⟨k, hk, rfl, ?_⟩
  intro n sl hmem
  have he : (⟨n, k, sl⟩ : Entry) ∈ L.entries := by
    rw [hP.entries, mem_layoutHubs]
    exact ⟨k, hk, by simp, hmem⟩
  unfold Layout.get
  rw [find_reverse (hP.entries_nodup hw) he]
  rfl

end

/-- See `C08_every_array`. -/
theorem every_array (layers : List LayerInfo) (hw : WellFormedLayers layers) (L : Layout)
    (h : createLayout layers = .ok L) (l : LayerInfo) (hl : l ∈ layers)
    (cat b : Name)
    (hb : ∃ c ∈ layerCats l, c.1 = cat ∧ b ∈ c.2.2.map Prod.fst) :
    ∃ e ∈ L.entries, e.name = path l.name cat b ∧ L.get (path l.name cat b) = some (e.hub, e.slice) ∧
      ∀ e' ∈ L.entries, e'.name = path l.name cat b → e' = e := by
  obtain ⟨forced, conns, gs, hP⟩ := createLayout_ok h
  have hn := hP.nested hw
  have hperm : L.groups.Perm gs := by rw [hP.sorted]; exact sortBy_perm _ _
  obtain ⟨c, hc, rfl, hbc⟩ := hb
  have harr : path l.name c.1 b ∈ (networkArrays layers).map Prod.fst :=
    mem_networkArrays.2 ⟨l, hl, c, hc, b, hbc, rfl⟩
  have hg : ∃ g ∈ gs, path l.name c.1 b ∈ g.names := by
    by_cases hs : path l.name c.1 b ∈ conns.map Prod.snd
    · obtain ⟨d, hd, hde⟩ := List.mem_map.1 hs
      obtain ⟨i, hi, -, ht, -⟩ := C08_connections _ _ _ _ _ hn hP.groupsOk d.1 d.2 (by simpa using hd)
      exact ⟨gs[i], List.getElem_mem hi, List.mem_append_right _ (hde ▸ ht)⟩
    · have hsrc := (sources_inv hw hP.forcedOk (conns.map Prod.snd)).covered _ harr hs path_ne_root.1 path_ne_root.2
      obtain ⟨i, hi, hp, -⟩ := (C08_partition _ _ _ _ _ hn hP.groupsOk).2 _ hsrc
      exact ⟨gs[i], List.getElem_mem hi, List.mem_append_left _ hp⟩
  obtain ⟨g, hgm, hng⟩ := hg
  obtain ⟨k, hk, hkg, hget⟩ := hP.get_eq hw hgm
  obtain ⟨⟨n, sl⟩, hmem, he⟩ := List.mem_map.1 ((hP.names_perm hw hgm).symm.subset hng)
  simp only at he
  subst he
  have hent : (⟨path l.name c.1 b, k, sl⟩ : Entry) ∈ L.entries := by
    rw [hP.entries, mem_layoutHubs]
    exact ⟨k, hk, by simp, by rw [hkg]; exact hmem⟩
  refine ⟨_, hent, rfl, hget _ _ hmem, ?_⟩
  intro e' he' hne
  exact List.inj_on_of_nodup_map (hP.entries_nodup hw) he' hent hne

/-- **C08** (whole networks).  In a network that can be laid out, every array
(inputs, outputs, parameters, internals and their deltas) is assigned exactly one
hub and slice. -/
theorem C08_every_array (layers : List LayerInfo) (hw : WellFormedLayers layers) (_hroot : NoRootNames layers) (L : Layout)
    (h : createLayout layers = .ok L) (l : LayerInfo) (hl : l ∈ layers)
    (cat b : Name)
    (hb : ∃ c ∈ layerCats l, c.1 = cat ∧ b ∈ c.2.2.map Prod.fst) :
    ∃ e ∈ L.entries, e.name = path l.name cat b ∧ L.get (path l.name cat b) = some (e.hub, e.slice) ∧
      ∀ e' ∈ L.entries, e'.name = path l.name cat b → e' = e :=
  every_array layers hw L h l hl _ _ hb

end Verif.Layout
