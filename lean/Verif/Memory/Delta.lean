import Verif.Memory.Cells

/-!
# The addresses of deltas
-/

namespace Verif.Memory

open Verif.Structure Verif.Layout Verif.Buffers

section
variable {layers : List LayerInfo} {L : Layout} {T B : Nat}

/-- Entries of values and of their deltas. -/
structure Pair (layers : List LayerInfo) (L : Layout) (T B : Nat) (p q : Name) (e e' : ArrayEntry) (h h' : HubInfo)
    (rel : List Nat) : Prop where
  left : Entry layers L T B p e h
  right : Entry layers L T B q e' h'
  slice : e'.slice = e.slice
  size : h'.size = h.size
  rows : rows e'.struct T B = Memory.rows e.struct T B
  mainRows : Memory.rows (noContext e').struct T B = Memory.rows (noContext e).struct T B
  cells : cells (netOf layers L) T B p = rel.map (hubBase (netOf layers L).hubs T B e.hub + ·)
  deltas : Memory.cells (netOf layers L) T B q = rel.map (hubBase (netOf layers L).hubs T B e'.hub + ·)

theorem Laid.pair (hL : Laid layers L) {p q : Name} (hpd : DeltaOf layers p q) :
    ∃ e e' h h' rel, Pair layers L T B p q e e' h h' rel := by
  obtain ⟨e, e', v, v', rel, h1, h2, h3, h4, -, -, h7, h8, h9, h10, h11, h12⟩ :=
    delta_entries hL.wf hL.noInternal hL.shaped hL.layout T B p q hpd
  obtain ⟨h, hE⟩ := hL.entry (T := T) (B := B) h1
  obtain ⟨h', hE'⟩ := hL.entry (T := T) (B := B) h2
  have hb : e'.struct.bufferType = e.struct.bufferType := by simp only [Struct.bufferType, h10]
  refine ⟨e, e', h, h', rel, hE, hE', h9, ?_, ?_, ?_, ?_, ?_⟩
  · rw [hE.hub, hE'.hub] at h12
    simpa using h12
  · simp only [Memory.rows, hb, h11]
  · simp only [rows_noContext, hb]
  · simp [Memory.cells, h1, h3, h7]
  · simp [Memory.cells, h2, h4, h8]

theorem DeltaCell.pair (hL : Laid layers L) {a d : Nat} (hd : DeltaCell layers (netOf layers L) T B a d) :
    ∃ p q e e' h h' rel r, DeltaOf layers p q ∧ Pair layers L T B p q e e' h h' rel ∧
      a = hubBase (netOf layers L).hubs T B e.hub + r ∧ d = hubBase (netOf layers L).hubs T B e'.hub + r ∧
      a ∈ cells (netOf layers L) T B p ∧ d ∈ cells (netOf layers L) T B q := by
  obtain ⟨p, q, i, hpq, h1, h2⟩ := hd
  obtain ⟨e, e', h, h', rel, hP⟩ := hL.pair (T := T) (B := B) hpq
  have m1 := List.mem_of_getElem? h1
  have m2 := List.mem_of_getElem? h2
  rw [hP.cells, List.getElem?_map] at h1
  rw [hP.deltas, List.getElem?_map] at h2
  obtain ⟨r, hr, rfl⟩ := Option.map_eq_some_iff.1 h1
  rw [hr] at h2
  simp only [Option.map_some, Option.some.injEq] at h2
  exact ⟨p, q, e, e', h, h', rel, r, hpq, hP, rfl, h2.symm, m1, m2⟩

theorem Pair.hubs (hL : Laid layers L) {p q p' q' : Name} (hpq : DeltaOf layers p q) (hpq' : DeltaOf layers p' q')
    {e e' f f' : ArrayEntry} {h h' g g' : HubInfo} {rel rel' : List Nat} (hP : Pair layers L T B p q e e' h h' rel)
    (hP' : Pair layers L T B p' q' f f' g g' rel') : e.hub = f.hub ↔ e'.hub = f'.hub := by
  obtain ⟨i, j, sl, -, -, h1, h2, -⟩ := C71_same_place layers hL.wf hL.roots hL.noInternal L hL.layout p q hpq
  obtain ⟨i', j', sl', -, -, h1', h2', -⟩ := C71_same_place layers hL.wf hL.roots hL.noInternal L hL.layout p' q' hpq'
  have := C71_same_sharing layers hL.wf hL.roots hL.noInternal L hL.layout p q p' q' hpq hpq' _ _ _ _ _ _ _ _ h1 h2 h1' h2'
  rw [(layout_hub hP.left.get h1).1, (layout_hub hP.right.get h2).1, (layout_hub hP'.left.get h1').1,
    (layout_hub hP'.right.get h2').1]
  exact this

/-- An entry has one delta. -/
theorem DeltaCell.unique (hL : Laid layers L) {a d d' : Nat} (h1 : DeltaCell layers (netOf layers L) T B a d)
    (h2 : DeltaCell layers (netOf layers L) T B a d') : d = d' := by
  obtain ⟨p, q, e, e', h, h', rel, r, hpq, hP, ha, rfl, hm, -⟩ := h1.pair hL
  obtain ⟨p', q', f, f', g, g', rel', r', hpq', hP', ha', rfl, hm', -⟩ := h2.pair hL
  have hh := hP.left.hub_eq hP'.left hm hm'
  rw [(hP.hubs hL hpq hpq' hP').1 hh]
  rw [hh] at ha
  omega

/-- A delta belongs to one entry. -/
theorem DeltaCell.inj (hL : Laid layers L) {a a' d : Nat} (h1 : DeltaCell layers (netOf layers L) T B a d)
    (h2 : DeltaCell layers (netOf layers L) T B a' d) : a = a' := by
  obtain ⟨p, q, e, e', h, h', rel, r, hpq, hP, rfl, hd, -, hm⟩ := h1.pair hL
  obtain ⟨p', q', f, f', g, g', rel', r', hpq', hP', rfl, hd', -, hm'⟩ := h2.pair hL
  have hh := hP.right.hub_eq hP'.right hm hm'
  rw [(hP.hubs hL hpq hpq' hP').2 hh]
  rw [hh] at hd
  omega

theorem DeltaCell.eq (hL : Laid layers L) {a d : Nat} (h : DeltaCell layers (netOf layers L) T B a d) :
    delta layers (netOf layers L) T B a = d := by
  have hex : ∃ d, DeltaCell layers (netOf layers L) T B a d := ⟨d, h⟩
  rw [delta, dif_pos hex]
  exact hex.choose_spec.unique hL h

/-- Entries of arrays with deltas have deltas. -/
theorem Laid.deltaCell (hL : Laid layers L) {p q : Name} (hpq : DeltaOf layers p q) {a : Nat}
    (ha : a ∈ cells (netOf layers L) T B p) :
    DeltaCell layers (netOf layers L) T B a (delta layers (netOf layers L) T B a) := by
  obtain ⟨e, e', h, h', rel, hP⟩ := hL.pair (T := T) (B := B) hpq
  obtain ⟨i, hi⟩ := List.getElem?_of_mem ha
  have h1 := hi
  rw [hP.cells, List.getElem?_map] at hi
  obtain ⟨r, hr, rfl⟩ := Option.map_eq_some_iff.1 hi
  have hd : DeltaCell layers (netOf layers L) T B (hubBase (netOf layers L).hubs T B e.hub + r)
      (hubBase (netOf layers L).hubs T B e'.hub + r) :=
    ⟨p, q, i, hpq, h1, by rw [hP.deltas, List.getElem?_map, hr]; rfl⟩
  rw [hd.eq hL]
  exact hd

theorem Laid.delta_place (hL : Laid layers L) {p q : Name} (hpq : DeltaOf layers p q) {a : Nat}
    (ha : a ∈ cells (netOf layers L) T B p) :
    delta layers (netOf layers L) T B a ∈ cells (netOf layers L) T B q ∧
    (a ∈ mainCells (netOf layers L) T B p → delta layers (netOf layers L) T B a ∈ mainCells (netOf layers L) T B q) := by
  obtain ⟨e, e', h, h', rel, hP⟩ := hL.pair (T := T) (B := B) hpq
  obtain ⟨i, hi⟩ := List.getElem?_of_mem ha
  have h1 := hi
  rw [hP.cells, List.getElem?_map] at hi
  obtain ⟨r, hr, rfl⟩ := Option.map_eq_some_iff.1 hi
  have hd : DeltaCell layers (netOf layers L) T B (hubBase (netOf layers L).hubs T B e.hub + r)
      (hubBase (netOf layers L).hubs T B e'.hub + r) :=
    ⟨p, q, i, hpq, h1, by rw [hP.deltas, List.getElem?_map, hr]; rfl⟩
  rw [hd.eq hL]
  refine ⟨?_, fun hm => ?_⟩
  · rw [hP.deltas]
    exact List.mem_map.2 ⟨r, List.mem_of_getElem? hr, rfl⟩
  · obtain ⟨row, f, g1, g2, g3, g4⟩ := (hP.left.mainMem _).1 hm
    refine (hP.right.mainMem _).2 ⟨row, f, by rw [hP.mainRows]; exact g1, by rw [hP.slice]; exact g2,
      by rw [hP.slice]; exact g3, ?_⟩
    rw [hP.size]
    omega

/-- The addresses of an array that is not the end of a connection are cleared before the backward pass exactly if
the array is declared to be used in the backward pass only. -/
theorem Laid.back_iff (hL : Laid layers L) {conns : List (Name × Name)} (hc : getConnections layers = .ok conns)
    {p : Name} {s : Struct} (hps : Dict.get? (networkArrays layers) p = some s) (hpe : p ∉ conns.map Prod.snd) {a : Nat}
    (ha : a ∈ cells (netOf layers L) T B p) : a ∈ backCells (netOf layers L) T B ↔ s.backwardOnly = true := by
  obtain ⟨forced, conns', gs, hP⟩ := createLayout_ok hL.layout
  have : conns' = conns := by have := hP.connsOk; rw [hc] at this; simpa using this.symm
  subst this
  have hw := hL.wf
  have hpa : p ∈ (networkArrays layers).map Prod.fst := List.mem_map.2 ⟨_, Dict.mem_of_get? hps, rfl⟩
  obtain ⟨g, hg, k, hk, hkg, sl, hget, hmem⟩ := Parts.array_entry hP hw hL.layout hpa
  obtain ⟨-, -, -, -, order, hcre⟩ := hP.created hw hg
  have hpsrc : p ∈ g.hub.flatSources := by
    rcases mem_getIndices.1 hmem with ⟨i, hi, hee⟩ | ⟨j, hj, hee⟩
    · simp only [Prod.mk.injEq] at hee
      rw [hee.1]; exact List.getElem_mem hi
    · exfalso
      simp only [Prod.mk.injEq] at hee
      have hall : ∀ x ∈ g.hub.sinks, x ∈ g.sinks := by
        rw [hcre.sinkList]; intro x hx; exact mem_sortBy.1 hx
      obtain ⟨q, -, hqc⟩ := (hP.sink_iff hw hg).1 (hall _ (List.getElem_mem hj))
      exact hpe (List.mem_map.2 ⟨_, hqc, hee.1.symm⟩)
  have hback : g.hub.backwardOnly = s.backwardOnly := by
    obtain ⟨i, hi, hpi⟩ := List.getElem_of_mem hpsrc
    obtain ⟨s', e1, -, -, e2⟩ := hcre.btype i hi
    rw [hpi, hps] at e1
    cases e1
    exact e2.symm
  obtain ⟨e, he, -, hehub, -⟩ := netOf_get hP hw hg hmem (Or.inl hpa)
  obtain ⟨h, hE⟩ := hL.entry (T := T) (B := B) he
  have hhg : h = hubInfo g := by
    have := hE.hub
    rw [hehub] at this
    simpa using this.symm
  have hbd := hE.bounds a ha
  have hek : e.hub < (netOf layers L).hubs.length := (List.getElem?_eq_some_iff.1 hE.hub).1
  constructor
  · rintro ⟨k', h', hk', hb', hm'⟩
    obtain ⟨hk'', -⟩ := List.getElem?_eq_some_iff.1 hk'
    rw [hubCells_eq _ _ _ _ hk'', mem_cellsOf_all, ← hubBase_succ _ _ _ _ hk''] at hm'
    have := offset_unique hm' hbd
    subst this
    rw [hE.hub] at hk'
    cases hk'
    rw [← hback]
    rw [hhg] at hb'
    exact hb'
  · intro hb
    refine ⟨e.hub, h, hE.hub, by rw [hhg]; simpa [hubInfo, hback] using hb, ?_⟩
    rw [hubCells_eq _ _ _ _ hek, mem_cellsOf_all, ← hubBase_succ _ _ _ _ hek]
    exact hbd

end

end Verif.Memory
