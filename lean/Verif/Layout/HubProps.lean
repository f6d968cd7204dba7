import Verif.Layout.HubLemmas

/-!
# C09, C10: one hub of the memory layout
-/

namespace Verif.Layout

open Verif.Structure

theorem lookupAll_ok {structOf : Name → Option Struct} :
    ∀ {l : List Name} {ss : List Struct}, lookupAll structOf l = .ok ss →
      ss.length = l.length ∧ ∀ i (h : i < l.length), structOf l[i] = ss[i]? := by
  intro l
  induction l with
  | nil => intro ss h; simp [lookupAll] at h; subst h; simp
  | cons p ps ih =>
    intro ss h
    simp only [lookupAll] at h
    cases hp : structOf p with
    | none => simp [hp] at h
    | some s =>
      simp only [hp] at h
      cases hr : lookupAll structOf ps with
      | error e => simp [hr] at h
      | ok rest =>
        simp only [hr, Except.ok.injEq] at h
        subst h
        obtain ⟨h1, h2⟩ := ih hr
        refine ⟨by simp [h1], ?_⟩
        intro i hi
        cases i with
        | zero => simpa using hp
        | succ i => simpa using h2 i (by simpa using hi)

theorem lookupAll_ne_validation {structOf : Name → Option Struct} :
    ∀ {l : List Name}, lookupAll structOf l ≠ .error .validation := by
  intro l
  induction l with
  | nil => simp [lookupAll]
  | cons p ps ih =>
    simp only [lookupAll]
    cases structOf p with
    | none => simp
    | some s =>
      cases hr : lookupAll structOf ps with
      | error e => intro h; exact ih (by rw [hr]; simpa using h)
      | ok rest => simp

theorem ensureUniform_ne_validation {α : Type} [DecidableEq α] {l : List α} :
    ensureUniform l ≠ .error .validation := by
  cases l with
  | nil => simp [ensureUniform]
  | cons x xs => simp only [ensureUniform]; split <;> simp

theorem sortedItems_ok {l s : List Item} (h : sortedItems l = .ok s) : s.Perm l := by
  unfold sortedItems at h
  split at h
  · simp at h; subst h; exact sortBy_perm _ _
  · simp at h

theorem sortedItems_ne_validation {l : List Item} : sortedItems l ≠ .error .validation := by
  unfold sortedItems; split <;> simp

/-- The test of one permutation, in terms of the names. -/
theorem singleBuffer_names {conns : List (Name × Name)} {flat sinks : List Name}
    (hf : flat.Nodup) (hs : sinks.Nodup) {rows : List Nat} (hr : ∀ i ∈ rows, i < flat.length) :
    singleBuffer (connTable flat sinks conns) sinks.length rows = true ↔
      ∀ t ∈ sinks, Consecutive (fun s => (s, t) ∈ conns) (rows.map (fun i => flat.getD i [])) := by
  rw [singleBuffer_iff]
  have key : ∀ j (hj : j < sinks.length),
      (Consecutive (fun i => connTable flat sinks conns i j = true) rows ↔
        Consecutive (fun s => (s, sinks[j]) ∈ conns) (rows.map (fun i => flat.getD i []))) := by
    intro j hj
    rw [Consecutive.map_iff]
    apply Consecutive.congr
    intro i hi
    rw [connTable_iff hf hs (hr i hi) hj, getD_of_lt (hr i hi)]
  constructor
  · intro h t ht
    obtain ⟨j, hj, rfl⟩ := List.getElem_of_mem ht
    exact (key j hj).1 (h j hj)
  · intro h j hj
    exact (key j hj).2 (h _ (List.getElem_mem hj))

theorem map_flatten_names {flat : List Name} {p : List (List Nat)} {order : List Item}
    (h : order.map Item.flat = p.map (fun g => g.map (fun i => flat.getD i []))) :
    p.flatten.map (fun i => flat.getD i []) = order.flatMap Item.flat := by
  rw [List.map_flatten, ← h, List.flatMap_def]

/-- The search for an order: what a result and a failure mean. -/
theorem permuteRows_spec {conns : List (Name × Name)} {sorted : List Item} {sinks : List Name}
    (hf : (sorted.flatMap Item.flat).Nodup) (hs : sinks.Nodup) :
    (∀ p, permuteRows (connTable (sorted.flatMap Item.flat) sinks conns) sinks.length
        (nestedIndices 0 sorted) = .ok p →
      ∃ order : List Item, order.Perm sorted ∧
        p.map (fun i => (sorted.flatMap Item.flat).getD i []) = order.flatMap Item.flat ∧
        p.Perm (List.range (sorted.flatMap Item.flat).length) ∧
        FeedsContiguously conns sinks order) ∧
    (∀ e, permuteRows (connTable (sorted.flatMap Item.flat) sinks conns) sinks.length
        (nestedIndices 0 sorted) = .error e →
      ∀ order : List Item, order.Perm sorted → ¬ FeedsContiguously conns sinks order) := by
  have hnames := nestedIndices_names sorted [] []
  simp only [List.length_nil, List.nil_append, List.append_nil] at hnames
  have hrows : ∀ q : List (List Nat), q.Perm (nestedIndices 0 sorted) →
      ∀ i ∈ q.flatten, i < (sorted.flatMap Item.flat).length := by
    intro q hq i hi
    obtain ⟨g, hg, hig⟩ := List.mem_flatten.1 hi
    have := nestedIndices_lt sorted 0 g (hq.subset hg) i hig
    omega
  constructor
  · intro p hp
    unfold permuteRows at hp
    split at hp
    · rename_i p' hfind
      simp at hp
      subst hp
      have hb := List.find?_some hfind
      have hmem := List.mem_of_find?_eq_some hfind
      obtain ⟨q, hq, rfl⟩ := List.mem_map.1 hmem
      have hqp := mem_perms.1 hq
      have hmp : (q.map (fun g => g.map (fun i => (sorted.flatMap Item.flat).getD i []))).Perm
          (sorted.map Item.flat) := by
        rw [← hnames]; exact hqp.map _
      obtain ⟨order, ho, heq⟩ := exists_perm_of_perm_map hmp
      refine ⟨order, ho, map_flatten_names heq, ?_, ?_⟩
      · have := hqp.flatten
        rw [nestedIndices_flatten, ← List.range_eq_range'] at this
        exact this
      · have := (singleBuffer_names hf hs (hrows q hqp)).1 hb
        rw [map_flatten_names heq] at this
        exact this
    · simp at hp
  · intro e he order ho hfeed
    unfold permuteRows at he
    split at he
    · simp at he
    · rename_i hfind
      rw [List.find?_eq_none] at hfind
      have hmp : (order.map Item.flat).Perm
          ((nestedIndices 0 sorted).map (fun g => g.map (fun i => (sorted.flatMap Item.flat).getD i []))) := by
        rw [hnames]; exact ho.map _
      obtain ⟨q, hq, heq⟩ := exists_perm_of_perm_map hmp
      refine hfind q.flatten (List.mem_map.2 ⟨q, mem_perms.2 hq, rfl⟩) ?_
      rw [singleBuffer_names hf hs (hrows q hq), map_flatten_names heq.symm]
      exact hfeed

theorem FeedsContiguously.sort {conns : List (Name × Name)} {sinks : List Name} {order : List Item} :
    FeedsContiguously conns (sortBy nameLe sinks) order ↔ FeedsContiguously conns sinks order := by
  simp only [FeedsContiguously, mem_sortBy]

/-- Everything a successful `Hub.create` guarantees. -/
structure Created (structOf : Name → Option Struct) (conns : List (Name × Name))
    (sources : List Item) (sinks : List Name) (h : Hub) (order : List Item) : Prop where
  perm : order.Perm sources
  flat : h.flatSources = order.flatMap Item.flat
  sinkList : h.sinks = sortBy nameLe sinks
  feeds : FeedsContiguously conns sinks order
  nodup : h.flatSources.Nodup
  lenSizes : h.sizes.length = h.flatSources.length
  sizes : ∀ i (hi : i < h.flatSources.length), ∃ s, structOf h.flatSources[i] = some s ∧
    h.sizes[i]? = some s.featureSize
  size : h.size = h.sizes.sum
  table : ∀ r j (hr : r < h.flatSources.length) (hj : j < h.sinks.length),
    h.table r j = true ↔ (h.flatSources[r], h.sinks[j]) ∈ conns
  btype : ∀ i (hi : i < h.flatSources.length), ∃ s, structOf h.flatSources[i] = some s ∧
    s.bufferType = h.btype ∧ s.contextSize ≤ h.contextSize ∧ s.backwardOnly = h.backwardOnly

theorem ensureUniform_ok {α : Type} [DecidableEq α] {l : List α} {x : α}
    (h : ensureUniform l = .ok x) : ∀ y ∈ l, y = x := by
  cases l with
  | nil => simp [ensureUniform] at h
  | cons a as =>
    simp only [ensureUniform] at h
    split at h
    · rename_i hall
      simp at h
      subst h
      intro y hy
      rcases List.mem_cons.1 hy with rfl | hy
      · rfl
      · simpa using List.all_eq_true.1 hall y hy
    · simp at h

theorem le_foldl_max (l : List Nat) (a : Nat) : a ≤ l.foldl max a ∧ ∀ x ∈ l, x ≤ l.foldl max a := by
  induction l generalizing a with
  | nil => simp
  | cons b l ih =>
    simp only [List.foldl_cons]
    obtain ⟨h1, h2⟩ := ih (max a b)
    refine ⟨by omega, ?_⟩
    intro x hx
    rcases List.mem_cons.1 hx with rfl | hx
    · omega
    · exact h2 x hx

theorem create_ok {structOf : Name → Option Struct} {conns : List (Name × Name)}
    {sources : List Item} {sinks : List Name} {h : Hub}
    (hf : (sources.flatMap Item.flat).Nodup) (hs : sinks.Nodup)
    (hc : Hub.create structOf conns sources sinks = .ok h) :
    ∃ order, Created structOf conns sources sinks h order := by
  unfold Hub.create at hc
  cases hsort : sortedItems sources with
  | error e => simp [hsort] at hc
  | ok sorted =>
    simp only [hsort] at hc
    have hps := sortedItems_ok hsort
    have hf' : (sorted.flatMap Item.flat).Nodup := (hps.flatMap_right _).nodup_iff.2 hf
    have hs' : (sortBy nameLe sinks).Nodup := (sortBy_perm _ _).nodup_iff.2 hs
    cases hlook : lookupAll structOf (sorted.flatMap Item.flat) with
    | error e => simp [hlook] at hc
    | ok structs =>
      simp only [hlook] at hc
      obtain ⟨hlen, hstr⟩ := lookupAll_ok hlook
      cases hbt : ensureUniform (structs.map Struct.bufferType) with
      | error e => simp [hbt] at hc
      | ok bt =>
        simp only [hbt] at hc
        obtain ⟨hok, -⟩ := permuteRows_spec (conns := conns) hf' hs'
        cases hperm : permuteRows (connTable (sorted.flatMap Item.flat) (sortBy nameLe sinks) conns)
            (sortBy nameLe sinks).length (nestedIndices 0 sorted) with
        | error e => simp [hperm] at hc
        | ok p =>
          simp only [hperm] at hc
          obtain ⟨order, ho, hnames, hprange, hfeed⟩ := hok p hperm
          have hplt : ∀ i ∈ p, i < (sorted.flatMap Item.flat).length := fun i hi =>
            List.mem_range.1 (hprange.subset hi)
          cases hbw : ensureUniform ((p.map (fun i => structs.getD i ⟨[], 0, false⟩)).map Struct.backwardOnly) with
          | error e => simp only [hbw] at hc; simp at hc
          | ok bw =>
            simp only [hbw, Except.ok.injEq] at hc
            subst hc
            have hplt' : ∀ i (hi : i < p.length), p[i] < structs.length := fun i hi => by
              rw [hlen]; exact hplt _ (List.getElem_mem hi)
            have hst : ∀ i (hi : i < p.length),
                structOf ((sorted.flatMap Item.flat).getD p[i] []) = some (structs.getD p[i] ⟨[], 0, false⟩) := by
              intro i hi
              have hl := hplt _ (List.getElem_mem hi)
              rw [getD_of_lt hl, getD_of_lt (hplt' i hi), hstr _ hl, List.getElem?_eq_getElem (hplt' i hi)]
            refine ⟨order, ho.trans hps, hnames, rfl, FeedsContiguously.sort.1 hfeed, ?_, by simp, ?_, rfl, ?_, ?_⟩
            · have : (order.flatMap Item.flat).Nodup := (ho.flatMap_right _).nodup_iff.2 hf'
              rw [← hnames] at this
              exact this
            · intro i hi
              have hi' : i < p.length := by simpa using hi
              refine ⟨structs.getD p[i] ⟨[], 0, false⟩, ?_, ?_⟩
              · simpa using hst i hi'
              · simp [hi']
            · intro r j hr hj
              have hr' : r < p.length := by simpa using hr
              simp only [getD_of_lt hr']
              rw [connTable_iff hf' hs' (hplt _ (List.getElem_mem hr')) hj]
              simp only [List.getElem_map, getD_of_lt (hplt _ (List.getElem_mem hr'))]
            · intro i hi
              have hi' : i < p.length := by simpa using hi
              have hmem : structs.getD p[i] ⟨[], 0, false⟩ ∈ structs := by
                rw [getD_of_lt (hplt' i hi')]; exact List.getElem_mem _
              refine ⟨structs.getD p[i] ⟨[], 0, false⟩, ?_, ?_, ?_, ?_⟩
              · simpa using hst i hi'
              · exact ensureUniform_ok hbt _ (List.mem_map_of_mem hmem)
              · exact (le_foldl_max _ _).2 _ (List.mem_map_of_mem hmem)
              · exact ensureUniform_ok hbw _ (List.mem_map_of_mem (List.mem_map_of_mem (List.getElem_mem hi')))

/-! ### Properties -/

/-- **C10** (a layout is found).  Laying out a group of sources never fails with
"Failed to lay out buffers" when some order of the sources, with every layer's
parameters kept together and in order, lets each sink be fed from one gapless
block. -/
theorem C10_complete (structOf : Name → Option Struct) (conns : List (Name × Name))
    (sources : List Item) (sinks : List Name)
    (hf : (sources.flatMap Item.flat).Nodup) (hs : sinks.Nodup)
    (order : List Item) (ho : order.Perm sources) (hfeed : FeedsContiguously conns sinks order) :
    Hub.create structOf conns sources sinks ≠ .error .validation := by
  intro hc
  unfold Hub.create at hc
  cases hsort : sortedItems sources with
  | error e => simp only [hsort] at hc; exact sortedItems_ne_validation (by rw [hsort]; simpa using hc)
  | ok sorted =>
    simp only [hsort] at hc
    have hps := sortedItems_ok hsort
    have hf' : (sorted.flatMap Item.flat).Nodup := (hps.flatMap_right _).nodup_iff.2 hf
    have hs' : (sortBy nameLe sinks).Nodup := (sortBy_perm _ _).nodup_iff.2 hs
    cases hlook : lookupAll structOf (sorted.flatMap Item.flat) with
    | error e =>
      simp only [hlook] at hc
      exact lookupAll_ne_validation (by rw [hlook]; simpa using hc)
    | ok structs =>
      simp only [hlook] at hc
      cases hbt : ensureUniform (structs.map Struct.bufferType) with
      | error e =>
        simp only [hbt] at hc
        exact ensureUniform_ne_validation (by rw [hbt]; simpa using hc)
      | ok bt =>
        simp only [hbt] at hc
        obtain ⟨-, herr⟩ := permuteRows_spec (conns := conns) hf' hs'
        cases hperm : permuteRows (connTable (sorted.flatMap Item.flat) (sortBy nameLe sinks) conns)
            (sortBy nameLe sinks).length (nestedIndices 0 sorted) with
        | error e =>
          exact herr e hperm order (ho.trans hps.symm) (FeedsContiguously.sort.2 hfeed)
        | ok p =>
          simp only [hperm] at hc
          cases hbw : ensureUniform ((p.map (fun i => structs.getD i ⟨[], 0, false⟩)).map Struct.backwardOnly) with
          | error e =>
            simp only [hbw] at hc
            exact ensureUniform_ne_validation (by rw [hbw]; simpa using hc)
          | ok bw => simp only [hbw] at hc; simp at hc

/-- **C10** (a layout that is found is a layout).  The order chosen by a
successful layout is an order of the sources in which every sink is fed from one
gapless block. -/
theorem C10_sound (structOf : Name → Option Struct) (conns : List (Name × Name))
    (sources : List Item) (sinks : List Name) (h : Hub)
    (hf : (sources.flatMap Item.flat).Nodup) (hs : sinks.Nodup)
    (hc : Hub.create structOf conns sources sinks = .ok h) :
    ∃ order : List Item, order.Perm sources ∧ h.flatSources = order.flatMap Item.flat ∧
      FeedsContiguously conns sinks order := by
  obtain ⟨order, hcr⟩ := create_ok hf hs hc
  exact ⟨order, hcr.perm, hcr.flat, hcr.feeds⟩

theorem mem_getIndices {h : Hub} {e : Name × Nat × Nat} :
    e ∈ h.getIndices ↔
      (∃ i, ∃ hi : i < h.flatSources.length,
        e = (h.flatSources[i], offset h.sizes i, offset h.sizes (i + 1))) ∨
      (∃ j, ∃ hj : j < h.sinks.length, e = (h.sinks[j], h.sinkSlice j)) := by
  simp only [Hub.getIndices, List.mem_append, List.mem_map, List.mem_zipIdx_iff_getElem?, Prod.exists]
  constructor
  · rintro (⟨n, i, hi, rfl⟩ | ⟨n, j, hj, rfl⟩)
    · obtain ⟨hi', rfl⟩ := List.getElem?_eq_some_iff.1 hi
      exact Or.inl ⟨i, hi', rfl⟩
    · obtain ⟨hj', rfl⟩ := List.getElem?_eq_some_iff.1 hj
      exact Or.inr ⟨j, hj', rfl⟩
  · rintro (⟨i, hi, rfl⟩ | ⟨j, hj, rfl⟩)
    · exact Or.inl ⟨_, i, List.getElem?_eq_getElem hi, rfl⟩
    · exact Or.inr ⟨_, j, List.getElem?_eq_getElem hj, rfl⟩

/-- **C09** (sources).  In a laid-out hub every source owns a slice as long as
its feature size, and every position of the hub belongs to the slice of exactly
one source. -/
theorem C09_sources_tile (structOf : Name → Option Struct) (conns : List (Name × Name))
    (sources : List Item) (sinks : List Name) (h : Hub)
    (hf : (sources.flatMap Item.flat).Nodup) (hs : sinks.Nodup)
    (hdisj : ∀ s ∈ sources.flatMap Item.flat, s ∉ sinks)
    (hc : Hub.create structOf conns sources sinks = .ok h) :
    (∀ s ∈ sources.flatMap Item.flat, ∃ st lo, structOf s = some st ∧
      (∀ slice, (s, slice) ∈ h.getIndices ↔ slice = (lo, lo + st.featureSize)) ∧
      lo + st.featureSize ≤ h.size) ∧
    (∀ f < h.size, ∃ s ∈ sources.flatMap Item.flat, ∃ slice, (s, slice) ∈ h.getIndices ∧ Inside f slice ∧
      ∀ s' ∈ sources.flatMap Item.flat, ∀ slice', (s', slice') ∈ h.getIndices → Inside f slice' → s' = s) := by
  obtain ⟨order, hcr⟩ := create_ok hf hs hc
  have hmemflat : ∀ s, s ∈ h.flatSources ↔ s ∈ sources.flatMap Item.flat := by
    intro s
    rw [hcr.flat]
    exact (hcr.perm.flatMap_right _).mem_iff
  have hnotsink : ∀ s, s ∈ sources.flatMap Item.flat → ∀ j (hj : j < h.sinks.length), s ≠ h.sinks[j] := by
    rintro s hsrc j hj rfl
    refine hdisj _ hsrc ?_
    have := List.getElem_mem hj
    rw [show (h.sinks[j] ∈ h.sinks) = (h.sinks[j] ∈ sortBy nameLe sinks) by rw [← hcr.sinkList]] at this
    exact mem_sortBy.1 this
  constructor
  · intro s hsrc
    obtain ⟨i, hi, rfl⟩ := List.getElem_of_mem ((hmemflat s).2 hsrc)
    obtain ⟨st, hst, hsz⟩ := hcr.sizes i hi
    have hi' : i < h.sizes.length := by rw [hcr.lenSizes]; exact hi
    have hsz' : h.sizes[i] = st.featureSize := by
      rw [List.getElem?_eq_getElem hi'] at hsz; simpa using hsz
    refine ⟨st, offset h.sizes i, hst, ?_, ?_⟩
    · intro slice
      rw [mem_getIndices, ← hsz', ← offset_succ hi']
      constructor
      · rintro (⟨k, hk, he⟩ | ⟨j, hj, he⟩)
        · simp only [Prod.mk.injEq] at he
          obtain ⟨h1, h2⟩ := he
          have : i = k := (List.Nodup.getElem_inj_iff hcr.nodup).1 h1
          subst this
          exact h2
        · simp only [Prod.mk.injEq] at he
          exact absurd he.1 (hnotsink _ hsrc j hj)
      · rintro rfl
        exact Or.inl ⟨i, hi, rfl⟩
    · rw [← hsz', ← offset_succ hi', hcr.size, ← offset_length]
      exact offset_mono (by omega)
  · intro f hff
    rw [hcr.size, ← offset_length] at hff
    obtain ⟨i, -, hi, h1, h2⟩ := exists_offset (Nat.zero_le _) (by rw [offset_zero]; omega) hff
    have hi' : i < h.flatSources.length := by rw [← hcr.lenSizes]; exact hi
    refine ⟨h.flatSources[i], (hmemflat _).1 (List.getElem_mem _), (_, _),
      mem_getIndices.2 (Or.inl ⟨i, hi', rfl⟩), ⟨h1, h2⟩, ?_⟩
    intro s' hs' slice' hmem hin
    rcases mem_getIndices.1 hmem with ⟨k, hk, he⟩ | ⟨j, hj, he⟩
    · simp only [Prod.mk.injEq] at he
      obtain ⟨rfl, rfl⟩ := he
      have := offset_unique (sizes := h.sizes) (i := i) (j := k) ⟨h1, h2⟩ hin
      subst this
      rfl
    · simp only [Prod.mk.injEq] at he
      exact absurd he.1 (hnotsink _ hs' j hj)

theorem column_eq (h : Hub) (j : Nat) (P : Name → Prop)
    (ht : ∀ r (hr : r < h.flatSources.length), h.table r j = true ↔ P h.flatSources[r])
    (hcons : Consecutive P h.flatSources) (hex : ∃ s ∈ h.flatSources, P s) :
    ∃ a b, a < b ∧ b ≤ h.flatSources.length ∧ h.sinkSlice j = (offset h.sizes a, offset h.sizes b) ∧
      ∀ r (hr : r < h.flatSources.length), (P h.flatSources[r] ↔ a ≤ r ∧ r < b) := by
  obtain ⟨pre, mid, post, heq, h1, h2⟩ := hcons
  have hmid : mid ≠ [] := by
    rintro rfl
    obtain ⟨s, hs, hP⟩ := hex
    rw [heq] at hs
    exact h2 s (by simpa using hs) hP
  have hlen : h.flatSources.length = pre.length + mid.length + post.length := by
    rw [heq]; simp only [List.length_append]
  have hmlen : 0 < mid.length := List.length_pos_iff.2 hmid
  have hP : ∀ r (hr : r < h.flatSources.length),
      (P h.flatSources[r] ↔ pre.length ≤ r ∧ r < pre.length + mid.length) := by
    intro r hr
    have hr0 : h.flatSources[r] = (pre ++ mid ++ post)[r]'(by rw [← heq]; exact hr) := by
      simp only [heq]
    rw [hr0]
    by_cases hlt : r < pre.length
    · rw [List.getElem_append_left (by simp; omega), List.getElem_append_left hlt]
      have : ¬ P pre[r] := h2 _ (List.mem_append_left _ (List.getElem_mem hlt))
      constructor
      · intro hp; exact absurd hp this
      · intro hp; omega
    · by_cases hlt2 : r < pre.length + mid.length
      · rw [List.getElem_append_left (by simp; omega), List.getElem_append_right (by omega)]
        exact ⟨fun _ => ⟨by omega, hlt2⟩, fun _ => h1 _ (List.getElem_mem _)⟩
      · rw [List.getElem_append_right (by simp; omega)]
        constructor
        · intro hp; exact absurd hp (h2 _ (List.mem_append_right _ (List.getElem_mem _)))
        · intro hp; omega
  have hcol : h.column j = List.replicate pre.length false ++ List.replicate mid.length true ++
      List.replicate post.length false := by
    apply List.ext_getElem
    · simp [Hub.column, hlen]; omega
    · intro r hr1 hr2
      have hr : r < h.flatSources.length := by simpa [Hub.column] using hr1
      have hb : h.table r j = decide (pre.length ≤ r ∧ r < pre.length + mid.length) := by
        rw [Bool.eq_iff_iff, ht r hr, hP r hr]; simp
      simp only [Hub.column, List.getElem_map, List.getElem_range, hb]
      by_cases hlt : r < pre.length
      · rw [List.getElem_append_left (by simp; omega), List.getElem_append_left (by simpa using hlt)]
        simp; omega
      · by_cases hlt2 : r < pre.length + mid.length
        · rw [List.getElem_append_left (by simp; omega), List.getElem_append_right (by simp; omega)]
          simp; omega
        · rw [List.getElem_append_right (by simp; omega)]
          simp; omega
  refine ⟨pre.length, pre.length + mid.length, by omega, by omega, ?_, hP⟩
  unfold Hub.sinkSlice
  rw [hcol]
  have e1 : argmax (List.replicate pre.length false ++ List.replicate mid.length true ++
      List.replicate post.length false) = pre.length := by
    rw [argmax_block] <;> simp <;> omega
  have e2 : argmax (List.replicate pre.length false ++ List.replicate mid.length true ++
      List.replicate post.length false).reverse = post.length := by
    rw [List.reverse_append, List.reverse_append, ← List.append_assoc, argmax_block] <;> simp <;> omega
  rw [e1, e2, hlen]
  simp only [Prod.mk.injEq, true_and]
  congr 1
  omega

/-- **C09** (sinks).  The slice of a sink is exactly the union of the slices of
the sources connected to it: the inputs of a layer are the outputs of its
predecessors, side by side and without gaps. -/
theorem C09_sink_union (structOf : Name → Option Struct) (conns : List (Name × Name))
    (sources : List Item) (sinks : List Name) (h : Hub)
    (hf : (sources.flatMap Item.flat).Nodup) (hs : sinks.Nodup)
    (hdisj : ∀ s ∈ sources.flatMap Item.flat, s ∉ sinks)
    (hc : Hub.create structOf conns sources sinks = .ok h)
    (t : Name) (ht : t ∈ sinks) (hfed : ∃ s ∈ sources.flatMap Item.flat, (s, t) ∈ conns) :
    ∃ slice, (∀ sl, (t, sl) ∈ h.getIndices ↔ sl = slice) ∧
      ∀ f, Inside f slice ↔
        ∃ s ∈ sources.flatMap Item.flat, (s, t) ∈ conns ∧ ∃ sl, (s, sl) ∈ h.getIndices ∧ Inside f sl := by
  obtain ⟨order, hcr⟩ := create_ok hf hs hc
  have hmemflat : ∀ s, s ∈ h.flatSources ↔ s ∈ sources.flatMap Item.flat := by
    intro s
    rw [hcr.flat]
    exact (hcr.perm.flatMap_right _).mem_iff
  have hsinknd : h.sinks.Nodup := by rw [hcr.sinkList]; exact (sortBy_perm _ _).nodup_iff.2 hs
  have hmemsink : ∀ s, s ∈ h.sinks ↔ s ∈ sinks := by intro s; rw [hcr.sinkList, mem_sortBy]
  obtain ⟨j, hj, rfl⟩ := List.getElem_of_mem ((hmemsink t).2 ht)
  have hcons := hcr.feeds _ ht
  rw [← hcr.flat] at hcons
  obtain ⟨s₀, hs₀, hc₀⟩ := hfed
  obtain ⟨a, b, hab, hb, hslice, hP⟩ := column_eq h j (fun s => (s, h.sinks[j]) ∈ conns)
    (fun r hr => hcr.table r j hr hj) hcons ⟨s₀, (hmemflat _).2 hs₀, hc₀⟩
  refine ⟨h.sinkSlice j, ?_, ?_⟩
  · intro sl
    rw [mem_getIndices]
    constructor
    · rintro (⟨k, hk, he⟩ | ⟨k, hk, he⟩)
      · simp only [Prod.mk.injEq] at he
        refine absurd ht (hdisj _ ?_)
        rw [he.1]
        exact (hmemflat _).1 (List.getElem_mem hk)
      · simp only [Prod.mk.injEq] at he
        have : j = k := (List.Nodup.getElem_inj_iff hsinknd).1 he.1
        subst this
        exact he.2
    · rintro rfl
      exact Or.inr ⟨j, hj, rfl⟩
  · intro f
    rw [hslice]
    constructor
    · rintro ⟨h1, h2⟩
      obtain ⟨i, hai, hib, h3, h4⟩ := exists_offset (by omega) h1 h2
      have hi : i < h.flatSources.length := by omega
      exact ⟨h.flatSources[i], (hmemflat _).1 (List.getElem_mem hi), (hP i hi).2 ⟨hai, hib⟩, (_, _),
        mem_getIndices.2 (Or.inl ⟨i, hi, rfl⟩), h3, h4⟩
    · rintro ⟨s, hsrc, hconn, sl, hsl, hin⟩
      rcases mem_getIndices.1 hsl with ⟨k, hk, he⟩ | ⟨k, hk, he⟩
      · simp only [Prod.mk.injEq] at he
        obtain ⟨rfl, rfl⟩ := he
        obtain ⟨hak, hkb⟩ := (hP k hk).1 hconn
        exact ⟨(offset_mono hak).trans hin.1, lt_of_lt_of_le hin.2 (offset_mono (by omega))⟩
      · simp only [Prod.mk.injEq] at he
        refine absurd ((hmemsink _).1 (List.getElem_mem hk)) (hdisj _ ?_)
        rw [← he.1]; exact hsrc

/-- **C09** (order inside a layer).  The arrays of a tuple of sources (the
parameters of one layer) lie one after the other in the order of the tuple. -/
theorem C09_forced_order (structOf : Name → Option Struct) (conns : List (Name × Name))
    (sources : List Item) (sinks : List Name) (h : Hub)
    (hf : (sources.flatMap Item.flat).Nodup) (hs : sinks.Nodup)
    (hc : Hub.create structOf conns sources sinks = .ok h)
    (l : List Name) (hl : Item.tup l ∈ sources) :
    ∃ start, ∀ i (hi : i < l.length),
      (l[i], offset h.sizes (start + i), offset h.sizes (start + i + 1)) ∈ h.getIndices := by
  obtain ⟨order, hcr⟩ := create_ok hf hs hc
  obtain ⟨o1, o2, rfl⟩ := List.append_of_mem (hcr.perm.symm.subset hl)
  refine ⟨(o1.flatMap Item.flat).length, ?_⟩
  intro i hi
  have hflat : h.flatSources = o1.flatMap Item.flat ++ (l ++ o2.flatMap Item.flat) := by
    rw [hcr.flat]; simp [Item.flat]
  have hlt : (o1.flatMap Item.flat).length + i < h.flatSources.length := by
    rw [hflat]; simp only [List.length_append]; omega
  refine mem_getIndices.2 (Or.inl ⟨_, hlt, ?_⟩)
  simp only [Prod.mk.injEq, and_true]
  simp only [hflat]
  rw [List.getElem_append_right (by omega)]
  simp [List.getElem_append_left hi]

/-! ### The hypotheses are met -/

/-- Two layers `A`, `B` with sizes 2 and 3 feed `C` together and `D` alone. -/
def demoStructs : Name → Option Struct := fun p =>
  if p = str "A.o" then some ⟨[.T, .B, .n 2], 0, false⟩
  else if p = str "B.o" then some ⟨[.T, .B, .n 3], 1, false⟩
  else if p = str "E.o" then some ⟨[.T, .B, .n 4], 0, false⟩
  else none

def demoConns : List (Name × Name) :=
  [(str "A.o", str "C.i"), (str "E.o", str "C.i"), (str "E.o", str "D.i"), (str "B.o", str "D.i")]

def demoSources : List Item := [.one (str "A.o"), .one (str "B.o"), .one (str "E.o")]
def demoSinks : List Name := [str "C.i", str "D.i"]

example : (demoSources.flatMap Item.flat).Nodup ∧ demoSinks.Nodup ∧
    (∀ s ∈ demoSources.flatMap Item.flat, s ∉ demoSinks) ∧
    (Hub.create demoStructs demoConns demoSources demoSinks).toOption.map
      (fun h => (h.flatSources, h.sizes, h.contextSize)) =
      some ([str "A.o", str "E.o", str "B.o"], [2, 4, 3], 1) := by decide +kernel

example : (Hub.create demoStructs demoConns demoSources demoSinks).toOption.map Hub.getIndices =
    some [(str "A.o", 0, 2), (str "E.o", 2, 6), (str "B.o", 6, 9), (str "C.i", 0, 6), (str "D.i", 2, 9)] := by
  decide +kernel

/-- Three sources feeding three sinks pairwise cannot be laid out. -/
example : (match Hub.create demoStructs
    [(str "A.o", str "x"), (str "B.o", str "x"), (str "B.o", str "y"), (str "E.o", str "y"),
     (str "A.o", str "z"), (str "E.o", str "z")] demoSources [str "x", str "y", str "z"] with
    | .error .validation => true | _ => false) = true := by decide +kernel

end Verif.Layout
