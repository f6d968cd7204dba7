import Verif.Buffers.Lemmas

/-! # The state of the buffer manager over sequences of operations -/

namespace Verif.Buffers

open Verif.Structure Verif.Layout

/-- A layout all of whose entries fit, with distinct names and a flat
`parameters` array. -/
structure WellLaid (net : Net) : Prop where
  fits : ∀ p ∈ net.layout, Fits net.hubs p.2
  nodup : (net.layout.map Prod.fst).Nodup
  params : ∃ e, Dict.get? net.layout (str "parameters") = some e ∧ e.struct.bufferType = 0

theorem createViews_some {hubs : List HubInfo} {T B : Nat} {layout : List (Name × ArrayEntry)}
    (h : ∀ p ∈ layout, Fits hubs p.2) : ∃ vs, createViews hubs T B layout = some vs := by
  induction layout with
  | nil => exact ⟨[], rfl⟩
  | cons p rest ih =>
    obtain ⟨n, e⟩ := p
    obtain ⟨vs, hvs⟩ := ih (fun p hp => h p (by simp [hp]))
    obtain ⟨v, hv, -⟩ := viewOf_fits (h (n, e) (by simp)) T B
    exact ⟨(n, v) :: vs, by simp [createViews, hv, hvs]⟩

theorem get?_createViews {hubs : List HubInfo} {T B : Nat} {layout : List (Name × ArrayEntry)}
    {vs : List (Name × View)} (h : createViews hubs T B layout = some vs) (n : Name) :
    Dict.get? vs n = (Dict.get? layout n).bind (viewOf hubs T B) := by
  induction layout generalizing vs with
  | nil => simp [createViews] at h; subst h; rfl
  | cons p rest ih =>
    obtain ⟨m, e⟩ := p
    simp only [createViews] at h
    split at h
    · rename_i v vs' hv hvs
      simp only [Option.some.injEq] at h
      subst h
      simp only [Dict.get?]
      split
      · simp [hv]
      · exact ih hvs
    · simp at h

section
variable {V : Type} [Zero V]

/-- What holds between operations: the last requested sizes, the current block
and the views created for these sizes in this block. -/
structure Inv (net : Net) (st : State V) (T B sz b : Nat) (vs : List (Name × View)) : Prop where
  time : st.timeSize = some T
  batch : st.batchSize = some B
  size : st.size = some sz
  full : st.full = some b
  alloc : b < st.heap.length
  len : (block st.heap b).length = sz
  enough : (totalSizeSlicesShapes net.hubs T B).1 ≤ sz
  view : st.views = some (b, vs)
  created : createViews net.hubs T B net.layout = some vs

theorem block_set {heap : List (List V)} {b : Nat} (hb : b < heap.length) (m : List V) :
    block (heap.set b m) b = m := by
  simp [block, hb]

theorem Inv.withHeap {net : Net} {st : State V} {T B sz b : Nat} {vs : List (Name × View)}
    (h : Inv net st T B sz b vs) {m : List V} (hm : m.length = sz) :
    Inv net { st with heap := st.heap.set b m } T B sz b vs :=
  ⟨h.time, h.batch, h.size, h.full, by simpa using h.alloc, by simpa [block_set h.alloc] using hm,
    h.enough, h.view, h.created⟩

/-- The view of the parameters. -/
theorem WellLaid.paramView {net : Net} (hw : WellLaid net) : ∃ e, Dict.get? net.layout (str "parameters") = some e ∧
    ∀ T B vs, createViews net.hubs T B net.layout = some vs →
      ∃ v, Dict.get? vs (str "parameters") = some v ∧ viewOf net.hubs T B e = some v ∧
        v.cells.length = e.slice.2 - e.slice.1 := by
  obtain ⟨e, he, ht⟩ := hw.params
  refine ⟨e, he, ?_⟩
  intro T B vs hvs
  obtain ⟨v, hv, -, hc, -⟩ := viewOf_fits (hw.fits _ (Dict.mem_of_get? he)) T B
  refine ⟨v, ?_, hv, ?_⟩
  · rw [get?_createViews hvs, he]; exact hv
  · rw [hc ht]; simp

theorem Inv.read {net : Net} {st : State V} {T B sz b : Nat} {vs : List (Name × View)}
    (h : Inv net st T B sz b vs) (n : Name) :
    st.read n = ((Dict.get? net.layout n).bind (viewOf net.hubs T B)).map
      (fun v => readCells (block st.heap b) v.cells) := by
  rw [State.read, h.view]
  simp only [get?_createViews h.created]

/-- Writing an array and reading it back. -/
theorem Inv.write {net : Net} {st : State V} {T B sz b : Nat} {vs : List (Name × View)}
    (h : Inv net st T B sz b vs) {n : Name} {vals : List V} {v : View}
    (hv : Dict.get? vs n = some v) (hl : v.cells.length = vals.length) :
    ∃ st', st.write n vals = some st' ∧ Inv net st' T B sz b vs ∧ st'.read n = some vals ∧
      block st'.heap b = writeCells (block st.heap b) v.cells vals := by
  refine ⟨{ st with heap := st.heap.set b (writeCells (block st.heap b) v.cells vals) }, ?_,
    h.withHeap (by simp [h.len]), ?_, by simp [block_set h.alloc]⟩
  · simp [State.write, h.view, hv, hl]
  · simp only [State.read, h.view, hv, Option.map_some, block_set h.alloc]
    have hv' := hv
    rw [get?_createViews h.created] at hv'
    obtain ⟨e, he, hve⟩ := Option.bind_eq_some_iff.1 hv'
    rw [readCells_write_self _ (viewOf_nodup hve) ?_ hl]
    intro c hc
    have := viewOf_lt_total hve c hc
    have := h.enough
    rw [h.len]
    omega

theorem Inv.write_inv {net : Net} {st st' : State V} {T B sz b : Nat} {vs : List (Name × View)}
    (h : Inv net st T B sz b vs) {n : Name} {vals : List V} (hs : st.write n vals = some st') :
    Inv net st' T B sz b vs := by
  unfold State.write at hs
  split at hs
  · simp at hs
  · rename_i b' vs' hv
    rw [h.view] at hv
    cases hv
    split at hs
    · simp at hs
    · split at hs
      · simp only [Option.some.injEq] at hs
        subst hs
        exact h.withHeap (by simp [h.len])
      · simp at hs

/-- The size after `ensure`. -/
def grown (size : Option Nat) (total : Nat) : Nat :=
  match size with
  | none => total
  | some s => max s total

/-- `resize` from a fresh manager. -/
theorem resize_fresh {net : Net} (hw : WellLaid net) (st : State V) (h1 : st.timeSize = none) (h2 : st.size = none)
    (h3 : st.views = none) (T B : Nat) :
    ∃ st' b vs, resize net st T B = some st' ∧ Inv net st' T B (totalSizeSlicesShapes net.hubs T B).1 b vs := by
  obtain ⟨vs, hvs⟩ := createViews_some (T := T) (B := B) hw.fits
  refine ⟨⟨some T, some B, some (totalSizeSlicesShapes net.hubs T B).1,
    st.heap ++ [List.replicate (totalSizeSlicesShapes net.hubs T B).1 0], some st.heap.length,
    some (st.heap.length, vs)⟩, st.heap.length, vs, ?_, ?_⟩
  · unfold resize
    rw [if_neg (by simp [h1])]
    simp only [State.ensure, h2, if_true, hvs, h3]
  · constructor <;> simp [block, hvs]

/-- `resize` from a state with views. -/
theorem resize_inv {net : Net} (hw : WellLaid net) {st : State V} {T B sz b : Nat} {vs : List (Name × View)}
    (h : Inv net st T B sz b vs) (T' B' : Nat) :
    ∃ st' b' vs', resize net st T' B' = some st' ∧
      Inv net st' T' B' (max sz (totalSizeSlicesShapes net.hubs T' B').1) b' vs' ∧
      st'.read (str "parameters") = st.read (str "parameters") := by
  by_cases hsame : st.timeSize = some T' ∧ st.batchSize = some B'
  · have e1 : T = T' := by have := hsame.1; rw [h.time] at this; simpa using this
    have e2 : B = B' := by have := hsame.2; rw [h.batch] at this; simpa using this
    subst e1; subst e2
    refine ⟨st, b, vs, by rw [resize, if_pos hsame], ?_, rfl⟩
    rw [Nat.max_eq_left h.enough]
    exact h
  · obtain ⟨vs', hvs'⟩ := createViews_some (T := T') (B := B') hw.fits
    obtain ⟨e, he, hpv⟩ := hw.paramView
    obtain ⟨v, hv, hve, hvl⟩ := hpv T B vs h.created
    obtain ⟨v', hv', hve', hvl'⟩ := hpv T' B' vs' hvs'
    unfold resize
    rw [if_neg hsame]
    simp only
    set total := (totalSizeSlicesShapes net.hubs T' B').1 with htot
    -- the state after allocation
    have hst : ∃ (heap : List (List V)) (b' : Nat),
        ({ st with timeSize := some T', batchSize := some B' } : State V).ensure total =
          { st with timeSize := some T', batchSize := some B', heap := heap, full := some b', size := some (max sz total) } ∧
        b' < heap.length ∧ (block heap b').length = max sz total ∧ block heap b = block st.heap b := by
      unfold State.ensure
      simp only [h.size]
      by_cases hg : total > sz
      · refine ⟨st.heap ++ [List.replicate total 0], st.heap.length, ?_, by simp, ?_, ?_⟩
        · simp [hg, Nat.max_eq_right (Nat.le_of_lt hg)]
        · simp [block, Nat.max_eq_right (Nat.le_of_lt hg)]
        · have := h.alloc
          simp [block, List.getElem?_append_left this]
      · refine ⟨st.heap, b, ?_, h.alloc, ?_, rfl⟩
        · have hsz := h.size
          have hf := h.full
          cases st
          simp only at hsz hf
          subst hsz hf
          simp [hg, Nat.max_eq_left (Nat.le_of_not_lt hg)]
        · rw [h.len, Nat.max_eq_left (Nat.le_of_not_lt hg)]
    obtain ⟨heap, b', hens, hb', hlen', hblock⟩ := hst
    rw [hens]
    simp only [hvs', h.view]
    have hread : ({ st with timeSize := some T', batchSize := some B', heap := heap, full := some b', size := some (max sz total) } : State V).read (str "parameters")
        = some (readCells (block st.heap b) v.cells) := by
      simp only [State.read, h.view, hv, Option.map_some, hblock]
    have hread0 : st.read (str "parameters") = some (readCells (block st.heap b) v.cells) := by
      simp only [State.read, h.view, hv, Option.map_some]
    simp only [h.view] at hread
    simp only [hread]
    have hinv : Inv net (⟨some T', some B', some (max sz total), heap, some b', some (b', vs')⟩ : State V) T' B' (max sz total) b' vs' :=
      ⟨rfl, rfl, rfl, rfl, hb', hlen', Nat.le_max_right _ _, rfl, hvs'⟩
    obtain ⟨st', hw1, hw2, hw3, -⟩ := hinv.write hv' (vals := readCells (block st.heap b) v.cells)
      (by rw [hvl', readCells, List.length_map, hvl])
    exact ⟨st', b', vs', hw1, hw2, by rw [hw3, hread0]⟩

theorem setHandler_inv {net : Net} (hw : WellLaid net) {st : State V} {T B sz b : Nat} {vs : List (Name × View)}
    (h : Inv net st T B sz b vs) :
    ∃ st' b' vs', setHandler net st = some st' ∧
      Inv net st' 0 0 (totalSizeSlicesShapes net.hubs 0 0).1 b' vs' ∧
      st'.read (str "parameters") = st.read (str "parameters") := by
  obtain ⟨e, he, hpv⟩ := hw.paramView
  obtain ⟨v, hv, hve, hvl⟩ := hpv T B vs h.created
  obtain ⟨st₁, b₁, vs₁, hr, hi⟩ := resize_fresh hw
    ({ st with full := none, size := none, timeSize := none, batchSize := none, views := none } : State V) rfl rfl rfl 0 0
  obtain ⟨v', hv', hve', hvl'⟩ := hpv 0 0 vs₁ hi.created
  have hread0 : st.read (str "parameters") = some (readCells (block st.heap b) v.cells) := by
    simp only [State.read, h.view, hv, Option.map_some]
  obtain ⟨st', hw1, hw2, hw3, -⟩ := hi.write hv' (vals := readCells (block st.heap b) v.cells)
    (by rw [hvl', readCells, List.length_map, hvl])
  refine ⟨st', b₁, vs₁, ?_, hw2, by rw [hw3, hread0]⟩
  unfold setHandler
  simp only [hr, h.view, hread0]
  exact hw1

end

end Verif.Buffers
