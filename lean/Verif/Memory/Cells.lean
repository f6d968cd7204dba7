import Verif.Buffers.Mirror

/-!
# The addresses of the arrays of a network
-/

namespace Verif.Memory

open Verif.Structure Verif.Layout Verif.Buffers

/-! ### Specification -/

/-- The addresses of a named array, for given numbers of time steps and sequences, in the order of its entries. -/
def cells (net : Net) (T B : Nat) (n : Name) : List Nat :=
  ((Dict.get? net.layout n).bind (viewOf net.hubs T B)).elim [] View.cells

/-- An array without its context rows. -/
def noContext (e : ArrayEntry) : ArrayEntry := { e with struct := { e.struct with contextSize := 0 } }

/-- The addresses of an array without its context rows: for arrays that scale with time the rows of the time
steps, for other arrays all addresses. -/
def mainCells (net : Net) (T B : Nat) (n : Name) : List Nat :=
  ((Dict.get? net.layout n).bind (fun e => viewOf net.hubs T B (noContext e))).elim [] View.cells

/-- The addresses of the context rows of an array. -/
def contextCells (net : Net) (T B : Nat) (n : Name) : List Nat :=
  (cells net T B n).filter (fun a => a ∉ mainCells net T B n)

/-- The addresses of the hubs that only the backward pass uses, see `clear_backward_buffers`
(buffers.py:147-150). -/
def backCells (net : Net) (T B : Nat) : Set Nat :=
  { a | ∃ k h, net.hubs[k]? = some h ∧ h.backwardOnly = true ∧ a ∈ hubCells net T B k [] }

/-- `d` is the address of the delta of the entry at address `a`: the same entry of the array of deltas. -/
def DeltaCell (layers : List LayerInfo) (net : Net) (T B : Nat) (a d : Nat) : Prop :=
  ∃ (p q : Name) (i : Nat), DeltaOf layers p q ∧ (cells net T B p)[i]? = some a ∧ (cells net T B q)[i]? = some d

open Classical in
/-- The address of the delta of the entry at an address; `DeltaCell.unique` shows that there is only one. -/
noncomputable def delta (layers : List LayerInfo) (net : Net) (T B : Nat) (a : Nat) : Nat :=
  if h : ∃ d, DeltaCell layers net T B a d then h.choose else a

/-- A network without connections from internal buffers, with shapes as layers declare them, laid out as `L`. -/
structure Laid (layers : List LayerInfo) (L : Layout) : Prop where
  wf : WellFormedLayers layers
  roots : NoRootNames layers
  noInternal : NoInternalConns layers
  shaped : Shaped layers
  layout : createLayout layers = .ok L

/-! ### Proofs -/

/-- The rows of an array, each of which is a part of a row of the hub. -/
def rows (s : Struct) (T B : Nat) : Nat :=
  match s.bufferType with
  | 0 => 1
  | 1 => B
  | _ => (T + s.contextSize) * B

theorem rows_noContext (e : ArrayEntry) (T B : Nat) :
    rows (noContext e).struct T B = match e.struct.bufferType with | 0 => 1 | 1 => B | _ => T * B := by
  unfold rows noContext
  have : ({ e.struct with contextSize := 0 } : Struct).bufferType = e.struct.bufferType := rfl
  simp only [this, Nat.add_zero]

theorem fits_noContext {hubs : List HubInfo} {e : ArrayEntry} (h : Fits hubs e) : Fits hubs (noContext e) := by
  obtain ⟨hk, hor⟩ := h
  refine ⟨hk, ?_⟩
  rcases hor with ⟨h1, h2, h3, h4, h5, h6⟩ | ⟨h1, h2, h3, h4⟩
  · exact Or.inl ⟨h1, h2, h3, h4, h5, Nat.zero_le _⟩
  · exact Or.inr ⟨h1, h2, h3, h4⟩

/-- Which addresses belong to an array. -/
theorem mem_view {hubs : List HubInfo} {e : ArrayEntry} (hf : Fits hubs e) {T B : Nat} {v : View}
    (hv : viewOf hubs T B e = some v) {h : HubInfo} (hh : hubs[e.hub]? = some h) (c : Nat) :
    c ∈ v.cells ↔ ∃ row f, row < rows e.struct T B ∧ e.slice.1 ≤ f ∧ f < e.slice.2 ∧
      c = hubBase hubs T B e.hub + row * h.size + f := by
  obtain ⟨v', hv', -, h0, h1, h2⟩ := viewOf_fits hf T B
  rw [hv] at hv'
  cases hv'
  obtain ⟨hk, rfl⟩ := List.getElem?_eq_some_iff.1 hh
  have h12 := typeOf_le e.struct.shape
  have hle : e.slice.1 ≤ e.slice.2 := by
    obtain ⟨hk', hor⟩ := hf
    rcases hor with ⟨-, -, h, -⟩ | ⟨-, -, h, -⟩ <;> omega
  obtain hb | hb | hb : e.struct.bufferType = 0 ∨ e.struct.bufferType = 1 ∨ e.struct.bufferType = 2 := by
    have : e.struct.bufferType ≤ 2 := h12
    omega
  · have hr : rows e.struct T B = 1 := by simp [rows, hb]
    rw [h0 hb, hr]
    simp only [List.mem_map, List.mem_range]
    constructor
    · rintro ⟨f, hf, rfl⟩
      exact ⟨0, e.slice.1 + f, by omega, by omega, by omega, by omega⟩
    · rintro ⟨row, f, h1, h2, h3, rfl⟩
      have : row = 0 := by omega
      subst this
      exact ⟨f - e.slice.1, by omega, by omega⟩
  · have hr : rows e.struct T B = B := by simp [rows, hb]
    rw [h1 hk hb, hr]
    simp only [List.mem_flatMap, List.mem_map, List.mem_range]
    constructor
    · rintro ⟨b, hbB, f, hf, rfl⟩
      exact ⟨b, e.slice.1 + f, hbB, by omega, by omega, rfl⟩
    · rintro ⟨row, f, h1, h2, h3, rfl⟩
      exact ⟨row, h1, f - e.slice.1, by omega, by omega⟩
  · have hr : rows e.struct T B = (T + e.struct.contextSize) * B := by simp [rows, hb]
    rw [h2 hk hb, hr]
    simp only [List.mem_flatMap, List.mem_map, List.mem_range]
    constructor
    · rintro ⟨t, ht, b, hbB, f, hf, rfl⟩
      refine ⟨t * B + b, e.slice.1 + f, ?_, by omega, by omega, by ring⟩
      calc t * B + b < t * B + B := by omega
        _ = (t + 1) * B := by ring
        _ ≤ _ := Nat.mul_le_mul_right _ ht
    · rintro ⟨row, f, h1, h2, h3, rfl⟩
      have hB : 0 < B := by
        rcases Nat.eq_zero_or_pos B with h | h
        · subst h; simp at h1
        · exact h
      refine ⟨row / B, (Nat.div_lt_iff_lt_mul hB).2 h1, row % B, Nat.mod_lt _ hB, f - e.slice.1, by omega, ?_⟩
      have e1 : row / B * (B * hubs[e.hub].size) + row % B * hubs[e.hub].size = row * hubs[e.hub].size := by
        have := Nat.div_add_mod row B
        calc _ = (B * (row / B) + row % B) * hubs[e.hub].size := by ring
          _ = _ := by rw [this]
      omega

theorem getElem_mem' {α : Type} {l : List α} {i : Nat} {a : α} (h : l[i]? = some a) : a ∈ l :=
  List.mem_of_getElem? h

section
variable {layers : List LayerInfo} {L : Layout} {T B : Nat}

/-- Hub and slice of an entry are those of the layout. -/
theorem layout_hub {t : Name} {e : ArrayEntry} (he : Dict.get? (netOf layers L).layout t = some e) {k : Nat}
    {sl : Nat × Nat} (hg : L.get t = some (k, sl)) : e.hub = k ∧ e.slice = sl := by
  have hm := Dict.mem_of_get? he
  simp only [netOf, List.mem_cons, List.mem_map] at hm
  rcases hm with hm | hm | ⟨p, -, hm⟩
  · simp only [rootOf, Prod.mk.injEq] at hm
    obtain ⟨rfl, rfl⟩ := hm
    simp [Layout.root, hg]
  · simp only [rootOf, Prod.mk.injEq] at hm
    obtain ⟨rfl, rfl⟩ := hm
    simp [Layout.root, hg]
  · simp only [entryOf, Prod.mk.injEq] at hm
    obtain ⟨rfl, rfl⟩ := hm
    simp [hg]

/-- What is known of an entry: its hub, and its addresses. -/
structure Entry (layers : List LayerInfo) (L : Layout) (T B : Nat) (t : Name) (e : ArrayEntry) (h : HubInfo) : Prop where
  get : Dict.get? (netOf layers L).layout t = some e
  hub : (netOf layers L).hubs[e.hub]? = some h
  inside : e.slice.2 ≤ h.size ∨ e.slice.1 = e.slice.2
  mem : ∀ c, c ∈ cells (netOf layers L) T B t ↔ ∃ row f, row < rows e.struct T B ∧ e.slice.1 ≤ f ∧ f < e.slice.2 ∧
    c = hubBase (netOf layers L).hubs T B e.hub + row * h.size + f
  mainMem : ∀ c, c ∈ mainCells (netOf layers L) T B t ↔ ∃ row f, row < rows (noContext e).struct T B ∧ e.slice.1 ≤ f ∧
    f < e.slice.2 ∧ c = hubBase (netOf layers L).hubs T B e.hub + row * h.size + f
  bounds : ∀ c ∈ cells (netOf layers L) T B t, hubBase (netOf layers L).hubs T B e.hub ≤ c ∧
    c < hubBase (netOf layers L).hubs T B (e.hub + 1)

theorem Laid.entry (hL : Laid layers L) {t : Name} {e : ArrayEntry}
    (he : Dict.get? (netOf layers L).layout t = some e) : ∃ h, Entry layers L T B t e h := by
  have hwl := netOf_wellLaid hL.wf hL.shaped hL.layout
  have hf : Fits (netOf layers L).hubs e := hwl.fits _ (Dict.mem_of_get? he)
  have hf' := fits_noContext hf
  have hf2 := hf
  obtain ⟨hk, hor⟩ := hf
  obtain ⟨v, hv, -⟩ := viewOf_fits hf2 T B
  obtain ⟨v', hv', -⟩ := viewOf_fits hf' T B
  have hh : (netOf layers L).hubs[e.hub]? = some (netOf layers L).hubs[e.hub] := List.getElem?_eq_getElem hk
  have e1 : cells (netOf layers L) T B t = v.cells := by simp [cells, he, hv]
  have e2 : mainCells (netOf layers L) T B t = v'.cells := by simp [mainCells, he, hv']
  refine ⟨_, he, hh, ?_, ?_, ?_, ?_⟩
  · rcases hor with ⟨-, -, -, h, -⟩ | ⟨-, -, h, -⟩
    · exact Or.inl h
    · exact Or.inr h
  · intro c; rw [e1]; exact mem_view hf2 hv hh c
  · intro c; rw [e2]; exact mem_view hf' hv' (e := noContext e) hh c
  · intro c hc; rw [e1] at hc; exact viewOf_bounds hv c hc

theorem cells_entry {n : Name} {c : Nat} (h : c ∈ cells (netOf layers L) T B n) :
    ∃ e, Dict.get? (netOf layers L).layout n = some e := by
  cases he : Dict.get? (netOf layers L).layout n with
  | none => simp [cells, he] at h
  | some e => exact ⟨e, rfl⟩

theorem main_entry {n : Name} {c : Nat} (h : c ∈ mainCells (netOf layers L) T B n) :
    ∃ e, Dict.get? (netOf layers L).layout n = some e := by
  cases he : Dict.get? (netOf layers L).layout n with
  | none => simp [mainCells, he] at h
  | some e => exact ⟨e, rfl⟩

theorem rows_le (e : ArrayEntry) (T B : Nat) : rows (noContext e).struct T B ≤ rows e.struct T B := by
  rw [rows_noContext]
  unfold rows
  split <;> first | exact Nat.le_refl _ | exact Nat.mul_le_mul_right _ (Nat.le_add_right _ _)

/-- The rows of the time steps are rows of the array. -/
theorem Laid.main_sub (hL : Laid layers L) {n : Name} {c : Nat} (h : c ∈ mainCells (netOf layers L) T B n) :
    c ∈ cells (netOf layers L) T B n := by
  obtain ⟨e, he⟩ := main_entry h
  obtain ⟨hi, hE⟩ := hL.entry (T := T) (B := B) he
  obtain ⟨row, f, h1, h2⟩ := (hE.mainMem c).1 h
  exact (hE.mem c).2 ⟨row, f, lt_of_lt_of_le h1 (rows_le e T B), h2⟩

/-- Position in a hub. -/
theorem Entry.unique {t t' : Name} {e e' : ArrayEntry} {h h' : HubInfo} (hE : Entry layers L T B t e h)
    (hE' : Entry layers L T B t' e' h') (hh : e.hub = e'.hub) {row row' f f' : Nat} (h2 : e.slice.1 ≤ f)
    (h3 : f < e.slice.2) (h2' : e'.slice.1 ≤ f') (h3' : f' < e'.slice.2)
    (heq : hubBase (netOf layers L).hubs T B e.hub + row * h.size + f =
      hubBase (netOf layers L).hubs T B e'.hub + row' * h'.size + f') : row = row' ∧ f = f' := by
  have e1 := hE.hub
  rw [hh, hE'.hub] at e1
  cases e1
  rw [hh] at heq
  have hf : f < h.size := by rcases hE.inside with h | h <;> omega
  have hf' : f' < h.size := by rcases hE'.inside with h | h <;> omega
  have : row = row' := mul_range hf hf' (by omega)
  subst this
  exact ⟨rfl, by omega⟩

theorem Entry.hub_eq {t t' : Name} {e e' : ArrayEntry} {h h' : HubInfo} (hE : Entry layers L T B t e h)
    (hE' : Entry layers L T B t' e' h') {c : Nat} (hc : c ∈ cells (netOf layers L) T B t)
    (hc' : c ∈ cells (netOf layers L) T B t') : e.hub = e'.hub :=
  offset_unique (hE.bounds c hc) (hE'.bounds c hc')

/-- Context rows are not rows of the time steps. -/
theorem context_main {n : Name} {c : Nat} (h : c ∈ contextCells (netOf layers L) T B n) :
    c ∈ cells (netOf layers L) T B n ∧ c ∉ mainCells (netOf layers L) T B n := by
  simpa [contextCells] using h

/-- Arrays that are not ends of connections do not share addresses. -/
theorem Laid.disjoint (hL : Laid layers L) {conns : List (Name × Name)} (hc : getConnections layers = .ok conns)
    {p q : Name} (hp : p ∈ (networkArrays layers).map Prod.fst) (hq : q ∈ (networkArrays layers).map Prod.fst)
    (hpe : p ∉ conns.map Prod.snd) (hqe : q ∉ conns.map Prod.snd) {c : Nat}
    (h1 : c ∈ cells (netOf layers L) T B p) (h2 : c ∈ cells (netOf layers L) T B q) : p = q := by
  by_contra hne
  obtain ⟨e, e', v, v', g1, g2, g3, g4, hd⟩ := C12_network hL.wf hL.roots hL.shaped hL.layout conns hc p q hp hq hpe hqe hne T B
  refine hd c ?_ ?_
  · simpa [cells, g1, g3] using h1
  · simpa [cells, g2, g4] using h2

theorem Laid.cover (hL : Laid layers L) {conns : List (Name × Name)} (hc : getConnections layers = .ok conns)
    {t : Name} (ht : t ∈ (networkArrays layers).map Prod.fst ∨ t = str "parameters" ∨ t = str "gradients")
    (hfed : ∃ p, (p, t) ∈ conns) {c : Nat} (h : c ∈ cells (netOf layers L) T B t)
    (hrow : ∀ p e e', (p, t) ∈ conns → Dict.get? (netOf layers L).layout t = some e →
      Dict.get? (netOf layers L).layout p = some e' → rows e.struct T B ≤ rows (noContext e').struct T B) :
    ∃ p, (p, t) ∈ conns ∧ c ∈ mainCells (netOf layers L) T B p := by
  obtain ⟨forced, conns', gs, hP⟩ := createLayout_ok hL.layout
  have : conns' = conns := by have := hP.connsOk; rw [hc] at this; simpa using this.symm
  subst this
  have hw := hL.wf
  obtain ⟨p, hp⟩ := hfed
  obtain ⟨i, hi, hpi, hti, -⟩ := C08_connections _ _ _ _ _ (hP.nested hw) hP.groupsOk p t hp
  have hg : gs[i] ∈ gs := List.getElem_mem hi
  set g := gs[i]
  obtain ⟨hnd, hns, hdis, hcr, order, hcre⟩ := hP.created hw hg
  obtain ⟨slice, hsl, hun⟩ := C09_sink_union _ _ _ _ _ hnd hns hdis hcr t hti ⟨p, hpi, hp⟩
  obtain ⟨k, hk, hkg, hget⟩ := hP.get_eq hw hg
  obtain ⟨e, he, hesl, hehub, -⟩ := netOf_get hP hw hg ((hsl slice).2 rfl) ht
  obtain ⟨hi', hE⟩ := hL.entry (T := T) (B := B) he
  obtain ⟨hek, -⟩ := layout_hub he (hget _ _ ((hsl slice).2 rfl))
  obtain ⟨row, f, h1, h2, h3, rfl⟩ := (hE.mem c).1 h
  rw [hesl] at h2 h3
  obtain ⟨s, hs, hst, sl, hsm, hf⟩ := (hun f).1 ⟨h2, h3⟩
  have hsa : s ∈ (networkArrays layers).map Prod.fst := by
    obtain ⟨b, k', t', hfl, hee⟩ := (conns_iff hw hL.noInternal hc _).1 hst
    simp only [Prod.mk.injEq] at hee
    rw [hee.1]
    refine key_array (hfl.valid hw).1 ?_ b
    rintro rfl
    cases hfl
  obtain ⟨e', he', hesl', hehub', -⟩ := netOf_get hP hw hg hsm (Or.inl hsa)
  obtain ⟨hi2, hE'⟩ := hL.entry (T := T) (B := B) he'
  obtain ⟨hek', -⟩ := layout_hub he' (hget _ _ hsm)
  refine ⟨s, hst, (hE'.mainMem _).2 ⟨row, f, lt_of_lt_of_le h1 (hrow s e e' hst he he'), ?_, ?_, ?_⟩⟩
  · rw [hesl']; exact hf.1
  · rw [hesl']; exact hf.2
  · have := hE.hub
    rw [hek, ← hek', hE'.hub] at this
    cases this
    rw [hek, hek']

/-- Every address of a connected input is an address of one of the arrays connected to it, and not in the context
of that array. -/
theorem Laid.input_cover (hL : Laid layers L) {conns : List (Name × Name)} (hc : getConnections layers = .ok conns)
    {t : Name} (ht : t ∈ (networkArrays layers).map Prod.fst) (hfed : ∃ p, (p, t) ∈ conns) {c : Nat}
    (h : c ∈ cells (netOf layers L) T B t) : ∃ p, (p, t) ∈ conns ∧ c ∈ mainCells (netOf layers L) T B p := by
  refine hL.cover hc (Or.inl ht) hfed h ?_
  intro p e e' hp he he'
  obtain ⟨⟨t', s⟩, hs, rfl⟩ := List.mem_map.1 ht
  have hts := Dict.get?_of_mem (networkArrays_nodup hL.wf) hs
  obtain ⟨srcs, -, hmem, hctx, -, hty⟩ := hL.shaped.sinks conns hc _ _ hts ⟨p, hp⟩
  have h1 := netOf_struct hL.wf hts he
  have hpa : ∃ s', Dict.get? (networkArrays layers) p = some s' := by
    obtain ⟨b, k', t', hfl, hee⟩ := (conns_iff hL.wf hL.noInternal hc _).1 hp
    simp only [Prod.mk.injEq] at hee
    have : p ∈ (networkArrays layers).map Prod.fst := by
      rw [hee.1]
      refine key_array (hfl.valid hL.wf).1 ?_ b
      rintro rfl
      cases hfl
    obtain ⟨⟨p', s'⟩, hs', rfl⟩ := List.mem_map.1 this
    exact ⟨s', Dict.get?_of_mem (networkArrays_nodup hL.wf) hs'⟩
  obtain ⟨s', hs'⟩ := hpa
  have h2 := netOf_struct hL.wf hs' he'
  have h3 := hty p ((hmem p).2 hp) s' hs'
  rw [rows_noContext, h2, h3, h1]
  unfold rows
  simp only [hctx, Nat.add_zero]
  exact Nat.le_refl _

/-- Every address of the array of all parameters is one of a parameter of a layer. -/
theorem Laid.root_cover (hL : Laid layers L) {c : Nat} (h : c ∈ cells (netOf layers L) T B (str "parameters")) :
    ∃ l ∈ layers, ∃ x ∈ l.paramShapes.map Prod.fst, c ∈ cells (netOf layers L) T B (path l.name (str "parameters") x) := by
  obtain ⟨forced, conns, gs, hP⟩ := createLayout_ok hL.layout
  have hc := hP.connsOk
  by_cases hne : ∃ l ∈ layers, l.paramShapes ≠ []
  · obtain ⟨l, hl, hp⟩ := hne
    obtain ⟨x, xs, hx⟩ := List.exists_cons_of_ne_nil hp
    have hxm : x.1 ∈ l.paramShapes.map Prod.fst := by rw [hx]; simp
    have hfl : Flow layers (.arr .par l x.1) .root := .root hl hxm
    have hfed : ((Key.arr .par l x.1).name false, Key.root.name false) ∈ conns :=
      (conn_key hL.wf hL.noInternal hc (hfl.valid hL.wf).1 (hfl.valid hL.wf).2 false).2 hfl
    obtain ⟨p, hp, hcp⟩ := hL.cover hc (t := Key.root.name false) (Or.inr (Or.inl rfl)) ⟨_, hfed⟩ h (by
      intro p e e' hp he he'
      obtain ⟨k', hf', rfl⟩ := conn_into hL.wf hL.noInternal hc (t := .root) trivial hp
      cases hf' with
      | @root l' x' hl' hx' =>
        obtain ⟨⟨x'', s'⟩, hs', rfl⟩ := List.mem_map.1 hx'
        have hmem : (path l'.name (str "parameters") x'', s') ∈ networkArrays layers := by
          simp only [networkArrays, layerArrays, List.mem_flatMap]
          refine ⟨l', hl', (str "parameters", false, l'.paramShapes), by simp [layerCats], ?_⟩
          simp only [category, List.mem_map]
          exact ⟨_, hs', rfl⟩
        have h2 := netOf_struct hL.wf (Dict.get?_of_mem (networkArrays_nodup hL.wf) hmem) he'
        have h3 := hL.shaped.params l' hl' _ hs'
        rw [rows_noContext, h2, h3]
        have h4 : e.struct.bufferType = 0 := by
          simp only [Key.name, roleCat, netOf, rootOf, Dict.get?, if_true, Option.some.injEq] at he
          rw [← he]
          simp [Struct.bufferType, typeOf]
        simp [rows, h4])
    obtain ⟨k', hf', rfl⟩ := conn_into hL.wf hL.noInternal hc (t := .root) trivial hp
    cases hf' with
    | @root l' x' hl' hx' => exact ⟨l', hl', x', hx', hL.main_sub hcp⟩
  · exfalso
    obtain ⟨hp, hg, n, hrp, hrg, hal, hcov⟩ := aligned layers hL.wf L hL.layout
    have he : Dict.get? (netOf layers L).layout (str "parameters") = some (rootOf L (str "parameters")).2 := by
      simp [netOf, rootOf, Dict.get?]
    obtain ⟨hi, hE⟩ := hL.entry (T := T) (B := B) he
    obtain ⟨row, f, -, -, h3, -⟩ := (hE.mem c).1 h
    simp only [rootOf, hrp] at h3
    obtain ⟨l, hl, e, he, -⟩ := hcov 0 (by omega)
    exact hne ⟨l, hl, List.ne_nil_of_mem he⟩

end

end Verif.Memory
