import Verif.Layout.ParamProps

/-! Lemmas for C71: the deltas are laid out like the values they belong to. -/

namespace Verif.Layout

open Verif.Structure

/-- No connection starts at an internal buffer. -/
def NoInternalConns (layers : List LayerInfo) : Prop := ∀ l ∈ layers, ∀ o ∈ l.outgoing, o.kind ≠ .internals

/-- The categories that have deltas. -/
inductive Cat
  | inp | out | par
deriving DecidableEq

/-- Name of a category, for the values (`false`) and for the deltas (`true`). -/
def Cat.str : Cat → Bool → Name
  | .inp, false => Verif.str "inputs"
  | .inp, true => Verif.str "input_deltas"
  | .out, false => Verif.str "outputs"
  | .out, true => Verif.str "output_deltas"
  | .par, false => Verif.str "parameters"
  | .par, true => Verif.str "gradients"

/-- Shapes of a category. -/
def Cat.shapes : Cat → LayerInfo → List (Name × Struct)
  | .inp, l => l.inShapes
  | .out, l => l.outShapes
  | .par, l => l.paramShapes

/-- An array with deltas: one of a layer, or the one with all parameters. -/
inductive Key
  | arr (c : Cat) (l : LayerInfo) (x : Name)
  | root
deriving DecidableEq

/-- The path of the values or of the deltas. -/
def Key.name : Key → Bool → Name
  | .arr c l x, b => path l.name (c.str b) x
  | .root, b => roleCat b

/-- The network has this array. -/
def Key.Valid (layers : List LayerInfo) : Key → Prop
  | .arr c l x => l ∈ layers ∧ x ∈ (c.shapes l).map Prod.fst
  | .root => True

theorem Cat.noDot (c : Cat) (b : Bool) : '.' ∉ c.str b := by cases c <;> cases b <;> decide

theorem Cat.str_inj {c d : Cat} {a b : Bool} (h : c.str a = d.str b) : c = d ∧ a = b := by
  revert h
  cases c <;> cases d <;> cases a <;> cases b <;> decide

theorem Key.inj {layers : List LayerInfo} (hw : WellFormedLayers layers) {k k' : Key} {b c : Bool}
    (hk : k.Valid layers) (hk' : k'.Valid layers) (h : k.name b = k'.name c) : k = k' ∧ b = c := by
  cases k with
  | root =>
    cases k' with
    | root => exact ⟨rfl, roleCat_ne h⟩
    | arr d l x => exact absurd h.symm path_ne_roleCat
  | arr d l x =>
    cases k' with
    | root => exact absurd h path_ne_roleCat
    | arr d' l' x' =>
      obtain ⟨e1, e2, e3⟩ := path_inj (hw.noDot l hk.1) (hw.noDot l' hk'.1) (d.noDot b) (d'.noDot c) h
      obtain ⟨rfl, rfl⟩ := Cat.str_inj e2
      obtain rfl := List.inj_on_of_nodup_map hw.names hk.1 hk'.1 e1
      exact ⟨by rw [e3], rfl⟩

/-! ### Connections -/

/-- Connections between arrays, for values and deltas alike. -/
inductive Flow (layers : List LayerInfo) : Key → Key → Prop
  | out {l e : LayerInfo} {o : Outgoing} : l ∈ layers → o ∈ l.outgoing → o.kind = .outputs → e ∈ layers →
      e.name = o.endLayer → Flow layers (.arr .out l o.buffer) (.arr .inp e o.endInput)
  | par {l e : LayerInfo} {o : Outgoing} : l ∈ layers → o ∈ l.outgoing → o.kind = .parameters → e ∈ layers →
      e.name = o.endLayer → Flow layers (.arr .par l o.buffer) (.arr .inp e o.endInput)
  | root {l : LayerInfo} {x : Name} : l ∈ layers → x ∈ l.paramShapes.map Prod.fst → Flow layers (.arr .par l x) .root

theorem Flow.valid {layers : List LayerInfo} (hw : WellFormedLayers layers) {k t : Key} (h : Flow layers k t) :
    k.Valid layers ∧ t.Valid layers := by
  have hend : ∀ l ∈ layers, ∀ o ∈ l.outgoing, ∀ e ∈ layers, e.name = o.endLayer → o.endInput ∈ e.inShapes.map Prod.fst := by
    intro l hl o ho e he hen
    obtain ⟨e', he', hen', hin⟩ := hw.ends l hl o ho
    obtain rfl := List.inj_on_of_nodup_map hw.names he he' (hen.trans hen'.symm)
    exact hin
  cases h with
  | @out l e o hl ho hk he hen =>
    have := hw.starts l hl o ho
    rw [hk] at this
    exact ⟨⟨hl, this⟩, he, hend l hl o ho e he hen⟩
  | @par l e o hl ho hk he hen =>
    have := hw.starts l hl o ho
    rw [hk] at this
    exact ⟨⟨hl, this⟩, he, hend l hl o ho e he hen⟩
  | root hl hx => exact ⟨⟨hl, hx⟩, trivial⟩

theorem conns_iff {layers : List LayerInfo} (hw : WellFormedLayers layers) (hni : NoInternalConns layers)
    {conns : List (Name × Name)} (h : getConnections layers = .ok conns) (c : Name × Name) :
    c ∈ conns ↔ ∃ b k t, Flow layers k t ∧ c = (k.name b, t.name b) := by
  rw [mem_getConnections h]
  constructor
  · rintro ⟨l, hl, ⟨o, ho, hfb⟩ | ⟨x, hx, hpg⟩⟩
    · obtain ⟨e, he, hen, -⟩ := hw.ends l hl o ho
      have hni' := hni l hl o ho
      cases hk : o.kind with
      | internals => exact absurd hk hni'
      | outputs =>
        rcases hfb with rfl | hb
        · exact ⟨false, _, _, .out hl ho hk he hen, by simp [fwdConn, hk, Key.name, Kind.str, Cat.str, hen]⟩
        · refine ⟨true, _, _, .out hl ho hk he hen, ?_⟩
          simp only [bwdConn, hk, Except.ok.injEq] at hb
          rw [← hb]; simp [Key.name, Cat.str, hen]
      | parameters =>
        rcases hfb with rfl | hb
        · exact ⟨false, _, _, .par hl ho hk he hen, by simp [fwdConn, hk, Key.name, Kind.str, Cat.str, hen]⟩
        · refine ⟨true, _, _, .par hl ho hk he hen, ?_⟩
          simp only [bwdConn, hk, Except.ok.injEq] at hb
          rw [← hb]; simp [Key.name, Cat.str, hen]
    · rcases hpg with rfl | rfl
      · exact ⟨false, _, _, .root hl hx, rfl⟩
      · exact ⟨true, _, _, .root hl hx, rfl⟩
  · rintro ⟨b, k, t, hf, rfl⟩
    cases hf with
    | @out l e o hl ho hk he hen =>
      refine ⟨l, hl, Or.inl ⟨o, ho, ?_⟩⟩
      cases b
      · left; simp [fwdConn, hk, Key.name, Kind.str, Cat.str, hen]
      · right; simp [bwdConn, hk, Key.name, Cat.str, hen]
    | @par l e o hl ho hk he hen =>
      refine ⟨l, hl, Or.inl ⟨o, ho, ?_⟩⟩
      cases b
      · left; simp [fwdConn, hk, Key.name, Kind.str, Cat.str, hen]
      · right; simp [bwdConn, hk, Key.name, Cat.str, hen]
    | @root l x hl hx =>
      refine ⟨l, hl, Or.inr ⟨x, hx, ?_⟩⟩
      cases b
      · exact Or.inl rfl
      · exact Or.inr rfl

section
variable {layers : List LayerInfo} {L : Layout} {forced : List (List Name)} {conns : List (Name × Name)}
  {gs : List Group}

theorem conn_key (hw : WellFormedLayers layers) (hni : NoInternalConns layers)
    (h : getConnections layers = .ok conns) {k t : Key} (hk : k.Valid layers) (ht : t.Valid layers) (b : Bool) :
    (k.name b, t.name b) ∈ conns ↔ Flow layers k t := by
  rw [conns_iff hw hni h]
  constructor
  · rintro ⟨c, k', t', hf, he⟩
    simp only [Prod.mk.injEq] at he
    obtain ⟨hk', ht'⟩ := hf.valid hw
    obtain ⟨rfl, rfl⟩ := Key.inj hw hk hk' he.1
    obtain ⟨rfl, -⟩ := Key.inj hw ht ht' he.2
    exact hf
  · intro hf; exact ⟨b, k, t, hf, rfl⟩

theorem conn_from (hw : WellFormedLayers layers) (hni : NoInternalConns layers)
    (h : getConnections layers = .ok conns) {k : Key} (hk : k.Valid layers) {b : Bool} {q : Name}
    (hc : (k.name b, q) ∈ conns) : ∃ t, Flow layers k t ∧ q = t.name b := by
  obtain ⟨c, k', t', hf, he⟩ := (conns_iff hw hni h _).1 hc
  simp only [Prod.mk.injEq] at he
  obtain ⟨hk', ht'⟩ := hf.valid hw
  obtain ⟨rfl, rfl⟩ := Key.inj hw hk hk' he.1
  exact ⟨t', hf, he.2⟩

theorem conn_into (hw : WellFormedLayers layers) (hni : NoInternalConns layers)
    (h : getConnections layers = .ok conns) {t : Key} (ht : t.Valid layers) {b : Bool} {p : Name}
    (hc : (p, t.name b) ∈ conns) : ∃ k, Flow layers k t ∧ p = k.name b := by
  obtain ⟨c, k', t', hf, he⟩ := (conns_iff hw hni h _).1 hc
  simp only [Prod.mk.injEq] at he
  obtain ⟨hk', ht'⟩ := hf.valid hw
  obtain ⟨rfl, rfl⟩ := Key.inj hw ht ht' he.2
  exact ⟨k', hf, he.1⟩

/-! ### Forced orders and sources -/

theorem ord_key (l : LayerInfo) (b : Bool) : ord b l = (l.paramShapes.map Prod.fst).map (fun x => (Key.arr .par l x).name b) := by
  simp only [ord, List.map_map, Function.comp_def, Key.name]
  cases b <;> rfl

theorem mem_ord_key (hw : WellFormedLayers layers) {l : LayerInfo} (hl : l ∈ layers) {k : Key} (hk : k.Valid layers)
    {b d : Bool} (h : k.name b ∈ ord d l) : d = b ∧ ∃ x ∈ l.paramShapes.map Prod.fst, k = .arr .par l x := by
  rw [ord_key, List.mem_map] at h
  obtain ⟨x, hx, he⟩ := h
  obtain ⟨h1, h2⟩ := Key.inj hw (k := .arr .par l x) ⟨hl, hx⟩ hk he
  exact ⟨h2, x, hx, h1.symm⟩

theorem Parts.forced_iff (hP : Parts layers L forced conns gs) (u : List Name) :
    u ∈ forced ↔ ∃ d, ∃ l ∈ withParams layers, u = ord d l := by
  rw [(getForcedOrders_ok hP.forcedOk).1 u]
  constructor
  · rintro ⟨hne, l, hl, hor⟩
    have hl' : l.paramShapes ≠ [] := by
      rintro h0
      rcases hor with rfl | rfl <;> simp [paramOrder, gradOrder, h0] at hne
    rcases hor with rfl | rfl
    · exact ⟨false, l, mem_withParams.2 ⟨hl, hl'⟩, rfl⟩
    · exact ⟨true, l, mem_withParams.2 ⟨hl, hl'⟩, rfl⟩
  · rintro ⟨d, l, hl, rfl⟩
    refine ⟨ord_ne_nil (mem_withParams.1 hl).2 d, l, (mem_withParams.1 hl).1, ?_⟩
    cases d
    · exact Or.inl rfl
    · exact Or.inr rfl

theorem key_array {k : Key} (hk : k.Valid layers) (hr : k ≠ .root) (b : Bool) :
    k.name b ∈ (networkArrays layers).map Prod.fst := by
  cases k with
  | root => exact absurd rfl hr
  | arr c l x =>
    refine mem_networkArrays.2 ⟨l, hk.1, (c.str b, b, c.shapes l), ?_, x, hk.2, rfl⟩
    cases c <;> cases b <;> simp [layerCats, Cat.str, Cat.shapes]

/-- Which arrays are sources does not depend on the side. -/
theorem Parts.source_key (hP : Parts layers L forced conns gs) (hw : WellFormedLayers layers)
    (hni : NoInternalConns layers) {k : Key} (hk : k.Valid layers) (b : Bool) :
    k.name b ∈ (getAllSources forced conns ((networkArrays layers).map Prod.fst)).flatMap Item.flat ↔
      k ≠ .root ∧ ∀ k', ¬ Flow layers k' k := by
  constructor
  · intro hs
    refine ⟨?_, fun k' hf => ?_⟩
    · rintro rfl
      obtain ⟨it, hit, hpi⟩ := List.mem_flatMap.1 hs
      cases it with
      | one q =>
        simp only [Item.flat, List.mem_singleton] at hpi
        have := (sources_inv hw hP.forcedOk (conns.map Prod.snd)).notSink _ hit
        cases b
        · exact this.2.1 hpi.symm
        · exact this.2.2 hpi.symm
      | tup u =>
        obtain ⟨d, l, hl, rfl⟩ := (hP.forced_iff u).1 ((hP.nested hw).tuples u hit)
        obtain ⟨-, x, -, he⟩ := mem_ord_key hw (mem_withParams.1 hl).1 hk hpi
        cases he
    · exact hP.source_not_sink hw hs (List.mem_map.2
        ⟨_, (conn_key hw hni hP.connsOk (hf.valid hw).1 hk b).2 hf, rfl⟩)
  · rintro ⟨hr, hno⟩
    refine (sources_inv hw hP.forcedOk (conns.map Prod.snd)).covered _ (key_array hk hr b) ?_ ?_ ?_
    · intro hm
      obtain ⟨c, hc, hce⟩ := List.mem_map.1 hm
      obtain ⟨p, q⟩ := c
      simp only at hce
      subst hce
      obtain ⟨k', hf, -⟩ := conn_into hw hni hP.connsOk hk hc
      exact hno k' hf
    · cases k with
      | root => exact absurd rfl hr
      | arr c l x => exact path_ne_root.1
    · cases k with
      | root => exact absurd rfl hr
      | arr c l x => exact path_ne_root.2

/-! ### Hubs -/

theorem Parts.link_key (hP : Parts layers L forced conns gs) (hw : WellFormedLayers layers)
    (hni : NoInternalConns layers) {k : Key} (hk : k.Valid layers) {b : Bool} (c : Bool) {q : Name}
    (h : Link conns forced (k.name b) q) :
    ∃ k' : Key, k'.Valid layers ∧ q = k'.name b ∧ Link conns forced (k.name c) (k'.name c) := by
  rcases h with ⟨t, h1, h2⟩ | ⟨u, hu, h1, h2⟩
  · obtain ⟨t', hf, rfl⟩ := conn_from hw hni hP.connsOk hk h1
    have ht' := (hf.valid hw).2
    obtain ⟨k', hf', rfl⟩ := conn_into hw hni hP.connsOk ht' h2
    have hk' := (hf'.valid hw).1
    exact ⟨k', hk', rfl, Or.inl ⟨t'.name c, (conn_key hw hni hP.connsOk hk ht' c).2 hf,
      (conn_key hw hni hP.connsOk hk' ht' c).2 hf'⟩⟩
  · obtain ⟨d, l, hl, rfl⟩ := (hP.forced_iff u).1 hu
    have hl' := (mem_withParams.1 hl).1
    obtain ⟨rfl, x, hx, rfl⟩ := mem_ord_key hw hl' hk h1
    rw [ord_key, List.mem_map] at h2
    obtain ⟨y, hy, rfl⟩ := h2
    refine ⟨.arr .par l y, ⟨hl', hy⟩, rfl, Or.inr ⟨ord c l, (hP.forced_iff _).2 ⟨c, l, hl, rfl⟩, ?_, ?_⟩⟩
    · rw [ord_key]; exact List.mem_map.2 ⟨x, hx, rfl⟩
    · rw [ord_key]; exact List.mem_map.2 ⟨y, hy, rfl⟩

theorem link_symm {p q : Name} (h : Link conns forced p q) : Link conns forced q p := by
  rcases h with ⟨t, h1, h2⟩ | ⟨l, hl, h1, h2⟩
  · exact Or.inl ⟨t, h2, h1⟩
  · exact Or.inr ⟨l, hl, h2, h1⟩

theorem Parts.linked_key (hP : Parts layers L forced conns gs) (hw : WellFormedLayers layers)
    (hni : NoInternalConns layers) (b c : Bool) {p q : Name} (h : Relation.EqvGen (Link conns forced) p q) :
    (∀ k : Key, k.Valid layers → p = k.name b →
      ∃ k' : Key, k'.Valid layers ∧ q = k'.name b ∧ Relation.EqvGen (Link conns forced) (k.name c) (k'.name c)) ∧
    (∀ k : Key, k.Valid layers → q = k.name b →
      ∃ k' : Key, k'.Valid layers ∧ p = k'.name b ∧ Relation.EqvGen (Link conns forced) (k.name c) (k'.name c)) := by
  induction h with
  | rel x y hr =>
    constructor
    · rintro k hk rfl
      obtain ⟨k', hk', rfl, hl⟩ := hP.link_key hw hni hk c hr
      exact ⟨k', hk', rfl, .rel _ _ hl⟩
    · rintro k hk rfl
      obtain ⟨k', hk', rfl, hl⟩ := hP.link_key hw hni hk c (link_symm hr)
      exact ⟨k', hk', rfl, .rel _ _ hl⟩
  | refl x => exact ⟨fun k hk h => ⟨k, hk, h, .refl _⟩, fun k hk h => ⟨k, hk, h, .refl _⟩⟩
  | symm x y _ ih => exact ⟨ih.2, ih.1⟩
  | trans x y z _ _ ih1 ih2 =>
    constructor
    · intro k hk h
      obtain ⟨k1, hk1, h1, l1⟩ := ih1.1 k hk h
      obtain ⟨k2, hk2, h2, l2⟩ := ih2.1 k1 hk1 h1
      exact ⟨k2, hk2, h2, l1.trans _ _ _ l2⟩
    · intro k hk h
      obtain ⟨k1, hk1, h1, l1⟩ := ih2.2 k hk h
      obtain ⟨k2, hk2, h2, l2⟩ := ih1.2 k1 hk1 h1
      exact ⟨k2, hk2, h2, l1.trans _ _ _ l2⟩

/-- Two hubs that hold corresponding arrays, on the sides `b` and `c`. -/
structure Twin (layers : List LayerInfo) (b c : Bool) (g g' : Group) : Prop where
  left : ∀ p ∈ g.arrays, ∃ k : Key, k.Valid layers ∧ p = k.name b ∧ k.name c ∈ g'.arrays
  right : ∀ p ∈ g'.arrays, ∃ k : Key, k.Valid layers ∧ p = k.name c ∧ k.name b ∈ g.arrays

theorem Twin.symm {b c : Bool} {g g' : Group} (h : Twin layers b c g g') : Twin layers c b g' g := ⟨h.right, h.left⟩

theorem Twin.mem (hw : WellFormedLayers layers) {b c : Bool} {g g' : Group} (h : Twin layers b c g g') {k : Key}
    (hk : k.Valid layers) : k.name b ∈ g.arrays ↔ k.name c ∈ g'.arrays := by
  constructor
  · intro hm
    obtain ⟨k', hk', he, hm'⟩ := h.left _ hm
    obtain ⟨rfl, -⟩ := Key.inj hw hk hk' he
    exact hm'
  · intro hm
    obtain ⟨k', hk', he, hm'⟩ := h.right _ hm
    obtain ⟨rfl, -⟩ := Key.inj hw hk hk' he
    exact hm'

/-- Every hub with an array that has deltas has a twin. -/
theorem Parts.twin (hP : Parts layers L forced conns gs) (hw : WellFormedLayers layers)
    (hni : NoInternalConns layers) {g : Group} (hg : g ∈ gs) {k : Key} (hk : k.Valid layers) {b : Bool}
    (h : k.name b ∈ g.arrays) (c : Bool) : ∃ g' ∈ gs, Twin layers b c g g' := by
  have hn := hP.nested hw
  have hpart := C08_partition _ _ _ _ _ hn hP.groupsOk
  have hs := hP.arrays_subset hw hg h
  have hs' := (hP.source_key hw hni hk c).2 ((hP.source_key hw hni hk b).1 hs)
  obtain ⟨i, hi, rfl⟩ := List.getElem_of_mem hg
  obtain ⟨j, hj, hkj, -⟩ := hpart.2 _ hs'
  refine ⟨gs[j], List.getElem_mem hj, ?_, ?_⟩
  · intro p hp
    have hl := (C08_linked _ _ _ _ _ hn hP.groupsOk i hi _ p h (hP.arrays_subset hw hg hp)).1 hp
    obtain ⟨k', hk', rfl, hl'⟩ := (hP.linked_key hw hni b c hl).1 k hk rfl
    refine ⟨k', hk', rfl, ?_⟩
    refine (C08_linked _ _ _ _ _ hn hP.groupsOk j hj _ _ hkj ?_).2 hl'
    exact (hP.source_key hw hni hk' c).2 ((hP.source_key hw hni hk' b).1 (hP.arrays_subset hw hg hp))
  · intro p hp
    have hl := (C08_linked _ _ _ _ _ hn hP.groupsOk j hj _ p hkj (hP.arrays_subset hw (List.getElem_mem hj) hp)).1 hp
    obtain ⟨k', hk', rfl, hl'⟩ := (hP.linked_key hw hni c b hl).1 k hk rfl
    refine ⟨k', hk', rfl, ?_⟩
    refine (C08_linked _ _ _ _ _ hn hP.groupsOk i hi _ _ h ?_).2 hl'
    exact (hP.source_key hw hni hk' b).2
      ((hP.source_key hw hni hk' c).1 (hP.arrays_subset hw (List.getElem_mem hj) hp))

/-! ### Items -/

/-- An item of a hub: an input or output, or the parameters of a layer. -/
inductive IKey
  | one (k : Key)
  | tup (l : LayerInfo)
deriving DecidableEq

/-- The item of the values or of the deltas. -/
def IKey.item : IKey → Bool → Item
  | .one k, b => .one (k.name b)
  | .tup l, b => .tup (ord b l)

/-- The item occurs in the network. -/
def IKey.Good (layers : List LayerInfo) : IKey → Prop
  | .one k => k.Valid layers ∧ k ≠ .root ∧ ∀ l x, k ≠ .arr .par l x
  | .tup l => l ∈ withParams layers

/-- The arrays of an item. -/
def IKey.keys : IKey → List Key
  | .one k => [k]
  | .tup l => (l.paramShapes.map Prod.fst).map (Key.arr .par l)

theorem IKey.flat (ik : IKey) (b : Bool) : (ik.item b).flat = ik.keys.map (fun k => k.name b) := by
  cases ik with
  | one k => rfl
  | tup l => simp only [IKey.item, Item.flat, ord_key, IKey.keys, List.map_map, Function.comp_def]

theorem IKey.valid {ik : IKey} (h : ik.Good layers) : ∀ k ∈ ik.keys, k.Valid layers ∧ k ≠ .root := by
  cases ik with
  | one k => intro k' hk'; simp only [IKey.keys, List.mem_singleton] at hk'; subst hk'; exact ⟨h.1, h.2.1⟩
  | tup l =>
    intro k' hk'
    simp only [IKey.keys, List.mem_map] at hk'
    obtain ⟨x, hx, rfl⟩ := hk'
    refine ⟨⟨(mem_withParams.1 h).1, ?_⟩, by simp⟩
    simpa [Cat.shapes] using hx

theorem IKey.inj (hw : WellFormedLayers layers) {i j : IKey} (hi : i.Good layers) (hj : j.Good layers) {b : Bool}
    (h : i.item b = j.item b) : i = j := by
  cases i with
  | one k =>
    cases j with
    | one k' =>
      simp only [IKey.item, Item.one.injEq] at h
      rw [(Key.inj hw hi.1 hj.1 h).1]
    | tup l => simp [IKey.item] at h
  | tup l =>
    cases j with
    | one k' => simp [IKey.item] at h
    | tup l' => rw [ordTup_inj hw hi hj h]

theorem Parts.item_key (hP : Parts layers L forced conns gs) (hw : WellFormedLayers layers) {b c : Bool}
    {g g' : Group} (hg : g ∈ gs) (hg' : g' ∈ gs) (ht : Twin layers b c g g') {it : Item} (hit : it ∈ g.sources) :
    ∃ ik : IKey, ik.Good layers ∧ it = ik.item b ∧ ik.item c ∈ g'.sources := by
  have hn := hP.nested hw
  have hgr := groupIntoHubs_ok hP.groupsOk
  have hmem : ∀ g ∈ gs, ∀ it ∈ g.sources, it ∈ getAllSources forced conns ((networkArrays layers).map Prod.fst) :=
    fun g hg it hit => hgr.perm.subset (List.mem_flatMap.2 ⟨g, hg, hit⟩)
  cases it with
  | one p =>
    have hp : p ∈ g.arrays := List.mem_flatMap.2 ⟨_, hit, by simp [Item.flat]⟩
    obtain ⟨k, hk, rfl, hkc⟩ := ht.left p hp
    have hroot : k ≠ .root := by
      rintro rfl
      have := (sources_inv hw hP.forcedOk (conns.map Prod.snd)).notSink _ (hmem g hg _ hit)
      cases b
      · exact this.2.1 rfl
      · exact this.2.2 rfl
    have hpar : ∀ l x, k ≠ .arr .par l x := by
      rintro l x rfl
      have hl : l ∈ withParams layers := mem_withParams.2 ⟨hk.1, by
        rintro h0; have := hk.2; simp [Cat.shapes, h0] at this⟩
      refine hn.singles _ (hmem g hg _ hit) (ord b l) ((hP.forced_iff _).2 ⟨b, l, hl, rfl⟩) ?_
      rw [ord_key]; exact List.mem_map.2 ⟨x, hk.2, rfl⟩
    refine ⟨.one k, ⟨hk, hroot, hpar⟩, rfl, ?_⟩
    obtain ⟨it', hit', hp'⟩ := List.mem_flatMap.1 hkc
    cases it' with
    | one q =>
      simp only [Item.flat, List.mem_singleton] at hp'
      rw [← hp'] at hit'; exact hit'
    | tup u =>
      obtain ⟨d, l, hl, rfl⟩ := (hP.forced_iff u).1 (hn.tuples u (hmem g' hg' _ hit'))
      obtain ⟨-, x, -, he⟩ := mem_ord_key hw (mem_withParams.1 hl).1 hk hp'
      exact absurd he (hpar l x)
  | tup u =>
    obtain ⟨d, l, hl, rfl⟩ := (hP.forced_iff u).1 (hn.tuples u (hmem g hg _ hit))
    have hl' := (mem_withParams.1 hl).1
    obtain ⟨x, hx⟩ := List.exists_mem_of_ne_nil (l.paramShapes.map Prod.fst) (by simpa using (mem_withParams.1 hl).2)
    have hk : (Key.arr .par l x).Valid layers := ⟨hl', hx⟩
    have hxo : ∀ d, (Key.arr .par l x).name d ∈ ord d l := fun d => by
      rw [ord_key]; exact List.mem_map.2 ⟨x, hx, rfl⟩
    obtain ⟨k', hk', he, hkc⟩ := ht.left _ (List.mem_flatMap.2 ⟨_, hit, hxo d⟩)
    obtain ⟨rfl, rfl⟩ := Key.inj hw hk hk' he
    refine ⟨.tup l, hl, rfl, ?_⟩
    obtain ⟨it', hit', hp'⟩ := List.mem_flatMap.1 hkc
    have e1 := hn.mergeNode_eq (hmem g' hg' _ hit') hp'
    rw [mergeNode_of_mem hn.disjoint ((hP.forced_iff _).2 ⟨c, l, hl, rfl⟩) (hxo c)] at e1
    rw [← e1] at hit'
    exact hit'

/-! ### Order -/

theorem nameLe_prefix (l a b : Name) : nameLe (l ++ a) (l ++ b) = nameLe a b := by
  induction l with
  | nil => rfl
  | cons c l ih =>
    have : charLe c c = true := charLe_linear.refl c
    simp only [nameLe, List.cons_append, lexLe, this, if_true]
    exact ih

theorem key_le (hw : WellFormedLayers layers) {k k' : Key} (hk : (IKey.one k).Good layers)
    (hk' : (IKey.one k').Good layers) (b c : Bool) :
    nameLe (k.name b) (k'.name b) = nameLe (k.name c) (k'.name c) := by
  obtain ⟨hv, hr, hp⟩ := hk
  obtain ⟨hv', hr', hp'⟩ := hk'
  cases k with
  | root => exact absurd rfl hr
  | arr d l x =>
    cases k' with
    | root => exact absurd rfl hr'
    | arr d' l' x' =>
      by_cases hne : l.name = l'.name
      · simp only [Key.name, path, hne, nameLe_prefix]
        rw [show ∀ u v : Name, nameLe ('.' :: u) ('.' :: v) = nameLe u v from fun u v => nameLe_prefix ['.'] u v,
          show ∀ u v : Name, nameLe ('.' :: u) ('.' :: v) = nameLe u v from fun u v => nameLe_prefix ['.'] u v]
        cases d with
        | par => exact absurd rfl (hp l x)
        | inp =>
          cases d' with
          | par => exact absurd rfl (hp' l' x')
          | inp => rw [nameLe_prefix, nameLe_prefix]
          | out => cases b <;> cases c <;> rfl
        | out =>
          cases d' with
          | par => exact absurd rfl (hp' l' x')
          | inp => cases b <;> cases c <;> rfl
          | out => rw [nameLe_prefix, nameLe_prefix]
      · exact nameLe_sep (hw.noDot l hv.1) (hw.noDot l' hv'.1) hne _ _ _ _

theorem item_le (hw : WellFormedLayers layers) {i j : IKey} (hi : i.Good layers) (hj : j.Good layers) (b c : Bool) :
    itemLe (i.item b) (j.item b) = itemLe (i.item c) (j.item c) := by
  cases i with
  | one k =>
    cases j with
    | one k' => exact key_le hw hi hj b c
    | tup l => rfl
  | tup l =>
    cases j with
    | one k' => rfl
    | tup l' => exact itemLe_role hw hi hj b c

theorem exists_map_eq {α β : Type} {f : α → β} {P : α → Prop} {l : List β} (h : ∀ y ∈ l, ∃ x, P x ∧ y = f x) :
    ∃ xs : List α, (∀ x ∈ xs, P x) ∧ l = xs.map f := by
  induction l with
  | nil => exact ⟨[], by simp, rfl⟩
  | cons y l ih =>
    obtain ⟨x, hx, rfl⟩ := h y (by simp)
    obtain ⟨xs, hxs, rfl⟩ := ih (fun y hy => h y (by simp [hy]))
    refine ⟨x :: xs, ?_, rfl⟩
    intro z hz
    rcases List.mem_cons.1 hz with rfl | hz
    · exact hx
    · exact hxs z hz

theorem sortedItems_eq {l s : List Item} (h : sortedItems l = .ok s) : s = sortBy itemLe l := by
  unfold sortedItems at h
  split at h
  · simpa using h.symm
  · simp at h

/-- The sorted items of twins correspond. -/
theorem Parts.sorted_key (hP : Parts layers L forced conns gs) (hw : WellFormedLayers layers) {b c : Bool}
    {g g' : Group} (hg : g ∈ gs) (hg' : g' ∈ gs) (ht : Twin layers b c g g') :
    ∃ iks : List IKey, (∀ ik ∈ iks, ik.Good layers) ∧ sortBy itemLe g.sources = iks.map (fun ik => ik.item b) ∧
      sortBy itemLe g'.sources = iks.map (fun ik => ik.item c) := by
  have hgr := groupIntoHubs_ok hP.groupsOk
  obtain ⟨node, -, hd, -⟩ := hgr.done g hg
  obtain ⟨node', -, hd', -⟩ := hgr.done g' hg'
  obtain ⟨iks, hgood, hiks⟩ := exists_map_eq (f := fun ik : IKey => ik.item b)
    (P := fun ik => ik.Good layers ∧ ik.item c ∈ g'.sources) (l := sortBy itemLe g.sources) (by
      intro it hit
      obtain ⟨ik, h1, h2, h3⟩ := hP.item_key hw hg hg' ht (mem_sortBy.1 hit)
      exact ⟨ik, ⟨h1, h3⟩, h2⟩)
  refine ⟨iks, fun ik h => (hgood ik h).1, hiks, ?_⟩
  have hnd : (sortBy itemLe g.sources).Nodup := (sortBy_perm _ _).nodup_iff.2 hd.nodupSrc
  have hndk : iks.Nodup := by rw [hiks] at hnd; exact List.Nodup.of_map _ hnd
  have hndc : (iks.map (fun ik => ik.item c)).Nodup := by
    refine List.Nodup.map_on ?_ hndk
    intro x hx y hy hxy
    exact IKey.inj hw (hgood x hx).1 (hgood y hy).1 hxy
  have hp : g'.sources.Perm (iks.map (fun ik => ik.item c)) := by
    refine (List.perm_ext_iff_of_nodup hd'.nodupSrc hndc).2 (fun it => ⟨fun hit => ?_, fun hit => ?_⟩)
    · obtain ⟨ik, h1, rfl, h3⟩ := hP.item_key hw hg' hg ht.symm hit
      have : ik.item b ∈ sortBy itemLe g.sources := mem_sortBy.2 h3
      rw [hiks] at this
      obtain ⟨ik', hik', he⟩ := List.mem_map.1 this
      have := IKey.inj hw (hgood ik' hik').1 h1 he
      subst this
      exact List.mem_map.2 ⟨ik', hik', rfl⟩
    · obtain ⟨ik, hik, rfl⟩ := List.mem_map.1 hit
      exact (hgood ik hik).2
  refine eq_of_sorted_perm itemLe_linear.antisymm (sortBy_sorted itemLe_linear.total itemLe_linear.trans _) ?_
    ((sortBy_perm _ _).trans hp)
  have hs : (sortBy itemLe g.sources).Pairwise (fun x y => itemLe x y = true) :=
    sortBy_sorted itemLe_linear.total itemLe_linear.trans g.sources
  rw [hiks, List.pairwise_map] at hs
  rw [List.pairwise_map]
  refine hs.imp_of_mem ?_
  intro x y hx hy hxy
  rw [item_le hw (hgood x hx).1 (hgood y hy).1 c b]
  exact hxy

end

end Verif.Layout
