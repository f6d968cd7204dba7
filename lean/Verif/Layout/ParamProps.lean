import Verif.Layout.Entries

/-!
# C11: parameters and gradients have the same layout
-/

namespace Verif.Layout

open Verif.Structure

/-- `false`: parameters, `true`: gradients. -/
def roleCat : Bool → Name
  | false => str "parameters"
  | true => str "gradients"

/-- Where a connection out of a parameter (gradient) ends. -/
def roleIn : Bool → Name
  | false => str "inputs"
  | true => str "input_deltas"

/-- The forced order of a layer. -/
def ord (b : Bool) (l : LayerInfo) : List Name := l.paramShapes.map (fun e => path l.name (roleCat b) e.1)

theorem ord_false (l : LayerInfo) : ord false l = paramOrder l := rfl
theorem ord_true (l : LayerInfo) : ord true l = gradOrder l := rfl

theorem roleCat_noDot (b : Bool) : '.' ∉ roleCat b := by cases b <;> decide
theorem roleIn_noDot (b : Bool) : '.' ∉ roleIn b := by cases b <;> decide

theorem roleIn_ne {b c : Bool} (h : roleIn b = roleIn c) : b = c := by
  cases b <;> cases c <;> first | rfl | exact absurd h (by decide)

theorem roleCat_ne {b c : Bool} (h : roleCat b = roleCat c) : b = c := by
  cases b <;> cases c <;> first | rfl | exact absurd h (by decide)

theorem path_ne_roleCat {l c x : Name} {b : Bool} : path l c x ≠ roleCat b := by
  cases b
  · exact path_ne_root.1
  · exact path_ne_root.2

/-- Connections out of a parameter or gradient. -/
theorem conn_of_role {layers : List LayerInfo} (hw : WellFormedLayers layers) {conns : List (Name × Name)}
    (h : getConnections layers = .ok conns) {l : LayerInfo} (hl : l ∈ layers) {x : Name}
    (hx : x ∈ l.paramShapes.map Prod.fst) (b : Bool) (t : Name) :
    (path l.name (roleCat b) x, t) ∈ conns ↔
      t = roleCat b ∨ ∃ o ∈ l.outgoing, o.kind = .parameters ∧ o.buffer = x ∧
        t = path o.endLayer (roleIn b) o.endInput := by
  rw [mem_getConnections h]
  have inj : ∀ l' ∈ layers, ∀ cat y, '.' ∉ cat → path l.name (roleCat b) x = path l'.name cat y →
      l' = l ∧ roleCat b = cat ∧ x = y := by
    intro l' hl' cat y hd he
    obtain ⟨e1, e2, e3⟩ := path_inj (hw.noDot l hl) (hw.noDot l' hl') (roleCat_noDot b) hd he
    exact ⟨List.inj_on_of_nodup_map hw.names hl' hl e1.symm, e2, e3⟩
  constructor
  · rintro ⟨l', hl', ⟨o, ho, hfb⟩ | ⟨y, hy, hpg⟩⟩
    · right
      rcases hfb with hf | hb
      · simp only [fwdConn, Prod.mk.injEq] at hf
        obtain ⟨e1, rfl⟩ := hf
        have hkd : '.' ∉ o.kind.str := by cases o.kind <;> decide
        obtain ⟨rfl, e2, rfl⟩ := inj l' hl' _ _ hkd e1
        cases b with
        | false =>
          refine ⟨o, ho, ?_, rfl, rfl⟩
          cases hk : o.kind with
          | outputs => rw [hk] at e2; exact absurd e2 (by decide)
          | parameters => rfl
          | internals => rw [hk] at e2; exact absurd e2 (by decide)
        | true =>
          cases hk : o.kind <;> rw [hk] at e2 <;> exact absurd e2 (by decide)
      · unfold bwdConn at hb
        cases hk : o.kind with
        | outputs =>
          rw [hk] at hb
          simp only [Except.ok.injEq, Prod.mk.injEq] at hb
          obtain ⟨-, e2, -⟩ := inj l' hl' _ _ (by decide) hb.1.symm
          cases b <;> exact absurd e2 (by decide)
        | parameters =>
          rw [hk] at hb
          simp only [Except.ok.injEq, Prod.mk.injEq] at hb
          obtain ⟨rfl, e2, rfl⟩ := inj l' hl' _ _ (by decide) hb.1.symm
          cases b with
          | false => exact absurd e2 (by decide)
          | true => exact ⟨o, ho, hk, rfl, hb.2.symm⟩
        | internals =>
          rw [hk] at hb
          simp only at hb
          split at hb
          · simp only [Except.ok.injEq, Prod.mk.injEq] at hb
            obtain ⟨-, e2, -⟩ := inj l' hl' _ _ (by decide) hb.1.symm
            cases b <;> exact absurd e2 (by decide)
          · simp at hb
    · left
      rcases hpg with hp | hp
      · simp only [Prod.mk.injEq] at hp
        obtain ⟨-, e2, -⟩ := inj l' hl' _ _ (by decide) hp.1
        rw [hp.2, ← e2]
      · simp only [Prod.mk.injEq] at hp
        obtain ⟨-, e2, -⟩ := inj l' hl' _ _ (by decide) hp.1
        rw [hp.2, ← e2]
  · rintro (rfl | ⟨o, ho, hk, rfl, rfl⟩)
    · refine ⟨l, hl, Or.inr ⟨x, hx, ?_⟩⟩
      cases b
      · exact Or.inl rfl
      · exact Or.inr rfl
    · refine ⟨l, hl, Or.inl ⟨o, ho, ?_⟩⟩
      cases b
      · left; simp [fwdConn, hk, Kind.str, roleCat, roleIn]
      · right; simp [bwdConn, hk, roleCat, roleIn]

theorem ord_nodup {layers : List LayerInfo} (hw : WellFormedLayers layers) {l : LayerInfo} (hl : l ∈ layers) (b : Bool) :
    (ord b l).Nodup := by
  cases b
  · exact (orders_nodup hw hl).1
  · exact (orders_nodup hw hl).2

theorem mem_ord {l : LayerInfo} {b : Bool} {p : Name} :
    p ∈ ord b l ↔ ∃ x ∈ l.paramShapes.map Prod.fst, p = path l.name (roleCat b) x := by
  cases b
  · exact mem_paramOrder
  · exact mem_gradOrder

/-- Layers that have parameters. -/
def withParams (layers : List LayerInfo) : List LayerInfo := layers.filter (fun l => l.paramShapes ≠ [])

theorem mem_withParams {layers : List LayerInfo} {l : LayerInfo} :
    l ∈ withParams layers ↔ l ∈ layers ∧ l.paramShapes ≠ [] := by simp [withParams]

theorem ord_ne_nil {l : LayerInfo} (h : l.paramShapes ≠ []) (b : Bool) : ord b l ≠ [] := by
  simpa [ord] using h

theorem sortedItems_tups {l s : List Item} (h : sortedItems l = .ok s) {t : List Name} (ht : Item.tup t ∈ l) :
    (∀ it ∈ l, ∃ u, it = .tup u) ∧ s = sortBy itemLe l := by
  unfold sortedItems at h
  split at h
  · rename_i hor
    simp only [Except.ok.injEq] at h
    refine ⟨?_, h.symm⟩
    rcases hor with hall | hall
    · have := List.all_eq_true.1 hall _ ht
      simp at this
    · intro it hit
      have := List.all_eq_true.1 hall _ hit
      cases it with
      | one p => simp at this
      | tup u => exact ⟨u, rfl⟩
  · simp at h

section
variable {layers : List LayerInfo} {L : Layout} {forced : List (List Name)} {conns : List (Name × Name)}
  {gs : List Group}

theorem create_sorted {structOf : Name → Option Struct} {sources : List Item} {sinks : List Name} {h : Hub}
    (hc : Hub.create structOf conns sources sinks = .ok h) :
    ∃ sorted, sortedItems sources = .ok sorted ∧
      permuteRows (connTable (sorted.flatMap Item.flat) (sortBy nameLe sinks) conns) (sortBy nameLe sinks).length
        (nestedIndices 0 sorted) = .ok h.perm ∧
      h.flatSources = h.perm.map (fun i => (sorted.flatMap Item.flat).getD i []) := by
  unfold Hub.create at hc
  cases hsort : sortedItems sources with
  | error e => simp [hsort] at hc
  | ok sorted =>
    simp only [hsort] at hc
    cases hlook : lookupAll structOf (sorted.flatMap Item.flat) with
    | error e => simp [hlook] at hc
    | ok structs =>
      simp only [hlook] at hc
      cases hbt : ensureUniform (structs.map Struct.bufferType) with
      | error e => simp [hbt] at hc
      | ok bt =>
        simp only [hbt] at hc
        cases hperm : permuteRows (connTable (sorted.flatMap Item.flat) (sortBy nameLe sinks) conns)
            (sortBy nameLe sinks).length (nestedIndices 0 sorted) with
        | error e => simp [hperm] at hc
        | ok p =>
          simp only [hperm] at hc
          cases hbw : ensureUniform ((p.map (fun i => structs.getD i ⟨[], 0, false⟩)).map Struct.backwardOnly) with
          | error e => simp only [hbw] at hc; simp at hc
          | ok bw =>
            simp only [hbw, Except.ok.injEq] at hc
            subst hc
            exact ⟨sorted, rfl, hperm, rfl⟩

/-- The hub of the parameters (gradients): its sources are exactly the tuples of
the layers with parameters. -/
theorem Parts.role_hub (hP : Parts layers L forced conns gs) (hw : WellFormedLayers layers)
    {l₀ : LayerInfo} (hl₀ : l₀ ∈ withParams layers) (b : Bool) :
    ∃ g ∈ gs, roleCat b ∈ g.sinks ∧ ∀ it, it ∈ g.sources ↔ ∃ l ∈ withParams layers, it = .tup (ord b l) := by
  have hn := hP.nested hw
  have hgr := groupIntoHubs_ok hP.groupsOk
  obtain ⟨hforced, -⟩ := getForcedOrders_ok hP.forcedOk
  have hconn : ∀ l ∈ withParams layers, ∀ x ∈ l.paramShapes.map Prod.fst,
      (path l.name (roleCat b) x, roleCat b) ∈ conns := fun l hl x hx =>
    (conn_of_role hw hP.connsOk (mem_withParams.1 hl).1 hx b _).2 (Or.inl rfl)
  have hex : ∀ l ∈ withParams layers, ∃ x, x ∈ l.paramShapes.map Prod.fst := fun l hl =>
    List.exists_mem_of_ne_nil _ (by simpa using (mem_withParams.1 hl).2)
  have hordf : ∀ l ∈ withParams layers, ord b l ∈ forced := fun l hl => by
    refine (hforced _).2 ⟨ord_ne_nil (mem_withParams.1 hl).2 b, l, (mem_withParams.1 hl).1, ?_⟩
    cases b
    · exact Or.inl rfl
    · exact Or.inr rfl
  obtain ⟨x₀, hx₀⟩ := hex l₀ hl₀
  obtain ⟨i, hi, -, hti, huniq⟩ := C08_connections _ _ _ _ _ hn hP.groupsOk _ _ (hconn l₀ hl₀ x₀ hx₀)
  have hgm := List.getElem_mem hi
  have hmem : ∀ it ∈ gs[i].sources, it ∈ getAllSources forced conns ((networkArrays layers).map Prod.fst) :=
    fun it hit => hgr.perm.subset (List.mem_flatMap.2 ⟨_, hgm, hit⟩)
  -- every tuple of a layer with parameters is in this hub
  have hback : ∀ l ∈ withParams layers, Item.tup (ord b l) ∈ gs[i].sources := by
    intro l hl
    obtain ⟨x, hx⟩ := hex l hl
    obtain ⟨j, hj, hpj, htj, -⟩ := C08_connections _ _ _ _ _ hn hP.groupsOk _ _ (hconn l hl x hx)
    have := huniq j hj (Or.inr htj)
    subst this
    obtain ⟨it, hit, hpi⟩ := List.mem_flatMap.1 hpj
    have e1 := hn.mergeNode_eq (hmem it hit) hpi
    rw [mergeNode_of_mem hn.disjoint (hordf l hl) (mem_ord.2 ⟨x, hx, rfl⟩)] at e1
    rw [e1]; exact hit
  obtain ⟨node, -, hd, hc⟩ := hgr.done _ hgm
  obtain ⟨sorted, hsorted, -⟩ := create_sorted hc
  obtain ⟨htups, -⟩ := sortedItems_tups hsorted (hback l₀ hl₀)
  refine ⟨gs[i], hgm, hti, fun it => ⟨fun hit => ?_, fun ⟨l, hl, e⟩ => e ▸ hback l hl⟩⟩
  -- what kind of tuple can be in this hub
  have hkind : ∀ it ∈ gs[i].sources, ∃ c, ∃ l ∈ withParams layers, it = .tup (ord c l) := by
    intro it hit
    obtain ⟨u, rfl⟩ := htups it hit
    obtain ⟨hne, l, hl, hor⟩ := (hforced u).1 (hn.tuples u (hmem _ hit))
    have hl' : l.paramShapes ≠ [] := by
      rintro h0
      rcases hor with rfl | rfl <;> simp [paramOrder, gradOrder, h0] at hne
    rcases hor with rfl | rfl
    · exact ⟨false, l, mem_withParams.2 ⟨hl, hl'⟩, rfl⟩
    · exact ⟨true, l, mem_withParams.2 ⟨hl, hl'⟩, rfl⟩
  have hsink : ∀ c, ∀ l ∈ withParams layers, Item.tup (ord c l) ∈ gs[i].sources → ∀ t,
      (Item.tup (ord c l), t) ∈ mergeConnections conns forced →
      t = .one (roleCat c) ∨ ∃ e ∈ layers, ∃ y, t = .one (path e.name (roleIn c) y) := by
    intro c l hl hit t ht
    obtain ⟨p, hp, q, rfl, hcq⟩ := (hn.mem_merged (hmem _ hit)).1 ht
    obtain ⟨x, hx, rfl⟩ := mem_ord.1 hp
    rcases (conn_of_role hw hP.connsOk (mem_withParams.1 hl).1 hx c q).1 hcq with rfl | ⟨o, ho, -, -, rfl⟩
    · exact Or.inl rfl
    · obtain ⟨e, he, hen, -⟩ := hw.ends l (mem_withParams.1 hl).1 o ho
      exact Or.inr ⟨e, he, o.endInput, by rw [hen]⟩
  have key : ∀ a c, Relation.EqvGen (ShareSink (mergeConnections conns forced)) a c →
      (a ∈ gs[i].sources ↔ c ∈ gs[i].sources) ∧ (a ∈ gs[i].sources →
        ((∃ l ∈ withParams layers, a = .tup (ord b l)) ↔ ∃ l ∈ withParams layers, c = .tup (ord b l))) := by
    intro a c hac
    have hcls : ∀ a c, Relation.EqvGen (ShareSink (mergeConnections conns forced)) a c →
        (a ∈ gs[i].sources ↔ c ∈ gs[i].sources) := by
      intro a c h
      rw [hd.srcs, hd.srcs]
      exact ⟨fun h' => h'.trans _ _ _ h, fun h' => h'.trans _ _ _ h.symm⟩
    refine ⟨hcls a c hac, ?_⟩
    induction hac with
    | rel a c hr =>
      intro ha
      have hc' : c ∈ gs[i].sources := (hcls a c (.rel _ _ hr)).1 ha
      have one : ∀ u v, u ∈ gs[i].sources → v ∈ gs[i].sources → ShareSink (mergeConnections conns forced) u v →
          (∃ l ∈ withParams layers, u = .tup (ord b l)) → ∃ l ∈ withParams layers, v = .tup (ord b l) := by
        rintro u v hu hv ⟨t, h1, h2⟩ ⟨l, hl, rfl⟩
        obtain ⟨c', l', hl', rfl⟩ := hkind v hv
        have : b = c' := by
          rcases hsink b l hl hu t h1 with rfl | ⟨e, he, y, rfl⟩
          · rcases hsink c' l' hl' hv _ h2 with h | ⟨e, he, y, h⟩
            · simp only [Item.one.injEq] at h; exact roleCat_ne h
            · simp only [Item.one.injEq] at h; exact absurd h.symm path_ne_roleCat
          · rcases hsink c' l' hl' hv _ h2 with h | ⟨e', he', y', h⟩
            · simp only [Item.one.injEq] at h; exact absurd h path_ne_roleCat
            · simp only [Item.one.injEq] at h
              exact roleIn_ne (path_inj (hw.noDot e he) (hw.noDot e' he') (roleIn_noDot _) (roleIn_noDot _) h).2.1
        subst this
        exact ⟨l', hl', rfl⟩
      obtain ⟨t, h1, h2⟩ := hr
      exact ⟨one a c ha hc' ⟨t, h1, h2⟩, one c a hc' ha ⟨t, h2, h1⟩⟩
    | refl a => intro _; rfl
    | symm a c h ih => intro hc'; exact (ih ((hcls a c h).2 hc')).symm
    | trans a c e h1 _ ih1 ih2 => intro ha; exact (ih1 ha).trans (ih2 ((hcls a c h1).1 ha))
  have hl := ((hd.srcs _).1 (hback l₀ hl₀)).symm.trans _ _ _ ((hd.srcs it).1 hit)
  exact ((key _ _ hl).2 (hback l₀ hl₀)).1 ⟨l₀, hl₀, rfl⟩

end

/-! ### Order of the tuples -/

theorem itemLe_linear : IsLinear itemLe where
  total := by
    intro a b
    cases a <;> cases b <;> simp [itemLe]
    · exact nameLe_linear.total _ _
    · exact nameLe_linear.lex.total _ _
  trans := by
    intro a b c
    cases a <;> cases b <;> cases c <;> simp [itemLe]
    · exact nameLe_linear.trans _ _ _
    · exact nameLe_linear.lex.trans _ _ _
  antisymm := by
    intro a b
    cases a <;> cases b <;> simp [itemLe]
    · exact nameLe_linear.antisymm _ _
    · exact nameLe_linear.lex.antisymm _ _

theorem nameLe_sep {l l' : Name} (h1 : '.' ∉ l) (h2 : '.' ∉ l') (hne : l ≠ l') (r r' q q' : Name) :
    nameLe (l ++ '.' :: r) (l' ++ '.' :: r') = nameLe (l ++ '.' :: q) (l' ++ '.' :: q') := by
  induction l generalizing l' with
  | nil =>
    cases l' with
    | nil => exact absurd rfl hne
    | cons c l' =>
      have hc : ¬ (charLe '.' c = true ∧ charLe c '.' = true) := fun ⟨e1, e2⟩ =>
        h2 (charLe_linear.antisymm _ _ e1 e2 ▸ List.mem_cons_self)
      simp only [nameLe, List.nil_append, List.cons_append, lexLe]
      by_cases e1 : charLe '.' c = true
      · have e2 : charLe c '.' = false := by simpa using fun e2 => hc ⟨e1, e2⟩
        simp [e1, e2]
      · simp [e1]
  | cons a l ih =>
    cases l' with
    | nil =>
      have hc : ¬ (charLe '.' a = true ∧ charLe a '.' = true) := fun ⟨e1, e2⟩ =>
        h1 (charLe_linear.antisymm _ _ e1 e2 ▸ List.mem_cons_self)
      simp only [nameLe, List.nil_append, List.cons_append, lexLe]
      by_cases e1 : charLe a '.' = true
      · have e2 : charLe '.' a = false := by simpa using fun e2 => hc ⟨e2, e1⟩
        simp [e1, e2]
      · simp [e1]
    | cons c l' =>
      simp only [List.mem_cons, not_or] at h1 h2
      simp only [nameLe, List.cons_append, lexLe]
      by_cases e1 : charLe a c = true
      · by_cases e2 : charLe c a = true
        · have : a = c := charLe_linear.antisymm _ _ e1 e2
          subst this
          simp only [e1, if_true]
          exact ih h1.2 h2.2 (fun h => hne (by rw [h]))
        · simp [e1, e2]
      · simp [e1]

theorem tupLe_cons_ne {p q : Name} {ps qs : List Name} (h : p ≠ q) :
    tupLe (p :: ps) (q :: qs) = nameLe p q := by
  simp only [tupLe, lexLe]
  by_cases e1 : nameLe p q = true
  · have e2 : nameLe q p = false := by
      simpa using fun e2 => h (nameLe_linear.antisymm _ _ e1 e2)
    simp [e1, e2]
  · simp [e1]

/-- The order of two layers' tuples is the same for parameters and gradients. -/
theorem itemLe_role {layers : List LayerInfo} (hw : WellFormedLayers layers) {l l' : LayerInfo}
    (hl : l ∈ withParams layers) (hl' : l' ∈ withParams layers) (b c : Bool) :
    itemLe (.tup (ord b l)) (.tup (ord b l')) = itemLe (.tup (ord c l)) (.tup (ord c l')) := by
  by_cases hne : l.name = l'.name
  · have : l = l' := List.inj_on_of_nodup_map hw.names (mem_withParams.1 hl).1 (mem_withParams.1 hl').1 hne
    subst this
    rw [itemLe_linear.refl, itemLe_linear.refl]
  · obtain ⟨e, es, he⟩ := List.exists_cons_of_ne_nil (mem_withParams.1 hl).2
    obtain ⟨e', es', he'⟩ := List.exists_cons_of_ne_nil (mem_withParams.1 hl').2
    have hd := hw.noDot l (mem_withParams.1 hl).1
    have hd' := hw.noDot l' (mem_withParams.1 hl').1
    have hpn : ∀ d, path l.name (roleCat d) e.1 ≠ path l'.name (roleCat d) e'.1 := fun d h =>
      hne (path_inj hd hd' (roleCat_noDot d) (roleCat_noDot d) h).1
    simp only [itemLe, ord, he, he', List.map_cons]
    rw [tupLe_cons_ne (hpn b), tupLe_cons_ne (hpn c)]
    exact nameLe_sep hd hd' hne _ _ _ _

/-- The layers with parameters in the order in which they are laid out. -/
def laidOut (layers : List LayerInfo) : List LayerInfo :=
  sortBy (fun l l' => itemLe (.tup (ord false l)) (.tup (ord false l'))) (withParams layers)

theorem laidOut_perm (layers : List LayerInfo) : (laidOut layers).Perm (withParams layers) := sortBy_perm _ _

theorem ordTup_inj {layers : List LayerInfo} (hw : WellFormedLayers layers) {l l' : LayerInfo}
    (hl : l ∈ withParams layers) (hl' : l' ∈ withParams layers) {b : Bool}
    (h : Item.tup (ord b l) = Item.tup (ord b l')) : l = l' := by
  obtain ⟨e, es, he⟩ := List.exists_cons_of_ne_nil (mem_withParams.1 hl).2
  obtain ⟨e', es', he'⟩ := List.exists_cons_of_ne_nil (mem_withParams.1 hl').2
  simp only [ord, he, he', List.map_cons, Item.tup.injEq, List.cons.injEq] at h
  exact List.inj_on_of_nodup_map hw.names (mem_withParams.1 hl).1 (mem_withParams.1 hl').1
    (path_inj (hw.noDot l (mem_withParams.1 hl).1) (hw.noDot l' (mem_withParams.1 hl').1)
      (roleCat_noDot b) (roleCat_noDot b) h.1).1

theorem sort_role {layers : List LayerInfo} (hw : WellFormedLayers layers) {src : List Item} (hnd : src.Nodup)
    (b : Bool) (h : ∀ it, it ∈ src ↔ ∃ l ∈ withParams layers, it = .tup (ord b l)) :
    sortBy itemLe src = (laidOut layers).map (fun l => .tup (ord b l)) := by
  have hwn : (withParams layers).Nodup := (List.Nodup.of_map _ hw.names).filter _
  have hp : src.Perm ((laidOut layers).map (fun l => .tup (ord b l))) := by
    refine (List.perm_ext_iff_of_nodup hnd ?_).2 (fun it => ?_)
    · refine List.Nodup.map_on ?_ ((laidOut_perm layers).nodup_iff.2 hwn)
      intro x hx y hy hxy
      exact ordTup_inj hw ((laidOut_perm layers).subset hx) ((laidOut_perm layers).subset hy) hxy
    · rw [h]
      simp only [List.mem_map, (laidOut_perm layers).mem_iff]
      constructor
      · rintro ⟨l, hl, rfl⟩; exact ⟨l, hl, rfl⟩
      · rintro ⟨l, hl, rfl⟩; exact ⟨l, hl, rfl⟩
  refine eq_of_sorted_perm itemLe_linear.antisymm (sortBy_sorted itemLe_linear.total itemLe_linear.trans _) ?_
    ((sortBy_perm _ _).trans hp)
  rw [List.pairwise_map]
  have hs : (laidOut layers).Pairwise (fun l l' => itemLe (.tup (ord false l)) (.tup (ord false l')) = true) :=
    sortBy_sorted (le := fun l l' => itemLe (.tup (ord false l)) (.tup (ord false l')))
      (fun a b => itemLe_linear.total _ _) (fun a b c => itemLe_linear.trans _ _ _) (withParams layers)
  refine hs.imp_of_mem ?_
  intro a c ha hc hac
  rw [itemLe_role hw ((laidOut_perm layers).subset ha) ((laidOut_perm layers).subset hc) b false]
  exact hac

/-- All parameters in the order before the permutation search. -/
def paramPairs (layers : List LayerInfo) : List (LayerInfo × Name × Struct) :=
  (laidOut layers).flatMap (fun l => l.paramShapes.map (fun e => (l, e)))

theorem flat_role (layers : List LayerInfo) (b : Bool) :
    ((laidOut layers).map (fun l => Item.tup (ord b l))).flatMap Item.flat =
      (paramPairs layers).map (fun q => path q.1.name (roleCat b) q.2.1) := by
  simp only [paramPairs, List.flatMap_map, List.map_flatMap, Item.flat, ord, List.map_map, Function.comp_def]

theorem nestedIndices_congr : ∀ {xs ys : List Item} (k : Nat),
    xs.map (fun it => it.flat.length) = ys.map (fun it => it.flat.length) →
      nestedIndices k xs = nestedIndices k ys := by
  intro xs
  induction xs with
  | nil => intro ys k h; cases ys with
    | nil => rfl
    | cons y ys => simp at h
  | cons x xs ih =>
    intro ys k h
    cases ys with
    | nil => simp at h
    | cons y ys =>
      simp only [List.map_cons, List.cons.injEq] at h
      simp only [nestedIndices, h.1, ih _ h.2]

theorem mem_paramPairs {layers : List LayerInfo} {q : LayerInfo × Name × Struct} :
    q ∈ paramPairs layers ↔ q.1 ∈ layers ∧ q.2 ∈ q.1.paramShapes := by
  simp only [paramPairs, List.mem_flatMap, List.mem_map, (laidOut_perm layers).mem_iff, mem_withParams]
  constructor
  · rintro ⟨l, ⟨hl, -⟩, e, he, rfl⟩; exact ⟨hl, he⟩
  · rintro ⟨h1, h2⟩
    exact ⟨q.1, ⟨h1, List.ne_nil_of_mem h2⟩, q.2, h2, rfl⟩

theorem find?_congr' {α : Type} {p q : α → Bool} {l : List α} (h : ∀ x ∈ l, p x = q x) : l.find? p = l.find? q := by
  induction l with
  | nil => rfl
  | cons a l ih =>
    simp only [List.find?_cons, h a (by simp)]
    rw [ih (fun x hx => h x (by simp [hx]))]

section
variable {layers : List LayerInfo} {L : Layout} {forced : List (List Name)} {conns : List (Name × Name)}
  {gs : List Group}

/-- Sinks of the parameter hub and of the gradient hub correspond. -/
theorem Parts.sink_corr (hP : Parts layers L forced conns gs) (hw : WellFormedLayers layers) (b c : Bool)
    {g g' : Group} (hg : g ∈ gs) (hg' : g' ∈ gs)
    (hs : ∀ it, it ∈ g.sources ↔ ∃ l ∈ withParams layers, it = .tup (ord b l))
    (hs' : ∀ it, it ∈ g'.sources ↔ ∃ l ∈ withParams layers, it = .tup (ord c l))
    {t : Name} (ht : t ∈ g.sinks) :
    ∃ t' ∈ g'.sinks, ∀ q ∈ paramPairs layers,
      ((path q.1.name (roleCat b) q.2.1, t) ∈ conns ↔ (path q.1.name (roleCat c) q.2.1, t') ∈ conns) := by
  obtain ⟨p, hp, hc⟩ := (hP.sink_iff hw hg).1 ht
  obtain ⟨it, hit, hpi⟩ := List.mem_flatMap.1 hp
  obtain ⟨l, hl, rfl⟩ := (hs it).1 hit
  obtain ⟨x, hx, rfl⟩ := mem_ord.1 hpi
  have hl' := (mem_withParams.1 hl).1
  have harr : path l.name (roleCat c) x ∈ g'.arrays :=
    List.mem_flatMap.2 ⟨_, (hs' _).2 ⟨l, hl, rfl⟩, mem_ord.2 ⟨x, hx, rfl⟩⟩
  rcases (conn_of_role hw hP.connsOk hl' hx b t).1 hc with rfl | ⟨o, ho, hk, hb, rfl⟩
  · refine ⟨roleCat c, (hP.sink_iff hw hg').2 ⟨_, harr,
      (conn_of_role hw hP.connsOk hl' hx c _).2 (Or.inl rfl)⟩, ?_⟩
    intro q hq
    obtain ⟨h1, h2⟩ := mem_paramPairs.1 hq
    have hq' : q.2.1 ∈ q.1.paramShapes.map Prod.fst := List.mem_map_of_mem h2
    rw [conn_of_role hw hP.connsOk h1 hq', conn_of_role hw hP.connsOk h1 hq']
    simp
  · refine ⟨path o.endLayer (roleIn c) o.endInput, (hP.sink_iff hw hg').2 ⟨_, harr,
      (conn_of_role hw hP.connsOk hl' hx c _).2 (Or.inr ⟨o, ho, hk, hb, rfl⟩)⟩, ?_⟩
    intro q hq
    obtain ⟨h1, h2⟩ := mem_paramPairs.1 hq
    have hq' : q.2.1 ∈ q.1.paramShapes.map Prod.fst := List.mem_map_of_mem h2
    rw [conn_of_role hw hP.connsOk h1 hq', conn_of_role hw hP.connsOk h1 hq']
    obtain ⟨e, he, hen, -⟩ := hw.ends l hl' o ho
    rw [← hen]
    have hpe : ∀ d d' : Bool, ∀ o' ∈ q.1.outgoing,
        path e.name (roleIn d) o.endInput = path o'.endLayer (roleIn d) o'.endInput →
        path e.name (roleIn d') o.endInput = path o'.endLayer (roleIn d') o'.endInput := by
      intro d d' o' ho' hh
      obtain ⟨e2, he2, hen2, -⟩ := hw.ends q.1 h1 o' ho'
      rw [← hen2] at hh ⊢
      obtain ⟨i1, -, i3⟩ := path_inj (hw.noDot e he) (hw.noDot e2 he2) (roleIn_noDot d) (roleIn_noDot d) hh
      rw [i1, i3]
    constructor
    · rintro (h | ⟨o', ho', hk', hb', hh⟩)
      · exact absurd h path_ne_roleCat
      · exact Or.inr ⟨o', ho', hk', hb', hpe b c o' ho' hh⟩
    · rintro (h | ⟨o', ho', hk', hb', hh⟩)
      · exact absurd h path_ne_roleCat
      · exact Or.inr ⟨o', ho', hk', hb', hpe c b o' ho' hh⟩

/-- The hub of one role: order and sizes. -/
theorem Parts.role_perm (hP : Parts layers L forced conns gs) (hw : WellFormedLayers layers) (b : Bool)
    {g : Group} (hg : g ∈ gs) (hne : withParams layers ≠ [])
    (hs : ∀ it, it ∈ g.sources ↔ ∃ l ∈ withParams layers, it = .tup (ord b l)) :
    (g.hub.flatSources = g.hub.perm.map (fun i =>
      ((paramPairs layers).map (fun q => path q.1.name (roleCat b) q.2.1)).getD i [])) ∧
    (∀ i ∈ g.hub.perm, i < (paramPairs layers).length) ∧
    permuteRows (connTable ((paramPairs layers).map (fun q => path q.1.name (roleCat b) q.2.1))
      (sortBy nameLe g.sinks) conns) (sortBy nameLe g.sinks).length
        (nestedIndices 0 ((laidOut layers).map (fun l => Item.tup (ord b l)))) = .ok g.hub.perm ∧
    ((paramPairs layers).map (fun q => path q.1.name (roleCat b) q.2.1)).Nodup := by
  obtain ⟨hnd, hns, -, hc, -⟩ := hP.created hw hg
  obtain ⟨node, -, hd, -⟩ := (groupIntoHubs_ok hP.groupsOk).done g hg
  obtain ⟨sorted, hso, hperm, hflat⟩ := create_sorted hc
  obtain ⟨l₀, hl₀⟩ := List.exists_mem_of_ne_nil _ hne
  obtain ⟨-, hsb⟩ := sortedItems_tups hso ((hs _).2 ⟨l₀, hl₀, rfl⟩)
  rw [sort_role hw hd.nodupSrc b hs] at hsb
  subst hsb
  have hnodup : ((paramPairs layers).map (fun q => path q.1.name (roleCat b) q.2.1)).Nodup := by
    rw [← flat_role, ← sort_role hw hd.nodupSrc b hs]
    exact ((sortBy_perm itemLe g.sources).flatMap_right Item.flat).nodup_iff.2 hnd
  rw [flat_role] at hperm hflat
  refine ⟨hflat, ?_, hperm, hnodup⟩
  have hns' : (sortBy nameLe g.sinks).Nodup := (sortBy_perm _ _).nodup_iff.2 hns
  have := (permuteRows_spec (conns := conns) (sorted := (laidOut layers).map (fun l => Item.tup (ord b l)))
    (by rw [flat_role]; exact hnodup) hns').1 g.hub.perm (by rw [flat_role]; exact hperm)
  obtain ⟨-, -, -, hr, -⟩ := this
  intro i hi
  have := List.mem_range.1 (hr.subset hi)
  rw [flat_role] at this
  simpa using this

theorem Parts.role_test (hP : Parts layers L forced conns gs) (hw : WellFormedLayers layers) (b c : Bool)
    {g g' : Group} (hg : g ∈ gs) (hg' : g' ∈ gs)
    (hs : ∀ it, it ∈ g.sources ↔ ∃ l ∈ withParams layers, it = .tup (ord b l))
    (hs' : ∀ it, it ∈ g'.sources ↔ ∃ l ∈ withParams layers, it = .tup (ord c l))
    (hnd : ((paramPairs layers).map (fun q => path q.1.name (roleCat b) q.2.1)).Nodup)
    (hnd' : ((paramPairs layers).map (fun q => path q.1.name (roleCat c) q.2.1)).Nodup)
    {rows : List Nat} (hr : ∀ i ∈ rows, i < (paramPairs layers).length)
    (h : singleBuffer (connTable ((paramPairs layers).map (fun q => path q.1.name (roleCat b) q.2.1))
      (sortBy nameLe g.sinks) conns) (sortBy nameLe g.sinks).length rows = true) :
    singleBuffer (connTable ((paramPairs layers).map (fun q => path q.1.name (roleCat c) q.2.1))
      (sortBy nameLe g'.sinks) conns) (sortBy nameLe g'.sinks).length rows = true := by
  obtain ⟨-, hns, -⟩ := hP.created hw hg
  obtain ⟨-, hns', -⟩ := hP.created hw hg'
  rw [singleBuffer_names hnd ((sortBy_perm _ _).nodup_iff.2 hns) (by simpa using hr)] at h
  rw [singleBuffer_names hnd' ((sortBy_perm _ _).nodup_iff.2 hns') (by simpa using hr)]
  intro t ht
  obtain ⟨t', ht', hcorr⟩ := hP.sink_corr hw c b hg' hg hs' hs (mem_sortBy.1 ht)
  have := h t' (mem_sortBy.2 ht')
  rw [Consecutive.map_iff] at this ⊢
  refine (Consecutive.congr ?_).1 this
  intro i hi
  have hi' := hr i hi
  simp only [List.getD, List.getElem?_map, List.getElem?_eq_getElem hi', Option.map_some, Option.getD_some]
  exact (hcorr _ (List.getElem_mem hi')).symm

theorem Parts.role_same_perm (hP : Parts layers L forced conns gs) (hw : WellFormedLayers layers)
    (hne : withParams layers ≠ []) {g g' : Group} (hg : g ∈ gs) (hg' : g' ∈ gs)
    (hs : ∀ it, it ∈ g.sources ↔ ∃ l ∈ withParams layers, it = .tup (ord false l))
    (hs' : ∀ it, it ∈ g'.sources ↔ ∃ l ∈ withParams layers, it = .tup (ord true l)) :
    g.hub.perm = g'.hub.perm := by
  obtain ⟨-, -, hp, hnd⟩ := hP.role_perm hw false hg hne hs
  obtain ⟨-, -, hp', hnd'⟩ := hP.role_perm hw true hg' hne hs'
  have hnest : nestedIndices 0 ((laidOut layers).map (fun l => Item.tup (ord false l))) =
      nestedIndices 0 ((laidOut layers).map (fun l => Item.tup (ord true l))) := by
    apply nestedIndices_congr
    simp [Item.flat, ord]
  unfold permuteRows at hp hp'
  rw [← hnest] at hp'
  have hfind : ((perms (nestedIndices 0 ((laidOut layers).map (fun l => Item.tup (ord false l))))).map List.flatten).find?
      (singleBuffer (connTable ((paramPairs layers).map (fun q => path q.1.name (roleCat false) q.2.1))
        (sortBy nameLe g.sinks) conns) (sortBy nameLe g.sinks).length) =
      ((perms (nestedIndices 0 ((laidOut layers).map (fun l => Item.tup (ord false l))))).map List.flatten).find?
      (singleBuffer (connTable ((paramPairs layers).map (fun q => path q.1.name (roleCat true) q.2.1))
        (sortBy nameLe g'.sinks) conns) (sortBy nameLe g'.sinks).length) := by
    apply find?_congr'
    intro rows hrows
    have hr : ∀ i ∈ rows, i < (paramPairs layers).length := by
      obtain ⟨q, hq, rfl⟩ := List.mem_map.1 hrows
      intro i hi
      obtain ⟨k, hk, hik⟩ := List.mem_flatten.1 hi
      have := nestedIndices_lt _ 0 k ((mem_perms.1 hq).subset hk) i hik
      rw [flat_role] at this
      simpa using this
    rw [Bool.eq_iff_iff]
    exact ⟨hP.role_test hw false true hg hg' hs hs' hnd hnd' hr, hP.role_test hw true false hg' hg hs' hs hnd' hnd hr⟩
  rw [hfind] at hp
  split at hp
  · rename_i p hp0
    rw [hp0] at hp'
    simp only [Except.ok.injEq] at hp hp'
    rw [← hp, ← hp']
  · simp at hp

/-- The structure of a parameter or gradient array. -/
theorem struct_role (hw : WellFormedLayers layers) {q : LayerInfo × Name × Struct} (hq : q ∈ paramPairs layers) (b : Bool) :
    ∃ s, Dict.get? (networkArrays layers) (path q.1.name (roleCat b) q.2.1) = some s ∧
      s.featureSize = q.2.2.featureSize := by
  obtain ⟨h1, h2⟩ := mem_paramPairs.1 hq
  have hmem : ∀ back : Bool, (roleCat b, back, q.1.paramShapes) ∈ layerCats q.1 →
      Dict.get? (networkArrays layers) (path q.1.name (roleCat b) q.2.1) =
        some (if back then { q.2.2 with backwardOnly := true } else q.2.2) := by
    intro back hc
    refine Dict.get?_of_mem (networkArrays_nodup hw) ?_
    simp only [networkArrays, layerArrays, List.mem_flatMap]
    refine ⟨q.1, h1, _, hc, ?_⟩
    simp only [category, List.mem_map]
    exact ⟨q.2, h2, rfl⟩
  cases b
  · exact ⟨_, hmem false (by simp [layerCats, roleCat]), rfl⟩
  · exact ⟨_, hmem true (by simp [layerCats, roleCat]), rfl⟩

theorem Parts.role_sizes (hP : Parts layers L forced conns gs) (hw : WellFormedLayers layers) (b : Bool)
    {g : Group} (hg : g ∈ gs) (hne : withParams layers ≠ [])
    (hs : ∀ it, it ∈ g.sources ↔ ∃ l ∈ withParams layers, it = .tup (ord b l)) :
    g.hub.sizes = g.hub.perm.map (fun i => (((paramPairs layers)[i]?).map (fun q => q.2.2.featureSize)).getD 0) := by
  obtain ⟨hflat, hlt, -, -⟩ := hP.role_perm hw b hg hne hs
  obtain ⟨-, -, -, -, order, hcr⟩ := hP.created hw hg
  have hlen : g.hub.flatSources.length = g.hub.perm.length := by rw [hflat]; simp
  apply List.ext_getElem
  · rw [hcr.lenSizes, hlen]; simp
  · intro r h1 h2
    have hr : r < g.hub.flatSources.length := by rw [← hcr.lenSizes]; exact h1
    have hr' : r < g.hub.perm.length := by rw [← hlen]; exact hr
    have hpr := hlt _ (List.getElem_mem hr')
    obtain ⟨s, hst, hsz⟩ := hcr.sizes r hr
    rw [List.getElem?_eq_getElem h1] at hsz
    simp only [Option.some.injEq] at hsz
    have hname : g.hub.flatSources[r] = path (paramPairs layers)[g.hub.perm[r]].1.name (roleCat b)
        (paramPairs layers)[g.hub.perm[r]].2.1 := by
      simp only [hflat, List.getElem_map]
      simp [List.getD, hpr]
    obtain ⟨s', hs', hsize⟩ := struct_role hw (List.getElem_mem hpr) b
    rw [hname, hs'] at hst
    simp only [Option.some.injEq] at hst
    subst hst
    rw [hsz, hsize]
    simp [hpr]

/-- The slice of the root array covers the whole hub. -/
theorem Parts.role_root (hP : Parts layers L forced conns gs) (hw : WellFormedLayers layers) (b : Bool)
    {g : Group} (hg : g ∈ gs) (hne : withParams layers ≠ []) (hroot : roleCat b ∈ g.sinks)
    (hs : ∀ it, it ∈ g.sources ↔ ∃ l ∈ withParams layers, it = .tup (ord b l)) :
    (roleCat b, 0, g.hub.size) ∈ g.hub.getIndices := by
  obtain ⟨hflat, hlt, -, -⟩ := hP.role_perm hw b hg hne hs
  obtain ⟨-, -, -, -, order, hcr⟩ := hP.created hw hg
  have hmem : roleCat b ∈ g.hub.sinks := by rw [hcr.sinkList, mem_sortBy]; exact hroot
  obtain ⟨j, hj, hje⟩ := List.getElem_of_mem hmem
  have hall : ∀ s ∈ g.hub.flatSources, (s, roleCat b) ∈ conns := by
    intro s hs1
    rw [hflat] at hs1
    obtain ⟨i, hi, rfl⟩ := List.mem_map.1 hs1
    have hpr := hlt i hi
    obtain ⟨h1, h2⟩ := mem_paramPairs.1 (List.getElem_mem hpr)
    have : ((paramPairs layers).map (fun q => path q.1.name (roleCat b) q.2.1)).getD i [] =
        path (paramPairs layers)[i].1.name (roleCat b) (paramPairs layers)[i].2.1 := by
      simp [List.getD, hpr]
    rw [this]
    exact (conn_of_role hw hP.connsOk h1 (List.mem_map_of_mem h2) b _).2 (Or.inl rfl)
  have hnonempty : g.hub.flatSources ≠ [] := by
    obtain ⟨l₀, hl₀⟩ := List.exists_mem_of_ne_nil _ hne
    obtain ⟨p, hp⟩ := List.exists_mem_of_ne_nil _ (ord_ne_nil (mem_withParams.1 hl₀).2 b)
    refine List.ne_nil_of_mem (a := p) ?_
    rw [hcr.flat]
    exact List.mem_flatMap.2 ⟨_, hcr.perm.symm.subset ((hs _).2 ⟨l₀, hl₀, rfl⟩), hp⟩
  have hcons := hcr.feeds _ hroot
  rw [← hcr.flat] at hcons
  obtain ⟨s₀, hs₀⟩ := List.exists_mem_of_ne_nil _ hnonempty
  obtain ⟨a, e, hae, he, hslice, hPr⟩ := column_eq g.hub j (fun s => (s, roleCat b) ∈ conns)
    (fun r hr => by rw [hcr.table r j hr hj, hje]) hcons ⟨s₀, hs₀, hall _ hs₀⟩
  have hlen : 0 < g.hub.flatSources.length := List.length_pos_iff.2 hnonempty
  have ha := ((hPr 0 hlen).1 (hall _ (List.getElem_mem hlen))).1
  have hb := ((hPr (g.hub.flatSources.length - 1) (by omega)).1 (hall _ (List.getElem_mem _))).2
  have ha0 : a = 0 := by omega
  have he0 : e = g.hub.sizes.length := by rw [hcr.lenSizes]; omega
  subst ha0; subst he0
  rw [mem_getIndices]
  refine Or.inr ⟨j, hj, ?_⟩
  rw [hje, hslice, offset_zero, offset_length, hcr.size]

end

/-! ### The property -/

/-- See `C11_aligned`. -/
theorem aligned (layers : List LayerInfo) (hw : WellFormedLayers layers) (L : Layout)
    (h : createLayout layers = .ok L) :
    ∃ hp hg n, L.root (str "parameters") = (hp, (0, n)) ∧ L.root (str "gradients") = (hg, (0, n)) ∧
      (∀ l ∈ layers, ∀ e ∈ l.paramShapes, ∃ lo,
        L.get (path l.name (str "parameters") e.1) = some (hp, (lo, lo + e.2.featureSize)) ∧
        L.get (path l.name (str "gradients") e.1) = some (hg, (lo, lo + e.2.featureSize)) ∧
        lo + e.2.featureSize ≤ n) ∧
      (∀ f < n, ∃ l ∈ layers, ∃ e ∈ l.paramShapes, ∃ sl,
        L.get (path l.name (str "parameters") e.1) = some (hp, sl) ∧ Inside f sl ∧
        ∀ l' ∈ layers, ∀ e' ∈ l'.paramShapes, ∀ sl',
          L.get (path l'.name (str "parameters") e'.1) = some (hp, sl') → Inside f sl' →
          l' = l ∧ e'.1 = e.1) := by
  obtain ⟨forced, conns, gs, hP⟩ := createLayout_ok h
  by_cases hne : withParams layers = []
  · have hnop : ∀ l ∈ layers, l.paramShapes = [] := by
      intro l hl
      by_contra hc
      have : l ∈ withParams layers := mem_withParams.2 ⟨hl, hc⟩
      rw [hne] at this
      simp at this
    have hnone : ∀ b, L.get (roleCat b) = none := by
      intro b
      unfold Layout.get
      rw [Option.map_eq_none_iff, List.find?_eq_none]
      intro e he
      rw [List.mem_reverse, hP.entries, mem_layoutHubs] at he
      obtain ⟨i, hi, -, hmem⟩ := he
      have hperm : L.groups.Perm gs := by rw [hP.sorted]; exact sortBy_perm _ _
      have hgi := hperm.subset (List.getElem_mem hi)
      have hnm := (hP.names_perm hw hgi).subset (List.mem_map_of_mem hmem)
      simp only [decide_eq_true_eq]
      rintro rfl_eq
      simp only [rfl_eq] at hnm
      rcases List.mem_append.1 hnm with hn | hn
      · have hs := hP.arrays_subset hw hgi hn
        obtain ⟨it, hit, hpi⟩ := List.mem_flatMap.1 hs
        cases it with
        | one q =>
          simp [Item.flat] at hpi
          have := (sources_inv hw hP.forcedOk (conns.map Prod.snd)).notSink _ hit
          cases b
          · exact this.2.1 hpi.symm
          · exact this.2.2 hpi.symm
        | tup u =>
          obtain ⟨hne', l, hl, hor⟩ := ((getForcedOrders_ok hP.forcedOk).1 u).1 ((hP.nested hw).tuples u hit)
          rcases hor with rfl | rfl <;> simp [paramOrder, gradOrder, hnop l hl] at hne'
      · obtain ⟨p, -, hc⟩ := (hP.sink_iff hw hgi).1 hn
        obtain ⟨l, hl, ⟨o, ho, hfb⟩ | ⟨x, hx, -⟩⟩ := (mem_getConnections hP.connsOk _).1 hc
        · rcases hfb with hf | hb
          · simp only [fwdConn, Prod.mk.injEq] at hf
            exact path_ne_roleCat hf.2.symm
          · unfold bwdConn at hb
            simp only at hb
            split at hb
            · simp at hb; exact path_ne_roleCat hb.2
            · simp at hb; exact path_ne_roleCat hb.2
            · split at hb
              · simp at hb; exact path_ne_roleCat hb.2
              · simp at hb
        · simp [hnop l hl] at hx
    refine ⟨0, 0, 0, ?_, ?_, ?_, ?_⟩
    · rw [Layout.root, show str "parameters" = roleCat false from rfl, hnone]; rfl
    · rw [Layout.root, show str "gradients" = roleCat true from rfl, hnone]; rfl
    · intro l hl e he; rw [hnop l hl] at he; simp at he
    · intro f hf; omega
  · obtain ⟨l₀, hl₀⟩ := List.exists_mem_of_ne_nil _ hne
    obtain ⟨g, hg, hgroot, hgs⟩ := hP.role_hub hw hl₀ false
    obtain ⟨g', hg', hgroot', hgs'⟩ := hP.role_hub hw hl₀ true
    obtain ⟨k, hk, -, hget⟩ := hP.get_eq hw hg
    obtain ⟨k', hk', -, hget'⟩ := hP.get_eq hw hg'
    have hperm := hP.role_same_perm hw hne hg hg' hgs hgs'
    have hsz := hP.role_sizes hw false hg hne hgs
    have hsz' := hP.role_sizes hw true hg' hne hgs'
    have hsizes : g.hub.sizes = g'.hub.sizes := by rw [hsz, hsz', hperm]
    obtain ⟨hnd, -, -, -, order, hcr⟩ := hP.created hw hg
    obtain ⟨-, -, -, -, order', hcr'⟩ := hP.created hw hg'
    have hsize : g.hub.size = g'.hub.size := by rw [hcr.size, hcr'.size, hsizes]
    obtain ⟨hflat, hlt, -, -⟩ := hP.role_perm hw false hg hne hgs
    obtain ⟨hflat', -, -, -⟩ := hP.role_perm hw true hg' hne hgs'
    have hlen : g.hub.flatSources.length = g.hub.perm.length := by rw [hflat]; simp
    have hlen' : g'.hub.flatSources.length = g.hub.perm.length := by rw [hflat', hperm]; simp
    -- the r-th sources of both hubs belong to the same parameter
    have hnames : ∀ r (hr : r < g.hub.perm.length), ∃ hq : g.hub.perm[r] < (paramPairs layers).length,
        g.hub.flatSources[r]'(by omega) = path (paramPairs layers)[g.hub.perm[r]].1.name (str "parameters")
          (paramPairs layers)[g.hub.perm[r]].2.1 ∧
        g'.hub.flatSources[r]'(by omega) = path (paramPairs layers)[g.hub.perm[r]].1.name (str "gradients")
          (paramPairs layers)[g.hub.perm[r]].2.1 ∧
        g.hub.sizes[r]? = some (paramPairs layers)[g.hub.perm[r]].2.2.featureSize := by
      intro r hr
      have hpr := hlt _ (List.getElem_mem hr)
      refine ⟨hpr, ?_, ?_, ?_⟩
      · simp only [hflat, List.getElem_map]
        simp [List.getD, hpr, roleCat]
      · simp only [hflat', ← hperm, List.getElem_map]
        simp [List.getD, hpr, roleCat]
      · rw [hsz]; simp [hr, hpr]
    refine ⟨k, k', g.hub.size, ?_, ?_, ?_, ?_⟩
    · have := hget _ _ (hP.role_root hw false hg hne hgroot hgs)
      rw [Layout.root, show str "parameters" = roleCat false from rfl, this]; rfl
    · have := hget' _ _ (hP.role_root hw true hg' hne hgroot' hgs')
      rw [Layout.root, show str "gradients" = roleCat true from rfl, this, hsize]; rfl
    · intro l hl e he
      have hlp : l ∈ withParams layers := mem_withParams.2 ⟨hl, List.ne_nil_of_mem he⟩
      have hmem : path l.name (str "parameters") e.1 ∈ g.hub.flatSources := by
        rw [hcr.flat]
        refine List.mem_flatMap.2 ⟨_, hcr.perm.symm.subset ((hgs _).2 ⟨l, hlp, rfl⟩), ?_⟩
        exact mem_ord.2 ⟨e.1, List.mem_map_of_mem he, rfl⟩
      obtain ⟨r, hr, hre⟩ := List.getElem_of_mem hmem
      have hr' : r < g.hub.perm.length := by omega
      obtain ⟨hq, hn1, hn2, hn3⟩ := hnames r hr'
      obtain ⟨hq1, hq2⟩ := mem_paramPairs.1 (List.getElem_mem hq)
      rw [hre] at hn1
      obtain ⟨i1, -, i3⟩ := path_inj (hw.noDot l hl) (hw.noDot _ hq1) (by decide) (by decide) hn1
      have hleq : l = (paramPairs layers)[g.hub.perm[r]].1 := List.inj_on_of_nodup_map hw.names hl hq1 i1
      have heq : e = (paramPairs layers)[g.hub.perm[r]].2 := by
        refine List.inj_on_of_nodup_map (hw.paramNodup l hl) he ?_ i3
        rw [hleq]; exact hq2
      have hrs : r < g.hub.sizes.length := by rw [hcr.lenSizes]; exact hr
      have hsr : g.hub.sizes[r] = e.2.featureSize := by
        rw [List.getElem?_eq_getElem hrs] at hn3
        rw [heq]; simpa using hn3
      refine ⟨offset g.hub.sizes r, ?_, ?_, ?_⟩
      · refine hget _ _ (mem_getIndices.2 (Or.inl ⟨r, hr, ?_⟩))
        rw [hre, offset_succ hrs, hsr]
      · have hr2 : r < g'.hub.flatSources.length := by omega
        refine hget' _ _ (mem_getIndices.2 (Or.inl ⟨r, hr2, ?_⟩))
        rw [hn2, ← hleq, ← heq, ← hsizes, offset_succ hrs, hsr]
      · rw [← hsr, ← offset_succ hrs, hcr.size, ← offset_length]
        exact offset_mono (by omega)
    · intro f hf
      rw [hcr.size, ← offset_length] at hf
      obtain ⟨r, -, hr, h1, h2⟩ := exists_offset (Nat.zero_le _) (by rw [offset_zero]; omega) hf
      have hr0 : r < g.hub.flatSources.length := by rw [← hcr.lenSizes]; exact hr
      have hr' : r < g.hub.perm.length := by omega
      obtain ⟨hq, hn1, hn2, hn3⟩ := hnames r hr'
      obtain ⟨hq1, hq2⟩ := mem_paramPairs.1 (List.getElem_mem hq)
      refine ⟨_, hq1, _, hq2, _, hget _ _ (mem_getIndices.2 (Or.inl ⟨r, hr0, by rw [hn1]⟩)), ⟨h1, h2⟩, ?_⟩
      intro l' hl' e' he' sl' hget1 hin
      have hlp : l' ∈ withParams layers := mem_withParams.2 ⟨hl', List.ne_nil_of_mem he'⟩
      have hmem : path l'.name (str "parameters") e'.1 ∈ g.hub.flatSources := by
        rw [hcr.flat]
        refine List.mem_flatMap.2 ⟨_, hcr.perm.symm.subset ((hgs _).2 ⟨l', hlp, rfl⟩), ?_⟩
        exact mem_ord.2 ⟨e'.1, List.mem_map_of_mem he', rfl⟩
      obtain ⟨r', hr1, hre⟩ := List.getElem_of_mem hmem
      have hget2 := hget _ _ (mem_getIndices.2 (Or.inl ⟨r', hr1, by rw [hre]⟩))
      rw [hget2] at hget1
      simp only [Option.some.injEq, Prod.mk.injEq, true_and] at hget1
      subst hget1
      have hrr := offset_unique (sizes := g.hub.sizes) (i := r) (j := r') ⟨h1, h2⟩ hin
      subst hrr
      rw [hn1] at hre
      obtain ⟨i1, -, i3⟩ := path_inj (hw.noDot _ hq1) (hw.noDot l' hl') (by decide) (by decide) hre
      exact ⟨List.inj_on_of_nodup_map hw.names hl' hq1 i1.symm, i3.symm⟩

/-- **C11**.  In every network that can be laid out, `parameters` and
`gradients` are slices `[0, n)` of two hubs of the same size `n`; each parameter
array and its gradient array occupy the same slice of the respective hub, with
the feature size of the parameter; and every position below `n` belongs to
exactly one parameter.  (Without parameters both roots are empty.) -/
theorem C11_aligned (layers : List LayerInfo) (hw : WellFormedLayers layers) (_hroot : NoRootNames layers) (L : Layout)
    (h : createLayout layers = .ok L) :
    ∃ hp hg n, L.root (str "parameters") = (hp, (0, n)) ∧ L.root (str "gradients") = (hg, (0, n)) ∧
      (∀ l ∈ layers, ∀ e ∈ l.paramShapes, ∃ lo,
        L.get (path l.name (str "parameters") e.1) = some (hp, (lo, lo + e.2.featureSize)) ∧
        L.get (path l.name (str "gradients") e.1) = some (hg, (lo, lo + e.2.featureSize)) ∧
        lo + e.2.featureSize ≤ n) ∧
      (∀ f < n, ∃ l ∈ layers, ∃ e ∈ l.paramShapes, ∃ sl,
        L.get (path l.name (str "parameters") e.1) = some (hp, sl) ∧ Inside f sl ∧
        ∀ l' ∈ layers, ∀ e' ∈ l'.paramShapes, ∀ sl',
          L.get (path l'.name (str "parameters") e'.1) = some (hp, sl') → Inside f sl' →
          l' = l ∧ e'.1 = e.1) :=
  aligned layers hw L h

/-! ### A concrete network -/

/-- Input, a fully connected layer whose weights are also regularised by a loss
layer, and a second fully connected layer. -/
def demoLayers : List LayerInfo :=
  let tb (n : Nat) : Struct := ⟨[.T, .B, .n n], 0, false⟩
  [ ⟨str "Input", [], [(str "default", tb 3)], [], [],
      [⟨.outputs, str "default", str "FC_1", str "default"⟩]⟩,
    ⟨str "FC_1", [(str "default", tb 3)], [(str "default", tb 2)],
      [(str "W", ⟨[.n 2, .n 3], 0, false⟩), (str "bias", ⟨[.n 2], 0, false⟩)], [],
      [⟨.outputs, str "default", str "FC", str "default"⟩,
       ⟨.parameters, str "W", str "L2", str "default"⟩]⟩,
    ⟨str "FC", [(str "default", tb 2)], [(str "default", tb 1)],
      [(str "W", ⟨[.n 1, .n 2], 0, false⟩), (str "bias", ⟨[.n 1], 0, false⟩)], [], []⟩,
    ⟨str "L2", [(str "default", ⟨[.n 2, .n 3], 0, false⟩)], [(str "loss", ⟨[.n 1], 0, false⟩)], [], [], []⟩ ]

example : NoRootNames demoLayers := by unfold NoRootNames; decide +kernel

example : WellFormedLayers demoLayers where
  names := by decide +kernel
  noDot := by decide +kernel
  inNodup := by decide +kernel
  outNodup := by decide +kernel
  paramNodup := by decide +kernel
  internalNodup := by decide +kernel
  starts := by
    intro l hl o ho
    simp only [demoLayers, List.mem_cons, List.not_mem_nil, or_false] at hl
    rcases hl with rfl | rfl | rfl | rfl <;> simp at ho
    · subst ho; simp
    · rcases ho with rfl | rfl <;> simp
  ends := by decide +kernel

/-- The result is checked piecewise: hub and slice of six arrays. -/
example : ((createLayout demoLayers).toOption.map (fun L =>
    [some (L.root (str "parameters")), some (L.root (str "gradients")),
     L.get (path (str "FC_1") (str "parameters") (str "W")), L.get (path (str "FC_1") (str "gradients") (str "W")),
     L.get (path (str "L2") (str "inputs") (str "default"))]) ==
    some [some (0, (0, 11)), some (5, (0, 11)), some (0, (3, 9)), some (5, (3, 9)), some (0, (3, 9))]) = true := by
  decide +kernel

end Verif.Layout
