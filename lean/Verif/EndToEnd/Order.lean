import Verif.EndToEnd.Clean

/-! # Lemmas: an accepted architecture is laid out and ordered as training needs it -/

namespace Verif.EndToEnd

open Verif.Structure Verif.Layout Verif.Architecture Verif.Layers Verif.Memory Verif.Shapes Verif.Instantiate
open Verif.Setup (Kwargs KVal inp mk? tb? inp_some Decl DeclClass library libEnv infos toInfo toOutgoing Inst)

theorem before_ne {l : List Name} (hn : l.Nodup) {x y : Name} (h : Before l x y) : x ≠ y := by
  rintro rfl
  obtain ⟨l₁, l₂, l₃, rfl⟩ := h
  rw [List.append_assoc] at hn
  have := (List.nodup_append.1 hn).2.1
  simp at this

theorem before_asymm {l : List Name} (hn : l.Nodup) {x y : Name} (h : Before l x y) (h' : Before l y x) : False := by
  obtain ⟨l₁, l₂, l₃, rfl⟩ := h
  obtain ⟨m₁, m₂, m₃, e⟩ := h'
  have key : ∀ (p q r p' q' r' : List Name), (p ++ x :: q ++ y :: r).Nodup → p ++ x :: q ++ y :: r = p' ++ y :: q' ++ x :: r' →
      False := by
    intro p
    induction p with
    | nil =>
      intro q r p' q' r' hn e
      cases p' with
      | nil =>
        simp only [List.nil_append, List.cons_append, List.cons.injEq] at e
        exact before_ne hn ⟨[], q, r, rfl⟩ e.1
      | cons z p' =>
        simp only [List.nil_append, List.cons_append, List.cons.injEq] at e
        simp only [List.nil_append, List.cons_append, List.nodup_cons] at hn
        apply hn.1
        rw [e.2]
        simp
    | cons z p ih =>
      intro q r p' q' r' hn e
      cases p' with
      | nil =>
        simp only [List.nil_append, List.cons_append, List.cons.injEq] at e
        simp only [List.cons_append, List.nodup_cons] at hn
        apply hn.1
        rw [e.1]; simp
      | cons z' p' =>
        simp only [List.cons_append, List.cons.injEq] at e
        simp only [List.cons_append, List.nodup_cons] at hn
        exact ih q r p' q' r' hn.2 e.2
  exact key _ _ _ _ _ _ hn e

theorem before_of_split {p q r : List Name} {x y : Name} : Before (p ++ x :: (q ++ y :: r)) x y :=
  ⟨p, q, r, by simp⟩

theorem pairwise_before {l : List Name} : l.Pairwise (Before l) := by
  have key : ∀ p q : List Name, q.Pairwise (Before (p ++ q)) := by
    intro p q
    induction q generalizing p with
    | nil => exact List.Pairwise.nil
    | cons x q ih =>
      refine List.Pairwise.cons ?_ ?_
      · intro y hy
        obtain ⟨u, v, rfl⟩ := List.append_of_mem hy
        exact before_of_split
      · have := ih (p ++ [x])
        rwa [List.append_assoc] at this
  exact key [] l

/-! ### The network -/

/-- An architecture that was instantiated and laid out. -/
structure Made (kwargs : Name → Kwargs) (a : Arch) (ord : Orders) (layers : Dict Name (LayerObj Kwargs)) (L : Layout) : Prop where
  keys : (Dict.keys a).Nodup
  orders : ord.Ok
  made : Instantiates (libEnv kwargs) ord a (.ok layers)
  outs : ∃ n l, Dict.get? layers n = some l ∧ l.shapes.outs ≠ []
  layout : createLayout (infos layers) = .ok L

section
variable {kwargs : Name → Kwargs} {a : Arch} {ord : Orders} {layers : Dict Name (LayerObj Kwargs)} {L : Layout}

theorem Made.inst (m : Made kwargs a ord layers L) : Inst layers :=
  Setup.inst_of (libEnv kwargs) (fun _ _ _ _ _ _ h1 h2 => Setup.libEnv_good h1 h2) a m.keys ord m.orders layers m.made

theorem Made.wf (m : Made kwargs a ord layers L) : WellFormed a := by
  rcases instantiates_cases (libEnv kwargs) ord a m.keys with ⟨e, h1, _⟩ | ⟨wf, _⟩
  · cases m.made.unique h1
  · exact wf

theorem Made.kwargs_eq (m : Made kwargs a ord layers L) {n : Name} {l : LayerObj Kwargs} (hl : Dict.get? layers n = some l) :
    l.kwargs = kwargs n := by
  obtain ⟨order, -, -, h⟩ := C59_layers (libEnv kwargs) (Setup.libEnv_plain kwargs) a m.keys ord m.orders layers m.made
  exact (h n l hl).2.1

theorem Made.outgoing (m : Made kwargs a ord layers L) {n : Name} {l : LayerObj Kwargs} (hl : Dict.get? layers n = some l)
    (c : Connection) : c ∈ l.outgoing ↔ HasConnection a c ∧ c.startLayer = n := by
  obtain ⟨order, -, -, h⟩ := C59_layers (libEnv kwargs) (Setup.libEnv_plain kwargs) a m.keys ord m.orders layers m.made
  exact (h n l hl).2.2.2.2.1 c

theorem Made.inputs (m : Made kwargs a ord layers L) {n : Name} {l : LayerObj Kwargs} (hl : Dict.get? layers n = some l)
    (i : Name) : i ∈ Dict.keys l.inShapes ↔ ∃ c, HasConnection a c ∧ c.endLayer = n ∧ c.inputName = i := by
  obtain ⟨order, -, -, h⟩ := C59_layers (libEnv kwargs) (Setup.libEnv_plain kwargs) a m.keys ord m.orders layers m.made
  exact (h n l hl).2.2.2.2.2.1 i

theorem Made.mem_keys (m : Made kwargs a ord layers L) (n : Name) : n ∈ Dict.keys layers ↔ n ∈ Dict.keys a := by
  obtain ⟨order, h1, h2, -⟩ := C59_layers (libEnv kwargs) (Setup.libEnv_plain kwargs) a m.keys ord m.orders layers m.made
  rw [h2]; exact (C04_perm a m.keys order h1).mem_iff

theorem Made.find (m : Made kwargs a ord layers L) {n : Name} (h : n ∈ Dict.keys a) : ∃ l, Dict.get? layers n = some l :=
  Option.isSome_iff_exists.1 ((Dict.mem_keys_iff _ _).1 ((m.mem_keys n).2 h))

theorem Made.before (m : Made kwargs a ord layers L) {c : Connection} (hc : HasConnection a c) :
    Before (Dict.keys layers) c.startLayer c.endLayer := by
  obtain ⟨order, h1, h2, -⟩ := C59_layers (libEnv kwargs) (Setup.libEnv_plain kwargs) a m.keys ord m.orders layers m.made
  rw [h2]; exact C04_topological a m.keys order h1 _ _ ⟨c, hc, rfl, rfl⟩

/-- The type of a layer and the class by which it was set up. -/
theorem Made.cls (m : Made kwargs a ord layers L) {n : Name} {l : LayerObj Kwargs} (hl : Dict.get? layers n = some l) :
    ∃ t c, HasType a n t ∧ Dict.get? library (t ++ str "LayerImpl") = some c ∧ Fed c l.inShapes ∧
      (∀ i, i ∈ Dict.keys l.inShapes ↔ i ∈ Dict.keys c.expectedInputs) ∧
      ∃ d, c.decl n l.kwargs l.inShapes = some d ∧ d.build = some l.shapes := by
  obtain ⟨d, t, cls, hd, ht, hcls, hacc, hset⟩ := C59_acceptable (libEnv kwargs) a m.keys ord layers m.made n l hl
  obtain ⟨c, hc, hf, hset'⟩ := network_fed m.keys m.orders m.made hl hd ht
  refine ⟨t, c, ⟨d, Dict.mem_of_get? hd, ht⟩, hc, hf, ?_, ?_⟩
  · simp only [libEnv, hc, Option.map_some, Option.some.injEq] at hcls
    subst hcls
    exact hacc.inputs
  · simpa [DeclClass.toClass, Option.bind_eq_some_iff] using hset'

theorem Made.type_unique (m : Made kwargs a ord layers L) {n t t' : Name} (h : HasType a n t) (h' : HasType a n t') : t = t' := by
  obtain ⟨d, h1, h2⟩ := h
  obtain ⟨d', h1', h2'⟩ := h'
  have e1 := Dict.get?_of_mem m.keys h1
  have e2 := Dict.get?_of_mem m.keys h1'
  rw [e1] at e2; cases e2
  rw [h2] at h2'; cases h2'; rfl

theorem Made.mem_infos (m : Made kwargs a ord layers L) {i : LayerInfo} (hi : i ∈ infos layers) :
    ∃ l, Dict.get? layers i.name = some l ∧ i = toInfo l := by
  obtain ⟨n, l, h, rfl⟩ := (Setup.mem_infos m.inst).1 hi
  refine ⟨l, ?_, rfl⟩
  show Dict.get? layers l.name = some l
  rw [m.inst.name n l h]; exact h

theorem Made.names (m : Made kwargs a ord layers L) : (infos layers).map LayerInfo.name = Dict.keys layers := by
  unfold infos Dict.keys
  rw [List.map_map]
  apply List.map_congr_left
  rintro ⟨n, l⟩ he
  exact m.inst.name n l (Dict.get?_of_mem m.inst.nodup he)

/-- A connection as the layout sees it. -/
structure IsConn (a : Arch) (i : LayerInfo) (o : Outgoing) (c : Connection) : Prop where
  conn : HasConnection a c
  start : c.startLayer = i.name
  stop : o.endLayer = c.endLayer
  input : o.endInput = c.inputName
  ref : c.outputName = Setup.refName o
  params : o.kind = .parameters → i.paramShapes ≠ []

theorem Made.conn (m : Made kwargs a ord layers L) {i : LayerInfo} (hi : i ∈ infos layers) {o : Outgoing} (ho : o ∈ i.outgoing) :
    ∃ c, IsConn a i o c := by
  obtain ⟨l, hl, rfl⟩ := m.mem_infos hi
  obtain ⟨c, hc, rfl⟩ := List.mem_map.1 ho
  obtain ⟨t, ht⟩ := m.inst.source hl hc
  obtain ⟨h1, h2⟩ := Setup.offers_has (m.inst.good _ l hl) ht
  obtain ⟨h3, h4⟩ := (m.outgoing hl c).1 hc
  refine ⟨c, h3, h4, (Setup.toOutgoing_end c).1, (Setup.toOutgoing_end c).2, h2, ?_⟩
  intro hk
  unfold Setup.Has at h1
  rw [hk] at h1
  intro e
  have e' : l.shapes.params = [] := e
  rw [e'] at h1
  cases h1

theorem Made.conn_of (m : Made kwargs a ord layers L) {c : Connection} (hc : HasConnection a c) :
    ∃ i ∈ infos layers, ∃ o ∈ i.outgoing, o.endLayer = c.endLayer ∧ o.endInput = c.inputName := by
  obtain ⟨l, hl⟩ := m.find (n := c.startLayer) (by
    obtain ⟨d, hd, -⟩ := hc
    exact List.mem_map.2 ⟨_, hd, rfl⟩)
  refine ⟨toInfo l, (Setup.mem_infos m.inst).2 ⟨_, l, hl, rfl⟩, toOutgoing c, ?_, Setup.toOutgoing_end c⟩
  exact List.mem_map.2 ⟨c, (m.outgoing hl c).2 ⟨hc, rfl⟩, rfl⟩

theorem prefix_iff (o : Outgoing) (c : Connection) (h : c.outputName = Setup.refName o) :
    (o.kind = .parameters → str "..parameters." <+: c.outputName) ∧ (o.kind = .internals → str "..internals." <+: c.outputName) ∧
    (o.kind = .outputs → c.outputName = o.buffer) := by
  refine ⟨fun hk => ?_, fun hk => ?_, fun hk => ?_⟩ <;> rw [h, Setup.refName, hk]
  · exact ⟨o.buffer, rfl⟩
  · exact ⟨o.buffer, rfl⟩

/-- The inputs of a layer are used in the forward pass. -/
theorem Made.in_clean (m : Made kwargs a ord layers L) {n : Name} {l : LayerObj Kwargs} (hl : Dict.get? layers n = some l)
    (i : Name) (s : Struct) (hs : Dict.get? l.inShapes i = some s) : s.backwardOnly = false := by
  obtain ⟨srcs, -, -, -, h⟩ := m.inst.srcs n l hl i s hs
  exact combine_clean h

theorem Made.out_clean (m : Made kwargs a ord layers L) {n : Name} {l : LayerObj Kwargs} (hl : Dict.get? layers n = some l) :
    (∀ e ∈ l.shapes.outs, e.2.backwardOnly = false) ∧ ∀ e ∈ l.shapes.params, e.2.backwardOnly = false := by
  obtain ⟨t, c, -, hc, -, -, d, hd, hb⟩ := m.cls hl
  exact built_clean (library_clean hc (fun k s hk => m.in_clean hl k s (inp_some hk).1) hd) hb

/-- The Input layer has no parameters. -/
theorem Made.input_params (m : Made kwargs a ord layers L) {n : Name} {l : LayerObj Kwargs} (hl : Dict.get? layers n = some l)
    (ht : HasType a n (str "Input")) : l.shapes.params = [] := by
  obtain ⟨t, c, ht', hc, -, -, d, hd, hb⟩ := m.cls hl
  have := m.type_unique ht' ht
  subst this
  have : c = Setup.input := by
    have e : Dict.get? library (str "Input" ++ str "LayerImpl") = some Setup.input := rfl
    rw [e] at hc; exact (Option.some.inj hc).symm
  subst this
  simp only [Setup.input] at hd
  split at hd
  · split_ifs at hd
    cases hd
    have := (build_some hb).2.1
    simpa [declare_nil] using this.symm
  · cases hd
where
  declare_nil : Setup.declare [] = some [] := rfl

/-- The first layer is the Input layer; all others have inputs. -/
theorem Made.first (m : Made kwargs a ord layers L) (tr : Trainable a) :
    ∃ data rest, infos layers = data :: rest ∧ HasType a data.name (str "Input") ∧
      ∀ i ∈ rest, ¬ HasType a i.name (str "Input") := by
  cases hi : infos layers with
  | nil =>
    obtain ⟨d, hd, -⟩ := m.wf.input
    obtain ⟨l, hl⟩ := m.find (n := str "Input") (List.mem_map.2 ⟨_, hd, rfl⟩)
    have := (Setup.mem_infos m.inst).2 ⟨_, l, hl, rfl⟩
    rw [hi] at this
    cases this
  | cons data rest =>
    have hd : data ∈ infos layers := by rw [hi]; simp
    have hnames : Dict.keys layers = data.name :: rest.map LayerInfo.name := by rw [← m.names, hi]; rfl
    have hnd := m.inst.nodup
    rw [hnames] at hnd
    obtain ⟨l, hl, e⟩ := m.mem_infos hd
    obtain ⟨t, c, ht, hc, -, hin, -⟩ := m.cls hl
    have htype : HasType a data.name (str "Input") := by
      have : c.expectedInputs = [] := by
        by_contra hne
        obtain ⟨⟨k, s⟩, r, hr⟩ := List.exists_cons_of_ne_nil hne
        have hk : k ∈ Dict.keys l.inShapes := (hin k).2 (by rw [hr]; simp [Dict.keys])
        obtain ⟨cn, h1, h2, -⟩ := (m.inputs hl k).1 hk
        obtain ⟨l₁, l₂, l₃, hb⟩ := m.before h1
        rw [h2, hnames] at hb
        cases l₁ with
        | nil =>
          simp only [List.nil_append, List.cons_append, List.cons.injEq] at hb
          exact (List.nodup_cons.1 hnd).1 (by rw [hb.2]; simp)
        | cons z l₁ =>
          simp only [List.cons_append, List.cons.injEq] at hb
          exact (List.nodup_cons.1 hnd).1 (by rw [hb.2]; simp)
      rw [← library_inputs hc this]; exact ht
    refine ⟨data, rest, rfl, htype, ?_⟩
    intro i hir hit
    have := tr.oneInput _ _ hit htype
    exact (List.nodup_cons.1 hnd).1 (List.mem_map.2 ⟨i, hir, this⟩)

theorem Made.fits (m : Made kwargs a ord layers L) (tr : Trainable a) {data : LayerInfo} {rest : List LayerInfo}
    (hi : infos layers = data :: rest) : Memory.Fits (infos layers) L data rest where
  laid := {
    wf := m.inst.wellFormed
    roots := by
      intro i hi
      obtain ⟨l, hl, -⟩ := m.mem_infos hi
      exact tr.names _ ((m.mem_keys _).1 ((Dict.mem_keys_iff _ _).2 (by rw [hl]; rfl)))
    noInternal := by
      intro i hi o ho hk
      obtain ⟨c, hc⟩ := m.conn hi ho
      exact tr.noInternals c hc.conn ((prefix_iff o c hc.ref).2.1 hk)
    shaped := m.inst.shaped m.outs
    layout := m.layout }
  ordered := by
    have hp : (infos layers).Pairwise (fun x y => ∀ o ∈ y.outgoing, o.endLayer ≠ x.name) := by
      have h1 : (infos layers).Pairwise (fun x y => Before (Dict.keys layers) x.name y.name) := by
        have := pairwise_before (l := Dict.keys layers)
        rw [← m.names] at this ⊢
        exact List.pairwise_map.1 this
      refine h1.imp_of_mem ?_
      intro x y hx hy hxy o ho e
      obtain ⟨c, hc⟩ := m.conn hy ho
      have := m.before hc.conn
      rw [hc.start, ← hc.stop, e] at this
      exact before_asymm m.inst.nodup hxy this
    rw [hi] at hp ⊢
    have hsub : ∀ l ∈ rest, l ∈ infos layers := fun l hl => by rw [hi]; exact List.mem_cons_of_mem _ hl
    refine ⟨rfl, ?_, ?_, ?_, ?_, ?_⟩
    · exact (List.pairwise_cons.1 hp).2.imp (fun h o ho _ => h o ho)
    · intro l hl o ho _ e
      obtain ⟨c, hc⟩ := m.conn (hsub l hl) ho
      have := m.before hc.conn
      rw [hc.start, ← hc.stop, e] at this
      exact before_ne m.inst.nodup this rfl
    · intro l hl x hx
      obtain ⟨l', hl', e⟩ := m.mem_infos (hsub l hl)
      have hx' : x ∈ Dict.keys l'.inShapes := by rw [e] at hx; exact hx
      obtain ⟨c, h1, h2, h3⟩ := (m.inputs hl' x).1 hx'
      obtain ⟨i, hi', o, ho, h4, h5⟩ := m.conn_of h1
      exact ⟨i, hi ▸ hi', o, ho, h4.trans h2, h5.trans h3⟩
    · rw [← hi]
      intro l hl
      obtain ⟨l', hl', e⟩ := m.mem_infos hl
      rw [e]; exact (m.out_clean hl').1
    · rw [← hi]
      intro l hl
      obtain ⟨l', hl', e⟩ := m.mem_infos hl
      rw [e]; exact (m.out_clean hl').2
  unmixed := by
    refine ⟨?_, ?_⟩
    · intro k hk o ho o' ho' e1 e2 e3
      obtain ⟨c, hc⟩ := m.conn hk ho
      obtain ⟨c', hc'⟩ := m.conn hk ho'
      rw [hc.input, hc'.input]
      refine tr.once c c' hc.conn hc'.conn (hc.start.trans hc'.start.symm) ?_ ?_
      · rw [hc.ref, hc'.ref, Setup.refName, Setup.refName, e1, e2]
      · rw [← hc.stop, ← hc'.stop, e3]
    · intro k hk o ho _ e
      obtain ⟨c, hc⟩ := m.conn hk ho
      have := m.before hc.conn
      rw [hc.start, ← hc.stop, e] at this
      exact before_ne m.inst.nodup this rfl

end

end Verif.EndToEnd
