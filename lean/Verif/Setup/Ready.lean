import Verif.Setup.Lemmas
import Verif.Buffers.Network

/-! # Instantiated layers are ready to be laid out -/

namespace Verif.Setup

open Verif.Structure Verif.Instantiate Verif.Architecture Verif.Layout Verif.Buffers

variable {K : Type}

/-- The start of an outgoing connection in normalised form (`get_normalized_path(start_layer, 'outputs', output_name)`,
layout.py:323-324): `..parameters.p` and `..internals.p` leave the outputs, everything else is an output. -/
def toOutgoing (c : Connection) : Outgoing :=
  match c.outputName with
  | '.' :: '.' :: rest =>
    ⟨if (partitionDot rest).1 = str "parameters" then .parameters else .internals, (partitionDot rest).2, c.endLayer, c.inputName⟩
  | o => ⟨.outputs, o, c.endLayer, c.inputName⟩

/-- A layer object as `create_layout` sees it (layout.py:208-283, 319-331). -/
def toInfo (l : LayerObj K) : LayerInfo :=
  ⟨l.name, l.inShapes, l.shapes.outs, l.shapes.params, l.shapes.internals, l.outgoing.map toOutgoing⟩

/-- The layers of a network as `create_layout` sees them. -/
def infos (layers : Dict Name (LayerObj K)) : List LayerInfo := layers.map (fun e => toInfo e.2)

/-- The layer has a buffer of this structure. -/
def Has (l : LayerObj K) (o : Outgoing) (s : Struct) : Prop :=
  match o.kind with
  | .outputs => Dict.get? l.shapes.outs o.buffer = some s
  | .parameters => Dict.get? l.shapes.params o.buffer = some s
  | .internals => Dict.get? l.shapes.internals o.buffer = some s

/-- The name under which a connection refers to it. -/
def refName (o : Outgoing) : Name :=
  match o.kind with
  | .outputs => o.buffer
  | .parameters => str "..parameters." ++ o.buffer
  | .internals => str "..internals." ++ o.buffer

theorem toOutgoing_end (c : Connection) :
    (toOutgoing c).endLayer = c.endLayer ∧ (toOutgoing c).endInput = c.inputName := by
  unfold toOutgoing; split <;> exact ⟨rfl, rfl⟩

theorem offers_has {l : LayerObj K} (hg : GoodShapes l.shapes) {c : Connection} {s : Struct}
    (h : Offers l c.outputName s) : Has l (toOutgoing c) s ∧ c.outputName = refName (toOutgoing c) := by
  rcases h with h | ⟨p, hp, h⟩ | ⟨p, hp, h⟩
  · have hpl := hg.plain _ (.inl rfl) _ (Dict.mem_of_get? h)
    have : toOutgoing c = ⟨.outputs, c.outputName, c.endLayer, c.inputName⟩ := by
      unfold toOutgoing
      split
      · rename_i rest hr
        rw [hr] at hpl
        exact absurd (by simp) hpl.2.1
      · rfl
    rw [this]
    exact ⟨h, rfl⟩
  · have hpl := hg.plain _ (.inr (.inl rfl)) _ (Dict.mem_of_get? h)
    have : toOutgoing c = ⟨.parameters, p, c.endLayer, c.inputName⟩ := by
      unfold toOutgoing
      have e : str "..parameters." ++ p = '.' :: '.' :: (str "parameters" ++ '.' :: p) := rfl
      rw [hp, e]
      simp only [partitionDot_append _ _ (show '.' ∉ str "parameters" by decide), if_true]
    rw [this]
    exact ⟨h, hp⟩
  · have hpl := hg.plain _ (.inr (.inr rfl)) _ (Dict.mem_of_get? h)
    have : toOutgoing c = ⟨.internals, p, c.endLayer, c.inputName⟩ := by
      unfold toOutgoing
      have e : str "..internals." ++ p = '.' :: '.' :: (str "internals" ++ '.' :: p) := rfl
      rw [hp, e]
      simp only [partitionDot_append _ _ (show '.' ∉ str "internals" by decide),
        if_neg (show ¬ str "internals" = str "parameters" by decide)]
    rw [this]
    exact ⟨h, hp⟩

/-- What is needed of the instantiated layers. -/
structure Inst (layers : Dict Name (LayerObj K)) : Prop where
  nodup : (Dict.keys layers).Nodup
  name : ∀ n l, Dict.get? layers n = some l → l.name = n
  noDot : ∀ n l, Dict.get? layers n = some l → '.' ∉ n
  good : ∀ n l, Dict.get? layers n = some l → GoodShapes l.shapes
  inNodup : ∀ n l, Dict.get? layers n = some l → (Dict.keys l.inShapes).Nodup
  start : ∀ n l, Dict.get? layers n = some l → ∀ c ∈ l.outgoing, c.startLayer = n
  stop : ∀ n l, Dict.get? layers n = some l → ∀ c ∈ l.outgoing, ∃ e, Dict.get? layers c.endLayer = some e ∧
    c.inputName ∈ Dict.keys e.inShapes
  srcs : ∀ n l, Dict.get? layers n = some l → ∀ i s, Dict.get? l.inShapes i = some s →
    ∃ srcs : List (Connection × Struct), (srcs.map Prod.fst).Nodup ∧
      (∀ c, c ∈ srcs.map Prod.fst ↔ (∃ l', Dict.get? layers c.startLayer = some l' ∧ c ∈ l'.outgoing) ∧ c.endLayer = n ∧
        c.inputName = i) ∧
      (∀ c t, (c, t) ∈ srcs → ∃ l', Dict.get? layers c.startLayer = some l' ∧ Offers l' c.outputName t) ∧
      combine (srcs.map Prod.snd) = .ok s

theorem ident_noDot {n : Name} (h : IsIdentifier n ∨ ∃ m, IsIdentifier m ∧ n = m ++ ['\n']) : '.' ∉ n := by
  have key : ∀ m, IsIdentifier m → '.' ∉ m := by
    rintro m ⟨c, rest, rfl, hc, hr⟩ hd
    rcases List.mem_cons.1 hd with rfl | hd
    · revert hc; decide
    · have := hr _ hd; revert this; decide
  rcases h with h | ⟨m, h, rfl⟩
  · exact key n h
  · intro hd
    rcases List.mem_append.1 hd with hd | hd
    · exact key m h hd
    · revert hd; decide

theorem inst_of (env : Env K) (hgood : ∀ t cls n kw ins sh, env.classOf t = some cls → cls.setup n kw ins = some sh →
      GoodShapes sh) (a : Arch) (hk : (Dict.keys a).Nodup) (ord : Orders) (ho : ord.Ok)
    (layers : Dict Name (LayerObj K)) (h : Instantiates env ord a (.ok layers)) : Inst layers := by
  have hP : env.Plain := fun t cls n kw ins sh h1 h2 => (hgood t cls n kw ins sh h1 h2).plain
  obtain ⟨order, hord, hkeys, hl⟩ := C59_layers env hP a hk ord ho layers h
  have hperm := C04_perm a hk order hord
  have hnd : (Dict.keys layers).Nodup := by rw [hkeys]; exact hperm.nodup_iff.2 hk
  have hex : ∀ n, n ∈ Dict.keys a → ∃ l, Dict.get? layers n = some l := by
    intro n hn
    have : n ∈ Dict.keys layers := by rw [hkeys]; exact hperm.mem_iff.2 hn
    rw [Dict.mem_keys_iff] at this
    exact Option.isSome_iff_exists.1 this
  have wf : WellFormed a := by
    rcases instantiates_cases env ord a hk with ⟨e, h1, _⟩ | ⟨wf, _⟩
    · cases h.unique h1
    · exact wf
  have hin : ∀ n l, Dict.get? layers n = some l → (Dict.keys l.inShapes).Nodup := by
    rcases instantiates_cases env ord a hk with ⟨e, h1, _⟩ | ⟨-, cs, order', hcs, hord', h1⟩
    · cases h.unique h1
    have h2 := (h.unique h1).symm
    obtain ⟨q1, -, q2⟩ := instLoop_spec order' (by
      simpa [Dict.keys] using (C04_perm a hk order' hord').nodup_iff.2 hk) h2
    intro n l hnl
    have hn : n ∈ order' := by
      have : n ∈ Dict.keys layers := by rw [Dict.mem_keys_iff, hnl]; rfl
      rw [q1] at this; simpa [Dict.keys] using this
    obtain ⟨before, l2, w1, w2, -⟩ := q2 n hn
    rw [hnl] at w1; cases w1
    obtain ⟨d, t, cls, ins, sh, -, -, -, hins, -, rfl, -⟩ := instLayer_ok w2
    have hinsk := inputShapes_keys ((inputShapes_ok _ _ _ _).1 hins)
    simp only [keys_sortShapes]
    rw [(sortBy_perm _ _).nodup_iff, hinsk, (ho.inputs n _).nodup_iff]
    exact List.nodup_dedup _
  refine ⟨hnd, fun n l hn => (hl n l hn).1, ?_, ?_, hin, ?_, ?_, ?_⟩
  · intro n l hn
    have : n ∈ Dict.keys layers := by rw [Dict.mem_keys_iff, hn]; rfl
    rw [hkeys] at this
    exact ident_noDot (wf.names n (hperm.mem_iff.1 this)).2.2
  · intro n l hn
    obtain ⟨-, -, ⟨d, t, cls, -, -, hc, hs⟩, -⟩ := hl n l hn
    exact hgood _ _ _ _ _ _ hc hs
  · intro n l hn c hc
    exact (((hl n l hn).2.2.2.2.1 c).1 hc).2
  · intro n l hn c hc
    have hcon := (((hl n l hn).2.2.2.2.1 c).1 hc).1
    obtain ⟨e, he⟩ := hex _ (wf.closed c hcon)
    exact ⟨e, he, ((hl _ e he).2.2.2.2.2.1 c.inputName).2 ⟨c, hcon, rfl, rfl⟩⟩
  · intro n l hn i s hs
    obtain ⟨srcs, s1, s2, s3, s4⟩ := (hl n l hn).2.2.2.2.2.2 i s hs
    refine ⟨srcs, s1, ?_, fun c t hct => (s3 c t hct).2, s4⟩
    intro c
    rw [s2]
    constructor
    · rintro ⟨h1, h2, h3⟩
      have hst : c.startLayer ∈ Dict.keys a := by
        obtain ⟨d, hd, -⟩ := h1
        exact List.mem_map.2 ⟨_, hd, rfl⟩
      obtain ⟨l', hl'⟩ := hex _ hst
      exact ⟨⟨l', hl', ((hl _ l' hl').2.2.2.2.1 c).2 ⟨h1, rfl⟩⟩, h2, h3⟩
    · rintro ⟨⟨l', hl', hc⟩, h2, h3⟩
      exact ⟨(((hl _ l' hl').2.2.2.2.1 c).1 hc).1, h2, h3⟩

/-! ### Combined shapes -/

theorem isShape_size {s : Struct} {p : Scaling} {lead : List Nat} {n : Nat} (h : IsShape s p lead n) :
    s.featureSize = lead.prod * n := by
  rw [featureSize_prod, (shape_featureShape h).1]
  have : ((lead ++ [n]).map Tok.n).map Tok.size = lead ++ [n] := by
    rw [List.map_map]
    conv_rhs => rw [← List.map_id (lead ++ [n])]
    rfl
  rw [this]; simp

theorem sum_mul (k : Nat) (l : List Nat) : k * l.sum = (l.map (fun n => k * n)).sum := by
  induction l with
  | nil => simp
  | cons a l ih => simp [Nat.mul_add, ih]

theorem combine_size {l : List Struct} (hv : ∀ s ∈ l, s.validate = .ok ()) {r : Struct} (h : combine l = .ok r) :
    r.contextSize = 0 ∧ r.featureSize = (l.map Struct.featureSize).sum ∧ ∀ s ∈ l, s.bufferType = r.bufferType := by
  cases hl : l with
  | nil =>
    subst hl
    simp only [combine] at h
    cases h
    refine ⟨rfl, rfl, by simp⟩
  | cons x xs =>
    obtain ⟨p, lead, hs⟩ := C14_reject l hv r h
    have hex : ∀ m : List Struct, (∀ s ∈ m, ∃ n, IsShape s p lead n) →
        ∃ k : List (Struct × Nat), k.map Prod.fst = m ∧ (∀ e ∈ k, IsShape e.1 p lead e.2) := by
      intro m
      induction m with
      | nil => intro _; exact ⟨[], rfl, by simp⟩
      | cons s m ih =>
        intro hm
        obtain ⟨k, hk1, hk2⟩ := ih (fun s' h' => hm s' (by simp [h']))
        obtain ⟨n, hn⟩ := hm s (by simp)
        exact ⟨(s, n) :: k, by simp [hk1], by
          intro e he
          rcases List.mem_cons.1 he with rfl | he
          · exact hn
          · exact hk2 e he⟩
    obtain ⟨k, hk1, hk2⟩ := hex l hs
    have hne : k ≠ [] := by rintro rfl; simp [hl] at hk1
    have hc := C14_combine k hne p lead hk2
    rw [hk1, h] at hc
    cases hc
    have hr : IsShape (⟨shapeOf p (lead ++ [(k.map Prod.snd).sum]), 0, false⟩ : Struct) p lead (k.map Prod.snd).sum := rfl
    refine ⟨rfl, ?_, ?_⟩
    · rw [isShape_size hr, ← hl, ← hk1, List.map_map, sum_mul, List.map_map]
      congr 1
      apply List.map_congr_left
      intro e he
      exact (isShape_size (hk2 e he)).symm
    · intro s hsm
      rw [← hl] at hsm
      obtain ⟨n, hn⟩ := hs s hsm
      rw [hn.facts.1, hr.facts.1]

/-! ### Ready for the layout -/

section
variable {layers : Dict Name (LayerObj K)}

theorem mem_infos {i : LayerInfo} (hI : Inst layers) :
    i ∈ infos layers ↔ ∃ n l, Dict.get? layers n = some l ∧ i = toInfo l := by
  unfold infos
  rw [List.mem_map]
  constructor
  · rintro ⟨⟨n, l⟩, he, rfl⟩
    exact ⟨n, l, Dict.get?_of_mem hI.nodup he, rfl⟩
  · rintro ⟨n, l, h, rfl⟩
    exact ⟨(n, l), Dict.mem_of_get? h, rfl⟩

/-- The source of a connection has a buffer of the structure that was combined. -/
theorem Inst.source (hI : Inst layers) {n : Name} {l : LayerObj K} (hn : Dict.get? layers n = some l) {c : Connection}
    (hc : c ∈ l.outgoing) : ∃ t, Offers l c.outputName t := by
  obtain ⟨e, he, hi⟩ := hI.stop n l hn c hc
  rw [Dict.mem_keys_iff] at hi
  obtain ⟨s, hs⟩ := Option.isSome_iff_exists.1 hi
  obtain ⟨srcs, -, h2, h3, -⟩ := hI.srcs _ e he _ s hs
  have hst := hI.start n l hn c hc
  have : c ∈ srcs.map Prod.fst := (h2 c).2 ⟨⟨l, by rw [hst]; exact hn, hc⟩, rfl, rfl⟩
  obtain ⟨⟨c', t⟩, hm, rfl⟩ := List.mem_map.1 this
  obtain ⟨l', hl', hof⟩ := h3 _ _ hm
  rw [hst, hn] at hl'
  cases hl'
  exact ⟨t, hof⟩

theorem Inst.wellFormed (hI : Inst layers) : WellFormedLayers (infos layers) where
  names := by
    have : (infos layers).map LayerInfo.name = Dict.keys layers := by
      unfold infos Dict.keys
      rw [List.map_map]
      apply List.map_congr_left
      rintro ⟨n, l⟩ he
      exact hI.name n l (Dict.get?_of_mem hI.nodup he)
    rw [this]; exact hI.nodup
  noDot := by
    intro i hi
    obtain ⟨n, l, h, rfl⟩ := (mem_infos hI).1 hi
    show '.' ∉ l.name
    rw [hI.name n l h]; exact hI.noDot n l h
  inNodup := by
    intro i hi
    obtain ⟨n, l, h, rfl⟩ := (mem_infos hI).1 hi
    exact hI.inNodup n l h
  outNodup := by
    intro i hi
    obtain ⟨n, l, h, rfl⟩ := (mem_infos hI).1 hi
    exact (hI.good n l h).outNodup
  paramNodup := by
    intro i hi
    obtain ⟨n, l, h, rfl⟩ := (mem_infos hI).1 hi
    exact (hI.good n l h).paramNodup
  internalNodup := by
    intro i hi
    obtain ⟨n, l, h, rfl⟩ := (mem_infos hI).1 hi
    exact (hI.good n l h).internalNodup
  starts := by
    intro i hi o hm
    obtain ⟨n, l, h, rfl⟩ := (mem_infos hI).1 hi
    obtain ⟨c, hc, rfl⟩ := List.mem_map.1 hm
    obtain ⟨t, ht⟩ := hI.source h hc
    have hh := (offers_has (hI.good n l h) ht).1
    unfold Has at hh
    cases hk : (toOutgoing c).kind <;> rw [hk] at hh <;> exact List.mem_map.2 ⟨_, Dict.mem_of_get? hh, rfl⟩
  ends := by
    intro i hi o hm
    obtain ⟨n, l, h, rfl⟩ := (mem_infos hI).1 hi
    obtain ⟨c, hc, rfl⟩ := List.mem_map.1 hm
    obtain ⟨e, he, hin⟩ := hI.stop n l h c hc
    refine ⟨toInfo e, (mem_infos hI).2 ⟨_, e, he, rfl⟩, ?_, ?_⟩
    · rw [(toOutgoing_end c).1]; exact hI.name _ e he
    · rw [(toOutgoing_end c).2]; exact hin

/-- Looking up an array of a layer. -/
theorem get_array (hI : Inst layers) {n : Name} {l : LayerObj K} (h : Dict.get? layers n = some l)
    {cat : Name} {back : Bool} {shapes : List (Name × Struct)} (hc : (cat, back, shapes) ∈ layerCats (toInfo l))
    {b : Name} {s : Struct} (hs : Dict.get? shapes b = some s) :
    Dict.get? (networkArrays (infos layers)) (path n cat b) =
      some (if back then { s with backwardOnly := true } else s) := by
  apply Dict.get?_of_mem (networkArrays_nodup hI.wellFormed)
  unfold networkArrays
  rw [List.mem_flatMap]
  refine ⟨toInfo l, (mem_infos hI).2 ⟨n, l, h, rfl⟩, ?_⟩
  unfold layerArrays
  rw [List.mem_flatMap]
  refine ⟨_, hc, ?_⟩
  unfold category
  refine List.mem_map.2 ⟨(b, s), Dict.mem_of_get? hs, ?_⟩
  show (path l.name cat b, _) = _
  rw [hI.name n l h]

/-- Where the forward connection starts. -/
def fwdSrc (c : Connection) : Name := path c.startLayer (toOutgoing c).kind.str (toOutgoing c).buffer

/-- Where the backward connection starts. -/
def bwdSrc (c : Connection) : Name :=
  match (toOutgoing c).kind with
  | .outputs => path c.startLayer (str "output_deltas") (toOutgoing c).buffer
  | .parameters => path c.startLayer (str "gradients") (toOutgoing c).buffer
  | .internals => path c.startLayer (str "internals") ('d' :: (toOutgoing c).buffer)

theorem get_fwdSrc (hI : Inst layers) {c : Connection} {l : LayerObj K} (h : Dict.get? layers c.startLayer = some l)
    {t : Struct} (ht : Offers l c.outputName t) :
    Dict.get? (networkArrays (infos layers)) (fwdSrc c) = some t := by
  have hh := (offers_has (hI.good _ l h) ht).1
  unfold Has at hh
  unfold fwdSrc
  cases hk : (toOutgoing c).kind <;> rw [hk] at hh
  · exact get_array hI h (cat := str "outputs") (back := false) (by simp [layerCats, toInfo]) hh
  · exact get_array hI h (cat := str "parameters") (back := false) (by simp [layerCats, toInfo]) hh
  · exact get_array hI h (cat := str "internals") (back := false) (by simp [layerCats, toInfo]) hh

theorem get_bwdSrc (hI : Inst layers) {c : Connection} {l : LayerObj K} (h : Dict.get? layers c.startLayer = some l)
    {t : Struct} (ht : Offers l c.outputName t) {x : Name × Name} (hb : bwdConn (toInfo l) (toOutgoing c) = .ok x) :
    ∃ t', Dict.get? (networkArrays (infos layers)) (bwdSrc c) = some t' ∧ t'.shape = t.shape := by
  have hh := (offers_has (hI.good _ l h) ht).1
  unfold Has at hh
  unfold bwdSrc
  unfold bwdConn at hb
  cases hk : (toOutgoing c).kind <;> rw [hk] at hh hb
  · exact ⟨_, get_array hI h (cat := str "output_deltas") (back := true) (by simp [layerCats, toInfo]) hh, rfl⟩
  · exact ⟨_, get_array hI h (cat := str "gradients") (back := true) (by simp [layerCats, toInfo]) hh, rfl⟩
  · simp only at hb
    split_ifs at hb with hd
    obtain ⟨⟨b, s'⟩, hm, hbe⟩ := List.mem_map.1 hd
    simp only at hbe
    subst hbe
    have hg := Dict.get?_of_mem (hI.good _ l h).internalNodup hm
    refine ⟨_, get_array hI h (cat := str "internals") (back := false) (by simp [layerCats, toInfo]) hg, ?_⟩
    exact (hI.good _ l h).partner _ _ _ (Dict.mem_of_get? hh) hm

theorem kind_noDot (k : Kind) : '.' ∉ k.str := by cases k <;> decide

theorem conn_ext {c c' : Connection} (h1 : c.startLayer = c'.startLayer) (h2 : c.outputName = c'.outputName)
    (h3 : c.endLayer = c'.endLayer) (h4 : c.inputName = c'.inputName) : c = c' := by
  cases c; cases c'
  simp only at h1 h2 h3 h4
  subst h1 h2 h3 h4
  rfl

theorem fwdSrc_inj (hI : Inst layers) {c c' : Connection} {l l' : LayerObj K}
    (h : Dict.get? layers c.startLayer = some l) (h' : Dict.get? layers c'.startLayer = some l')
    {t t' : Struct} (ht : Offers l c.outputName t) (ht' : Offers l' c'.outputName t')
    (he : c.endLayer = c'.endLayer) (hi : c.inputName = c'.inputName) (hp : fwdSrc c = fwdSrc c') : c = c' := by
  have e1 := (offers_has (hI.good _ l h) ht).2
  have e2 := (offers_has (hI.good _ l' h') ht').2
  obtain ⟨q1, q2, q3⟩ := path_inj (hI.noDot _ l h) (hI.noDot _ l' h') (kind_noDot _) (kind_noDot _) hp
  have hkind : (toOutgoing c).kind = (toOutgoing c').kind := by
    revert q2
    cases (toOutgoing c).kind <;> cases (toOutgoing c').kind <;> simp [Kind.str] <;> decide
  have ho : c.outputName = c'.outputName := by
    rw [e1, e2]; unfold refName; rw [hkind, q3]
  exact conn_ext q1 ho he hi

theorem bwdSrc_inj (hI : Inst layers) {c c' : Connection} {l l' : LayerObj K}
    (h : Dict.get? layers c.startLayer = some l) (h' : Dict.get? layers c'.startLayer = some l')
    {t t' : Struct} (ht : Offers l c.outputName t) (ht' : Offers l' c'.outputName t')
    (he : c.endLayer = c'.endLayer) (hi : c.inputName = c'.inputName) (hp : bwdSrc c = bwdSrc c') : c = c' := by
  have e1 := (offers_has (hI.good _ l h) ht).2
  have e2 := (offers_has (hI.good _ l' h') ht').2
  have n1 := hI.noDot _ l h
  have n2 := hI.noDot _ l' h'
  have key : c.startLayer = c'.startLayer ∧ (toOutgoing c).kind = (toOutgoing c').kind ∧
      (toOutgoing c).buffer = (toOutgoing c').buffer := by
    unfold bwdSrc at hp
    cases hk : (toOutgoing c).kind <;> cases hk' : (toOutgoing c').kind <;> rw [hk, hk'] at hp <;>
      obtain ⟨q1, q2, q3⟩ := path_inj n1 n2 (by decide) (by decide) hp
    · exact ⟨q1, rfl, q3⟩
    · exact absurd q2 (by decide)
    · exact absurd q2 (by decide)
    · exact absurd q2 (by decide)
    · exact ⟨q1, rfl, q3⟩
    · exact absurd q2 (by decide)
    · exact absurd q2 (by decide)
    · exact absurd q2 (by decide)
    · exact ⟨q1, rfl, (List.cons.inj q3).2⟩
  have ho : c.outputName = c'.outputName := by
    rw [e1, e2]; unfold refName; rw [key.2.1, key.2.2]
  exact conn_ext key.1 ho he hi

theorem fwdConn_eq (hI : Inst layers) {n : Name} {l : LayerObj K} (h : Dict.get? layers n = some l) {c : Connection}
    (hc : c ∈ l.outgoing) :
    fwdConn (toInfo l) (toOutgoing c) = (fwdSrc c, path c.endLayer (str "inputs") c.inputName) := by
  unfold fwdConn fwdSrc
  rw [hI.start n l h c hc, (toOutgoing_end c).1, (toOutgoing_end c).2]
  show (path l.name _ _, _) = _
  rw [hI.name n l h]

theorem bwdConn_eq (hI : Inst layers) {n : Name} {l : LayerObj K} (h : Dict.get? layers n = some l) {c : Connection}
    (hc : c ∈ l.outgoing) {x : Name × Name} (hx : bwdConn (toInfo l) (toOutgoing c) = .ok x) :
    x = (bwdSrc c, path c.endLayer (str "input_deltas") c.inputName) := by
  unfold bwdConn at hx
  unfold bwdSrc
  rw [hI.start n l h c hc]
  have hn : (toInfo l).name = n := hI.name n l h
  rw [(toOutgoing_end c).1, (toOutgoing_end c).2] at hx
  cases hk : (toOutgoing c).kind <;> rw [hk] at hx <;> simp only [hn] at hx ⊢
  · cases hx; rfl
  · cases hx; rfl
  · split_ifs at hx
    cases hx; rfl

theorem Inst.shaped (hI : Inst layers) (hne : ∃ n l, Dict.get? layers n = some l ∧ l.shapes.outs ≠ []) :
    Shaped (infos layers) where
  nonempty := by
    obtain ⟨n, l, h, ho⟩ := hne
    obtain ⟨⟨b, s⟩, r, hr⟩ := List.exists_cons_of_ne_nil ho
    have hg : Dict.get? l.shapes.outs b = some s :=
      Dict.get?_of_mem (hI.good n l h).outNodup (by rw [hr]; simp)
    have := get_array hI h (cat := str "outputs") (back := false) (shapes := l.shapes.outs)
      (by simp [layerCats, toInfo]) hg
    intro he
    rw [he] at this
    cases this
  params := by
    intro i hi e he
    obtain ⟨n, l, h, rfl⟩ := (mem_infos hI).1 hi
    exact (hI.good n l h).params e he
  sinks := by
    intro conns hcon t s hs hex
    obtain ⟨p0, hp0⟩ := hex
    -- the target is an input or an input delta
    have htgt : ∀ n l, Dict.get? layers n = some l → ∀ i, Dict.has l.inShapes i = true →
        (t = path n (str "inputs") i ∨ t = path n (str "input_deltas") i) →
        ∃ srcs : List Name, srcs.Nodup ∧ (∀ p, p ∈ srcs ↔ (p, t) ∈ conns) ∧ s.contextSize = 0 ∧
          s.featureSize = (srcs.map (fun p => ((Dict.get? (networkArrays (infos layers)) p).map Struct.featureSize).getD 0)).sum ∧
          ∀ p ∈ srcs, ∀ s', Dict.get? (networkArrays (infos layers)) p = some s' → s'.bufferType = s.bufferType := by
      intro n l hn i hi ht
      obtain ⟨s0, hs0⟩ := Option.isSome_iff_exists.1 hi
      obtain ⟨srcs, h1, h2, h3, h4⟩ := hI.srcs n l hn i s0 hs0
      have hval : ∀ x ∈ srcs.map Prod.snd, x.validate = .ok () := by
        intro x hx
        obtain ⟨⟨c, t'⟩, hm, rfl⟩ := List.mem_map.1 hx
        obtain ⟨l', hl', hof⟩ := h3 _ _ hm
        have hv := (hI.good _ l' hl').valid
        rcases hof with hof | ⟨q, -, hof⟩ | ⟨q, -, hof⟩
        · exact hv _ (.inl rfl) _ (Dict.mem_of_get? hof)
        · exact hv _ (.inr (.inl rfl)) _ (Dict.mem_of_get? hof)
        · exact hv _ (.inr (.inr rfl)) _ (Dict.mem_of_get? hof)
      obtain ⟨c1, c2, c3⟩ := combine_size hval h4
      -- every source of the target comes from one of the connections
      have hbwd : ∀ i ∈ infos layers, ∀ o ∈ i.outgoing, ∃ b, bwdConn i o = .ok b := by
        unfold getConnections at hcon
        cases hf : flowConns (infos layers) with
        | error e => simp [hf] at hcon
        | ok cs => exact flowConns_bwd hf
      have hmemc : ∀ c t', (c, t') ∈ srcs → ∃ l', Dict.get? layers c.startLayer = some l' ∧ c ∈ l'.outgoing ∧
          Offers l' c.outputName t' ∧ c.endLayer = n ∧ c.inputName = i := by
        intro c t' hm
        obtain ⟨l', hl', hof⟩ := h3 c t' hm
        obtain ⟨⟨l2, hl2, hc⟩, e1, e2⟩ := (h2 c).1 (List.mem_map.2 ⟨_, hm, rfl⟩)
        rw [hl'] at hl2; cases hl2
        exact ⟨l', hl', hc, hof, e1, e2⟩
      rcases ht with ht | ht
      · -- forward
        have hst : s = s0 := by
          have := get_array hI hn (cat := str "inputs") (back := false) (by simp [layerCats, toInfo]) hs0
          rw [← ht, hs] at this
          simpa using this
        subst hst
        refine ⟨srcs.map (fun e => fwdSrc e.1), ?_, ?_, c1, ?_, ?_⟩
        · rw [List.nodup_map_iff_inj_on (List.Nodup.of_map _ h1)]
          rintro ⟨c, t1⟩ m1 ⟨c', t2⟩ m2 heq
          obtain ⟨l1, g1, -, o1, a1, a2⟩ := hmemc _ _ m1
          obtain ⟨l2, g2, -, o2, b1, b2⟩ := hmemc _ _ m2
          have hcc := fwdSrc_inj hI g1 g2 o1 o2 (a1.trans b1.symm) (a2.trans b2.symm) heq
          exact List.inj_on_of_nodup_map h1 m1 m2 hcc
        · intro p
          rw [mem_getConnections hcon]
          constructor
          · intro hp
            obtain ⟨⟨c, t1⟩, hm, rfl⟩ := List.mem_map.1 hp
            obtain ⟨l', hl', hc, -, a1, a2⟩ := hmemc _ _ hm
            refine ⟨toInfo l', (mem_infos hI).2 ⟨_, l', hl', rfl⟩, .inl ⟨_, List.mem_map.2 ⟨c, hc, rfl⟩, .inl ?_⟩⟩
            rw [fwdConn_eq hI hl' hc, ht, a1, a2]
          · rintro ⟨i', hi', (⟨o, ho, hcase⟩ | ⟨x, -, hcase⟩)⟩
            · obtain ⟨m, l', hl', rfl⟩ := (mem_infos hI).1 hi'
              obtain ⟨c, hc, rfl⟩ := List.mem_map.1 ho
              rcases hcase with hcase | hcase
              · rw [fwdConn_eq hI hl' hc, ht] at hcase
                obtain ⟨rfl, hp2⟩ := Prod.mk.inj hcase
                obtain ⟨e, he, -⟩ := hI.stop _ l' hl' c hc
                obtain ⟨r1, -, r3⟩ := path_inj (hI.noDot _ l hn) (hI.noDot _ e he) (by decide) (by decide) hp2
                have hst := hI.start _ l' hl' c hc
                have : c ∈ srcs.map Prod.fst := (h2 c).2 ⟨⟨l', by rw [hst]; exact hl', hc⟩, r1.symm, r3.symm⟩
                obtain ⟨e', he', rfl⟩ := List.mem_map.1 this
                exact List.mem_map.2 ⟨e', he', rfl⟩
              · have := bwdConn_eq hI hl' hc hcase
                rw [ht] at this
                obtain ⟨-, hp2⟩ := Prod.mk.inj this
                obtain ⟨e, he, -⟩ := hI.stop _ l' hl' c hc
                obtain ⟨-, r2, -⟩ := path_inj (hI.noDot _ l hn) (hI.noDot _ e he) (by decide) (by decide) hp2
                exact absurd r2 (by decide)
            · rw [ht] at hcase
              rcases hcase with hcase | hcase
              · exact absurd (Prod.mk.inj hcase).2 path_ne_root.1
              · exact absurd (Prod.mk.inj hcase).2 path_ne_root.2
        · rw [c2, List.map_map, List.map_map]
          congr 1
          apply List.map_congr_left
          rintro ⟨c, t1⟩ hm
          obtain ⟨l', hl', -, hof, -⟩ := hmemc _ _ hm
          simp only [Function.comp, get_fwdSrc hI hl' hof, Option.map_some, Option.getD_some]
        · intro p hp s' hs'
          obtain ⟨⟨c, t1⟩, hm, rfl⟩ := List.mem_map.1 hp
          obtain ⟨l', hl', -, hof, -⟩ := hmemc _ _ hm
          simp only at hs'
          rw [get_fwdSrc hI hl' hof] at hs'
          cases hs'
          exact c3 _ (List.mem_map.2 ⟨_, hm, rfl⟩)
      · -- backward
        have hst : s = { s0 with backwardOnly := true } := by
          have := get_array hI hn (cat := str "input_deltas") (back := true) (by simp [layerCats, toInfo]) hs0
          rw [← ht, hs] at this
          simpa using this
        subst hst
        have hb : ∀ c t1, (c, t1) ∈ srcs → ∃ t', Dict.get? (networkArrays (infos layers)) (bwdSrc c) = some t' ∧
            t'.shape = t1.shape := by
          intro c t1 hm
          obtain ⟨l', hl', hc, hof, -, -⟩ := hmemc _ _ hm
          obtain ⟨x, hx⟩ := hbwd _ ((mem_infos hI).2 ⟨_, l', hl', rfl⟩) _ (List.mem_map.2 ⟨c, hc, rfl⟩)
          exact get_bwdSrc hI hl' hof hx
        refine ⟨srcs.map (fun e => bwdSrc e.1), ?_, ?_, c1, ?_, ?_⟩
        · rw [List.nodup_map_iff_inj_on (List.Nodup.of_map _ h1)]
          rintro ⟨c, t1⟩ m1 ⟨c', t2⟩ m2 heq
          obtain ⟨l1, g1, -, o1, a1, a2⟩ := hmemc _ _ m1
          obtain ⟨l2, g2, -, o2, b1, b2⟩ := hmemc _ _ m2
          have hcc := bwdSrc_inj hI g1 g2 o1 o2 (a1.trans b1.symm) (a2.trans b2.symm) heq
          exact List.inj_on_of_nodup_map h1 m1 m2 hcc
        · intro p
          rw [mem_getConnections hcon]
          constructor
          · intro hp
            obtain ⟨⟨c, t1⟩, hm, rfl⟩ := List.mem_map.1 hp
            obtain ⟨l', hl', hc, -, a1, a2⟩ := hmemc _ _ hm
            have hi' := (mem_infos hI).2 ⟨_, l', hl', rfl⟩
            have hmo : toOutgoing c ∈ (toInfo l').outgoing := List.mem_map.2 ⟨c, hc, rfl⟩
            obtain ⟨x, hx⟩ := hbwd _ hi' _ hmo
            refine ⟨toInfo l', hi', .inl ⟨_, hmo, .inr ?_⟩⟩
            rw [hx, bwdConn_eq hI hl' hc hx, ht, a1, a2]
          · rintro ⟨i', hi', (⟨o, ho, hcase⟩ | ⟨x, -, hcase⟩)⟩
            · obtain ⟨m, l', hl', rfl⟩ := (mem_infos hI).1 hi'
              obtain ⟨c, hc, rfl⟩ := List.mem_map.1 ho
              rcases hcase with hcase | hcase
              · rw [fwdConn_eq hI hl' hc, ht] at hcase
                obtain ⟨-, hp2⟩ := Prod.mk.inj hcase
                obtain ⟨e, he, -⟩ := hI.stop _ l' hl' c hc
                obtain ⟨-, r2, -⟩ := path_inj (hI.noDot _ l hn) (hI.noDot _ e he) (by decide) (by decide) hp2
                exact absurd r2 (by decide)
              · have := bwdConn_eq hI hl' hc hcase
                rw [ht] at this
                obtain ⟨rfl, hp2⟩ := Prod.mk.inj this
                obtain ⟨e, he, -⟩ := hI.stop _ l' hl' c hc
                obtain ⟨r1, -, r3⟩ := path_inj (hI.noDot _ l hn) (hI.noDot _ e he) (by decide) (by decide) hp2
                have hst := hI.start _ l' hl' c hc
                have : c ∈ srcs.map Prod.fst := (h2 c).2 ⟨⟨l', by rw [hst]; exact hl', hc⟩, r1.symm, r3.symm⟩
                obtain ⟨e', he', rfl⟩ := List.mem_map.1 this
                exact List.mem_map.2 ⟨e', he', rfl⟩
            · rw [ht] at hcase
              rcases hcase with hcase | hcase
              · exact absurd (Prod.mk.inj hcase).2 path_ne_root.1
              · exact absurd (Prod.mk.inj hcase).2 path_ne_root.2
        · show s0.featureSize = _
          rw [c2, List.map_map, List.map_map]
          congr 1
          apply List.map_congr_left
          rintro ⟨c, t1⟩ hm
          obtain ⟨t', g, gs⟩ := hb _ _ hm
          simp only [Function.comp, g, Option.map_some, Option.getD_some]
          unfold Struct.featureSize Struct.featureShape Struct.bufferType
          rw [gs]
        · intro p hp s' hs'
          obtain ⟨⟨c, t1⟩, hm, rfl⟩ := List.mem_map.1 hp
          obtain ⟨t', g, gs⟩ := hb _ _ hm
          simp only at hs'
          rw [g] at hs'
          cases hs'
          have := c3 _ (List.mem_map.2 ⟨_, hm, rfl⟩)
          unfold Struct.bufferType at this ⊢
          rw [gs]; exact this
    -- find the layer of the target
    have hc0 := hp0
    rw [mem_getConnections hcon] at hc0
    obtain ⟨i', hi', (⟨o, ho, hcase⟩ | ⟨x, -, hcase⟩)⟩ := hc0
    · obtain ⟨m, l', hl', rfl⟩ := (mem_infos hI).1 hi'
      obtain ⟨c, hc, rfl⟩ := List.mem_map.1 ho
      obtain ⟨e, he, hin⟩ := hI.stop _ l' hl' c hc
      have hhas : Dict.has e.inShapes c.inputName = true := (Dict.mem_keys_iff _ _).1 hin
      rcases hcase with hcase | hcase
      · rw [fwdConn_eq hI hl' hc] at hcase
        exact htgt _ e he _ hhas (.inl (Prod.mk.inj hcase).2)
      · exact htgt _ e he _ hhas (.inr (Prod.mk.inj (bwdConn_eq hI hl' hc hcase)).2)
    · exfalso
      have hroot : t = str "parameters" ∨ t = str "gradients" := by
        rcases hcase with hcase | hcase
        · exact .inl (Prod.mk.inj hcase).2
        · exact .inr (Prod.mk.inj hcase).2
      have hmt : t ∈ (networkArrays (infos layers)).map Prod.fst := List.mem_map.2 ⟨_, Dict.mem_of_get? hs, rfl⟩
      obtain ⟨l1, -, c1, -, b1, -, e1⟩ := mem_networkArrays.1 hmt
      rcases hroot with h' | h' <;> rw [h'] at e1
      · exact path_ne_root.1 e1.symm
      · exact path_ne_root.2 e1.symm

end

end Verif.Setup
