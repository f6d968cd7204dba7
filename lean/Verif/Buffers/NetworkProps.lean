import Verif.Buffers.Network

/-! # C12, C15-C18 for the networks that `create_layout` lays out -/

namespace Verif.Buffers

open Verif.Structure Verif.Layout

section
variable {layers : List LayerInfo} {L : Layout}

/-- The hub of an array or root entry. -/
theorem netOf_get {forced : List (List Name)} {conns : List (Name × Name)} {gs : List Group}
    (hP : Parts layers L forced conns gs) (hw : WellFormedLayers layers)
    {g : Group} (hg : g ∈ gs) {t : Name} {sl : Nat × Nat} (ht : (t, sl) ∈ g.hub.getIndices)
    (hin : t ∈ (networkArrays layers).map Prod.fst ∨ t = str "parameters" ∨ t = str "gradients") :
    ∃ e, Dict.get? (netOf layers L).layout t = some e ∧ e.slice = sl ∧
      (netOf layers L).hubs[e.hub]? = some (hubInfo g) ∧ ∃ hk : e.hub < L.groups.length, L.groups[e.hub] = g := by
  obtain ⟨k, hk, hkg, hget⟩ := hP.get_eq hw hg
  have hLt := hget t sl ht
  have hhub : (netOf layers L).hubs[k]? = some (hubInfo g) := by simp [netOf, hk, hkg]
  rcases hin with hin | rfl | rfl
  · obtain ⟨p, hp, rfl⟩ := List.mem_map.1 hin
    refine ⟨⟨k, sl, p.2⟩, ?_, rfl, hhub, hk, hkg⟩
    have hne1 : str "parameters" ≠ p.1 := by
      obtain ⟨l, hl, c, hc, b, hb, he⟩ := mem_networkArrays.1 hin
      rw [he]; exact fun h => path_ne_root.1 h.symm
    have hne2 : str "gradients" ≠ p.1 := by
      obtain ⟨l, hl, c, hc, b, hb, he⟩ := mem_networkArrays.1 hin
      rw [he]; exact fun h => path_ne_root.2 h.symm
    simp only [netOf, rootOf, Dict.get?, hne1, hne2, if_false]
    have hnd : (Dict.keys ((networkArrays layers).map (entryOf L))).Nodup := by
      simp only [Dict.keys, List.map_map]
      exact networkArrays_nodup hw
    have hm : (p.1, (⟨k, sl, p.2⟩ : ArrayEntry)) ∈ (networkArrays layers).map (entryOf L) :=
      List.mem_map.2 ⟨p, hp, by simp [entryOf, hLt]⟩
    exact Dict.get?_of_mem hnd hm
  · refine ⟨(rootOf L (str "parameters")).2, by simp [netOf, rootOf, Dict.get?], ?_, ?_, ?_⟩
    · simp [rootOf, Layout.root, hLt]
    · simpa [rootOf, Layout.root, hLt] using hhub
    · simpa [rootOf, Layout.root, hLt] using ⟨hk, hkg⟩
  · have : str "parameters" ≠ str "gradients" := by decide
    refine ⟨(rootOf L (str "gradients")).2, by simp [netOf, rootOf, Dict.get?, this], ?_, ?_, ?_⟩
    · simp [rootOf, Layout.root, hLt]
    · simpa [rootOf, Layout.root, hLt] using hhub
    · simpa [rootOf, Layout.root, hLt] using ⟨hk, hkg⟩

/-- **C12** (networks): two different arrays neither of which is the end of a
connection never share memory, whatever the sizes. -/
theorem C12_network (hw : WellFormedLayers layers) (_hroot : NoRootNames layers) (hs : Shaped layers) (h : createLayout layers = .ok L)
    (conns : List (Name × Name)) (hc : getConnections layers = .ok conns) (p q : Name)
    (hp : p ∈ (networkArrays layers).map Prod.fst) (hq : q ∈ (networkArrays layers).map Prod.fst)
    (hpe : p ∉ conns.map Prod.snd) (hqe : q ∉ conns.map Prod.snd) (hne : p ≠ q) (T B : Nat) :
    ∃ e e' v v', Dict.get? (netOf layers L).layout p = some e ∧ Dict.get? (netOf layers L).layout q = some e' ∧
      viewOf (netOf layers L).hubs T B e = some v ∧ viewOf (netOf layers L).hubs T B e' = some v' ∧
      ∀ c ∈ v.cells, c ∉ v'.cells := by
  obtain ⟨forced, conns', gs, hP⟩ := createLayout_ok h
  have : conns' = conns := by have := hP.connsOk; rw [hc] at this; simpa using this.symm
  subst this
  have hwl := netOf_wellLaid hw hs h
  obtain ⟨g, hg, k, hk, hkg, sl, -, hmem⟩ := Parts.array_entry hP hw h hp
  obtain ⟨g', hg', k', hk', hkg', sl', -, hmem'⟩ := Parts.array_entry hP hw h hq
  obtain ⟨e, he, hesl, hehub, hek, heg⟩ := netOf_get hP hw hg hmem (Or.inl hp)
  obtain ⟨e', he', hesl', hehub', hek', heg'⟩ := netOf_get hP hw hg' hmem' (Or.inl hq)
  have hf := hwl.fits _ (Dict.mem_of_get? he)
  have hf' := hwl.fits _ (Dict.mem_of_get? he')
  obtain ⟨v, hv, -⟩ := viewOf_fits hf T B
  obtain ⟨v', hv', -⟩ := viewOf_fits hf' T B
  refine ⟨e, e', v, v', he, he', hv, hv', ?_⟩
  intro c hc1 hc2
  obtain ⟨hh, f, hf1, hf2⟩ := C12_share _ T B e e' hf hf' v v' hv hv' c hc1 hc2
  have hgg : g = g' := by rw [← heg, ← heg']; simp only [hh]
  subst hgg
  rw [hesl] at hf1
  rw [hesl'] at hf2
  have hsrc : ∀ x sl, (x, sl) ∈ g.hub.getIndices → x ∉ conns'.map Prod.snd →
      ∃ i, ∃ hi : i < g.hub.flatSources.length, x = g.hub.flatSources[i] ∧ sl = (offset g.hub.sizes i, offset g.hub.sizes (i + 1)) := by
    intro x sl hx hxe
    rcases mem_getIndices.1 hx with ⟨i, hi, hee⟩ | ⟨j, hj, hee⟩
    · simp only [Prod.mk.injEq] at hee
      exact ⟨i, hi, hee.1, hee.2⟩
    · exfalso
      simp only [Prod.mk.injEq] at hee
      obtain ⟨-, -, -, -, order, hcr⟩ := hP.created hw hg
      have hall : ∀ x ∈ g.hub.sinks, x ∈ g.sinks := by
        rw [hcr.sinkList]; intro x hx; exact mem_sortBy.1 hx
      obtain ⟨q, -, hqc⟩ := (hP.sink_iff hw hg).1 (hall _ (List.getElem_mem hj))
      exact hxe (List.mem_map.2 ⟨_, hqc, hee.1.symm⟩)
  obtain ⟨i, hi, hpi, rfl⟩ := hsrc p sl hmem hpe
  obtain ⟨j, hj, hqj, rfl⟩ := hsrc q sl' hmem' hqe
  have hij : i = j := offset_unique hf1 hf2
  subst hij
  exact hne (hpi.trans hqj.symm)

section
variable {V : Type} [Zero V]

/-- **C17** (networks): clearing the backward buffers zeroes every array declared
backward-only (deltas, gradients) and the inputs and root arrays it is connected
to, and leaves every other array (outputs, parameters, forward internals) and the
arrays it is connected to as they were. -/
theorem C17_network (hw : WellFormedLayers layers) (_hroot : NoRootNames layers) (hs : Shaped layers) (h : createLayout layers = .ok L)
    (conns : List (Name × Name)) (hc : getConnections layers = .ok conns)
    (st₀ st : State V) (ops : List (Op V)) (hcr : create (netOf layers L) = some st₀)
    (hr : run (netOf layers L) st₀ ops = some st) :
    ∃ st', clearBackward (netOf layers L) st = some st' ∧
      ∀ p s, Dict.get? (networkArrays layers) p = some s → p ∉ conns.map Prod.snd →
        ∀ t, (t = p ∨ (p, t) ∈ conns) → ∃ old, st.read t = some old ∧
          (s.backwardOnly = true → st'.read t = some (List.replicate old.length 0)) ∧
          (s.backwardOnly = false → st'.read t = some old) := by
  obtain ⟨forced, conns', gs, hP⟩ := createLayout_ok h
  have : conns' = conns := by have := hP.connsOk; rw [hc] at this; simpa using this.symm
  subst this
  have hwl := netOf_wellLaid hw hs h
  obtain ⟨st', h1, h2⟩ := C17_clear_backward (netOf layers L) hwl st₀ st ops hcr hr
  refine ⟨st', h1, ?_⟩
  intro p s hps hpe t ht
  have hpa : p ∈ (networkArrays layers).map Prod.fst := List.mem_map.2 ⟨_, Dict.mem_of_get? hps, rfl⟩
  obtain ⟨g, hg, k, hk, hkg, sl, -, hmem⟩ := Parts.array_entry hP hw h hpa
  obtain ⟨-, -, -, -, order, hcre⟩ := hP.created hw hg
  -- `p` is a source of its hub
  have hpsrc : p ∈ g.hub.flatSources := by
    rcases mem_getIndices.1 hmem with ⟨i, hi, hee⟩ | ⟨j, hj, hee⟩
    · simp only [Prod.mk.injEq] at hee
      rw [hee.1]; exact List.getElem_mem hi
    · exfalso
      simp only [Prod.mk.injEq] at hee
      have hall : ∀ x ∈ g.hub.sinks, x ∈ g.sinks := by
        rw [hcre.sinkList]; intro x hx; exact mem_sortBy.1 hx
      obtain ⟨q, -, hqc⟩ := (hP.sink_iff hw hg).1 (hall _ (List.getElem_mem hj))
      exact hpe (List.mem_map.2 ⟨_, hqc, hee.1.symm⟩)
  have hback : g.hub.backwardOnly = s.backwardOnly := by
    obtain ⟨i, hi, hpi⟩ := List.getElem_of_mem hpsrc
    obtain ⟨s', e1, -, -, e2⟩ := hcre.btype i hi
    rw [hpi, hps] at e1
    cases e1
    exact e2.symm
  have hparr : p ∈ g.arrays := by
    rw [hcre.flat] at hpsrc
    exact (hcre.perm.flatMap_right _).subset hpsrc
  have htn : ∃ sl, (t, sl) ∈ g.hub.getIndices := by
    rcases ht with rfl | ht
    · exact ⟨sl, hmem⟩
    · have htg : t ∈ g.sinks := (hP.sink_iff hw hg).2 ⟨p, hparr, ht⟩
      have hmemn : t ∈ g.hub.getIndices.map Prod.fst :=
        (hP.names_perm hw hg).symm.subset (List.mem_append_right _ htg)
      obtain ⟨⟨a, b⟩, hab, rfl⟩ := List.mem_map.1 hmemn
      exact ⟨b, hab⟩
  have hin : t ∈ (networkArrays layers).map Prod.fst ∨ t = str "parameters" ∨ t = str "gradients" := by
    rcases ht with rfl | ht
    · exact Or.inl hpa
    · obtain ⟨l, hl, hcase⟩ := (mem_getConnections hc _).1 ht
      rcases hcase with ⟨o, ho, hfb⟩ | ⟨x, hx, hpg⟩
      · left
        obtain ⟨e, he, hen, hei⟩ := hw.ends l hl o ho
        rcases hfb with hf | hb
        · simp only [fwdConn, Prod.mk.injEq] at hf
          rw [hf.2]
          exact mem_networkArrays.2 ⟨e, he, (str "inputs", false, e.inShapes), by simp [layerCats], _, hei, by rw [hen]⟩
        · have hstop : t = path o.endLayer (str "input_deltas") o.endInput := by
            unfold bwdConn at hb
            simp only at hb
            split at hb
            · simp at hb; exact hb.2.symm
            · simp at hb; exact hb.2.symm
            · split at hb
              · simp at hb; exact hb.2.symm
              · simp at hb
          rw [hstop]
          exact mem_networkArrays.2 ⟨e, he, (str "input_deltas", true, e.inShapes), by simp [layerCats], _, hei, by rw [hen]⟩
      · right
        rcases hpg with h | h
        · simp only [Prod.mk.injEq] at h; exact Or.inl h.2
        · simp only [Prod.mk.injEq] at h; exact Or.inr h.2
  obtain ⟨sl', hsl'⟩ := htn
  obtain ⟨e, he, -, hehub, -⟩ := netOf_get hP hw hg hsl' hin
  obtain ⟨b, vs, hi⟩ := run_inv hwl hcr hr
  have hold : ∃ old, st.read t = some old := by
    obtain ⟨v, hv, -⟩ := viewOf_fits (hwl.fits _ (Dict.mem_of_get? he)) (lastRequest ops).1 (lastRequest ops).2
    exact ⟨_, by rw [hi.read, he, Option.bind_some, hv]; rfl⟩
  obtain ⟨old, hold⟩ := hold
  obtain ⟨r1, r2⟩ := h2 t e (hubInfo g) he hehub
  refine ⟨old, hold, fun hb => ?_, fun hb => ?_⟩
  · obtain ⟨old', ho, hz⟩ := r1 (by simpa [hubInfo, hback] using hb)
    rw [hold] at ho
    cases ho
    exact hz
  · rw [r2 (by simpa [hubInfo, hback] using hb), hold]

end

end

/-! ### Concrete networks -/

/-- A recurrent layer whose output is concatenated with the network's input. -/
def sharedLayers : List LayerInfo :=
  let tb (n : Nat) : Struct := ⟨[.T, .B, .n n], 0, false⟩
  [ ⟨str "Input", [], [(str "default", tb 2)], [], [],
      [⟨.outputs, str "default", str "Rnn", str "default"⟩,
       ⟨.outputs, str "default", str "Out", str "default"⟩]⟩,
    ⟨str "Rnn", [(str "default", tb 2)], [(str "default", ⟨[.T, .B, .n 1], 1, false⟩)],
      [(str "W", ⟨[.n 1, .n 2], 0, false⟩)], [],
      [⟨.outputs, str "default", str "Out", str "default"⟩]⟩,
    ⟨str "Out", [(str "default", tb 3)], [(str "default", tb 1)],
      [(str "W", ⟨[.n 1, .n 3], 0, false⟩)], [], []⟩ ]

example : NoRootNames sharedLayers := by unfold NoRootNames; decide +kernel

example : WellFormedLayers sharedLayers where
  names := by decide +kernel
  noDot := by decide +kernel
  inNodup := by decide +kernel
  outNodup := by decide +kernel
  paramNodup := by decide +kernel
  internalNodup := by decide +kernel
  starts := by
    intro l hl o ho
    simp only [sharedLayers, List.mem_cons, List.not_mem_nil, or_false] at hl
    rcases hl with rfl | rfl | rfl <;> simp at ho
    · rcases ho with rfl | rfl <;> simp
    · subst ho; simp
  ends := by decide +kernel

/-- A check of `Shaped` for concrete networks. -/
def shapedCheck (layers : List LayerInfo) : Bool :=
  !(networkArrays layers).isEmpty &&
  (layers.all (fun l => l.paramShapes.all (fun e => e.2.bufferType == 0))) &&
  match getConnections layers with
  | .error _ => true
  | .ok conns => (networkArrays layers).all (fun ts =>
      let srcs := (conns.filter (fun c => c.2 == ts.1)).map Prod.fst
      srcs.isEmpty ||
      (decide srcs.Nodup && ts.2.contextSize == 0 &&
        ts.2.featureSize ==
          (srcs.map (fun p => ((Dict.get? (networkArrays layers) p).map Struct.featureSize).getD 0)).sum &&
        srcs.all (fun p => match Dict.get? (networkArrays layers) p with
          | none => true
          | some s' => s'.bufferType == ts.2.bufferType)))

theorem shaped_of_check {layers : List LayerInfo} (h : shapedCheck layers = true) : Shaped layers := by
  unfold shapedCheck at h
  simp only [Bool.and_eq_true] at h
  obtain ⟨⟨h1, h2⟩, h3⟩ := h
  refine ⟨by simpa using h1, by simpa using h2, ?_⟩
  intro conns hc t s hts ⟨p, hp⟩
  rw [hc] at h3
  have h4 := List.all_eq_true.1 h3 _ (Dict.mem_of_get? hts)
  have hmem : ∀ p, p ∈ (conns.filter (fun c => c.2 == t)).map Prod.fst ↔ (p, t) ∈ conns := by
    intro p
    simp
  simp only [Bool.or_eq_true, Bool.and_eq_true] at h4
  rcases h4 with h4 | ⟨⟨⟨h5, h6⟩, h7⟩, h8⟩
  · exfalso
    have := (hmem p).2 hp
    rw [List.isEmpty_iff.1 h4] at this
    simp at this
  · refine ⟨_, by simpa using h5, hmem, by simpa using h6, by simpa using h7, ?_⟩
    intro q hq s' hs'
    have := List.all_eq_true.1 h8 q hq
    rw [hs'] at this
    simpa using this

example : Shaped sharedLayers := shaped_of_check (by decide +kernel)
example : Shaped demoLayers := shaped_of_check (by decide +kernel)

/-- The network of `sharedLayers` as laid out. -/
def sharedNet : Option Net := (createLayout sharedLayers).toOption.map (netOf sharedLayers)

/-- **C18** is false: a network in which the input shares a buffer with a
recurrent output.  A first forward pass on the data 1, 2, 3, 4 (two time steps, one
sequence, two features) sees 1, 2, 0, 0: `clear_context` erases the last step. -/
theorem C18_input_erased :
    (do let net ← sharedNet
        let st₀ ← create (V := Nat) net
        let st₁ ← provideExternalData net st₀ 2 1 [(path (str "Input") (str "outputs") (str "default"), [1, 2, 3, 4])]
        let st₂ ← prepareForward net st₁ none
        return (st₁.read (path (str "Input") (str "outputs") (str "default")),
                st₂.read (path (str "Input") (str "outputs") (str "default"))))
      = some (some [1, 2, 3, 4], some [1, 2, 0, 0]) := by
  decide +kernel

/-- A run of the same network with an explicit context. -/
def sharedRun : Option (List (Option (List Nat))) := do
  let net ← sharedNet
  let st₀ ← create (V := Nat) net
  let st₁ ← provideExternalData net st₀ 2 1 [(path (str "Input") (str "outputs") (str "default"), [1, 2, 3, 4])]
  let st₂ ← st₁.write (str "parameters") [5, 6, 7, 8, 9]
  let ctx ← getContext net st₂
  let st₃ ← prepareForward net st₂ (some ctx)
  let st₄ ← st₃.write (path (str "Out") (str "output_deltas") (str "default")) [1, 1]
  let st₅ ← clearBackward net st₄
  let st₆ ← provideExternalData net st₅ 5 3 []
  return [st₃.read (path (str "Input") (str "outputs") (str "default")),
    st₄.read (path (str "Out") (str "output_deltas") (str "default")),
    st₅.read (path (str "Out") (str "output_deltas") (str "default")),
    st₅.read (path (str "Rnn") (str "parameters") (str "W")),
    st₆.read (str "parameters"), st₆.size.map (fun n => [n])]

/-- With an explicit context the data is kept; resizing keeps the parameters;
clearing the backward buffers zeroes the deltas only. -/
example : (sharedRun == some [some [1, 2, 3, 4], some [1, 1], some [0, 0], some [8, 9], some [5, 6, 7, 8, 9],
    some [148]]) = true := by
  decide +kernel

end Verif.Buffers
