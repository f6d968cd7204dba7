import Verif.Buffers.ForwardProps
import Verif.Layout.ParamProps

/-! # The buffers of a network laid out by `create_layout` -/

namespace Verif.Buffers

open Verif.Structure Verif.Layout

/-- The attributes of a laid out hub that the buffer manager uses. -/
def hubInfo (g : Group) : HubInfo := ⟨g.hub.btype, g.hub.contextSize, g.hub.size, g.hub.backwardOnly⟩

/-- The entry of an array. -/
def entryOf (L : Layout) (p : Name × Struct) : Name × ArrayEntry :=
  (p.1, ⟨((L.get p.1).getD (0, (0, 0))).1, ((L.get p.1).getD (0, (0, 0))).2, p.2⟩)

/-- The entry of one of the root arrays, with the shape given by the slice of the
parameters (layout.py:148-157). -/
def rootOf (L : Layout) (n : Name) : Name × ArrayEntry :=
  let ps := (L.root (str "parameters")).2
  (n, ⟨(L.root n).1, (L.root n).2, ⟨[.n (ps.2 - ps.1)], 0, false⟩⟩)

/-- The result of `create_layout` as input of `BufferManager` (network.py:64-66). -/
def netOf (layers : List LayerInfo) (L : Layout) : Net where
  hubs := L.groups.map hubInfo
  layout := rootOf L (str "parameters") :: rootOf L (str "gradients") :: (networkArrays layers).map (entryOf L)

/-- Shapes as layers declare them: parameters are not scaled with time or batch,
and a connected input has the type of its sources, no context and the sum of their
feature sizes (`combine_buffer_structures`, architecture.py:176-184). -/
structure Shaped (layers : List LayerInfo) : Prop where
  nonempty : networkArrays layers ≠ []
  params : ∀ l ∈ layers, ∀ e ∈ l.paramShapes, e.2.bufferType = 0
  sinks : ∀ conns, getConnections layers = .ok conns → ∀ t s, Dict.get? (networkArrays layers) t = some s →
    (∃ p, (p, t) ∈ conns) → ∃ srcs : List Name, srcs.Nodup ∧ (∀ p, p ∈ srcs ↔ (p, t) ∈ conns) ∧
      s.contextSize = 0 ∧
      s.featureSize = (srcs.map (fun p => ((Dict.get? (networkArrays layers) p).map Struct.featureSize).getD 0)).sum ∧
      ∀ p ∈ srcs, ∀ s', Dict.get? (networkArrays layers) p = some s' → s'.bufferType = s.bufferType

theorem typeOf_le (shape : List Tok) : typeOf shape ≤ 2 := by
  unfold typeOf; split
  · omega
  · split <;> omega

theorem featureSize_prod (s : Struct) : s.featureSize = (s.featureShape.map Tok.size).prod := by
  rw [Struct.featureSize, List.prod_eq_foldl]

section
variable {layers : List LayerInfo} {L : Layout} {forced : List (List Name)} {conns : List (Name × Name)}
  {gs : List Group}

/-- Where an array is laid out. -/
theorem Parts.array_entry (hP : Parts layers L forced conns gs) (hw : WellFormedLayers layers)
    (h : createLayout layers = .ok L) {p : Name} (hp : p ∈ (networkArrays layers).map Prod.fst) :
    ∃ g ∈ gs, ∃ k, ∃ hk : k < L.groups.length, L.groups[k] = g ∧ ∃ sl, L.get p = some (k, sl) ∧
      (p, sl) ∈ g.hub.getIndices := by
  have hperm : L.groups.Perm gs := by rw [hP.sorted]; exact sortBy_perm _ _
  obtain ⟨l, hl, c, hc, b, hb, rfl⟩ := mem_networkArrays.1 hp
  obtain ⟨e, he, hen, hget, -⟩ := every_array layers hw L h l hl c.1 b ⟨c, hc, rfl, hb⟩
  rw [hP.entries, mem_layoutHubs] at he
  obtain ⟨i, hi, hi2, hmem⟩ := he
  refine ⟨L.groups[i], hperm.subset (List.getElem_mem hi), i, hi, rfl, e.slice, ?_, ?_⟩
  · rw [hget]; simp [hi2]
  · rw [← hen]; exact hmem

theorem hub_btype_le (hP : Parts layers L forced conns gs) (hw : WellFormedLayers layers) {g : Group} (hg : g ∈ gs) :
    g.hub.btype ≤ 2 := by
  obtain ⟨hnd, hns, -, hc, order, hcr⟩ := hP.created hw hg
  by_cases hne : 0 < g.hub.flatSources.length
  · obtain ⟨s, -, hb, -⟩ := hcr.btype 0 hne
    rw [← hb]; exact typeOf_le _
  · -- a hub has at least one source
    exfalso
    have hnil : g.hub.flatSources = [] := List.length_eq_zero_iff.1 (by omega)
    have : ∀ l : List Name, lookupAll (Dict.get? (networkArrays layers)) l = .ok [] → l = [] := by
      intro l hl
      cases l with
      | nil => rfl
      | cons a l =>
        simp only [lookupAll] at hl
        split at hl
        · simp at hl
        · split at hl <;> simp at hl
    unfold Hub.create at hc
    split at hc
    · simp at hc
    · rename_i sorted hso
      simp only at hc
      split at hc
      · simp at hc
      · rename_i structs hst
        split at hc
        · simp at hc
        · rename_i bt hbt
          split at hc
          · simp at hc
          · rename_i perm hpm
            split at hc
            · simp at hc
            · rename_i bwd hbw
              simp only [Except.ok.injEq] at hc
              have hp : perm = [] := by
                have := congrArg Hub.flatSources hc
                simp only [hnil, List.map_eq_nil_iff] at this
                exact this
              subst hp
              simp [ensureUniform] at hbw

theorem offset_diff {sizes : List Nat} {a b : Nat} (hab : a ≤ b) :
    offset sizes b = offset sizes a + ((sizes.drop a).take (b - a)).sum := by
  unfold offset
  conv_lhs => rw [← Nat.add_sub_cancel' hab, List.take_add, List.sum_append]

/-- **C08/C12**: in a network that can be laid out, every entry of the layout fits
its hub. -/
theorem netOf_wellLaid (hw : WellFormedLayers layers) (hs : Shaped layers) (h : createLayout layers = .ok L) :
    WellLaid (netOf layers L) := by
  obtain ⟨forced, conns, gs, hP⟩ := createLayout_ok h
  have hperm : L.groups.Perm gs := by rw [hP.sorted]; exact sortBy_perm _ _
  have hsize : ∀ g ∈ gs, ∀ i, i ≤ g.hub.flatSources.length → offset g.hub.sizes i ≤ g.hub.size := by
    intro g hg i hi
    obtain ⟨-, -, -, -, order, hcr⟩ := hP.created hw hg
    rw [hcr.size, ← offset_length]
    exact offset_mono (by rw [hcr.lenSizes]; exact hi)
  have harrays : ∀ p ∈ networkArrays layers, Fits (netOf layers L).hubs (entryOf L p).2 := by
    intro p hp
    obtain ⟨g, hg, k, hk, hkg, sl, hget, hmem⟩ := Parts.array_entry hP hw h (List.mem_map_of_mem hp)
    have hst : Dict.get? (networkArrays layers) p.1 = some p.2 :=
      Dict.get?_of_mem (networkArrays_nodup hw) hp
    have hentry : (entryOf L p).2 = ⟨k, sl, p.2⟩ := by simp [entryOf, hget]
    rw [hentry]
    have hk' : k < (netOf layers L).hubs.length := by simpa [netOf] using hk
    have hhub : (netOf layers L).hubs[k] = hubInfo g := by simp [netOf, hkg]
    refine ⟨hk', Or.inl ?_⟩
    simp only [hhub, hubInfo]
    obtain ⟨hnd, hns, -, -, order, hcr⟩ := hP.created hw hg
    have hle := hub_btype_le hP hw hg
    rcases mem_getIndices.1 hmem with ⟨i, hi, he⟩ | ⟨j, hj, he⟩
    · simp only [Prod.mk.injEq] at he
      obtain ⟨hpn, rfl⟩ := he
      obtain ⟨s, hs1, hs2⟩ := hcr.sizes i hi
      obtain ⟨s', hs1', hb, hcx, -⟩ := hcr.btype i hi
      rw [← hpn, hst] at hs1 hs1'
      cases hs1; cases hs1'
      have hi' : i < g.hub.sizes.length := by rw [hcr.lenSizes]; exact hi
      rw [List.getElem?_eq_getElem hi'] at hs2
      simp only [Option.some.injEq] at hs2
      have hsucc := offset_succ hi'
      refine ⟨hb, hle, by simp only; omega, hsize g hg (i + 1) hi, ?_, hcx⟩
      rw [← featureSize_prod]
      simp only
      omega
    · simp only [Prod.mk.injEq] at he
      obtain ⟨hpn, rfl⟩ := he
      have hjs : g.hub.sinks[j] ∈ g.sinks := by
        have hall : ∀ x ∈ g.hub.sinks, x ∈ g.sinks := by
          rw [hcr.sinkList]; intro x hx; exact mem_sortBy.1 hx
        exact hall _ (List.getElem_mem hj)
      obtain ⟨q, hq, hqc⟩ := (hP.sink_iff hw hg).1 hjs
      obtain ⟨srcs, hsn, hsm, hctx, hfs, hbt⟩ := hs.sinks conns hP.connsOk p.1 p.2 hst ⟨q, by rw [hpn]; exact hqc⟩
      have hflatmem : ∀ x, (x, g.hub.sinks[j]) ∈ conns → x ∈ g.hub.flatSources := by
        intro x hx
        rw [hcr.flat]
        refine (hcr.perm.flatMap_right _).symm.subset ?_
        -- the hub of the sink contains all its sources
        obtain ⟨i, hi, hsrc, hsk, -⟩ := C08_connections _ _ _ _ _ (hP.nested hw) hP.groupsOk x _ hx
        have : gs[i] = g := by
          by_contra hne
          have hd := hP.names_disjoint hw
          obtain ⟨i', hi', hgi⟩ := List.getElem_of_mem hg
          have hii : i ≠ i' := by rintro rfl; exact hne hgi
          rw [List.pairwise_iff_getElem] at hd
          have hn1 : g.hub.sinks[j] ∈ gs[i].names := List.mem_append_right _ hsk
          have hn2 : g.hub.sinks[j] ∈ gs[i'].names := by rw [hgi]; exact List.mem_append_right _ hjs
          rcases Nat.lt_or_gt_of_ne hii with hlt | hlt
          · exact hd i i' hi hi' hlt _ hn1 hn2
          · exact hd i' i hi' hi hlt _ hn2 hn1
        rw [← this]; exact hsrc
      have hcons := hcr.feeds _ hjs
      rw [← hcr.flat] at hcons
      obtain ⟨a, e, hae, hel, hslice, hPr⟩ := column_eq g.hub j (fun s => (s, g.hub.sinks[j]) ∈ conns)
        (fun r hr => hcr.table r j hr hj) hcons ⟨q, hflatmem q hqc, hqc⟩
      -- the block of connected sources
      have hblock : ((g.hub.flatSources.drop a).take (e - a)).Perm srcs := by
        refine (List.perm_ext_iff_of_nodup ?_ hsn).2 (fun x => ?_)
        · exact ((List.take_sublist _ _).trans (List.drop_sublist _ _)).nodup hcr.nodup
        · rw [hsm, hpn]
          constructor
          · intro hx
            obtain ⟨r, hr, rfl⟩ := List.getElem_of_mem hx
            simp only [List.length_take, List.length_drop] at hr
            simp only [List.getElem_take, List.getElem_drop]
            exact (hPr _ (by omega)).2 ⟨by omega, by omega⟩
          · intro hx
            obtain ⟨r, hr, rfl⟩ := List.getElem_of_mem (hflatmem x hx)
            obtain ⟨h1, h2⟩ := (hPr r hr).1 hx
            refine List.mem_iff_getElem.2 ⟨r - a, by simp only [List.length_take, List.length_drop]; omega, ?_⟩
            simp only [List.getElem_take, List.getElem_drop]
            congr 1; omega
      have hsizes : g.hub.sizes = g.hub.flatSources.map
          (fun p => ((Dict.get? (networkArrays layers) p).map Struct.featureSize).getD 0) := by
        apply List.ext_getElem
        · rw [hcr.lenSizes]; simp
        · intro r h1 h2
          have hr : r < g.hub.flatSources.length := by rw [← hcr.lenSizes]; exact h1
          obtain ⟨s, e1, e2⟩ := hcr.sizes r hr
          rw [List.getElem?_eq_getElem h1] at e2
          simp only [Option.some.injEq] at e2
          simp [e1, e2]
      have hdiff : offset g.hub.sizes e = offset g.hub.sizes a + p.2.featureSize := by
        rw [offset_diff (Nat.le_of_lt hae), hfs]
        congr 1
        rw [hsizes, ← List.map_drop, ← List.map_take]
        exact (hblock.map _).sum_eq
      rw [hslice]
      refine ⟨?_, hle, by simp only; omega, hsize g hg e hel, ?_, by rw [hctx]; exact Nat.zero_le _⟩
      · obtain ⟨s', hs1', hb, -⟩ := hcr.btype a (by omega)
        have := hbt g.hub.flatSources[a] ((hsm _).2 (by
          rw [hpn]; exact (hPr a (by omega)).2 ⟨by omega, hae⟩)) s' hs1'
        omega
      · rw [← featureSize_prod]
        simp only
        omega
  have hgne : 0 < L.groups.length := by
    obtain ⟨p, hp⟩ := List.exists_mem_of_ne_nil _ hs.nonempty
    obtain ⟨g, hg, k, hk, -⟩ := Parts.array_entry hP hw h (List.mem_map_of_mem hp)
    omega
  obtain ⟨hp, hg, n, hrp, hrg, hal, hcov⟩ := aligned layers hw L h
  have hroots : ∀ m, (m = str "parameters" ∨ m = str "gradients") → Fits (netOf layers L).hubs (rootOf L m).2 := by
    intro m hm
    have hrm : ∃ k, L.root m = (k, (0, n)) := by
      rcases hm with rfl | rfl
      · exact ⟨_, hrp⟩
      · exact ⟨_, hrg⟩
    obtain ⟨k, hrm⟩ := hrm
    have hentry : (rootOf L m).2 = ⟨k, (0, n), ⟨[.n n], 0, false⟩⟩ := by
      simp [rootOf, hrm, hrp]
    rw [hentry]
    have hb0 : (⟨[.n n], 0, false⟩ : Struct).bufferType = 0 := by simp [Struct.bufferType, typeOf]
    have hfeat : ((⟨[.n n], 0, false⟩ : Struct).featureShape.map Tok.size).prod = n := by
      simp [Struct.featureShape, Struct.bufferType, typeOf, Tok.size]
    have hgroups : ∀ k (hk : k < L.groups.length), L.groups[k].hub.btype ≤ 2 := fun k hk =>
      hub_btype_le hP hw (hperm.subset (List.getElem_mem hk))
    by_cases hwp : withParams layers = []
    · -- no parameters: the root arrays are empty
      have hn0 : n = 0 := by
        by_contra hne
        obtain ⟨l, hl, e, he, -⟩ := hcov 0 (by omega)
        have : l ∈ withParams layers := mem_withParams.2 ⟨hl, List.ne_nil_of_mem he⟩
        rw [hwp] at this
        simp at this
      subst hn0
      have hk : k < L.groups.length := by
        unfold Layout.root at hrm
        cases hgm : L.get m with
        | none => rw [hgm] at hrm; simp at hrm; omega
        | some x =>
          rw [hgm] at hrm
          simp at hrm
          subst hrm
          unfold Layout.get at hgm
          rw [Option.map_eq_some_iff] at hgm
          obtain ⟨e, he, hee⟩ := hgm
          have := List.mem_of_find?_eq_some he
          rw [List.mem_reverse, hP.entries, mem_layoutHubs] at this
          obtain ⟨i, hi, hi2, -⟩ := this
          simp only [Prod.mk.injEq] at hee
          omega
      refine ⟨by simpa [netOf] using hk, Or.inr ⟨hb0, ?_, rfl, hfeat⟩⟩
      simpa [netOf, hubInfo] using hgroups k hk
    · obtain ⟨l₀, hl₀⟩ := List.exists_mem_of_ne_nil _ hwp
      obtain ⟨b, hbm⟩ : ∃ b, m = roleCat b := by
        rcases hm with rfl | rfl
        · exact ⟨false, rfl⟩
        · exact ⟨true, rfl⟩
      obtain ⟨g, hg, hgroot, hgs⟩ := hP.role_hub hw hl₀ b
      obtain ⟨k', hk', hkg, hget⟩ := hP.get_eq hw hg
      have hroot := hget _ _ (Parts.role_root hP hw b hg hwp hgroot hgs)
      have hroot' : L.root m = (k', (0, g.hub.size)) := by rw [hbm, Layout.root, hroot]; rfl
      rw [hrm] at hroot'
      simp only [Prod.mk.injEq, true_and] at hroot'
      obtain ⟨rfl, hnsz⟩ := hroot'
      have hhub : (netOf layers L).hubs[k]? = some (hubInfo g) := by simp [netOf, hk', hkg]
      obtain ⟨hk2, hhub⟩ := List.getElem?_eq_some_iff.1 hhub
      refine ⟨hk2, Or.inl ?_⟩
      simp only [hhub, hubInfo]
      obtain ⟨-, -, -, -, order, hcr⟩ := hP.created hw hg
      have hbt : g.hub.btype = 0 := by
        obtain ⟨e, he⟩ := List.exists_mem_of_ne_nil _ (mem_withParams.1 hl₀).2
        have hmem : path l₀.name (roleCat b) e.1 ∈ g.hub.flatSources := by
          rw [hcr.flat]
          refine List.mem_flatMap.2 ⟨_, hcr.perm.symm.subset ((hgs _).2 ⟨l₀, hl₀, rfl⟩), ?_⟩
          exact mem_ord.2 ⟨e.1, List.mem_map_of_mem he, rfl⟩
        obtain ⟨r, hr, hre⟩ := List.getElem_of_mem hmem
        obtain ⟨s, hs1, hs2, -⟩ := hcr.btype r hr
        rw [← hs2]
        have hty := hs.params l₀ (mem_withParams.1 hl₀).1 e he
        have hcat : ∃ back : Bool, (roleCat b, back, l₀.paramShapes) ∈ layerCats l₀ := by
          cases b
          · exact ⟨false, by simp [layerCats, roleCat]⟩
          · exact ⟨true, by simp [layerCats, roleCat]⟩
        obtain ⟨back, hcat⟩ := hcat
        have : Dict.get? (networkArrays layers) (path l₀.name (roleCat b) e.1) =
            some (if back then { e.2 with backwardOnly := true } else e.2) := by
          refine Dict.get?_of_mem (networkArrays_nodup hw) ?_
          simp only [networkArrays, layerArrays, List.mem_flatMap]
          exact ⟨l₀, (mem_withParams.1 hl₀).1, _, hcat, List.mem_map.2 ⟨e, he, rfl⟩⟩
        rw [hre, this] at hs1
        simp only [Option.some.injEq] at hs1
        subst hs1
        cases back <;> exact hty
      exact ⟨by rw [hb0, hbt], by omega, by simp, by simp [hnsz], by rw [hfeat]; rfl, by simp⟩
  refine ⟨?_, ?_, ?_⟩
  · intro p hpm
    simp only [netOf, List.mem_cons, List.mem_map] at hpm
    rcases hpm with rfl | rfl | ⟨q, hq, rfl⟩
    · exact hroots _ (Or.inl rfl)
    · exact hroots _ (Or.inr rfl)
    · exact harrays q hq
  · simp only [netOf, List.map_cons, List.map_map]
    have hmap : (networkArrays layers).map (Prod.fst ∘ entryOf L) = (networkArrays layers).map Prod.fst := rfl
    have hnot : ∀ m, (m = str "parameters" ∨ m = str "gradients") → m ∉ (networkArrays layers).map Prod.fst := by
      intro m hm hmem
      obtain ⟨l, hl, c, hc, b, hb, rfl⟩ := mem_networkArrays.1 hmem
      rcases hm with hm | hm
      · exact path_ne_root.1 hm
      · exact path_ne_root.2 hm
    rw [hmap, List.nodup_cons, List.nodup_cons]
    refine ⟨?_, hnot _ (Or.inr rfl), networkArrays_nodup hw⟩
    simp only [List.mem_cons, not_or]
    exact ⟨by simp only [rootOf]; decide, hnot _ (Or.inl rfl)⟩
  · refine ⟨(rootOf L (str "parameters")).2, by simp [netOf, rootOf, Dict.get?], ?_⟩
    simp [rootOf, Struct.bufferType, typeOf]

end

end Verif.Buffers
