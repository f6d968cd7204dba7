import Verif.Layout.MirrorProps
import Verif.Buffers.NetworkProps

/-!
# C71: deltas are laid out like the values they belong to, in memory
-/

namespace Verif.Buffers

open Verif.Structure Verif.Layout

theorem cellsOf_shift (shape : List Nat) : ∀ (ranges : List (Nat × Nat)) (base : Nat),
    cellsOf base shape ranges = (cellsOf 0 shape ranges).map (base + ·) := by
  induction shape with
  | nil => intro r base; simp [cellsOf]
  | cons d ds ih =>
    intro r base
    cases r with
    | nil =>
      simp only [cellsOf, List.map_flatMap]
      refine List.flatMap_congr fun i _ => ?_
      rw [ih _ (base + _), ih _ (0 + _), List.map_map]
      refine List.map_congr_left fun c _ => ?_
      simp only [Function.comp]; omega
    | cons q rs =>
      simp only [cellsOf, List.map_flatMap]
      refine List.flatMap_congr fun i _ => ?_
      rw [ih _ (base + _), ih _ (0 + _), List.map_map]
      refine List.map_congr_left fun c _ => ?_
      simp only [Function.comp]; omega

/-- Arrays with the same structure at the same slice of hubs of the same kind are translates of each other. -/
theorem createFromHub_shift {s s' : Struct} (h1 : s'.shape = s.shape) (h2 : s'.contextSize = s.contextSize)
    {h h' : HubInfo} (hc : h'.ctx = h.ctx) (base base' : Nat) {shape : List Nat} {sl : Nat × Nat} {v : View}
    (hv : createFromHub s h base shape sl = some v) :
    ∃ (v' : View) (rel : List Nat), createFromHub s' h' base' shape sl = some v' ∧ v'.shape = v.shape ∧ v.cells = rel.map (base + ·) ∧
      v'.cells = rel.map (base' + ·) := by
  obtain ⟨sh, cs, bo⟩ := s
  obtain ⟨sh', cs', bo'⟩ := s'
  simp only at h1 h2
  subst h1 h2
  have e1 : ∀ t b, structShape ⟨sh', cs', bo'⟩ t b = structShape ⟨sh', cs', bo⟩ t b := fun _ _ => rfl
  have e2 : ∀ d, timeStop ⟨sh', cs', bo'⟩ h' d = timeStop ⟨sh', cs', bo⟩ h d := by
    intro d; simp only [timeStop, hc]
  have e3 : (⟨sh', cs', bo'⟩ : Struct).bufferType = (⟨sh', cs', bo⟩ : Struct).bufferType := rfl
  unfold createFromHub at hv ⊢
  simp only [e1, e2, e3, hc] at hv ⊢
  split at hv
  · simp at hv
  · rename_i ranges t b hr
    split at hv
    · rename_i hl
      simp only [Option.some.injEq] at hv
      subst hv
      have hl' : (cellsOf base' shape ranges).length = (structShape ⟨sh', cs', bo⟩ t b).prod := by
        rw [← hl, cellsOf_shift _ _ base', cellsOf_shift _ _ base]; simp
      exact ⟨⟨structShape ⟨sh', cs', bo⟩ t b, cellsOf base' shape ranges⟩, cellsOf 0 shape ranges, by simp [hl'], rfl,
        cellsOf_shift _ _ _, cellsOf_shift _ _ _⟩
    · simp at hv

variable {layers : List LayerInfo} {L : Layout}

/-- The entry of an array has the structure that the layer declares. -/
theorem netOf_struct (hw : WellFormedLayers layers) {p : Name} {s : Struct} {e : ArrayEntry}
    (hs : Dict.get? (networkArrays layers) p = some s) (he : Dict.get? (netOf layers L).layout p = some e) :
    e.struct = s := by
  have hp := Dict.mem_of_get? hs
  have hin : p ∈ (networkArrays layers).map Prod.fst := List.mem_map.2 ⟨_, hp, rfl⟩
  obtain ⟨l, hl, c, hc, b, hb, hpath⟩ := mem_networkArrays.1 hin
  have hne1 : str "parameters" ≠ p := by rw [hpath]; exact fun h => path_ne_root.1 h.symm
  have hne2 : str "gradients" ≠ p := by rw [hpath]; exact fun h => path_ne_root.2 h.symm
  simp only [netOf, rootOf, Dict.get?, hne1, hne2, if_false] at he
  have hnd : (Dict.keys ((networkArrays layers).map (entryOf L))).Nodup := by
    simp only [Dict.keys, List.map_map]
    exact networkArrays_nodup hw
  have hm : (p, (entryOf L (p, s)).2) ∈ (networkArrays layers).map (entryOf L) :=
    List.mem_map.2 ⟨_, hp, rfl⟩
  rw [Dict.get?_of_mem hnd hm] at he
  simp only [Option.some.injEq] at he
  rw [← he]; rfl

theorem delta_entries (hw : WellFormedLayers layers) (hni : NoInternalConns layers)
    (hs : Shaped layers) (h : createLayout layers = .ok L) (T B : Nat) (p d : Name) (hpd : DeltaOf layers p d) :
    ∃ (e e' : ArrayEntry) (v v' : View) (rel : List Nat), Dict.get? (netOf layers L).layout p = some e ∧
      Dict.get? (netOf layers L).layout d = some e' ∧
      viewOf (netOf layers L).hubs T B e = some v ∧ viewOf (netOf layers L).hubs T B e' = some v' ∧
      e.hub ≠ e'.hub ∧ v'.shape = v.shape ∧ v.cells = rel.map (hubBase (netOf layers L).hubs T B e.hub + ·) ∧
      v'.cells = rel.map (hubBase (netOf layers L).hubs T B e'.hub + ·) ∧ e'.slice = e.slice ∧
      e'.struct.shape = e.struct.shape ∧ e'.struct.contextSize = e.struct.contextSize ∧
      (netOf layers L).hubs[e'.hub]?.map HubInfo.size = (netOf layers L).hubs[e.hub]?.map HubInfo.size := by
  obtain ⟨forced, conns, gs, hP⟩ := createLayout_ok h
  obtain ⟨k, hk, hr, rfl, rfl⟩ := hpd.key
  obtain ⟨g, hg, g', hg', ht, sl, hsl, hsl'⟩ := hP.place hw hni hk hr false true
  obtain ⟨-, -, -, -, -, e1, e2, e3⟩ := hP.twin_same hw hni hg hg' ht
  have hwl := netOf_wellLaid hw hs h
  have hin : ∀ b, k.name b ∈ (networkArrays layers).map Prod.fst ∨ k.name b = str "parameters" ∨
      k.name b = str "gradients" := by
    intro b
    by_cases hkr : k = .root
    · subst hkr; cases b <;> simp [Key.name, roleCat]
    · obtain ⟨s0, hs0⟩ := key_struct hw hk hkr
      obtain ⟨s, hs, -⟩ := hs0 b
      exact Or.inl (List.mem_map.2 ⟨_, Dict.mem_of_get? hs, rfl⟩)
  obtain ⟨e, he, hes, heh, hel, heg⟩ := netOf_get hP hw hg hsl (hin false)
  obtain ⟨e', he', hes', heh', hel', heg'⟩ := netOf_get hP hw hg' hsl' (hin true)
  obtain ⟨v, hv, -⟩ := viewOf_fits (hwl.fits _ (Dict.mem_of_get? he)) T B
  have hst : e'.struct.shape = e.struct.shape ∧ e'.struct.contextSize = e.struct.contextSize := by
    by_cases hkr : k = .root
    · subst hkr
      have hne : str "parameters" ≠ str "gradients" := by decide
      simp only [Key.name, roleCat, netOf, rootOf, Dict.get?, hne, if_false, if_true, Option.some.injEq, Bool.false_eq_true] at he he'
      rw [← he, ← he']
      exact ⟨rfl, rfl⟩
    · obtain ⟨s0, hs0⟩ := key_struct hw hk hkr
      obtain ⟨s, hs, hs1, hs2⟩ := hs0 false
      obtain ⟨s', hs', hs1', hs2'⟩ := hs0 true
      rw [netOf_struct hw hs he, netOf_struct hw hs' he', hs1, hs1', hs2, hs2']
      exact ⟨rfl, rfl⟩
  have hk1 : e.hub < (netOf layers L).hubs.length := viewOf_lt hv
  have hk2 : e'.hub < (netOf layers L).hubs.length := by simpa [netOf] using hel'
  rw [List.getElem?_eq_getElem hk1, Option.some.injEq] at heh
  rw [List.getElem?_eq_getElem hk2, Option.some.injEq] at heh'
  have hv2 := hv
  rw [viewOf_eq _ _ _ _ hk1, heh, hes] at hv2
  have hsh : (hubInfo g').shape T B = (hubInfo g).shape T B := by
    simp [HubInfo.shape, hubInfo, e1, e2, e3]
  obtain ⟨v', rel, h1, h2, h3, h4⟩ := createFromHub_shift hst.1 hst.2 (h := hubInfo g) (h' := hubInfo g')
    (by simp [hubInfo, e3]) _ (hubBase (netOf layers L).hubs T B e'.hub) hv2
  refine ⟨e, e', v, v', rel, he, he', hv, ?_, ?_, h2, h3, h4, by rw [hes, hes'], hst.1, hst.2, ?_⟩
  · rw [viewOf_eq _ _ _ _ hk2, heh', hes', hsh, h1]
  · intro hee
    have : g = g' := by rw [← heg, ← heg']; simp only [hee]
    subst this
    exact absurd (hP.twin_side hw hni hg hg ht hk hsl') (by decide)
  · rw [List.getElem?_eq_getElem hk1, List.getElem?_eq_getElem hk2, heh, heh']
    simp [hubInfo, e1]

/-- **C71** (memory).  In the buffers of a network, whatever the sizes, values and their deltas are arrays of the
same shape in different regions of the memory, and the entries are at the same distances from the starts of these
regions. -/
theorem C71_views (hw : WellFormedLayers layers) (_hroot : NoRootNames layers) (hni : NoInternalConns layers)
    (hs : Shaped layers)
    (h : createLayout layers = .ok L) (T B : Nat) (p d : Name) (hpd : DeltaOf layers p d) :
    ∃ (e e' : ArrayEntry) (v v' : View) (rel : List Nat), Dict.get? (netOf layers L).layout p = some e ∧ Dict.get? (netOf layers L).layout d = some e' ∧
      viewOf (netOf layers L).hubs T B e = some v ∧ viewOf (netOf layers L).hubs T B e' = some v' ∧
      e.hub ≠ e'.hub ∧ v'.shape = v.shape ∧ v.cells = rel.map (hubBase (netOf layers L).hubs T B e.hub + ·) ∧
      v'.cells = rel.map (hubBase (netOf layers L).hubs T B e'.hub + ·) := by
  obtain ⟨e, e', v, v', rel, h1, h2, h3, h4, h5, h6, h7, h8, -⟩ := delta_entries hw hni hs h T B p d hpd
  exact ⟨e, e', v, v', rel, h1, h2, h3, h4, h5, h6, h7, h8⟩

/-- The hypotheses on shapes hold for the network of `Verif.Layout.MirrorProps`. -/
example : Shaped mirrorDemo := shaped_of_check (by decide +kernel)

end Verif.Buffers
