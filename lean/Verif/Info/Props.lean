import Verif.Info.Model
import Verif.Setup.Props

/-!
# C91: `get_network_info` reports what the network has
-/

namespace Verif.Info

open Verif.Structure Verif.Layout Verif.Buffers Verif.Instantiate Verif.Architecture
open Verif.Setup (Kwargs libEnv infos toInfo)

/-! ### Specification -/

/-- The shape that a layer declared for a parameter. -/
def declared (s : Struct) : List ℕ := s.featureShape.map Tok.size

/-- What is written about a layer is what its `setup` declared. -/
structure Right {K : Type} (l : LayerObj K) (r : LayerReport) : Prop where
  name : r.name = l.name
  parameters : r.parameters.Perm (l.shapes.params.map fun e => (e.1, declared e.2))
  count : r.count = (l.shapes.params.map fun e => (declared e.2).prod).sum
  inputs : r.inputs = l.inShapes.map fun e => (e.1, e.2.featureShape)
  outputs : r.outputs = l.shapes.outs.map fun e => (e.1, e.2.featureShape)

/-! ### Proofs -/

theorem featureSize_eq (s : Struct) : s.featureSize = (declared s).prod := by
  rw [Struct.featureSize, declared, List.prod_eq_foldl]

/-- Intervals that cover `0 … n` without overlap have `n` entries together. -/
theorem sum_sizes {α : Type} {P : List α} (hP : P.Nodup) {lo size : α → ℕ} {n : ℕ} (hle : ∀ p ∈ P, lo p + size p ≤ n)
    (hcov : ∀ f < n, ∃ p ∈ P, lo p ≤ f ∧ f < lo p + size p)
    (huniq : ∀ p ∈ P, ∀ q ∈ P, ∀ f, lo p ≤ f → f < lo p + size p → lo q ≤ f → f < lo q + size q → p = q) : (P.map size).sum = n := by
  have hmem : ∀ p f, f ∈ (List.range (size p)).map (lo p + ·) ↔ lo p ≤ f ∧ f < lo p + size p := by
    intro p f
    rw [List.mem_map]
    constructor
    · rintro ⟨j, hj, rfl⟩
      have := List.mem_range.1 hj
      omega
    · rintro ⟨h1, h2⟩
      exact ⟨f - lo p, List.mem_range.2 (by omega), by omega⟩
  have hnd : (P.flatMap fun p => (List.range (size p)).map (lo p + ·)).Nodup := by
    refine List.nodup_flatMap.2 ⟨fun p _ => List.nodup_range.map (fun a b h => by omega), ?_⟩
    refine hP.pairwise_of_forall_ne fun p hp q hq hne => ?_
    intro f hf hf'
    obtain ⟨a1, a2⟩ := (hmem p f).1 hf
    obtain ⟨b1, b2⟩ := (hmem q f).1 hf'
    exact hne (huniq p hp q hq f a1 a2 b1 b2)
  have hperm : (P.flatMap fun p => (List.range (size p)).map (lo p + ·)).Perm (List.range n) := by
    refine (List.perm_ext_iff_of_nodup hnd List.nodup_range).2 fun f => ?_
    rw [List.mem_flatMap, List.mem_range]
    constructor
    · rintro ⟨p, hp, hf⟩
      have := (hmem p f).1 hf
      have := hle p hp
      omega
    · intro hf
      obtain ⟨p, hp, h1⟩ := hcov f hf
      exact ⟨p, hp, (hmem p f).2 h1⟩
  have := hperm.length_eq
  rw [List.length_range, List.length_flatMap] at this
  simpa using this

/-- The array of all parameters is made up of the parameters of the layers. -/
theorem total {layers : List LayerInfo} {L : Layout} (hw : WellFormedLayers layers) (h : createLayout layers = .ok L) :
    ∃ k, L.root (str "parameters") = (k, (0, (layers.map fun l => (l.paramShapes.map fun e => e.2.featureSize).sum).sum)) := by
  obtain ⟨hp, hg, n, hrp, -, hal, hcov⟩ := aligned layers hw L h
  refine ⟨hp, hrp.trans ?_⟩
  congr 2
  let P : List (LayerInfo × Name × Struct) := layers.flatMap fun l => l.paramShapes.map fun e => (l, e)
  have hP : ∀ p : LayerInfo × Name × Struct, p ∈ P ↔ p.1 ∈ layers ∧ p.2 ∈ p.1.paramShapes := by
    rintro ⟨l, e⟩
    simp only [P, List.mem_flatMap, List.mem_map, Prod.mk.injEq]
    constructor
    · rintro ⟨l', h1, e', h2, rfl, rfl⟩
      exact ⟨h1, h2⟩
    · rintro ⟨h1, h2⟩
      exact ⟨l, h1, e, h2, rfl, rfl⟩
  have hnd : P.Nodup := by
    refine List.nodup_flatMap.2 ⟨fun l hl => (List.Nodup.of_map _ (hw.paramNodup l hl)).map (fun a b h => by simpa using h), ?_⟩
    refine (List.Nodup.of_map _ hw.names).pairwise_of_forall_ne fun l _ l' _ hne => ?_
    intro p h1 h2
    obtain ⟨_, _, rfl⟩ := List.mem_map.1 h1
    obtain ⟨_, _, h3⟩ := List.mem_map.1 h2
    exact hne (Prod.mk.inj h3).1.symm
  let lo : LayerInfo × Name × Struct → ℕ := fun p => ((L.get (path p.1.name (str "parameters") p.2.1)).map fun x => x.2.1).getD 0
  have hlo : ∀ p ∈ P, L.get (path p.1.name (str "parameters") p.2.1) = some (hp, (lo p, lo p + p.2.2.featureSize)) ∧
      lo p + p.2.2.featureSize ≤ n := by
    intro p hpP
    obtain ⟨h1, h2⟩ := (hP p).1 hpP
    obtain ⟨x, hx, -, hle⟩ := hal p.1 h1 p.2 h2
    have : lo p = x := by simp [lo, hx]
    exact ⟨by rw [this]; exact hx, by rw [this]; exact hle⟩
  have key := sum_sizes (P := P) hnd (lo := lo) (size := fun p => p.2.2.featureSize) (n := n) (fun p hp => (hlo p hp).2) (by
    intro f hf
    obtain ⟨l, hl, e, he, sl, hsl, hin, -⟩ := hcov f hf
    have hm := (hP (l, e)).2 ⟨hl, he⟩
    have := (hlo _ hm).1
    rw [hsl] at this
    simp only [Option.some.injEq, Prod.mk.injEq, true_and] at this
    refine ⟨_, hm, ?_⟩
    rw [this] at hin
    exact hin) (by
    intro p hpP q hqP f h1 h2 h3 h4
    obtain ⟨l, hl, e, he, sl, hsl, hin, hu⟩ := hcov f (by have := (hlo p hpP).2; omega)
    obtain ⟨p1, p2⟩ := (hP p).1 hpP
    obtain ⟨q1, q2⟩ := (hP q).1 hqP
    obtain ⟨a1, a2⟩ := hu p.1 p1 p.2 p2 _ (hlo p hpP).1 ⟨h1, h2⟩
    obtain ⟨b1, b2⟩ := hu q.1 q1 q.2 q2 _ (hlo q hqP).1 ⟨h3, h4⟩
    have e1 : p.1 = q.1 := a1.trans b1.symm
    refine Prod.ext e1 ?_
    exact List.inj_on_of_nodup_map (hw.paramNodup _ p1) p2 (by rw [e1]; exact q2) (a2.trans b2.symm))
  rw [← key]
  simp only [P, List.map_flatMap, List.map_map, Function.comp_def]
  rw [List.flatMap, List.sum_flatten, List.map_map]
  rfl

theorem parameterLoop_eq {vs : List (Name × View)} {layer : Name} {shape : Name → List ℕ} : ∀ (keys : List Name) (num : ℕ),
    (∀ x ∈ keys, ∃ v, Dict.get? vs (path layer (str "parameters") x) = some v ∧ v.shape = shape x) →
    parameterLoop vs layer keys num = some (keys.map fun x => (x, shape x), num + (keys.map fun x => (shape x).prod).sum)
  | [], num, _ => by simp [parameterLoop]
  | x :: xs, num, h => by
    obtain ⟨v, hv, hs⟩ := h x (by simp)
    rw [parameterLoop, hv]
    simp only [parameterLoop_eq xs _ fun y hy => h y (by simp [hy]), Option.map_some, hs, List.map_cons, List.sum_cons]
    rw [Nat.add_assoc]

theorem layerLoop_some {K : Type} {keys : Name → List Name} {vs : List (Name × View)} : ∀ (ls : List (LayerObj K)),
    (∀ l ∈ ls, ∃ ps num, parameterLoop vs l.name (keys l.name) 0 = some (ps, num) ∧
      ps.Perm (l.shapes.params.map fun e => (e.1, declared e.2)) ∧ num = (l.shapes.params.map fun e => (declared e.2).prod).sum) →
    ∃ rs, layerLoop keys vs ls = some rs ∧ List.Forall₂ Right ls rs
  | [], _ => ⟨[], rfl, .nil⟩
  | l :: ls, h => by
    obtain ⟨ps, num, h1, h2, h3⟩ := h l (by simp)
    obtain ⟨rs, h4, h5⟩ := layerLoop_some ls fun x hx => h x (by simp [hx])
    rw [layerLoop, h1]
    simp only [h4, Option.map_some]
    exact ⟨_, rfl, .cons ⟨rfl, h2, h3, rfl, rfl⟩ h5⟩

theorem sum_counts {K : Type} {ls : List (LayerObj K)} {rs : List LayerReport} (h : List.Forall₂ Right ls rs) :
    (rs.map LayerReport.count).sum = (ls.map fun l => (l.shapes.params.map fun e => (declared e.2).prod).sum).sum := by
  induction h with
  | nil => rfl
  | cons h1 _ ih => simp only [List.map_cons, List.sum_cons, ih, h1.count]

/-! ### The property -/

/-- **C91.**  For every network of library layers and after any operations on its buffers: `get_network_info` succeeds.  It lists the layers
in the order of `network.layers`, each with the parameters, inputs and outputs that its `setup` declared and with the number of its parameters.
The total is the length of `net.get('parameters')`, and the sum of the numbers of the layers. -/
theorem C91_info (V : Type) [Zero V] (kwargs : Name → Kwargs) (a : Arch) (hk : (Dict.keys a).Nodup) (ord : Orders)
    (ho : ord.Ok) (layers : Dict Name (LayerObj Kwargs)) (h : Instantiates (libEnv kwargs) ord a (.ok layers))
    (hroot : NoRootNames (infos layers)) (hne : ∃ n l, Dict.get? layers n = some l ∧ l.shapes.outs ≠ [])
    (L : Layout) (hL : createLayout (infos layers) = .ok L) (st₀ st : State V) (ops : List (Op V))
    (hc : create (netOf (infos layers) L) = some st₀) (hr : run (netOf (infos layers) L) st₀ ops = some st)
    (keys : Name → List Name) (hkeys : ∀ n l, Dict.get? layers n = some l → (keys l.name).Perm (l.shapes.params.map Prod.fst)) :
    ∃ n rs θ, getNetworkInfo keys layers st = some (n, rs) ∧ List.Forall₂ Right (layers.map Prod.snd) rs ∧
      st.read (str "parameters") = some θ ∧ θ.length = n ∧ (rs.map LayerReport.count).sum = n := by
  obtain ⟨hwf, hsh⟩ := Setup.C63_ready kwargs a hk ord ho layers h
  have hw := netOf_wellLaid hwf (hsh hne) hL
  obtain ⟨b, vs, hi⟩ := run_inv hw hc hr
  have hI := Setup.inst_of (libEnv kwargs) (fun _ _ _ _ _ _ h1 h2 => Setup.libEnv_good h1 h2) a hk ord ho layers h
  obtain ⟨-, hmem⟩ := Setup.C63_memory V kwargs a hk ord ho layers h hroot hne L hL
  obtain ⟨k, hk0⟩ := total hwf hL
  have hroot' : Dict.get? (netOf (infos layers) L).layout (str "parameters") = some (rootOf L (str "parameters")).2 := by
    simp [netOf, rootOf, Dict.get?]
  obtain ⟨v, hv, hvs, hvc, -⟩ := viewOf_fits (hw.fits _ (Dict.mem_of_get? hroot')) (lastRequest ops).1 (lastRequest ops).2
  have hget : Dict.get? vs (str "parameters") = some v := by rw [get?_createViews hi.created, hroot']; exact hv
  obtain ⟨rs, hrs, hright⟩ := layerLoop_some (keys := keys) (vs := vs) (layers.map Prod.snd) (by
    intro l hl
    obtain ⟨⟨n, l'⟩, hx, rfl⟩ := List.mem_map.1 hl
    have hln := Dict.get?_of_mem hI.nodup hx
    have hname : l'.name = n := hI.name n l' hln
    have hpn : (Dict.keys l'.shapes.params).Nodup := hwf.paramNodup (toInfo l') (List.mem_map.2 ⟨_, hx, rfl⟩)
    have hperm := hkeys n l' hln
    have heq := parameterLoop_eq (vs := vs) (layer := l'.name) (shape := fun x => ((Dict.get? l'.shapes.params x).map declared).getD []) (keys l'.name) 0 (by
      intro x hx'
      obtain ⟨⟨x', s⟩, hxs, rfl⟩ := List.mem_map.1 (hperm.mem_iff.1 hx')
      have hs := Dict.get?_of_mem hpn hxs
      obtain ⟨e, w, he, hw1, hw2, -⟩ := hmem (lastRequest ops).1 (lastRequest ops).2 n l' hln _ _ _ (.parameters hs)
      refine ⟨w, by rw [get?_createViews hi.created, hname, he]; exact hw1, ?_⟩
      have h0 := (hsh hne).params (toInfo l') (List.mem_map.2 ⟨_, hx, rfl⟩) _ hxs
      have h0 : s.bufferType = 0 := h0
      rw [hw2, hs]
      simp [structShape, h0, declared])
    have hmap : ∀ {β : Type} (f : Name → List ℕ → β), (l'.shapes.params.map Prod.fst).map (fun x => f x (((Dict.get? l'.shapes.params x).map
        declared).getD [])) = l'.shapes.params.map fun e => f e.1 (declared e.2) := by
      intro β f
      rw [List.map_map]
      refine List.map_congr_left fun e he => ?_
      simp [Dict.get?_of_mem hpn (show (e.1, e.2) ∈ _ from he)]
    refine ⟨_, _, heq, ?_, ?_⟩
    · exact (hperm.map _).trans (by rw [hmap fun x s => (x, s)])
    · rw [Nat.zero_add, (hperm.map _).sum_eq, hmap fun _ s => s.prod])
  have hn : v.shape.prod = (rs.map LayerReport.count).sum := by
    rw [sum_counts hright, hvs]
    have : (layers.map Prod.snd).map (fun l => (l.shapes.params.map fun e => (declared e.2).prod).sum) =
        (infos layers).map fun l => (l.paramShapes.map fun e => e.2.featureSize).sum := by
      simp only [infos, List.map_map, Function.comp_def, toInfo, featureSize_eq]
    rw [this]
    simp [structShape, rootOf, hk0, Struct.bufferType, Struct.featureShape, typeOf, Tok.size]
  have hl : v.cells.length = v.shape.prod := by
    rw [hvc (by simp [rootOf, Struct.bufferType, typeOf]), hvs]
    simp [structShape, rootOf, hk0, Struct.bufferType, Struct.featureShape, typeOf, Tok.size]
  refine ⟨v.shape.prod, rs, readCells (block st.heap b) v.cells, ?_, hright, ?_, ?_, hn.symm⟩
  · simp [getNetworkInfo, hi.view, hget, hrs]
  · simp only [State.read, hi.view, hget, Option.map_some]
  · rw [readCells, List.length_map, hl]

end Verif.Info
