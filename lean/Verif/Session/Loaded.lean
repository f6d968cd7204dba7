import Verif.Session.Lemmas
import Verif.Memory.Props

/-! # Proofs for C77: what the layers find, and what the loss depends on -/

namespace Verif.Session

open Verif.Structure Verif.Layout Verif.Buffers Verif.Memory

section
variable {layers : List LayerInfo} {L : Layout} {T B sz k : ℕ} {vs : List (Name × View)} {st : State ℝ}
variable {data : LayerInfo} {rest : List LayerInfo} {b : Batch}

theorem array_entry (hL : Laid layers L) {t : Name} {s : Struct} (hs : Dict.get? (networkArrays layers) t = some s) :
    ∃ e, Dict.get? (netOf layers L).layout t = some e := by
  have hwl := netOf_wellLaid hL.wf hL.shaped hL.layout
  have hm : entryOf L (t, s) ∈ (netOf layers L).layout := by
    unfold netOf
    exact List.mem_cons_of_mem _ (List.mem_cons_of_mem _ (List.mem_map.2 ⟨_, Dict.mem_of_get? hs, rfl⟩))
  exact ⟨_, Dict.get?_of_mem hwl.nodup hm⟩

theorem out_entry (hL : Laid layers L) {l : LayerInfo} (hl : l ∈ layers) {x : Name} {s : Struct} (hx : (x, s) ∈ l.outShapes) :
    ∃ e, Dict.get? (netOf layers L).layout (path l.name (str "outputs") x) = some e :=
  array_entry hL (array_get hL.wf hl (by simp [layerCats]) hx)

theorem view_cells (h : Inv (netOf layers L) st T B sz k vs) {n : Name} {v : View} (hv : Dict.get? vs n = some v) :
    cells (netOf layers L) T B n = v.cells := by
  rw [get?_createViews h.created] at hv
  simp [cells, hv]

theorem cells_view (hL : Laid layers L) (h : Inv (netOf layers L) st T B sz k vs) {n : Name} {e : ArrayEntry}
    (he : Dict.get? (netOf layers L).layout n = some e) : ∃ v, Dict.get? vs n = some v := by
  have hwl := netOf_wellLaid hL.wf hL.shaped hL.layout
  obtain ⟨v, hv, -⟩ := viewOf_fits (hwl.fits _ (Dict.mem_of_get? he)) T B
  exact ⟨v, by rw [get?_createViews h.created, he]; exact hv⟩

theorem cells_lt {n : Name} {c : ℕ} (hc : c ∈ cells (netOf layers L) T B n) : c < total (netOf layers L) T B := by
  obtain ⟨e, he⟩ := cells_entry hc
  cases hv : viewOf (netOf layers L).hubs T B e with
  | none => simp [cells, he, hv] at hc
  | some v => exact viewOf_lt_total hv c (by simpa [cells, he, hv] using hc)

/-- Outputs are not parameters. -/
theorem out_not_param (hL : Laid layers L) {l : LayerInfo} (hl : l ∈ layers) {x : Name} {s : Struct} (hx : (x, s) ∈ l.outShapes)
    {c : ℕ} (hc : c ∈ cells (netOf layers L) T B (path l.name (str "outputs") x)) :
    c ∉ cells (netOf layers L) T B (str "parameters") := by
  intro hp
  obtain ⟨l', hl', x', hx', hc'⟩ := hL.root_cover hp
  obtain ⟨s', hs'⟩ := shape_of hx'
  have := (Home.inj hL hl hl' (c := .out) (c' := .par) (x := x) (x' := x') (s := s) (s' := s') ⟨hx, hc⟩ ⟨hs', hc'⟩).2.1
  cases this

theorem writeAll_some {net : Net} {vs : List (Name × View)} : ∀ {st : State ℝ} {l : List (Name × List ℝ)}, Inv net st T B sz k vs →
    (∀ d ∈ l, ∃ v, Dict.get? vs d.1 = some v ∧ v.cells.length = d.2.length) → ∃ st', writeAll st l = some st'
  | st, [], _, _ => ⟨st, rfl⟩
  | st, (n, d) :: l, h, hl => by
    obtain ⟨v, hv, hlen⟩ := hl _ List.mem_cons_self
    obtain ⟨st₁, h1, h2, -⟩ := h.write hv hlen
    obtain ⟨st', h'⟩ := writeAll_some h2 fun d hd => hl d (List.mem_cons_of_mem _ hd)
    exact ⟨st', by simp [writeAll, h1, h']⟩

/-- The batch has been provided. -/
def Ready (layers : List LayerInfo) (L : Layout) (data : LayerInfo) (b : Batch) (st : State ℝ) : Prop :=
  ∃ sz k vs, Inv (netOf layers L) st b.T b.B sz k vs ∧
    ∀ d ∈ b.data, st.read (path data.name (str "outputs") d.1) = some d.2

theorem provide_ready (hL : Laid layers L) (hd : data ∈ layers) (h : Inv (netOf layers L) st T B sz k vs) (hb : b.Good data) :
    ∃ st', provide (netOf layers L) data.name b st = some st' ∧ Ready layers L data b st' ∧
      st'.read (str "parameters") = st.read (str "parameters") := by
  have hwl := netOf_wellLaid hL.wf hL.shaped hL.layout
  obtain ⟨st₁, k₁, vs₁, h1, hi, hp⟩ := resize_inv hwl h b.T b.B
  have hview : ∀ d ∈ b.data, ∃ v s, Dict.get? vs₁ (path data.name (str "outputs") d.1) = some v ∧ (d.1, s) ∈ data.outShapes ∧
      v.cells.length = d.2.length := by
    intro d hdm
    obtain ⟨s, hs, hlen⟩ := hb.sizes d hdm
    obtain ⟨e, he⟩ := out_entry hL hd hs
    obtain ⟨v, hv⟩ := cells_view hL hi he
    refine ⟨v, s, hv, hs, ?_⟩
    rw [← view_cells hi hv, (hL.row_out hd hs).length, hlen]
    rfl
  obtain ⟨st', h'⟩ := writeAll_some hi (l := b.data.map fun d => (path data.name (str "outputs") d.1, d.2)) (by
    intro d hdm
    obtain ⟨d', hd', rfl⟩ := List.mem_map.1 hdm
    obtain ⟨v, s, hv, -, hlen⟩ := hview d' hd'
    exact ⟨v, hv, hlen⟩)
  have hpair : (b.data.map fun d => (path data.name (str "outputs") d.1, d.2)).Pairwise (fun d d' => ∀ v v',
      Dict.get? vs₁ d.1 = some v → Dict.get? vs₁ d'.1 = some v' → ∀ c ∈ v.cells, c ∉ v'.cells) := by
    rw [List.pairwise_map]
    have hnd := hb.names
    rw [List.Nodup, List.pairwise_map] at hnd
    refine List.Pairwise.imp_of_mem ?_ hnd
    intro d d' hm hm' hne v v' hv hv' c hc hc'
    obtain ⟨-, s, -, hs, -⟩ := hview d hm
    obtain ⟨-, s', -, hs', -⟩ := hview d' hm'
    rw [← view_cells hi hv] at hc
    rw [← view_cells hi hv'] at hc'
    exact hne (Home.inj hL hd hd (c := .out) (c' := .out) (s := s) (s' := s') ⟨hs, hc⟩ ⟨hs', hc'⟩).2.2
  obtain ⟨hr, ho⟩ := writeAll_read hi h' hpair
  refine ⟨st', by simp [provide, provideExternalData, h1, h'], ⟨_, k₁, vs₁, writeAll_inv hi h', ?_⟩, ?_⟩
  · intro d hdm
    exact hr _ (List.mem_map.2 ⟨d, hdm, rfl⟩)
  · obtain ⟨e, he⟩ := params_entry (layers := layers) (L := L)
    obtain ⟨v, hv⟩ := cells_view hL hi he
    rw [ho _ v hv, hp]
    intro d hdm v' hv' c hc hc'
    obtain ⟨d', hd', rfl⟩ := List.mem_map.1 hdm
    obtain ⟨-, s, -, hs, -⟩ := hview d' hd'
    rw [← view_cells hi hv] at hc
    rw [← view_cells hi hv'] at hc'
    exact out_not_param hL hd hs hc' hc

theorem write_ready (hL : Laid layers L) (hd : data ∈ layers) (hb : b.Good data) (h : Ready layers L data b st) {θ : List ℝ}
    (hθ : (cells (netOf layers L) b.T b.B (str "parameters")).length = θ.length) :
    ∃ st', st.write (str "parameters") θ = some st' ∧ Ready layers L data b st' ∧ st'.read (str "parameters") = some θ := by
  obtain ⟨sz, k, vs, hi, hr⟩ := h
  obtain ⟨e, he⟩ := params_entry (layers := layers) (L := L)
  obtain ⟨st', h1, h2, h3, h4⟩ := write_inv hL hi he hθ
  refine ⟨st', h1, ⟨sz, k, vs, h2, fun d hdm => ?_⟩, h3⟩
  obtain ⟨s, hs, -⟩ := hb.sizes d hdm
  obtain ⟨e', he'⟩ := out_entry hL hd hs
  rw [← hr d hdm, read_inv hL h2 he', read_inv hL hi he']
  congr 1
  refine List.map_congr_left fun c hc => h4 c (out_not_param hL hd hs hc)

/-- What the layers find: parameters, data, and cleared context rows. -/
structure Loaded (net : Net) (input : Name) (b : Batch) (θ : List ℝ) (s : Mem) : Prop where
  params : (cells net b.T b.B (str "parameters")).map s = θ
  data : ∀ d ∈ b.data, ∀ (i c : ℕ), (cells net b.T b.B (path input (str "outputs") d.1))[i]? = some c →
    c ∉ contextRows net b.T b.B → d.2[i]? = some (s c)
  context : ∀ c ∈ contextRows net b.T b.B, c < total net b.T b.B → s c = 0
  outside : ∀ c, total net b.T b.B ≤ c → s c = b.rnd (c - total net b.T b.B)

/-- Parameters are not in context rows. -/
theorem param_not_context (hL : Laid layers L) {c : ℕ} (hc : c ∈ cells (netOf layers L) T B (str "parameters")) :
    c ∉ contextRows (netOf layers L) T B := by
  rintro ⟨j, h, hj, ⟨h2, -⟩, hm⟩
  have hwl := netOf_wellLaid hL.wf hL.shaped hL.layout
  obtain ⟨e, he, ht⟩ := hwl.params
  obtain ⟨hj', rfl⟩ := List.getElem?_eq_some_iff.1 hj
  rw [hubCells_eq _ _ _ _ hj'] at hm
  have hb := cellsOf_bounds _ _ _ c hm
  rw [← hubBase_succ _ _ _ _ hj'] at hb
  obtain ⟨h', hE⟩ := hL.entry (T := T) (B := B) he
  have : j = e.hub := offset_unique hb (hE.bounds c hc)
  subst this
  obtain ⟨row, f, -, g1, g2, -⟩ := (hE.mem c).1 hc
  obtain ⟨hk, hor⟩ := hwl.fits _ (Dict.mem_of_get? he)
  rcases hor with ⟨g, -⟩ | ⟨-, -, g, -⟩
  · simp only at g; omega
  · simp only at g; omega

theorem before_loaded (hL : Laid layers L) (hd : data ∈ layers) (hb : b.Good data) (h : Ready layers L data b st) {θ : List ℝ}
    (hθ : st.read (str "parameters") = some θ) :
    Loaded (netOf layers L) data.name b θ (before (netOf layers L) b.T b.B b.rnd st) := by
  obtain ⟨sz, k, vs, hi, hr⟩ := h
  refine ⟨?_, ?_, ?_, ?_⟩
  · obtain ⟨e, he⟩ := params_entry (layers := layers) (L := L)
    rw [read_inv hL hi he, Option.some.injEq] at hθ
    rw [← hθ]
    refine List.map_congr_left fun c hc => ?_
    simp [before, seen, cells_lt hc, clear, param_not_context hL hc]
  · intro d hdm i c hc hn
    obtain ⟨s, hs, -⟩ := hb.sizes d hdm
    obtain ⟨e, he⟩ := out_entry hL hd hs
    have := hr d hdm
    rw [read_inv hL hi he, Option.some.injEq] at this
    rw [← this, List.getElem?_map, hc]
    simp [before, seen, cells_lt (List.mem_of_getElem? hc), clear, hn]
  · intro c hc hlt
    simp [before, seen, hlt, clear, hc]
  · intro c hc
    simp [before, seen, Nat.not_lt.2 hc]

/-- The context is not longer than the batch. -/
def Short (net : Net) (T : ℕ) : Prop := ∀ h ∈ net.hubs, h.ctx ≤ T ∨ T = 0

theorem context_cleared (hL : Laid layers L) (hS : Short (netOf layers L) T) {n : Name} {c : ℕ}
    (hc : c ∈ contextCells (netOf layers L) T B n) : c ∈ contextRows (netOf layers L) T B := by
  obtain ⟨h1, h2⟩ := context_main hc
  obtain ⟨e, he⟩ := cells_entry h1
  obtain ⟨h, hE⟩ := hL.entry (T := T) (B := B) he
  obtain ⟨row, f, g1, g2, g3, rfl⟩ := (hE.mem c).1 h1
  have hno : ¬ row < rows (noContext e).struct T B := fun g => h2 ((hE.mainMem _).2 ⟨row, f, g, g2, g3, rfl⟩)
  rw [rows_noContext] at hno
  have hwl := netOf_wellLaid hL.wf hL.shaped hL.layout
  obtain ⟨hk, hor⟩ := hwl.fits _ (Dict.mem_of_get? he)
  simp only at hk hor
  have hh : (netOf layers L).hubs[e.hub] = h := by
    have := hE.hub
    rw [List.getElem?_eq_getElem hk] at this
    exact Option.some.inj this
  rw [hh] at hor
  rcases hor with ⟨t1, t2, t3, t4, -, t6⟩ | ⟨-, -, t3, -⟩
  swap
  · omega
  obtain hb | hb | hb : e.struct.bufferType = 0 ∨ e.struct.bufferType = 1 ∨ e.struct.bufferType = 2 := by
    have := typeOf_le e.struct.shape
    have : e.struct.bufferType ≤ 2 := this
    omega
  · simp only [rows, hb] at g1 hno; omega
  · simp only [rows, hb] at g1 hno; omega
  · simp only [rows, hb] at g1 hno
    have hB : 0 < B := by
      rcases Nat.eq_zero_or_pos B with h | h
      · subst h; simp at g1
      · exact h
    have e1 : row / B < T + e.struct.contextSize := (Nat.div_lt_iff_lt_mul hB).2 g1
    have e2 : T ≤ row / B := (Nat.le_div_iff_mul_le hB).2 (by omega)
    have e3 : clearStart T h.ctx ≤ T := by
      unfold clearStart
      split
      · omega
      · rename_i hlt
        rcases hS h (List.mem_of_getElem? hE.hub) with g | g
        · omega
        · omega
    have e4 := Nat.div_add_mod row B
    have e5 := Nat.mod_lt row hB
    have hf : f < h.size := by omega
    have e6 : row * h.size = row / B * (B * h.size) + row % B * h.size := by
      calc row * h.size = (B * (row / B) + row % B) * h.size := by rw [e4]
        _ = _ := by ring
    have e7 : row % B * h.size + h.size ≤ B * h.size := by
      calc row % B * h.size + h.size = (row % B + 1) * h.size := by ring
        _ ≤ _ := Nat.mul_le_mul_right _ e5
    refine ⟨e.hub, h, hE.hub, ⟨by omega, by omega⟩, ?_⟩
    rw [hubCells_eq _ _ _ _ hk, hh, drop2_shape h T B (by omega), mem_rows (by omega)]
    exact ⟨row / B, by omega, by omega, by omega, by omega⟩

/-- Parameters and batch determine the outputs. -/
theorem Loaded.agree (hL : Laid layers L) (ho : Ordered layers data rest) (hb : b.Good data) (hS : Short (netOf layers L) b.T)
    {ms : List MLayer} (hs : List.Forall₂ (Site layers L b.T b.B data) rest ms) (hh : ∀ m ∈ ms, m.HonestForward)
    {θ : List ℝ} {s s' : Mem} (h : Loaded (netOf layers L) data.name b θ s) (h' : Loaded (netOf layers L) data.name b θ s') :
    ∀ m ∈ ms, ∀ a ∈ m.outs, forward ms s a = forward ms s' a := by
  have hd : data ∈ layers := by rw [ho.all]; simp
  have hctx : ∀ n, ∀ c ∈ contextCells (netOf layers L) b.T b.B n, s c = s' c := by
    intro n c hc
    have h1 := context_cleared hL hS hc
    have h2 := cells_lt (context_main hc).1
    rw [h.context c h1 h2, h'.context c h1 h2]
  refine C72_outputs hL ho hs hh s s' ?_ ?_ ?_ ?_
  · intro l hl x hx a ha
    obtain ⟨sh, hsh⟩ := shape_of hx
    have hr := root_of_par hL hl hsh ha
    have := h.params.trans h'.params.symm
    exact List.map_inj_left.1 this a hr
  · intro x hx a ha
    obtain ⟨sh, hsh⟩ := shape_of hx
    obtain ⟨d, hdm, rfl⟩ := List.mem_map.1 (hb.complete _ hsh)
    by_cases hc : a ∈ contextRows (netOf layers L) b.T b.B
    · have h2 := cells_lt (hL.main_sub ha)
      rw [h.context a hc h2, h'.context a hc h2]
    · obtain ⟨i, hi⟩ := List.mem_iff_getElem?.1 (hL.main_sub ha)
      have h1 := h.data d hdm i a hi hc
      rw [h'.data d hdm i a hi hc] at h1
      exact (Option.some.inj h1).symm
  · intro l hl
    exact ⟨fun x _ => hctx _, fun x _ => hctx _⟩
  · intro a ha
    rw [h.outside a ha, h'.outside a ha]

theorem totalLoss_congr (hs : List.Forall₂ (Site layers L T B data) rest ms) {m m' : Mem}
    (h : ∀ l ∈ ms, ∀ a ∈ l.outs, m a = m' a) : totalLoss ms m = totalLoss ms m' := by
  unfold totalLoss
  congr 1
  refine List.map_congr_left fun l hl => Finset.sum_congr rfl fun c hc => ?_
  obtain ⟨k, hk, hsite⟩ := forall₂_right hs hl
  exact h l hl c (hsite.losses c hc).1

theorem map_update {l : List ℕ} (hnd : l.Nodup) (s : Mem) {i p : ℕ} (hp : l[i]? = some p) (x : ℝ) :
    l.map (Function.update s p x) = (l.map s).set i x := by
  obtain ⟨hi, rfl⟩ := List.getElem?_eq_some_iff.1 hp
  refine List.ext_getElem (by simp) fun j h1 h2 => ?_
  simp only [List.getElem_map, List.getElem_set]
  split
  · rename_i e; subst e; simp
  · rename_i e
    rw [Function.update_of_ne]
    intro h
    exact e ((List.Nodup.getElem_inj_iff hnd).1 h).symm

theorem params_nodup : (cells (netOf layers L) T B (str "parameters")).Nodup := by
  cases h : (Dict.get? (netOf layers L).layout (str "parameters")).bind (viewOf (netOf layers L).hubs T B) with
  | none => simp [cells, h]
  | some v =>
    obtain ⟨e, -, hv⟩ := Option.bind_eq_some_iff.1 h
    simpa [cells, h] using viewOf_nodup hv

/-- Changing one parameter. -/
theorem Loaded.update (hL : Laid layers L) (hd : data ∈ layers) (hb : b.Good data) {θ : List ℝ} {s : Mem}
    (h : Loaded (netOf layers L) data.name b θ s) {i p : ℕ}
    (hp : (cells (netOf layers L) b.T b.B (str "parameters"))[i]? = some p) (x : ℝ) :
    Loaded (netOf layers L) data.name b (θ.set i x) (Function.update s p x) := by
  have hpm := List.mem_of_getElem? hp
  refine ⟨?_, ?_, ?_, ?_⟩
  · rw [map_update params_nodup s hp, h.params]
  · intro d hdm j c hc hn
    obtain ⟨sh, hsh, -⟩ := hb.sizes d hdm
    rw [Function.update_of_ne]
    · exact h.data d hdm j c hc hn
    · rintro rfl
      exact out_not_param hL hd hsh (List.mem_of_getElem? hc) hpm
  · intro c hc hlt
    rw [Function.update_of_ne]
    · exact h.context c hc hlt
    · rintro rfl
      exact param_not_context hL hpm hc
  · intro c hc
    rw [Function.update_of_ne]
    · exact h.outside c hc
    · rintro rfl
      have := cells_lt hpm
      omega

end

end Verif.Session
