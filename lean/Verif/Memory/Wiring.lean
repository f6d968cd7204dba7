import Verif.Memory.Bundle

/-!
# Which numbers the inputs of a layer are
-/

namespace Verif.Memory

open Verif.Structure Verif.Layout Verif.Buffers

/-! ### Specification -/

/-- The array `p`, with structure `s`, is connected to the input `x` of the layer `l`. -/
def Feeds (layers : List LayerInfo) (l : LayerInfo) (x p : Name) (s : Struct) : Prop :=
  ∃ k ∈ layers, ∃ o ∈ k.outgoing, o.endLayer = l.name ∧ o.endInput = x ∧
    ((o.kind = .outputs ∧ (o.buffer, s) ∈ k.outShapes ∧ p = path k.name (str "outputs") o.buffer) ∨
      (o.kind = .parameters ∧ (o.buffer, s) ∈ k.paramShapes ∧ p = path k.name (str "parameters") o.buffer))

/-! ### Proofs -/

theorem getElem?_flatMap_range {α : Type} {n : ℕ} (f : ℕ → List α) (hf : ∀ r, (f r).length = n) :
    ∀ (R r j : ℕ), r < R → j < n → ((List.range R).flatMap f)[r * n + j]? = (f r)[j]? := by
  intro R
  induction R with
  | zero => intro r j h; omega
  | succ R ih =>
    intro r j hr hj
    rw [List.range_succ, List.flatMap_append]
    have hlen : ((List.range R).flatMap f).length = R * n := by
      rw [length_flatMap_const _ _ n hf, List.length_range]
    rcases Nat.lt_succ_iff_lt_or_eq.1 hr with h | rfl
    · rw [List.getElem?_append_left, ih r j h hj]
      rw [hlen]
      calc r * n + j < (r + 1) * n := by rw [Nat.add_mul]; omega
        _ ≤ R * n := Nat.mul_le_mul_right _ h
    · rw [List.getElem?_append_right (by rw [hlen]; omega), hlen]
      simp

section
variable {layers : List LayerInfo} {L : Layout}

/-- The address of an entry of an array, by row and column. -/
theorem Laid.cell (hL : Laid layers L) {t : Name} {s : Struct} (hs : Dict.get? (networkArrays layers) t = some s)
    {e : ArrayEntry} (he : Dict.get? (netOf layers L).layout t = some e) {h : HubInfo}
    (hh : (netOf layers L).hubs[e.hub]? = some h) (T B row j : ℕ) (hr : row < rows s T B) (hj : j < s.featureSize) :
    (cells (netOf layers L) T B t)[row * s.featureSize + j]? =
      some (hubBase (netOf layers L).hubs T B e.hub + row * h.size + (e.slice.1 + j)) := by
  have hst := netOf_struct hL.wf hs he
  have hwl := netOf_wellLaid hL.wf hL.shaped hL.layout
  have hf : Buffers.Fits (netOf layers L).hubs e := hwl.fits _ (Dict.mem_of_get? he)
  have hf2 := hf
  obtain ⟨v, hv, -, h0, h1, h2⟩ := viewOf_fits hf T B
  obtain ⟨hk, rfl⟩ := List.getElem?_eq_some_iff.1 hh
  have hfs : s.featureSize = e.slice.2 - e.slice.1 := by
    rw [← hst, featureSize_prod]
    obtain ⟨hk', hor⟩ := hf2
    rcases hor with ⟨-, -, -, -, h, -⟩ | ⟨-, -, h, h'⟩
    · exact h
    · omega
  have e1 : cells (netOf layers L) T B t = v.cells := by simp [cells, he, hv]
  have h12 := typeOf_le s.shape
  rw [e1]
  obtain hb | hb | hb : s.bufferType = 0 ∨ s.bufferType = 1 ∨ s.bufferType = 2 := by
    have : s.bufferType ≤ 2 := h12
    omega
  · have : row = 0 := by simp [rows, hb] at hr; exact hr
    subst this
    rw [h0 (hst ▸ hb), ← hfs]
    simp [hj]
  · have hr' : row < B := by simpa [rows, hb] using hr
    rw [h1 hk (hst ▸ hb), ← hfs, getElem?_flatMap_range _ (by simp) _ _ _ hr' hj]
    simp [hj]
  · have hr' : row < (T + s.contextSize) * B := by simpa [rows, hb] using hr
    rw [h2 hk (hst ▸ hb), ← hfs, hst]
    have hB : 0 < B := by
      rcases Nat.eq_zero_or_pos B with h | h
      · subst h; simp at hr'
      · exact h
    obtain ⟨q, b, hb', rfl⟩ : ∃ q b, b < B ∧ row = q * B + b :=
      ⟨row / B, row % B, Nat.mod_lt _ hB, by rw [Nat.mul_comm]; exact (Nat.div_add_mod _ _).symm⟩
    have hq : q < T + s.contextSize := by
      by_contra hq
      have := Nat.mul_le_mul_right B (not_lt.1 hq)
      omega
    have ei : (q * B + b) * s.featureSize + j = q * (B * s.featureSize) + (b * s.featureSize + j) := by ring
    have hlt : b * s.featureSize + j < B * s.featureSize :=
      calc b * s.featureSize + j < (b + 1) * s.featureSize := by rw [Nat.add_mul]; omega
        _ ≤ B * s.featureSize := Nat.mul_le_mul_right _ hb'
    rw [ei, getElem?_flatMap_range (n := B * s.featureSize) _ (by
      intro r; rw [length_flatMap_const _ _ s.featureSize (by simp), List.length_range]) _ _ _ hq hlt,
      getElem?_flatMap_range _ (by simp) _ _ _ hb' hj]
    simp only [List.getElem?_map, List.getElem?_range, hj, Option.map_some, Option.some.injEq]
    ring

theorem feeds_iff (hL : Laid layers L) {conns : List (Name × Name)} (hc : getConnections layers = .ok conns) {l : LayerInfo}
    (hl : l ∈ layers) {x : Name} (hx : x ∈ l.inShapes.map Prod.fst) (p : Name) :
    (p, path l.name (str "inputs") x) ∈ conns ↔ ∃ s, Feeds layers l x p s := by
  have hkv : (Key.arr .inp l x).Valid layers := ⟨hl, hx⟩
  constructor
  · intro hp
    obtain ⟨k', hf, rfl⟩ := conn_into hL.wf hL.noInternal hc (t := .arr .inp l x) (b := false) hkv hp
    have hv := (hf.valid hL.wf).1
    cases hf with
    | @out k e o' hk ho' hkd he hen =>
      obtain ⟨s, hs⟩ := shape_of hv.2
      exact ⟨s, k, hk, o', ho', hen.symm, rfl, Or.inl ⟨hkd, hs, rfl⟩⟩
    | @par k e o' hk ho' hkd he hen =>
      obtain ⟨s, hs⟩ := shape_of hv.2
      exact ⟨s, k, hk, o', ho', hen.symm, rfl, Or.inr ⟨hkd, hs, rfl⟩⟩
  · rintro ⟨s, k, hk, o, ho, e1, e2, ⟨h, -, rfl⟩ | ⟨h, -, rfl⟩⟩
    · have hfl : Flow layers (.arr .out k o.buffer) (.arr .inp l x) := by
        rw [← e2]; exact .out hk ho h hl e1.symm
      exact (conn_key hL.wf hL.noInternal hc (hfl.valid hL.wf).1 hkv false).2 hfl
    · have hfl : Flow layers (.arr .par k o.buffer) (.arr .inp l x) := by
        rw [← e2]; exact .par hk ho h hl e1.symm
      exact (conn_key hL.wf hL.noInternal hc (hfl.valid hL.wf).1 hkv false).2 hfl

theorem Feeds.get (hL : Laid layers L) {l : LayerInfo} {x p : Name} {s : Struct} (h : Feeds layers l x p s) :
    Dict.get? (networkArrays layers) p = some s := by
  obtain ⟨k, hk, o, ho, e1, e2, ⟨h, hs, rfl⟩ | ⟨h, hs, rfl⟩⟩ := h
  · exact array_get hL.wf hk (by simp [layerCats]) hs
  · exact array_get hL.wf hk (by simp [layerCats]) hs

theorem Laid.width (hL : Laid layers L) {t : Name} {s : Struct} (hs : Dict.get? (networkArrays layers) t = some s)
    {e : ArrayEntry} (he : Dict.get? (netOf layers L).layout t = some e) : s.featureSize = e.slice.2 - e.slice.1 := by
  have hst := netOf_struct hL.wf hs he
  have hwl := netOf_wellLaid hL.wf hL.shaped hL.layout
  have hf : Buffers.Fits (netOf layers L).hubs e := hwl.fits _ (Dict.mem_of_get? he)
  rw [← hst, featureSize_prod]
  obtain ⟨hk', hor⟩ := hf
  rcases hor with ⟨-, -, -, -, h, -⟩ | ⟨-, -, h, h'⟩
  · exact h
  · omega

/-- The arrays connected to an input lie in it side by side. -/
theorem Laid.wiring (hL : Laid layers L) {l : LayerInfo} (hl : l ∈ layers) {x : Name} {sx : Struct}
    (hx : (x, sx) ∈ l.inShapes) (hfed : ∃ p s, Feeds layers l x p s) :
    ∃ off : Name → ℕ,
      (∀ p s, Feeds layers l x p s → ∀ j < s.featureSize, off p + j < sx.featureSize ∧
        ∀ T B r, r < rows sx T B → ∃ a,
          (cells (netOf layers L) T B (path l.name (str "inputs") x))[r * sx.featureSize + (off p + j)]? = some a ∧
          (cells (netOf layers L) T B p)[r * s.featureSize + j]? = some a) ∧
      ∀ c < sx.featureSize, ∃ p s, Feeds layers l x p s ∧ off p ≤ c ∧ c < off p + s.featureSize ∧
        ∀ p' s', Feeds layers l x p' s' → off p' ≤ c → c < off p' + s'.featureSize → p' = p := by
  obtain ⟨forced, conns, gs, hP⟩ := createLayout_ok hL.layout
  have hc := hP.connsOk
  have hw := hL.wf
  have hxm : x ∈ l.inShapes.map Prod.fst := List.mem_map.2 ⟨_, hx, rfl⟩
  have hfi := feeds_iff hL hc hl hxm
  set t := path l.name (str "inputs") x with ht
  have hta : t ∈ (networkArrays layers).map Prod.fst :=
    key_array (k := .arr .inp l x) ⟨hl, hxm⟩ (by simp) false
  have hts : Dict.get? (networkArrays layers) t = some sx := array_get hw hl (by simp [layerCats]) hx
  obtain ⟨p, s, hp⟩ := hfed
  have hpc := (hfi p).2 ⟨s, hp⟩
  obtain ⟨i, hi, hpi, hti, -⟩ := C08_connections _ _ _ _ _ (hP.nested hw) hP.groupsOk p t hpc
  have hg : gs[i] ∈ gs := List.getElem_mem hi
  have hsame : ∀ p', (p', t) ∈ conns → p' ∈ (gs[i]).arrays := by
    intro p' hp'
    obtain ⟨i', hi', hpi', -, huniq⟩ := C08_connections _ _ _ _ _ (hP.nested hw) hP.groupsOk p' t hp'
    obtain rfl := huniq i hi (Or.inr hti)
    exact hpi'
  set g := gs[i]
  obtain ⟨hnd, hns, hdis, hcr, order, hcre⟩ := hP.created hw hg
  obtain ⟨slice, hsl, hun⟩ := C09_sink_union _ _ _ _ _ hnd hns hdis hcr t hti ⟨p, hpi, hpc⟩
  obtain ⟨htile, honce⟩ := C09_sources_tile _ _ _ _ _ hnd hns hdis hcr
  obtain ⟨k, hk, hkg, hget⟩ := hP.get_eq hw hg
  obtain ⟨e, he, hesl, hehub, -⟩ := netOf_get hP hw hg ((hsl slice).2 rfl) (Or.inl hta)
  obtain ⟨hek, -⟩ := layout_hub he (hget _ _ ((hsl slice).2 rfl))
  have hwid := hL.width hts he
  rw [hesl] at hwid
  -- what is known of a source
  have hsrc : ∀ p' s', Feeds layers l x p' s' → ∃ lo, L.get p' = some (k, lo, lo + s'.featureSize) ∧
      p' ∈ g.sources.flatMap Item.flat ∧ (p', (lo, lo + s'.featureSize)) ∈ g.hub.getIndices ∧
      ∀ f, lo ≤ f → f < lo + s'.featureSize → Inside f slice := by
    intro p' s' hf
    have hpc' := (hfi p').2 ⟨s', hf⟩
    have hpa := hsame p' hpc'
    obtain ⟨st, lo, h1, h2, -⟩ := htile p' hpa
    have : st = s' := by
      have := hf.get hL
      rw [h1] at this
      exact Option.some.inj this
    subst this
    have hm := (h2 (lo, lo + st.featureSize)).2 rfl
    exact ⟨lo, hget _ _ hm, hpa, hm, fun f h3 h4 => (hun f).2 ⟨p', hpa, hpc', _, hm, h3, h4⟩⟩
  refine ⟨fun p' => (L.get p').elim 0 (fun q => q.2.1) - slice.1, ?_, ?_⟩
  · intro p' s' hf j hj
    obtain ⟨lo, h1, h2, h3, h4⟩ := hsrc p' s' hf
    have hlo := h4 lo (le_refl _) (by omega)
    have hj' := h4 (lo + j) (by omega) (by omega)
    have hb : slice.1 ≤ lo ∧ slice.1 ≤ lo + j ∧ lo + j < slice.2 := ⟨hlo.1, hj'.1, hj'.2⟩
    simp only [h1, Option.elim]
    have hlt : lo - slice.1 + j < sx.featureSize := by omega
    refine ⟨hlt, fun T B r hr => ?_⟩
    have hpa : p' ∈ (networkArrays layers).map Prod.fst := List.mem_map.2 ⟨_, Dict.mem_of_get? (hf.get hL), rfl⟩
    obtain ⟨e', he', hesl', hehub', -⟩ := netOf_get hP hw hg h3 (Or.inl hpa)
    obtain ⟨hek', -⟩ := layout_hub he' h1
    have hr' : r < rows s' T B := by
      obtain ⟨srcs, -, hmem, hctx, -, hty⟩ := hL.shaped.sinks conns hc _ _ hts ⟨p, hpc⟩
      have h5 := hty p' ((hmem p').2 ((hfi p').2 ⟨s', hf⟩)) s' (hf.get hL)
      refine lt_of_lt_of_le hr ?_
      unfold rows
      rw [h5, hctx]
      split <;> first | exact Nat.le_refl _ | exact Nat.mul_le_mul_right _ (Nat.le_add_right _ _)
    refine ⟨_, hL.cell hts he hehub T B r _ hr hlt, ?_⟩
    rw [hL.cell (hf.get hL) he' hehub' T B r j hr' hj, hek, hek', hesl, hesl']
    congr 2
    show lo + j = slice.1 + (lo - slice.1 + j)
    omega
  · intro c hc'
    obtain ⟨s0, hs0, hst, sl, hm, hin⟩ := (hun (slice.1 + c)).1 ⟨by omega, by omega⟩
    obtain ⟨s1, hf⟩ := (hfi s0).1 hst
    obtain ⟨lo, h1, h2, h3, h4⟩ := hsrc s0 s1 hf
    obtain ⟨st, lo', h1', h2', h5⟩ := htile s0 hs0
    have e1 := (h2' _).1 hm
    have e2 := (h2' _).1 h3
    have hsl' : sl = (lo, lo + s1.featureSize) := e1.trans e2.symm
    subst hsl'
    have hin' : lo ≤ slice.1 + c ∧ slice.1 + c < lo + s1.featureSize := ⟨hin.1, hin.2⟩
    have hlo := (h4 lo (le_refl _) (by omega)).1
    refine ⟨s0, s1, hf, ?_, ?_, ?_⟩
    · simp only [h1, Option.elim]; omega
    · simp only [h1, Option.elim]; omega
    · intro p' s' hf' h6 h7
      obtain ⟨lo2, g1, g2, g3, g4⟩ := hsrc p' s' hf'
      simp only [g1, Option.elim] at h6 h7
      have hlo2 := (g4 lo2 (le_refl _) (by omega)).1
      have hf1 : slice.1 + c < g.hub.size := by
        have := congrArg Prod.snd e2
        simp only at this
        omega
      obtain ⟨q, -, -, -, -, huq⟩ := honce (slice.1 + c) hf1
      rw [huq p' g2 _ g3 ⟨by show lo2 ≤ _; omega, by show _ < lo2 + s'.featureSize; omega⟩, huq s0 hs0 _ h3 ⟨hin'.1, hin'.2⟩]

end

end Verif.Memory
