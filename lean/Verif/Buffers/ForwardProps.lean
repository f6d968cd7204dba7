import Verif.Buffers.Props

/-! # C18: what the layers see of the external data -/

namespace Verif.Buffers

open Verif.Structure Verif.Layout

section
variable {V : Type} [Zero V]

theorem readCells_append (m : List V) (a b : List Nat) : readCells m (a ++ b) = readCells m a ++ readCells m b := by
  simp [readCells]

/-- After writing several arrays that do not overlap, each holds its data. -/
theorem writeAll_read {net : Net} {T B sz b : Nat} {vs : List (Name × View)} :
    ∀ {st st' : State V} {data : List (Name × List V)}, Inv net st T B sz b vs → writeAll st data = some st' →
      data.Pairwise (fun d d' => ∀ v v', Dict.get? vs d.1 = some v → Dict.get? vs d'.1 = some v' →
        ∀ c ∈ v.cells, c ∉ v'.cells) →
      (∀ d ∈ data, st'.read d.1 = some d.2) ∧
      (∀ n v, Dict.get? vs n = some v → (∀ d ∈ data, ∀ v', Dict.get? vs d.1 = some v' → ∀ c ∈ v.cells, c ∉ v'.cells) →
        st'.read n = st.read n)
  | st, st', [], h, hs, _ => by simp [writeAll] at hs; subst hs; simp
  | st, st', (n, d) :: rest, h, hs, hp => by
    simp only [writeAll] at hs
    split at hs
    · simp at hs
    · rename_i st₁ h₁
      rw [List.pairwise_cons] at hp
      have hi₁ := h.write_inv h₁
      obtain ⟨i1, i2⟩ := writeAll_read hi₁ hs hp.2
      -- the array written first
      have hn : ∃ v, Dict.get? vs n = some v ∧ v.cells.length = d.length := by
        unfold State.write at h₁
        split at h₁
        · simp at h₁
        · rename_i b' vs' hv
          rw [h.view] at hv
          cases hv
          split at h₁
          · simp at h₁
          · rename_i v hv
            split at h₁
            · rename_i hl; exact ⟨v, hv, hl⟩
            · simp at h₁
      obtain ⟨v, hv, hl⟩ := hn
      obtain ⟨st₂, hw1, -, hw3, hw4⟩ := h.write hv hl
      rw [h₁] at hw1
      cases hw1
      refine ⟨?_, ?_⟩
      · intro x hx
        rcases List.mem_cons.1 hx with rfl | hx
        · rw [i2 n v hv (fun d' hd' v' hv' => hp.1 d' hd' v v' hv hv'), hw3]
        · exact i1 x hx
      · intro m w hm hdis
        rw [i2 m w hm (fun d' hd' => hdis d' (by simp [hd']))]
        simp only [State.read, hi₁.view, h.view, hm, Option.map_some, hw4]
        congr 1
        exact readCells_write_disjoint _ _ (hdis (n, d) (by simp) v hv)

/-- The state after `provide_external_data`. -/
theorem provide_spec {net : Net} (hw : WellLaid net) {st st' : State V} {T₀ B₀ sz b₀ : Nat} {vs₀ : List (Name × View)}
    (h : Inv net st T₀ B₀ sz b₀ vs₀) {T B : Nat} {data : List (Name × List V)}
    (hs : provideExternalData net st T B data = some st')
    (hp : data.Pairwise (fun d d' => ∀ e e', Dict.get? net.layout d.1 = some e → Dict.get? net.layout d'.1 = some e' →
        e.hub ≠ e'.hub ∨ ∀ f, Inside f e.slice → ¬ Inside f e'.slice)) :
    ∃ sz' b' vs', Inv net st' T B sz' b' vs' ∧ ∀ d ∈ data, st'.read d.1 = some d.2 := by
  unfold provideExternalData at hs
  obtain ⟨st₁, b₁, vs₁, hr, hi, -⟩ := resize_inv hw h T B
  rw [hr] at hs
  refine ⟨_, b₁, vs₁, writeAll_inv hi hs, ?_⟩
  refine (writeAll_read hi hs (hp.imp ?_)).1
  intro d d' hd v v' hv hv' c hc hc'
  rw [get?_createViews hi.created] at hv hv'
  obtain ⟨e, he, hve⟩ := Option.bind_eq_some_iff.1 hv
  obtain ⟨e', he', hve'⟩ := Option.bind_eq_some_iff.1 hv'
  obtain ⟨h1, f, h2, h3⟩ := C12_share net.hubs T B e e' (hw.fits _ (Dict.mem_of_get? he)) (hw.fits _ (Dict.mem_of_get? he'))
    v v' hve hve' c hc hc'
  rcases hd e e' he he' with h | h
  · exact h h1
  · exact h f h2 h3

theorem mem_rows {base R B N a z : Nat} {c : Nat} (hz : z ≤ R) :
    c ∈ cellsOf base [R, B, N] [(a, z)] ↔ ∃ t, a ≤ t ∧ t < z ∧ base + t * (B * N) ≤ c ∧ c < base + t * (B * N) + B * N := by
  simp only [cellsOf, List.mem_flatMap, List.mem_range, Nat.min_eq_left hz]
  constructor
  · rintro ⟨i, hi, hc⟩
    have := (mem_cellsOf_all _ [B, N] c).1 (by simpa [cellsOf] using hc)
    simp at this
    exact ⟨a + i, by omega, by omega, this.1, this.2⟩
  · rintro ⟨t, h1, h2, h3, h4⟩
    refine ⟨t - a, by omega, ?_⟩
    have := (mem_cellsOf_all (base + t * (B * N)) [B, N] c).2 (by simpa using ⟨h3, h4⟩)
    rw [show a + (t - a) = t by omega]
    simpa [cellsOf] using this

/-- The rows of the cells of a context-free array of type 2. -/
theorem view_row {net : Net} {e : ArrayEntry} (hf : Fits net.hubs e) {T B : Nat} {v : View}
    (hv : viewOf net.hubs T B e = some v) (hk : e.hub < net.hubs.length) (h2 : net.hubs[e.hub].btype = 2)
    (hne : e.slice.1 < e.slice.2) :
    ∃ w, w = e.slice.2 - e.slice.1 ∧ v.cells = (List.range (T + e.struct.contextSize)).flatMap (fun t =>
        (List.range B).flatMap (fun b => (List.range w).map (fun f =>
          hubBase net.hubs T B e.hub + t * (B * net.hubs[e.hub].size) + b * net.hubs[e.hub].size + (e.slice.1 + f)))) ∧
      e.slice.1 + w ≤ net.hubs[e.hub].size := by
  obtain ⟨v', hv', -, -, -, h2'⟩ := viewOf_fits hf T B
  rw [hv] at hv'
  cases hv'
  obtain ⟨hk', ⟨ht, -, hlo, hhi, -, -⟩ | ⟨-, -, hlo, -⟩⟩ := hf
  · exact ⟨_, rfl, h2' hk (by omega), by omega⟩
  · omega

theorem row_bounds {base t B N b lo f : Nat} (hb : b < B) (hf : lo + f < N) :
    base + t * (B * N) ≤ base + t * (B * N) + b * N + (lo + f) ∧
      base + t * (B * N) + b * N + (lo + f) < base + t * (B * N) + B * N := by
  have : (b + 1) * N ≤ B * N := Nat.mul_le_mul_right _ hb
  have e : b * N + N = (b + 1) * N := by ring
  omega

/-- **C18** (with a context): the layers see exactly the provided data. -/
theorem C18_with_context_partial (net : Net) (hw : WellLaid net) (st₀ st st₁ st₂ : State V) (ops : List (Op V))
    (hc : create net = some st₀) (hr : run net st₀ ops = some st) (T B : Nat) (data : List (Name × List V))
    (context : List (Option (List V)))
    (h1 : provideExternalData net st T B data = some st₁) (h2 : prepareForward net st₁ (some context) = some st₂)
    (hp : data.Pairwise (fun d d' => ∀ e e', Dict.get? net.layout d.1 = some e → Dict.get? net.layout d'.1 = some e' →
        e.hub ≠ e'.hub ∨ ∀ f, Inside f e.slice → ¬ Inside f e'.slice))
    (d : Name × List V) (hd : d ∈ data) (e : ArrayEntry) (he : Dict.get? net.layout d.1 = some e)
    (h : HubInfo) (hh : net.hubs[e.hub]? = some h) (hb : h.btype = 2) (hctx : e.struct.contextSize = 0) :
    st₂.read d.1 = some d.2 := by
  obtain ⟨b₀, vs₀, hi₀⟩ := run_inv hw hc hr
  obtain ⟨sz, b, vs, hi, hdata⟩ := provide_spec hw hi₀ h1 hp
  rw [← hdata d hd]
  obtain ⟨hk, rfl⟩ := List.getElem?_eq_some_iff.1 hh
  have hf : Fits net.hubs e := hw.fits _ (Dict.mem_of_get? he)
  obtain ⟨v, hv, -⟩ := viewOf_fits hf T B
  have hvs : Dict.get? vs d.1 = some v := by rw [get?_createViews hi.created, he]; exact hv
  simp only [prepareForward, applyContext, hi.full, hi.time, hi.batch] at h2
  -- the loop changes rows from `T` on only
  have hloop : ∀ (l : List (Option (List V) × HubInfo × Nat)) (m m' : List V),
      (∀ x ∈ l, ∃ h : x.2.2 < net.hubs.length, net.hubs[x.2.2] = x.2.1) →
      applyLoop net T B l m = some m' → readCells m' v.cells = readCells m v.cells := by
    intro l
    induction l with
    | nil => intro m m' _ hm; simp [applyLoop] at hm; rw [hm]
    | cons x l ih =>
      intro m m' hx hm
      obtain ⟨o, h', k⟩ := x
      cases o with
      | none => exact ih m m' (fun y hy => hx y (by simp [hy])) hm
      | some c =>
        simp only [applyLoop] at hm
        split at hm
        · simp at hm
        · rename_i m₁ hm₁
          rw [ih m₁ m' (fun y hy => hx y (by simp [hy])) hm]
          simp only [applyOne] at hm₁
          split at hm₁
          · simp only [Option.some.injEq] at hm₁
            subst hm₁
            obtain ⟨hk', hh'⟩ := hx _ List.mem_cons_self
            apply readCells_write_disjoint
            intro c' hc1 hc2
            have hc3 := hc2
            rw [hubCells_eq net T B k hk'] at hc2
            have hb1 := cellsOf_bounds _ _ _ c' hc2
            rw [← hubBase_succ _ _ _ _ hk'] at hb1
            have hb2 := viewOf_bounds hv c' hc1
            have hke : k = e.hub := offset_unique hb1 hb2
            have hh'' : h' = net.hubs[e.hub] := by simp only at hh'; simp only [← hh', hke]
            rw [hke, hubCells_eq net T B e.hub hk, hh''] at hc3
            replace hc2 := hc3
            obtain ⟨-, row, f, hcf, hf1, hf2, -⟩ := fits_cell hf hv hc1
            obtain ⟨w, hw', hcells, hwN⟩ := view_row hf hv hk hb (by omega)
            rw [hcells, hctx] at hc1
            simp only [List.mem_flatMap, List.mem_map, List.mem_range] at hc1
            obtain ⟨t, ht, b', hb', f', hf', rfl⟩ := hc1
            rw [drop2_shape _ T B hb, mem_rows (by omega)] at hc2
            obtain ⟨t', h1', h2', h3', h4'⟩ := hc2
            have hrow := row_bounds (base := hubBase net.hubs T B e.hub) (t := t) (lo := e.slice.1) hb' (show e.slice.1 + f' < net.hubs[e.hub].size by omega)
            have : (t + 1) * (B * net.hubs[e.hub].size) ≤ t' * (B * net.hubs[e.hub].size) := Nat.mul_le_mul_right _ (by omega)
            have e2 : (t + 1) * (B * net.hubs[e.hub].size) = t * (B * net.hubs[e.hub].size) + B * net.hubs[e.hub].size := by ring
            omega
          · simp at hm₁
  split at h2
  · simp at h2
  · rename_i m hm
    simp only [Option.some.injEq] at h2
    subst h2
    simp only [State.read, hi.view, hvs, Option.map_some, block_set hi.alloc]
    congr 1
    refine hloop _ _ _ ?_ hm
    intro x hx
    have := (List.of_mem_zip (show (x.1, x.2) ∈ _ from hx)).2
    exact mem_zipIdx_hubs.1 this

/-- What `clear_context` does to one cell. -/
theorem clearContext_cell (net : Net) (T B : Nat) (m : List V) (c : Nat) {k : Nat} (hk : k < net.hubs.length)
    (hcell : hubBase net.hubs T B k ≤ c ∧ c < hubBase net.hubs T B (k + 1)) :
    (net.hubs.zipIdx.foldl (fun m hk =>
      if hk.1.btype = 2 ∧ hk.1.ctx ≠ 0 then
        zeroCells m (hubCells net T B hk.2 [(clearStart T hk.1.ctx, T + hk.1.ctx)])
      else m) m).getD c 0 =
    if net.hubs[k].btype = 2 ∧ net.hubs[k].ctx ≠ 0 ∧
      c ∈ hubCells net T B k [(clearStart T net.hubs[k].ctx, T + net.hubs[k].ctx)] then 0 else m.getD c 0 := by
  have hz := zeroFold (P := fun x => x.1.btype = 2 ∧ x.1.ctx ≠ 0)
    (cs := fun x => hubCells net T B x.2 [(clearStart T x.1.ctx, T + x.1.ctx)]) net.hubs.zipIdx m c
  split
  · rename_i hcond
    exact hz.1 ⟨(net.hubs[k], k), mem_zipIdx_hubs.2 ⟨hk, rfl⟩, ⟨hcond.1, hcond.2.1⟩, hcond.2.2⟩
  · rename_i hcond
    refine hz.2.1 ?_
    rintro ⟨x, hx, ⟨p1, p2⟩, hcx⟩
    obtain ⟨hx1, hx2⟩ := mem_zipIdx_hubs.1 hx
    have hb := hcx
    rw [hubCells_eq net T B _ hx1] at hb
    have hb := cellsOf_bounds _ _ _ c hb
    rw [← hubBase_succ _ _ _ _ hx1] at hb
    have : x.2 = k := offset_unique hb hcell
    obtain ⟨h', k'⟩ := x
    simp only at this hx2 p1 p2 hcx
    simp only [this] at hx2 hcx
    rw [← hx2] at p1 p2 hcx
    exact hcond ⟨p1, p2, hcx⟩

/-- **C18** (without a context): if the input shares its hub with an array that has
`c` context steps, then for `c ≤ T` the last `c` time steps of the provided data
are replaced by zeros before the layers run; otherwise (`c = 0` or `T < c`) the
layers see exactly the provided data. -/
theorem C18_without_context (net : Net) (hw : WellLaid net) (st₀ st st₁ st₂ : State V) (ops : List (Op V))
    (hc : create net = some st₀) (hr : run net st₀ ops = some st) (T B : Nat) (data : List (Name × List V))
    (h1 : provideExternalData net st T B data = some st₁) (h2 : prepareForward net st₁ none = some st₂)
    (hp : data.Pairwise (fun d d' => ∀ e e', Dict.get? net.layout d.1 = some e → Dict.get? net.layout d'.1 = some e' →
        e.hub ≠ e'.hub ∨ ∀ f, Inside f e.slice → ¬ Inside f e'.slice))
    (d : Name × List V) (hd : d ∈ data) (e : ArrayEntry) (he : Dict.get? net.layout d.1 = some e)
    (h : HubInfo) (hh : net.hubs[e.hub]? = some h) (hb : h.btype = 2) (hctx : e.struct.contextSize = 0) :
    let w := e.slice.2 - e.slice.1
    (h.ctx ≤ T → st₂.read d.1 = some (d.2.take ((T - h.ctx) * (B * w)) ++ List.replicate (h.ctx * (B * w)) 0)) ∧
    (h.ctx = 0 ∨ T < h.ctx → st₂.read d.1 = some d.2) := by
  intro w
  obtain ⟨b₀, vs₀, hi₀⟩ := run_inv hw hc hr
  obtain ⟨sz, b, vs, hi, hdata⟩ := provide_spec hw hi₀ h1 hp
  obtain ⟨hk, rfl⟩ := List.getElem?_eq_some_iff.1 hh
  have hf : Fits net.hubs e := hw.fits _ (Dict.mem_of_get? he)
  obtain ⟨v, hv, -⟩ := viewOf_fits hf T B
  have hvs : Dict.get? vs d.1 = some v := by rw [get?_createViews hi.created, he]; exact hv
  have hd2 : d.2 = readCells (block st₁.heap b) v.cells := by
    have := hdata d hd
    simp only [State.read, hi.view, hvs, Option.map_some, Option.some.injEq] at this
    exact this.symm
  simp only [prepareForward, clearContext, State.onFull, hi.full, hi.time, hi.batch, Option.some.injEq] at h2
  subst h2
  simp only [State.read, hi.view, hvs, Option.map_some, block_set hi.alloc, Option.some.injEq]
  by_cases hw0 : e.slice.1 < e.slice.2
  case neg =>
    have hnil : v.cells = [] := by
      rcases List.eq_nil_or_concat v.cells with h | ⟨l, x, h⟩
      · exact h
      · obtain ⟨-, _, f, -, h1, h2, -⟩ := fits_cell hf hv (show x ∈ v.cells by rw [h]; simp)
        omega
    have hw0' : w = 0 := by omega
    rw [hd2, hnil]
    simp [readCells, hw0']
  obtain ⟨w', hw', hcells, hwN⟩ := view_row hf hv hk hb hw0
  have hww : w' = w := hw'
  subst hww
  rw [hctx, Nat.add_zero] at hcells
  set N := net.hubs[e.hub].size with hN
  set base := hubBase net.hubs T B e.hub with hbase
  set c := net.hubs[e.hub].ctx with hcdef
  let row (t : Nat) : List Nat := (List.range B).flatMap (fun b => (List.range w).map (fun f =>
    base + t * (B * N) + b * N + (e.slice.1 + f)))
  have hcells' : v.cells = (List.range T).flatMap row := hcells
  have hrowlen : ∀ t, (row t).length = B * w := fun t => by
    rw [length_flatMap_const _ _ w (by simp)]; simp
  -- a cell of row `t` is cleared iff `t` is in the cleared range
  have hrow : ∀ t < T, ∀ x ∈ row t,
      (x ∈ hubCells net T B e.hub [(clearStart T c, T + c)] ↔ clearStart T c ≤ t) := by
    intro t ht x hx
    simp only [row, List.mem_flatMap, List.mem_map, List.mem_range] at hx
    obtain ⟨b', hb', f', hf', rfl⟩ := hx
    have hrb := row_bounds (base := base) (t := t) (lo := e.slice.1) hb' (show e.slice.1 + f' < N by omega)
    rw [hubCells_eq net T B _ hk, drop2_shape _ T B hb, mem_rows (by omega), ← hN, ← hbase]
    constructor
    · rintro ⟨t', h1', h2', h3', h4'⟩
      rcases Nat.lt_trichotomy t t' with hlt | heq | hgt
      · have : (t + 1) * (B * N) ≤ t' * (B * N) := Nat.mul_le_mul_right _ (by omega)
        have e2 : (t + 1) * (B * N) = t * (B * N) + B * N := by ring
        omega
      · omega
      · have : (t' + 1) * (B * N) ≤ t * (B * N) := Nat.mul_le_mul_right _ (by omega)
        have e2 : (t' + 1) * (B * N) = t' * (B * N) + B * N := by ring
        omega
    · intro h'
      exact ⟨t, h', by omega, hrb.1, hrb.2⟩
  have hcellbound : ∀ t < T, ∀ x ∈ row t, base ≤ x ∧ x < hubBase net.hubs T B (e.hub + 1) := by
    intro t ht x hx
    refine viewOf_bounds hv x ?_
    rw [hcells']
    exact List.mem_flatMap.2 ⟨t, List.mem_range.2 ht, hx⟩
  have hval : ∀ t < T, ∀ x ∈ row t,
      (net.hubs.zipIdx.foldl (fun m hk =>
        if hk.1.btype = 2 ∧ hk.1.ctx ≠ 0 then
          zeroCells m (hubCells net T B hk.2 [(clearStart T hk.1.ctx, T + hk.1.ctx)])
        else m) (block st₁.heap b)).getD x 0 =
      if c ≠ 0 ∧ clearStart T c ≤ t then 0 else (block st₁.heap b).getD x 0 := by
    intro t ht x hx
    rw [clearContext_cell net T B _ x hk (hcellbound t ht x hx)]
    have := hrow t ht x hx
    simp only [← hcdef, hb, true_and, this]
  rw [hd2, hcells']
  refine ⟨fun hcT => ?_, fun hor => ?_⟩
  · have hstart : clearStart T c = T - c := by simp [clearStart, hcT]
    have hsplit : List.range T = List.range (T - c) ++ (List.range c).map (T - c + ·) := by
      rw [← List.range_add]; congr 1; omega
    have hlen1 : ((List.range (T - c)).flatMap row).length = (T - c) * (B * w) := by
      rw [length_flatMap_const _ _ _ hrowlen]; simp
    rw [hsplit, List.flatMap_append, readCells_append, readCells_append,
      List.take_append_of_le_length (by rw [readCells, List.length_map, hlen1])]
    rw [List.take_of_length_le (by rw [readCells, List.length_map, hlen1])]
    congr 1
    · unfold readCells
      refine List.map_congr_left (fun x hx => ?_)
      obtain ⟨t, ht, hx⟩ := List.mem_flatMap.1 hx
      have ht := List.mem_range.1 ht
      rw [hval t (by omega) x hx, hstart, if_neg (by omega)]
    · have hlen2 : (((List.range c).map (T - c + ·)).flatMap row).length = c * (B * w) := by
        rw [length_flatMap_const _ _ _ hrowlen]; simp
      rw [← hlen2, readCells, ← List.map_const']
      refine List.map_congr_left (fun x hx => ?_)
      obtain ⟨t, ht, hx⟩ := List.mem_flatMap.1 hx
      obtain ⟨i, hi', rfl⟩ := List.mem_map.1 ht
      have hi' := List.mem_range.1 hi'
      rw [hval _ (by omega) x hx, hstart, if_pos (by omega)]
  · unfold readCells
    refine List.map_congr_left (fun x hx => ?_)
    obtain ⟨t, ht, hx⟩ := List.mem_flatMap.1 hx
    have ht := List.mem_range.1 ht
    rw [hval t ht x hx, if_neg]
    rintro ⟨h3, h4⟩
    rcases hor with h5 | h5
    · exact h3 h5
    · simp [clearStart, show ¬ c ≤ T by omega] at h4
      omega

end

end Verif.Buffers
