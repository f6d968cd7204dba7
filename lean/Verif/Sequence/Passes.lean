import Verif.Sequence.Context
import Verif.Session.Props

/-!
# C78: two passes
-/

namespace Verif.Sequence

open Verif.Structure Verif.Layout Verif.Buffers Verif.Memory Verif.EndToEnd
open Verif.Session

section
variable {layers : List LayerInfo} {L : Layout} {T B : ℕ} {data : LayerInfo} {rest : List LayerInfo}

/-- What the layers find: the parameters and the data, except where `E` is erased. -/
structure Found (layers : List LayerInfo) (L : Layout) (data : LayerInfo) (T B : ℕ) (d : List (Name × List ℝ)) (θ : List ℝ) (E : Set ℕ)
    (s : Mem) : Prop where
  params : (cells (netOf layers L) T B (str "parameters")).map s = θ
  data : ∀ x ∈ d, ∀ (i c : ℕ), (cells (netOf layers L) T B (path data.name (str "outputs") x.1))[i]? = some c →
    c ∈ mainCells (netOf layers L) T B (path data.name (str "outputs") x.1) → c ∉ E → x.2[i]? = some (s c)
  erased : ∀ c ∈ E, c < total (netOf layers L) T B → s c = 0

variable {P : ℕ → ℕ → List MLayer}

/-- The value of a parameter. -/
theorem Found.param (S : Sited layers L data rest P) {d : List (Name × List ℝ)} {θ : List ℝ} {E : Set ℕ} {s : Mem}
    (H : Found layers L data T B d θ E s) {i : ℕ} {a : ℕ} (h : (cells (netOf layers L) T B (str "parameters"))[i]? = some a) :
    θ[i]? = some (forward (P T B) s a) := by
  rw [(C72_parameters_kept S.laid S.ordered (S.site T B) (S.honest T B) s a (List.mem_of_getElem? h)).1, ← H.params, List.getElem?_map, h]
  rfl

variable {A : Align}

/-- The parameters are the same in two passes. -/
theorem params_same (S : Sited layers L data rest P) {d d' : List (Name × List ℝ)} {θ : List ℝ} {E E' : Set ℕ} {s s' : Mem}
    (H : Found layers L data A.T A.B d θ E s) (H' : Found layers L data A.T' A.B' d' θ E' s') {l : LayerInfo} (hl : l ∈ layers)
    {x : Name} {sh : Struct} (hx : (x, sh) ∈ l.paramShapes) {j : ℕ} (hj : j < sh.featureSize) :
    value (netOf layers L) A.T A.B l.name (forward (P A.T A.B) s) ⟨str "parameters", x, j⟩ =
      value (netOf layers L) A.T' A.B' l.name (forward (P A.T' A.B') s') ⟨str "parameters", x, j⟩ := by
  obtain ⟨i, hi⟩ := param_index S.laid hl hx hj
  obtain ⟨a, h1, h2⟩ := hi A.T A.B
  obtain ⟨a', h1', h2'⟩ := hi A.T' A.B'
  have e1 := H.param S h2
  rw [H'.param S h2'] at e1
  show forward _ s ((cells _ _ _ _).getD j 0) = forward _ s' ((cells _ _ _ _).getD j 0)
  rw [List.getD_eq_getElem?_getD, List.getD_eq_getElem?_getD, h1, h1']
  exact (Option.some.inj e1).symm

/-- The data are the same in two passes. -/
theorem data_same (S : Sited layers L data rest P) {d d' : List (Name × List ℝ)} {θ : List ℝ} {E E' : Set ℕ} {s s' : Mem}
    (H : Found layers L data A.T A.B d θ E s) (H' : Found layers L data A.T' A.B' d' θ E' s')
    (cd : ∀ e ∈ data.outShapes, ∃ xs, (e.1, xs) ∈ d) (cd' : ∀ e ∈ data.outShapes, ∃ xs, (e.1, xs) ∈ d')
    (same : ∀ x sh xs xs', (x, sh) ∈ data.outShapes → (x, xs) ∈ d → (x, xs') ∈ d' →
      A.Same sh (fun j => xs.getD j 0) (fun j => xs'.getD j 0))
    (erase : ∀ x sh, (x, sh) ∈ data.outShapes → ∀ r r', A.Rows sh r r' → ∀ k < sh.featureSize,
      ((cells (netOf layers L) A.T A.B (path data.name (str "outputs") x)).getD (r * sh.featureSize + k) 0 ∈ E ↔
        (cells (netOf layers L) A.T' A.B' (path data.name (str "outputs") x)).getD (r' * sh.featureSize + k) 0 ∈ E'))
    {x : Name} {sh : Struct} (hx : (x, sh) ∈ data.outShapes) :
    A.Same sh (fun j => value (netOf layers L) A.T A.B data.name (forward (P A.T A.B) s) ⟨str "outputs", x, j⟩)
      (fun j => value (netOf layers L) A.T' A.B' data.name (forward (P A.T' A.B') s') ⟨str "outputs", x, j⟩) := by
  intro r r' hr k hk
  obtain ⟨xs, hxs⟩ := cd _ hx
  obtain ⟨xs', hxs'⟩ := cd' _ hx
  have hs := same x sh xs xs' hx hxs hxs' r r' hr k hk
  have he := erase x sh hx r r' hr k hk
  have hdm : data ∈ layers := S.data_mem
  obtain ⟨e, h, hloc⟩ := loc S.laid (array_get S.laid.wf hdm (cat := str "outputs") (sh := data.outShapes) (by simp [layerCats]) hx)
  have hrow := Align.lt_rows hr
  have hmr := main_rows hloc.struct hr
  have hg := hloc.getD hrow.1 hk
  have hg' := hloc.getD hrow.2 hk
  rw [hg, hg'] at he
  have hm := (hloc.main_iff S.laid (T := A.T) (B := A.B) hk).2 hmr.1
  have hm' := (hloc.main_iff S.laid (T := A.T') (B := A.B') hk).2 hmr.2
  have hc := hloc.cell A.T A.B r k hrow.1 hk
  have hc' := hloc.cell A.T' A.B' r' k hrow.2 hk
  show forward _ s ((cells _ _ _ _).getD _ 0) = forward _ s' ((cells _ _ _ _).getD _ 0)
  rw [hg, hg', data_kept S hx hm, data_kept S hx hm']
  by_cases hE : hubBase (netOf layers L).hubs A.T A.B e.hub + r * h.size + (e.slice.1 + k) ∈ E
  · rw [H.erased _ hE (cells_lt (List.mem_of_getElem? hc)), H'.erased _ (he.1 hE) (cells_lt (List.mem_of_getElem? hc'))]
  · have h1 := H.data _ hxs _ _ hc hm hE
    have h2 := H'.data _ hxs' _ _ hc' hm' fun g => hE (he.2 g)
    simp only [List.getD_eq_getElem?_getD, h1, h2, Option.getD_some] at hs
    exact hs

/-- Two passes over the same parameters and the same steps of a sequence. -/
theorem compare (F : Memory.Fits layers L data rest) (ps : ∀ T B, ∀ l ∈ rest, LibLayer layers data l T B) {M : Mode}
    {ty : LayerInfo → Name} {kw : LayerInfo → Setup.Kwargs} (hps : ∀ T B l hl, Describes M (ty l) (kw l) (ps T B l hl))
    (S : Sited layers L data rest fun T B => libNetwork F (ps T B)) {d d' : List (Name × List ℝ)} {θ : List ℝ} {E E' : Set ℕ} {s s' : Mem}
    (H : Found layers L data A.T A.B d θ E s) (H' : Found layers L data A.T' A.B' d' θ E' s') {v v' : LayerInfo → Slot → ℝ}
    (ev : ∀ l, v l = value (netOf layers L) A.T A.B l.name (forward (libNetwork F (ps A.T A.B)) s))
    (ev' : ∀ l, v' l = value (netOf layers L) A.T' A.B' l.name (forward (libNetwork F (ps A.T' A.B')) s'))
    (cd : ∀ e ∈ data.outShapes, ∃ xs, (e.1, xs) ∈ d) (cd' : ∀ e ∈ data.outShapes, ∃ xs, (e.1, xs) ∈ d')
    (same : ∀ x sh xs xs', (x, sh) ∈ data.outShapes → (x, xs) ∈ d → (x, xs') ∈ d' →
      A.Same sh (fun j => xs.getD j 0) (fun j => xs'.getD j 0))
    (erase : ∀ x sh, (x, sh) ∈ data.outShapes → ∀ r r', A.Rows sh r r' → ∀ k < sh.featureSize,
      ((cells (netOf layers L) A.T A.B (path data.name (str "outputs") x)).getD (r * sh.featureSize + k) 0 ∈ E ↔
        (cells (netOf layers L) A.T' A.B' (path data.name (str "outputs") x)).getD (r' * sh.featureSize + k) 0 ∈ E'))
    (hbo : ∀ l ∈ rest, ty l ≠ str "Loss" → ∀ x n, (x, rec1 n) ∈ l.outShapes →
      A.SameBefore (rec1 n) (fun j => v l ⟨str "outputs", x, j⟩) (fun j => v' l ⟨str "outputs", x, j⟩))
    (hbc : ∀ l ∈ rest, ∀ n, ty l = str "Lstm" ∨ ty l = str "ClockworkLstm" → (str "Ca", rec1 n) ∈ l.internalShapes →
      A.SameBefore (rec1 n) (fun j => v l ⟨str "internals", str "Ca", j⟩) (fun j => v' l ⟨str "internals", str "Ca", j⟩))
    (hK : ∀ l ∈ rest, ty l ≠ str "Loss" → Alike A M (ty l) l (v l)) :
    ∀ l ∈ rest, ty l ≠ str "Loss" → Writes A (ty l) l (v l) (v' l) := by
  refine network_same F (ps A.T A.B) (ps A.T' A.B') (hps _ _) (hps _ _) s s' ev ev' ?_ ?_ hbo hbc hK
  · intro l hl x sh hx j hj
    rw [ev, ev']
    exact params_same S H H' hl hx hj
  · intro x sh hx
    rw [ev, ev']
    exact data_same S H H' cd cd' same erase hx

/-- A pass without a context. -/
theorem fresh (S : Sited layers L data rest P) {st : State ℝ} {T B sz k : ℕ} {vs : List (Name × View)}
    (i : Inv (netOf layers L) st T B sz k vs) {b : Batch} (hb : b.Good data) {θ : List ℝ} (hθ : st.read (str "parameters") = some θ) :
    ∃ st₁ st₂ s sz k vs, provide (netOf layers L) data.name b st = some st₁ ∧ forwardPass (netOf layers L) P b.rnd st₁ = some st₂ ∧
      Inv (netOf layers L) st₂ b.T b.B sz k vs ∧ (∀ c < total (netOf layers L) b.T b.B, memOf st₂ c = forward (P b.T b.B) s c) ∧
      st₂.read (str "parameters") = some θ ∧
      Found layers L data b.T b.B b.data θ (contextRows (netOf layers L) b.T b.B) s := by
  obtain ⟨st₁, h1, hr, r1⟩ := provide_ready S.laid S.data_mem i hb
  have hl := before_loaded S.laid S.data_mem hb hr (r1.trans hθ)
  obtain ⟨sz, k, vs, i1, -⟩ := hr
  obtain ⟨st₂, h2, i2, m2, r2⟩ := forwardPass_spec S i1 b.rnd
  exact ⟨st₁, st₂, _, sz, k, vs, h1, h2, i2, m2, by rw [r2, r1, hθ], hl.params, fun x hx i c hi _ hn => hl.data x hx i c hi hn, hl.context⟩

/-- Rows of time steps are not where a context is applied. -/
theorem main_not_applied (hL : Laid layers L) {t : Name} {c : ℕ} (hc : c ∈ mainCells (netOf layers L) T B t) {j : ℕ} {h : HubInfo}
    (hj : (netOf layers L).hubs[j]? = some h) (hb : h.btype = 2) : c ∉ hubCells (netOf layers L) T B j [(T, T + h.ctx)] := by
  intro hm
  have hwl := netOf_wellLaid hL.wf hL.shaped hL.layout
  obtain ⟨e, he⟩ := main_entry hc
  obtain ⟨h', hE⟩ := hL.entry (T := T) (B := B) he
  obtain ⟨hj', rfl⟩ := List.getElem?_eq_some_iff.1 hj
  rw [hubCells_eq _ _ _ _ hj'] at hm
  have hbd := cellsOf_bounds _ _ _ c hm
  rw [← hubBase_succ _ _ _ _ hj'] at hbd
  have : j = e.hub := offset_unique hbd (hE.bounds c (hL.main_sub hc))
  subst this
  have hh : (netOf layers L).hubs[e.hub] = h' := Option.some.inj ((List.getElem?_eq_getElem hj').symm.trans hE.hub)
  rw [drop2_shape _ _ _ hb, mem_rows (by omega)] at hm
  obtain ⟨q, q1, -, q3, -⟩ := hm
  obtain ⟨row, f, g1, g2, g3, g4⟩ := (hE.mainMem c).1 hc
  obtain ⟨hk, hor⟩ := hwl.fits _ (Dict.mem_of_get? he)
  simp only at hor
  rcases hor with ⟨t1, -, -, t4, -, -⟩ | ⟨-, -, t3, -⟩
  swap
  · omega
  rw [rows_noContext, t1, hb] at g1
  simp only at g1
  rw [hh] at q3 t4
  have e1 : row * h'.size + h'.size ≤ T * B * h'.size := by
    calc row * h'.size + h'.size = (row + 1) * h'.size := by ring
      _ ≤ _ := Nat.mul_le_mul_right _ g1
  have e2 : T * B * h'.size ≤ q * (B * h'.size) := by
    rw [Nat.mul_assoc]
    exact Nat.mul_le_mul_right _ q1
  omega

theorem param_main (hL : Laid layers L) {c : ℕ} (hc : c ∈ cells (netOf layers L) T B (str "parameters")) :
    c ∈ mainCells (netOf layers L) T B (str "parameters") := by
  have he' : Dict.get? (netOf layers L).layout (str "parameters") = some (rootOf L (str "parameters")).2 := by
    simp [netOf, rootOf, Dict.get?]
  obtain ⟨h, hE⟩ := hL.entry (T := T) (B := B) he'
  obtain ⟨row, f, h1, h2⟩ := (hE.mem c).1 hc
  refine (hE.mainMem c).2 ⟨row, f, ?_, h2⟩
  have : (rootOf L (str "parameters")).2.struct.bufferType = 0 := by simp [rootOf, Struct.bufferType, typeOf]
  rw [rows_noContext, this]
  simpa [rows, this] using h1

/-- A pass with the context of the state `stp`. -/
theorem resumed (S : Sited layers L data rest P) {stp : State ℝ} {Tp szp kp : ℕ} {vsp : List (Name × View)} {b : Batch}
    (ip : Inv (netOf layers L) stp Tp b.B szp kp vsp) (hctx : ∀ h ∈ (netOf layers L).hubs, h.ctx ≤ Tp)
    {st : State ℝ} {T B sz k : ℕ} {vs : List (Name × View)}
    (i : Inv (netOf layers L) st T B sz k vs) (hb : b.Good data) {θ : List ℝ} (hθ : st.read (str "parameters") = some θ) :
    ∃ st₁ st₂ s sz k vs, provide (netOf layers L) data.name b st = some st₁ ∧
      forwardFrom (netOf layers L) P (some (contextOf (netOf layers L) Tp b.B (block stp.heap kp))) b.rnd st₁ = some st₂ ∧
      Inv (netOf layers L) st₂ b.T b.B sz k vs ∧ (∀ c < total (netOf layers L) b.T b.B, memOf st₂ c = forward (P b.T b.B) s c) ∧
      st₂.read (str "parameters") = some θ ∧ Found layers L data b.T b.B b.data θ ∅ s ∧
      ∀ j h, (netOf layers L).hubs[j]? = some h → h.btype = 2 → ∀ i < h.ctx, ∀ q < b.B, ∀ f < h.size,
        hubBase (netOf layers L).hubs b.T b.B j + ((b.T + i) * b.B + q) * h.size + f < total (netOf layers L) b.T b.B →
        s (hubBase (netOf layers L).hubs b.T b.B j + ((b.T + i) * b.B + q) * h.size + f) =
          memOf stp (hubBase (netOf layers L).hubs Tp b.B j + ((Tp - h.ctx + i) * b.B + q) * h.size + f) := by
  obtain ⟨st₁, h1, ⟨sz₁, k₁, vs₁, i1, rd⟩, r1⟩ := provide_ready S.laid S.data_mem i hb
  obtain ⟨st₂, h2, i2, a2, o2⟩ := applyContext_inv ip hctx i1
  obtain ⟨st₃, h3, i3, m3⟩ := onMemory_inv i2 b.rnd fun T B => forward (P T B)
  obtain ⟨ep, hep⟩ := params_entry (layers := layers) (L := L)
  have hpar : (cells (netOf layers L) b.T b.B (str "parameters")).map (seen (netOf layers L) b.T b.B b.rnd (memOf st₂)) = θ := by
    have e1 : st₁.read (str "parameters") = some θ := r1.trans hθ
    rw [read_inv S.laid i1 hep, Option.some.injEq] at e1
    rw [← e1]
    refine List.map_congr_left fun c hc => ?_
    rw [seen, if_pos (cells_lt hc)]
    exact o2 c fun j h hj hb _ => main_not_applied S.laid (param_main S.laid hc) hj hb
  refine ⟨st₁, st₃, seen (netOf layers L) b.T b.B b.rnd (memOf st₂), sz₁, k₁, vs₁, h1,
    by simp only [forwardFrom, prepareForward, h2, Option.bind_some, h3], i3, m3, ?_, ⟨hpar, ?_, ?_⟩, ?_⟩
  · rw [read_inv S.laid i3 hep, ← hpar]
    congr 1
    refine List.map_congr_left fun c hc => ?_
    rw [m3 c (cells_lt hc), (C72_parameters_kept S.laid S.ordered (S.site _ _) (S.honest _ _) _ c hc).1]
  · intro x hx i c hi hm _
    obtain ⟨s, hs, -⟩ := hb.sizes x hx
    obtain ⟨e, he⟩ := out_entry S.laid S.data_mem hs
    have := rd x hx
    rw [read_inv S.laid i1 he, Option.some.injEq] at this
    rw [← this, List.getElem?_map, hi, Option.map_some, seen, if_pos (cells_lt (List.mem_of_getElem? hi)),
      o2 c fun j h hj hb _ => main_not_applied S.laid hm hj hb]
  · intro c hc
    exact absurd hc (Set.notMem_empty c)
  · intro j h hj hb i hi q hq f hf hlt
    rw [seen, if_pos hlt]
    exact a2 j h hj hb i hi q hq f hf

end

end Verif.Sequence
