import Verif.Sequence.Network
import Verif.Session.Passes

/-!
# C78: where the rows of a sequence are, and what a pass leaves of them
-/

namespace Verif.Sequence

open Verif.Structure Verif.Layout Verif.Buffers Verif.Memory Verif.EndToEnd
open Verif.Session

section
variable {layers : List LayerInfo} {L : Layout} {T B : ℕ} {data : LayerInfo} {rest : List LayerInfo}

/-- The place of an array in the hubs. -/
structure Loc (layers : List LayerInfo) (L : Layout) (t : Name) (s : Struct) (e : ArrayEntry) (h : HubInfo) : Prop where
  get : Dict.get? (netOf layers L).layout t = some e
  hub : (netOf layers L).hubs[e.hub]? = some h
  struct : e.struct = s
  type : 0 < s.featureSize → s.bufferType = h.btype ∧ s.contextSize ≤ h.ctx ∧ e.slice.1 + s.featureSize ≤ h.size
  cell : ∀ T B row j, row < rows s T B → j < s.featureSize → (cells (netOf layers L) T B t)[row * s.featureSize + j]? =
      some (hubBase (netOf layers L).hubs T B e.hub + row * h.size + (e.slice.1 + j))

theorem loc (hL : Laid layers L) {t : Name} {s : Struct} (hs : Dict.get? (networkArrays layers) t = some s) :
    ∃ e h, Loc layers L t s e h := by
  obtain ⟨e, he⟩ := array_entry hL hs
  have hwl := netOf_wellLaid hL.wf hL.shaped hL.layout
  have hst := netOf_struct hL.wf hs he
  have hf : Buffers.Fits (netOf layers L).hubs e := hwl.fits _ (Dict.mem_of_get? he)
  have hw := hL.width hs he
  obtain ⟨hk, hor⟩ := hf
  refine ⟨e, _, he, List.getElem?_eq_getElem hk, hst, fun hpos => ?_, fun T B row j hr hj =>
    hL.cell hs he (List.getElem?_eq_getElem hk) T B row j hr hj⟩
  rcases hor with ⟨h1, -, h3, h4, -, h6⟩ | ⟨-, -, h3, -⟩
  · rw [← hst]
    rw [← hst] at hw
    exact ⟨h1, h6, by omega⟩
  · omega

theorem Loc.getD {t : Name} {s : Struct} {e : ArrayEntry} {h : HubInfo} (hl : Loc layers L t s e h) {row j : ℕ} (hr : row < rows s T B)
    (hj : j < s.featureSize) : (cells (netOf layers L) T B t).getD (row * s.featureSize + j) 0 =
      hubBase (netOf layers L).hubs T B e.hub + row * h.size + (e.slice.1 + j) := by
  rw [List.getD_eq_getElem?_getD, hl.cell T B row j hr hj]
  rfl

theorem Loc.mem {t : Name} {s : Struct} {e : ArrayEntry} {h : HubInfo} (hl : Loc layers L t s e h) {row j : ℕ} (hr : row < rows s T B)
    (hj : j < s.featureSize) : hubBase (netOf layers L).hubs T B e.hub + row * h.size + (e.slice.1 + j) ∈ cells (netOf layers L) T B t :=
  List.mem_of_getElem? (hl.cell T B row j hr hj)

/-- Which rows are rows of time steps. -/
theorem Loc.main_iff (hL : Laid layers L) {t : Name} {s : Struct} {e : ArrayEntry} {h : HubInfo} (hl : Loc layers L t s e h) {row j : ℕ}
    (hj : j < s.featureSize) : hubBase (netOf layers L).hubs T B e.hub + row * h.size + (e.slice.1 + j) ∈ mainCells (netOf layers L) T B t ↔
      row < rows (noContext e).struct T B := by
  obtain ⟨h', hE⟩ := hL.entry (T := T) (B := B) hl.get
  have hh : h = h' := Option.some.inj (hl.hub.symm.trans hE.hub)
  subst hh
  have hwl := netOf_wellLaid hL.wf hL.shaped hL.layout
  have hf : Buffers.Fits (netOf layers L).hubs e := hwl.fits _ (Dict.mem_of_get? hl.get)
  have hw : s.featureSize = e.slice.2 - e.slice.1 := by
    rw [← hl.struct, featureSize_prod]
    obtain ⟨hk', hor⟩ := hf
    rcases hor with ⟨-, -, -, -, h, -⟩ | ⟨-, -, h, h'⟩
    · exact h
    · omega
  rw [hE.mainMem]
  constructor
  · rintro ⟨row', f, g1, g2, g3, g4⟩
    obtain ⟨rfl, -⟩ := hE.unique hE rfl (by omega) (by omega) g2 g3 g4
    exact g1
  · intro g
    exact ⟨row, e.slice.1 + j, g, by omega, by omega, rfl⟩

/-- Rows that are compared are rows of time steps. -/
theorem main_rows {A : Align} {s : Struct} {e : ArrayEntry} (he : e.struct = s) {r r' : ℕ} (hr : A.Rows s r r') :
    r < rows (noContext e).struct A.T A.B ∧ r' < rows (noContext e).struct A.T' A.B' := by
  have h1 := A.steps
  have h2 := A.steps'
  have h3 := A.seq
  have h4 := A.seq'
  rw [rows_noContext, rows_noContext, he]
  unfold Align.Rows at hr
  split at hr
  · rename_i e; rw [e]; simp only; omega
  · rename_i e; rw [e]; simp only; omega
  · rename_i e1 e2
    obtain ⟨t, ht, rfl, rfl⟩ := hr
    split
    · rename_i e; exact absurd e e1
    · rename_i e; exact absurd e e2
    · exact ⟨Sequence.row_lt (by omega) h3, Sequence.row_lt (by omega) h4⟩

/-! ### What a pass keeps -/

section
variable {P : ℕ → ℕ → List MLayer}

/-- Context rows of outputs and internals are not changed by a forward pass. -/
theorem context_kept (h : Sited layers L data rest P) {l : LayerInfo} (hl : l ∈ rest) {c : Src} (hc : c = .out ∨ c = .int) {x : Name}
    {s : Struct} (hx : (x, s) ∈ c.shapes l) (hb : s.backwardOnly = false) {a : ℕ} (ha : a ∈ cells (netOf layers L) T B (path l.name c.str x))
    (hm : a ∉ mainCells (netOf layers L) T B (path l.name c.str x)) (s₀ : Mem) : forward (P T B) s₀ a = s₀ a := by
  have hll := h.ordered.mem hl
  have hH : Home layers L T B l c x s a := ⟨hx, ha⟩
  refine (kept h.laid h.ordered (h.site T B) (h.honest T B) s₀ a (fun hbk => ?_) fun m hmm ho => ?_).1
  · have := (hH.back_iff h.laid hll).1 hbk
    rcases hc with rfl | rfl <;> simp [Src.back, hb] at this
  · obtain ⟨k, hk, hsite⟩ := forall₂_right (h.site T B) hmm
    have hkl := h.ordered.mem hk
    have hM : ∀ {c' : Src} {x' : Name} {s' : Struct}, Home layers L T B k c' x' s' a → ¬ Main layers L T B k c' x' a := by
      intro c' x' s' hH' hM
      obtain ⟨rfl, rfl, rfl⟩ := Home.inj h.laid hll hkl hH hH'
      exact hm hM
    rcases ho with ho | ho
    · obtain ⟨x', s', h1, h2⟩ := hsite.outs a ho
      exact hM h1 h2
    · rcases hsite.own a ho with ⟨x', s', h1, h2⟩ | ⟨x', s', h1, -⟩ | ⟨-, x', s', h1, h2⟩
      · rcases h2 with h2 | h2
        · exact hM h1 h2
        · obtain ⟨rfl, rfl, rfl⟩ := Home.inj h.laid hll hkl hH h1
          have := Src.array h.laid.wf hll hx
          obtain ⟨t1, g1, g2⟩ := Src.array h.laid.wf hll hx
          obtain ⟨t2, g3, g4⟩ := Src.array h.laid.wf hll h1.1
          rw [g1] at g3
          cases g3
          rw [g2] at g4
          simp [Src.back, hb, h2] at g4
      · have := (Home.inj h.laid hll hkl hH h1).2.1
        rcases hc with rfl | rfl <;> cases this
      · exact hM h1 h2

/-- Data are not changed by a forward pass. -/
theorem data_kept (h : Sited layers L data rest P) {x : Name} {s : Struct} (hx : (x, s) ∈ data.outShapes) {a : ℕ}
    (ha : a ∈ mainCells (netOf layers L) T B (path data.name (str "outputs") x)) (s₀ : Mem) : forward (P T B) s₀ a = s₀ a :=
  (given_kept h.laid h.ordered (h.site T B) (h.honest T B) s₀ a ((mem_given a).2 (Or.inr ⟨x, s, hx, ha⟩))).1

end

/-- Where a parameter is in the array of all parameters. -/
theorem param_index (hL : Laid layers L) {l : LayerInfo} (hl : l ∈ layers) {x : Name} {s : Struct} (hx : (x, s) ∈ l.paramShapes)
    {j : ℕ} (hj : j < s.featureSize) : ∃ i : ℕ, ∀ T B, ∃ a, (cells (netOf layers L) T B (path l.name (str "parameters") x))[j]? = some a ∧
      (cells (netOf layers L) T B (str "parameters"))[i]? = some a := by
  obtain ⟨hp, hg, n, hrp, -, hal, -⟩ := aligned layers hL.wf L hL.layout
  obtain ⟨lo, hlo, -, hle⟩ := hal l hl (x, s) hx
  have hs := array_get hL.wf hl (cat := str "parameters") (sh := l.paramShapes) (by simp [layerCats]) hx
  obtain ⟨e, h, hloc⟩ := loc hL hs
  obtain ⟨e1, e2⟩ := layout_hub hloc.get hlo
  have hb := hL.shaped.params l hl _ hx
  have hb : s.bufferType = 0 := hb
  have he' : Dict.get? (netOf layers L).layout (str "parameters") = some (rootOf L (str "parameters")).2 := by
    simp [netOf, rootOf, Dict.get?]
  have hroot : (rootOf L (str "parameters")).2.hub = hp ∧ (rootOf L (str "parameters")).2.slice = (0, n) ∧
      (rootOf L (str "parameters")).2.struct.bufferType = 0 := by
    simp [rootOf, hrp, Struct.bufferType, typeOf]
  have hwl := netOf_wellLaid hL.wf hL.shaped hL.layout
  have hw := hL.width hs hloc.get
  rw [e2] at hw
  refine ⟨lo + j, fun T B => ?_⟩
  have hc := hloc.cell T B 0 j (by simp [rows, hb]) hj
  simp only [Nat.zero_mul, Nat.zero_add, Nat.add_zero] at hc
  refine ⟨_, hc, ?_⟩
  obtain ⟨v, hv, -, h0, -⟩ := viewOf_fits (hwl.fits _ (Dict.mem_of_get? he')) T B
  have e3 : cells (netOf layers L) T B (str "parameters") = v.cells := by simp [cells, he', hv]
  simp only at hle hw
  rw [e3, h0 hroot.2.2, hroot.2.1, hroot.1, e1, e2, List.getElem?_map, List.getElem?_range (by simp only; omega)]
  simp

end

end Verif.Sequence
