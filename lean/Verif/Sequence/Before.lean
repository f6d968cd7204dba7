import Verif.Sequence.Passes

/-!
# C78: what lies before the first step
-/

namespace Verif.Sequence

open Verif.Structure Verif.Layout Verif.Buffers Verif.Memory Verif.EndToEnd
open Verif.Session

section
variable {layers : List LayerInfo} {L : Layout} {T B : ℕ} {data : LayerInfo} {rest : List LayerInfo} {t : Name} {s : Struct} {e : ArrayEntry}
  {h : HubInfo}

/-- Which entries of an array `clear_context` clears. -/
theorem Loc.context_iff (hL : Laid layers L) (hl : Loc layers L t s e h) {row k : ℕ} (hr : row < rows s T B) (hk : k < s.featureSize) :
    hubBase (netOf layers L).hubs T B e.hub + row * h.size + (e.slice.1 + k) ∈ contextRows (netOf layers L) T B ↔
      s.bufferType = 2 ∧ h.ctx ≠ 0 ∧ clearStart T h.ctx * B ≤ row := by
  obtain ⟨t1, t2, t3⟩ := hl.type (by omega)
  have hN : 0 < h.size := by omega
  obtain ⟨h', hE⟩ := hL.entry (T := T) (B := B) hl.get
  have hbd := hE.bounds _ (hl.mem hr hk)
  obtain ⟨hj, hj'⟩ := List.getElem?_eq_some_iff.1 hl.hub
  have hcs : clearStart T h.ctx * B * h.size = clearStart T h.ctx * (B * h.size) := by ring
  constructor
  · rintro ⟨j, h₁, hj₁, ⟨hb, hc⟩, hm⟩
    obtain ⟨hk₁, rfl⟩ := List.getElem?_eq_some_iff.1 hj₁
    rw [hubCells_eq _ _ _ _ hk₁] at hm
    have hbd' := cellsOf_bounds _ _ _ _ hm
    rw [← hubBase_succ _ _ _ _ hk₁] at hbd'
    have : j = e.hub := offset_unique hbd' hbd
    subst this
    rw [hj'] at hb hc hm
    rw [drop2_shape _ _ _ hb, mem_rows (by omega)] at hm
    obtain ⟨q, q1, -, q3, -⟩ := hm
    refine ⟨t1.trans hb, hc, ?_⟩
    have h1 : clearStart T h.ctx * (B * h.size) ≤ q * (B * h.size) := Nat.mul_le_mul_right _ q1
    by_contra hlt
    have h2 : (row + 1) * h.size ≤ clearStart T h.ctx * B * h.size := Nat.mul_le_mul_right _ (by omega)
    have h3 : (row + 1) * h.size = row * h.size + h.size := by ring
    omega
  · rintro ⟨hb, hc, hle⟩
    have hb2 : h.btype = 2 := t1 ▸ hb
    refine ⟨e.hub, h, hl.hub, ⟨hb2, hc⟩, ?_⟩
    rw [hubCells_eq _ _ _ _ hj, hj', drop2_shape _ _ _ hb2, mem_rows (by omega)]
    have hB : 0 < B := by
      rcases Nat.eq_zero_or_pos B with g | g
      · subst g; simp [rows, hb] at hr
      · exact g
    have hr' : row < (T + s.contextSize) * B := by simpa [rows, hb] using hr
    have e1 : row / B < T + s.contextSize := (Nat.div_lt_iff_lt_mul hB).2 hr'
    have e2 : clearStart T h.ctx ≤ row / B := (Nat.le_div_iff_mul_le hB).2 hle
    have e4 := Nat.div_add_mod row B
    have e5 := Nat.mod_lt row hB
    have e6 : row * h.size = row / B * (B * h.size) + row % B * h.size := by
      calc row * h.size = (B * (row / B) + row % B) * h.size := by rw [e4]
        _ = _ := by ring
    have e7 : row % B * h.size + h.size ≤ B * h.size := by
      calc row % B * h.size + h.size = (row % B + 1) * h.size := by ring
        _ ≤ _ := Nat.mul_le_mul_right _ e5
    exact ⟨row / B, e2, by omega, by omega, by omega⟩

variable {P : ℕ → ℕ → List MLayer}

theorem rec1_rows (n T B : ℕ) : rows (rec1 n) T B = (T + 1) * B := rfl

/-- The context row of an output or internal of a recurrent layer. -/
theorem rec_context (S : Sited layers L data rest P) {l : LayerInfo} (hl : l ∈ rest) {c : Src} (hc : c = .out ∨ c = .int) {x : Name} {n : ℕ}
    (hx : (x, rec1 n) ∈ c.shapes l) : ∃ e h, Loc layers L (path l.name c.str x) (rec1 n) e h ∧
      (0 < n → h.btype = 2 ∧ 1 ≤ h.ctx ∧ e.slice.1 + n ≤ h.size) ∧
      ∀ T B q k s, q < B → k < n → forward (P T B) s ((cells (netOf layers L) T B (path l.name c.str x)).getD ((T * B + q) * n + k) 0) =
        s (hubBase (netOf layers L).hubs T B e.hub + (T * B + q) * h.size + (e.slice.1 + k)) := by
  have hll := S.ordered.mem hl
  have hs : Dict.get? (networkArrays layers) (path l.name c.str x) = some (rec1 n) := by
    rcases hc with rfl | rfl
    · exact array_get S.laid.wf hll (by simp [layerCats, Src.str, Src.shapes]) hx
    · exact array_get S.laid.wf hll (by simp [layerCats, Src.str, Src.shapes]) hx
  obtain ⟨e, h, hloc⟩ := loc S.laid hs
  have hfs := featureSize_rec1 n
  refine ⟨e, h, hloc, fun hn => ?_, fun T B q k s hq hk => ?_⟩
  · obtain ⟨t1, t2, t3⟩ := hloc.type (by omega)
    rw [hfs] at t3
    exact ⟨t1.symm, t2, t3⟩
  · have hr : T * B + q < rows (rec1 n) T B := by rw [rec1_rows, Nat.add_mul]; omega
    have hk' : k < (rec1 n).featureSize := by omega
    have hg := hloc.getD (T := T) (B := B) hr hk'
    rw [hfs] at hg
    rw [hg]
    refine context_kept S hl hc hx rfl (hloc.mem hr hk') ?_ s
    rw [hloc.main_iff S.laid hk', rows_noContext, hloc.struct]
    show ¬ T * B + q < T * B
    omega

/-- Without a context, there are zeros before the first step. -/
theorem fresh_before (S : Sited layers L data rest P) {d : List (Name × List ℝ)} {θ : List ℝ} {m : Mem}
    (H : Found layers L data T B d θ (contextRows (netOf layers L) T B) m) {l : LayerInfo} (hl : l ∈ rest) {c : Src} (hc : c = .out ∨ c = .int)
    {x : Name} {n : ℕ} (hx : (x, rec1 n) ∈ c.shapes l) {q k : ℕ} (hq : q < B) (hk : k < n) :
    forward (P T B) m ((cells (netOf layers L) T B (path l.name c.str x)).getD ((T * B + q) * n + k) 0) = 0 := by
  obtain ⟨e, h, hloc, ht, hf⟩ := rec_context S hl hc hx
  obtain ⟨h1, h2, h3⟩ := ht (by omega)
  have hr : T * B + q < rows (rec1 n) T B := by rw [rec1_rows, Nat.add_mul]; omega
  have hk' : k < (rec1 n).featureSize := by rw [featureSize_rec1]; exact hk
  rw [hf T B q k m hq hk]
  refine H.erased _ ((hloc.context_iff S.laid hr hk').2 ⟨rfl, by omega, ?_⟩) (cells_lt (hloc.mem hr hk'))
  have : clearStart T h.ctx ≤ T := by
    unfold clearStart
    split
    · omega
    · rcases S.short T h (List.mem_of_getElem? hloc.hub) with g | g
      · omega
      · omega
  have := Nat.mul_le_mul_right B this
  omega

variable {A : Align}

/-- The last step of the data is erased in both passes or in none. -/
theorem fresh_erase (hL : Laid layers L) (hctx : ∀ h ∈ (netOf layers L).hubs, h.ctx ≤ 1) (hd : data ∈ layers) (ho : A.o = 0)
    (hA : A.T = A.T' ∨ (A.n < A.T ∧ A.n < A.T') ∨ DataAlone layers L data) {x : Name} {sh : Struct} (hx : (x, sh) ∈ data.outShapes)
    {r r' : ℕ} (hr : A.Rows sh r r') {k : ℕ} (hk : k < sh.featureSize) :
    ((cells (netOf layers L) A.T A.B (path data.name (str "outputs") x)).getD (r * sh.featureSize + k) 0 ∈
        contextRows (netOf layers L) A.T A.B ↔
      (cells (netOf layers L) A.T' A.B' (path data.name (str "outputs") x)).getD (r' * sh.featureSize + k) 0 ∈
        contextRows (netOf layers L) A.T' A.B') := by
  obtain ⟨e, h, hloc⟩ := loc hL (array_get hL.wf hd (cat := str "outputs") (sh := data.outShapes) (by simp [layerCats]) hx)
  have hrow := Align.lt_rows hr
  rw [hloc.getD hrow.1 hk, hloc.getD hrow.2 hk, hloc.context_iff hL hrow.1 hk, hloc.context_iff hL hrow.2 hk]
  by_cases hb : sh.bufferType = 2
  swap
  · simp [hb]
  by_cases hc : h.ctx = 0
  · simp [hc]
  have hc1 : h.ctx = 1 := by have := hctx h (List.mem_of_getElem? hloc.hub); omega
  obtain ⟨t, ht, rfl, rfl⟩ := (Align.rows_seq hb).1 hr
  have h1 := A.steps
  have h2 := A.steps'
  have key : ∀ T B q : ℕ, t < T → q < B → (clearStart T h.ctx * B ≤ t * B + q ↔ T - 1 ≤ t) := by
    intro T B q hT hq
    rw [hc1, clearStart, if_pos (by omega)]
    constructor
    · intro g
      by_contra hlt
      have : (t + 1) * B ≤ (T - 1) * B := Nat.mul_le_mul_right _ (by omega)
      rw [Nat.add_mul] at this
      omega
    · intro g
      have := Nat.mul_le_mul_right B g
      omega
  rw [ho, Nat.zero_add, key _ _ _ (by omega) A.seq, key _ _ _ (by omega) A.seq']
  have : A.T - 1 ≤ t ↔ A.T' - 1 ≤ t := by
    rcases hA with hA | hA | hA
    · rw [hA]
    · omega
    · exact absurd (hA x sh e h hx hloc.get hloc.hub) hc
  rw [this]

end

end Verif.Sequence
