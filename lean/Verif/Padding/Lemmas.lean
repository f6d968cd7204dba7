import Verif.Padding.Spec
import Verif.Parts.Props

/-!
# C87: steps that are masked out do not contribute to losses
-/

namespace Verif.Padding

open Verif.Structure Verif.Layout Verif.Buffers Verif.Memory Verif.EndToEnd
open Verif.Session Verif.Sequence Verif.Evaluate
open Verif.Architecture (Arch)

section
variable {layers : List LayerInfo} {L : Layout} {data : LayerInfo} {rest : List LayerInfo}

/-- An array of data is what was given, or zero. -/
theorem data_value {P : ℕ → ℕ → List MLayer} (S : Sited layers L data rest P) {T B : ℕ} {d : List (Name × List ℝ)} {θ : List ℝ} {E : Set ℕ} {s : Mem}
    (H : Found layers L data T B d θ E s) {x : Name} {sh : Struct} (hx : (x, sh) ∈ data.outShapes) (hb : sh.bufferType = 2) {xs : List ℝ}
    (hxs : (x, xs) ∈ d) {r : ℕ} (hr : r < T * B) {k : ℕ} (hk : k < sh.featureSize) :
    forward (P T B) s ((cells (netOf layers L) T B (path data.name (str "outputs") x)).getD (r * sh.featureSize + k) 0) = 0 ∨
      forward (P T B) s ((cells (netOf layers L) T B (path data.name (str "outputs") x)).getD (r * sh.featureSize + k) 0) =
        xs.getD (r * sh.featureSize + k) 0 := by
  obtain ⟨e, h, hloc⟩ := loc S.laid (array_get S.laid.wf S.data_mem (cat := str "outputs") (sh := data.outShapes) (by simp [layerCats]) hx)
  have hrow : r < rows sh T B := by
    simp only [rows, hb]
    exact lt_of_lt_of_le hr (Nat.mul_le_mul_right B (by omega))
  have hm := (hloc.main_iff S.laid (T := T) (B := B) (row := r) hk).2 (by
    rw [rows_noContext, hloc.struct, hb]
    exact hr)
  have hc := hloc.cell T B r k hrow hk
  rw [hloc.getD hrow hk, data_kept S hx hm]
  by_cases hE : hubBase (netOf layers L).hubs T B e.hub + r * h.size + (e.slice.1 + k) ∈ E
  · exact Or.inl (H.erased _ hE (cells_lt (List.mem_of_getElem? hc)))
  · right
    rw [List.getD_eq_getElem?_getD, H.data _ hxs _ _ hc hm hE]
    rfl

/-- An entry of an input is an entry of a source of this input, in the same row. -/
theorem input_source (F : Memory.Fits layers L data rest) {l : LayerInfo} (hl : l ∈ rest) {x : Name} {sx : Struct} (hx : (x, sx) ∈ l.inShapes)
    {c : ℕ} (hc : c < sx.featureSize) (m : Mem) {T B r : ℕ} (hr : r < rows sx T B) :
    ∃ p s, Memory.Feeds layers l x p s ∧ s.bufferType = sx.bufferType ∧ ∃ j < s.featureSize,
      value (netOf layers L) T B l.name m ⟨str "inputs", x, r * sx.featureSize + c⟩ =
        m ((cells (netOf layers L) T B p).getD (r * s.featureSize + j) 0) := by
  obtain ⟨off, h1, h2⟩ := C76_inputs F l hl x sx hx
  obtain ⟨p, s, hf, g1, g2, -⟩ := h2 c hc
  obtain ⟨j, rfl⟩ : ∃ j, c = off p + j := ⟨c - off p, by omega⟩
  have hj : j < s.featureSize := by omega
  obtain ⟨a, e1, e2⟩ := (h1 p s hf j hj).2 T B r hr
  refine ⟨p, s, hf, (feeds_type F hl hx hf).1, j, hj, ?_⟩
  show m ((cells _ _ _ _).getD _ 0) = _
  simp only [List.getD_eq_getElem?_getD, e1, e2, Option.getD_some]

/-- What a Mask layer computes. -/
theorem mask_rows (F : Memory.Fits layers L data rest) {T B : ℕ} (ps : ∀ l ∈ rest, LibLayer layers data l T B) {M : Mode} {kw : Setup.Kwargs}
    {l : LayerInfo} (hl : l ∈ rest) (hd : Describes M (str "Mask") kw (ps l hl)) (s : Mem) :
    ∃ x k, l.outShapes = [(str "default", x)] ∧ (str "mask", k) ∈ l.inShapes ∧ Seq k ∧
      MaskRow T B x k (entry (netOf layers L) T B l.name (forward (libNetwork F ps) s)) := by
  have hC := C76_formulas F ps s l hl
  have et := describes_type hd
  cases hq : ps l hl with
  | mask R n x k has hx hxs hks hdata =>
    rw [hq] at hC hd
    exact ⟨x, k, has.outs, has.ins _ (by simp), hd.2.1, mask_row hd.2.1 hC⟩
  | maskFull x k has hx hk ek hdata =>
    rw [hq] at hC hd
    exact ⟨x, k, has.outs, has.ins _ (by simp), hk, maskFull_row hC⟩
  | _ => rw [hq] at et; simp only [typeName] at et; exact absurd et (by decide)

/-- The input of a Loss layer is zero in the steps that are masked out. -/
theorem masked_zero (F : Memory.Fits layers L data rest) (ps : ∀ T B, ∀ l ∈ rest, LibLayer layers data l T B) {M : Mode}
    {ty : LayerInfo → Name} {kw : LayerInfo → Setup.Kwargs} (hps : ∀ T B l hl, Describes M (ty l) (kw l) (ps T B l hl))
    (S : Sited layers L data rest fun T B => libNetwork F (ps T B)) {x : Name} {w b : Batch} (C : Shortened data x w b) {θ : List ℝ} {E : Set ℕ}
    {s : Mem} (H : Found layers L data w.T w.B w.data θ E s) {l : LayerInfo} (hl : l ∈ rest) (hd : ty data ≠ str "Mask")
    (hmask : ∀ k ∈ layers, ∀ o ∈ k.outgoing, o.endLayer = l.name → ty k = str "Mask" ∧
      ∀ k' ∈ layers, ∀ o' ∈ k'.outgoing, o'.endLayer = k.name → o'.endInput = str "mask" → k' = data ∧ o'.buffer = x)
    {y : Name} {sy : Struct} (hy : (y, sy) ∈ l.inShapes) (hb : sy.bufferType = 2) {r : ℕ} (h1 : b.T * w.B ≤ r) (h2 : r < w.T * w.B) {c : ℕ}
    (hc : c < sy.featureSize) :
    value (netOf layers L) w.T w.B l.name (forward (libNetwork F (ps w.T w.B)) s) ⟨str "inputs", y, r * sy.featureSize + c⟩ = 0 := by
  have hrows : ∀ {s : Struct}, s.bufferType = 2 → r < rows s w.T w.B := fun {s} e => by
    simp only [rows, e]
    exact lt_of_lt_of_le h2 (Nat.mul_le_mul_right _ (by omega))
  obtain ⟨p, sp, hf, ep, j, hj, e⟩ := input_source F hl hy hc (forward (libNetwork F (ps w.T w.B)) s) (hrows hb)
  rw [e]
  rw [hb] at ep
  obtain ⟨k, hk, o, ho, e1, -, ⟨-, h4, rfl⟩ | ⟨-, h4, -⟩⟩ := hf
  swap
  · have := F.laid.shaped.params k hk _ h4
    simp only at this
    omega
  obtain ⟨tk, hk'⟩ := hmask k hk o ho e1
  have hkr : k ∈ rest := by
    rw [F.ordered.all] at hk
    rcases List.mem_cons.1 hk with rfl | hk
    · exact absurd tk hd
    · exact hk
  obtain ⟨z, km, q1, q2, q3, q4⟩ := mask_rows F (ps w.T w.B) hkr (tk ▸ hps w.T w.B k hkr) s
  rw [q1] at h4
  obtain ⟨e3, rfl⟩ := Prod.mk.inj (List.mem_singleton.1 h4)
  obtain ⟨g1, g2⟩ := q4 r h2 j hj
  have e4 : forward (libNetwork F (ps w.T w.B)) s ((cells (netOf layers L) w.T w.B (path k.name (str "outputs") o.buffer)).getD
      (r * sp.featureSize + j) 0) = entry (netOf layers L) w.T w.B k.name (forward (libNetwork F (ps w.T w.B)) s) "outputs" "default"
        (r * sp.featureSize + j) := by rw [e3]; rfl
  rw [e4, g1]
  refine mul_eq_zero_of_right _ ?_
  obtain ⟨p', sp', hf', ep', j', hj', e'⟩ := input_source F hkr q2 g2 (forward (libNetwork F (ps w.T w.B)) s) (hrows q3.1)
  refine Eq.trans e' ?_
  rw [q3.1] at ep'
  obtain ⟨k', hk'', o', ho', e1', e2', ⟨-, h4', rfl⟩ | ⟨-, h4', -⟩⟩ := hf'
  swap
  · have := F.laid.shaped.params k' hk'' _ h4'
    simp only at this
    omega
  obtain ⟨rfl, rfl⟩ := hk' k' hk'' o' ho' e1' e2'
  obtain ⟨⟨y', ys⟩, hys, ey⟩ := List.mem_map.1 (C.good.1.complete _ h4')
  simp only at ey
  subst ey
  rcases data_value S H h4' ep' hys h2 hj' with h | h
  · exact h
  · rw [h]
    refine C.masked _ _ h4' hys _ ?_
    exact le_trans (Nat.mul_le_mul_right _ h1) (Nat.le_add_right _ _)

/-- Shortened batches have the same losses. -/
theorem loss_same (F : Memory.Fits layers L data rest) (ps : ∀ T B, ∀ l ∈ rest, LibLayer layers data l T B) {M : Mode}
    {ty : LayerInfo → Name} {kw : LayerInfo → Setup.Kwargs} (hps : ∀ T B l hl, Describes M (ty l) (kw l) (ps T B l hl))
    (S : Sited layers L data rest fun T B => libNetwork F (ps T B)) (hctx : ∀ h ∈ (netOf layers L).hubs, h.ctx ≤ 1)
    (hM : M.training = false) {x : Name} {w b : Batch} (C : Shortened data x w b) (hal : b.T = w.T ∨ DataAlone layers L data) {θ : List ℝ}
    {wst st : State ℝ} (hw : Ran layers L data (fun T B => libNetwork F (ps T B)) θ w wst)
    (hb : Ran layers L data (fun T B => libNetwork F (ps T B)) θ b st)
    (hclock : ∀ s, Found layers L data w.T w.B w.data θ (contextRows (netOf layers L) w.T w.B) s →
      ∀ l ∈ rest, ty l = str "Clockwork" ∨ ty l = str "ClockworkLstm" → ∀ n, (str "timing", vec n) ∈ l.paramShapes → ∀ j < n,
      value (netOf layers L) w.T w.B l.name (forward (libNetwork F (ps w.T w.B)) s) ⟨str "parameters", str "timing", j⟩ ≠ 0)
    {l : LayerInfo} (hl : l ∈ rest) (hty : ty l = str "Loss") (hd : ty data ≠ str "Mask")
    (hmask : (∀ e ∈ l.inShapes, e.2.bufferType ≠ 2) ∨ ∀ k ∈ layers, ∀ o ∈ k.outgoing, o.endLayer = l.name → ty k = str "Mask" ∧
      ∀ k' ∈ layers, ∀ o' ∈ k'.outgoing, o'.endLayer = k.name → o'.endInput = str "mask" → k' = data ∧ o'.buffer = x) :
    lossV (netOf layers L) l.name w wst = lossV (netOf layers L) l.name b st := by
  obtain ⟨bT, bB, bd, br⟩ := b
  obtain ⟨hBB, hpos⟩ := C.size
  simp only at hBB
  subst hBB
  obtain ⟨s, -, -, -, -, hm, H⟩ := hw
  obtain ⟨s', -, -, -, -, hm', H'⟩ := hb
  have hdl : ∀ T B, Describes M (str "Loss") (kw l) (ps T B l hl) := fun T B => hty ▸ hps T B l hl
  have hll := F.ordered.mem hl
  obtain ⟨imp, sy, e1, e2, e3, e4⟩ := loss_entry F (ps w.T w.B) hl (hdl w.T w.B) s
  obtain ⟨imp', sy', e1', e2', e3', e4'⟩ := loss_entry F (ps bT w.B) hl (hdl bT w.B) s'
  rw [e1] at e1'
  obtain rfl := Option.some.inj e1'
  obtain rfl : sy = sy' := Option.some.inj ((Dict.get?_of_mem (F.laid.wf.inNodup l hll) e2).symm.trans (Dict.get?_of_mem (F.laid.wf.inNodup l hll) e2'))
  rw [lossV_eq F.laid hll e3 hm, lossV_eq F.laid hll e3' hm', e4, e4']
  congr 2
  rcases Nat.eq_zero_or_pos sy.featureSize with hf | hf
  · have : ∀ (T B : ℕ) (m : Mem), inputSum (netOf layers L) l.name sy.featureSize T B m = fun _ => 0 := fun T B m => by
      funext r; rw [inputSum, hf]; rfl
    rw [this, this]
    simp
  have hcx : sy.contextSize = 0 := (input_context F hl e2).resolve_left (by omega)
  have key : ∀ A, First w ⟨bT, w.B, bd, br⟩ A → ∀ r r', A.Rows sy r r' →
      inputSum (netOf layers L) l.name sy.featureSize w.T w.B (forward (libNetwork F (ps w.T w.B)) s) r =
        inputSum (netOf layers L) l.name sy.featureSize bT w.B (forward (libNetwork F (ps bT w.B)) s') r' := by
    intro A hA r r' hr
    have := (ran_same F ps hps S hctx hM C.good.1 C.good.2 hal H H' (hclock s H) hA.whole hA.short hA.steps.1
      (C.same A hA)).2.2 l hl _ _ e2 r r' hr
    rw [hA.whole.1, hA.whole.2, hA.short.1, hA.short.2] at this
    unfold inputSum
    congr 1
    exact List.map_congr_left fun k hk => this k (List.mem_range.1 hk)
  have al : ∀ q (hq : q < w.B), ∃ A, First w ⟨bT, w.B, bd, br⟩ A ∧ A.b = q ∧ A.b' = q ∧ A.B = w.B ∧ A.B' = w.B ∧ A.o = 0 ∧ A.n = bT := fun q hq =>
    ⟨⟨w.T, w.B, q, bT, w.B, q, 0, bT, by have : bT ≤ w.T := C.steps; omega, le_rfl, hq, hq⟩, ⟨⟨rfl, rfl⟩, ⟨rfl, rfl⟩, rfl, rfl, rfl⟩, rfl, rfl, rfl,
      rfl, rfl, rfl⟩
  have h012 := typeOf_le sy.shape
  obtain hbt | hbt | hbt : sy.bufferType = 0 ∨ sy.bufferType = 1 ∨ sy.bufferType = 2 := by
    have : sy.bufferType ≤ 2 := h012
    omega
  · obtain ⟨A, hA, -⟩ := al 0 hpos
    simp only [rows, hbt, List.range_one, List.map_cons, List.map_nil, List.sum_cons, List.sum_nil]
    rw [key A hA 0 0 (by simp only [Align.Rows, hbt]; trivial)]
  · simp only [rows, hbt]
    refine congrArg List.sum (List.map_congr_left fun q hq => ?_)
    obtain ⟨A, hA, g1, g2, -⟩ := al q (List.mem_range.1 hq)
    exact key A hA q q (by simp only [Align.Rows, hbt]; exact ⟨g1.symm, g2.symm⟩)
  · simp only [rows, hbt, hcx, Nat.add_zero]
    obtain ⟨d, hd'⟩ : ∃ d, w.T * w.B = bT * w.B + d := 
      ⟨w.T * w.B - bT * w.B, (Nat.add_sub_cancel' (Nat.mul_le_mul_right _ C.steps)).symm⟩
    rw [hd', List.range_add, List.map_append, List.sum_append, List.map_map]
    have hz : (List.range d).map (inputSum (netOf layers L) l.name sy.featureSize w.T w.B (forward (libNetwork F (ps w.T w.B)) s) ∘
        fun i => bT * w.B + i) = (List.range d).map fun _ => (0 : ℝ) := by
      refine List.map_congr_left fun i hi => ?_
      rw [List.mem_range] at hi
      have hmask' := hmask.resolve_left fun h => h _ e2 hbt
      show inputSum _ _ _ _ _ _ (bT * w.B + i) = 0
      unfold inputSum
      have : ((List.range sy.featureSize).map fun k => value (netOf layers L) w.T w.B l.name (forward (libNetwork F (ps w.T w.B)) s)
          ⟨str "inputs", str "default", (bT * w.B + i) * sy.featureSize + k⟩) = (List.range sy.featureSize).map fun _ => (0 : ℝ) :=
        List.map_congr_left fun k hk => masked_zero F ps hps S C H hl hd hmask' e2 hbt (Nat.le_add_right _ _) (by
          show bT * w.B + i < _
          omega) (List.mem_range.1 hk)
      rw [this]
      simp
    rw [hz]
    simp only [List.map_const', List.sum_replicate, smul_zero, add_zero]
    refine congrArg List.sum (List.map_congr_left fun r hr => ?_)
    rw [List.mem_range] at hr
    have hB := hpos
    obtain ⟨A, hA, g1, g2, g3, g4, g5, g6⟩ := al (r % w.B) (Nat.mod_lt _ hB)
    refine key A hA r r ?_
    simp only [Align.Rows, hbt]
    have hdm := Nat.div_add_mod r w.B
    rw [Nat.mul_comm] at hdm
    refine ⟨r / w.B, ?_, ?_, ?_⟩
    · rw [g6]
      exact (Nat.div_lt_iff_lt_mul hB).2 hr
    · rw [g5, g3, g1, Nat.zero_add]; exact hdm.symm
    · rw [g4, g2]; exact hdm.symm

end

end Verif.Padding
