import Verif.Padding.Results

/-!
# C87: scores of shortened batches
-/

namespace Verif.Padding

open Verif.Structure Verif.Layout Verif.Buffers Verif.Memory Verif.EndToEnd
open Verif.Session Verif.Sequence Verif.Evaluate

/-- Rows that are masked out do not count. -/
theorem score_tail {score : List (Scoring.Row ℝ) → ℝ} (h : Scorer true score) (rows tail : List (Scoring.Row ℝ)) (ht : ∀ r ∈ tail, r.mask = 0) :
    score (rows ++ tail) = score rows ∧ Scoring.weight true (rows ++ tail) = Scoring.weight true rows := by
  have hz : ∀ f : Scoring.Row ℝ → ℝ, (∀ r, r.mask = 0 → f r = 0) → (tail.map f).sum = 0 := fun f hf => by
    rw [List.map_congr_left (g := fun _ => (0 : ℝ)) fun r hr => hf r (ht r hr)]
    simp
  have hl : ∀ {α : Type} (l : List α) (g : α → ℝ), (∀ x ∈ l, g x = 0) → (l.map g).sum = 0 := fun l g hg => by
    rw [List.map_congr_left (g := fun _ => (0 : ℝ)) hg]
    simp
  refine ⟨?_, ?_⟩
  · rcases h with rfl | ⟨threshold, columns, rfl⟩ | rfl
    · simp only [Scoring.accuracy, List.map_append, List.sum_append]
      rw [hz _ fun r hr => by simp [Scoring.weighted, hr], add_zero]
    · simp only [Scoring.hamming, List.map_append, List.sum_append]
      rw [hz _ fun r hr => hl _ _ fun x _ => by simp [Scoring.weighted, hr], add_zero]
    · simp only [Scoring.squaredError, List.map_append, List.sum_append]
      rw [hz _ fun r hr => hl _ _ fun x _ => by simp [Scoring.weighted, hr], add_zero]
  · simp only [Scoring.weight, if_true, List.map_append, List.sum_append]
    rw [hz _ fun r hr => hr, add_zero]

section
variable {layers : List LayerInfo} {L : Layout} {data : LayerInfo} {rest : List LayerInfo}

/-- The rows of an output in the first steps. -/
theorem rows_first (F : Memory.Fits layers L data rest) (ps : ∀ T B, ∀ l ∈ rest, LibLayer layers data l T B) {M : Mode}
    {ty : LayerInfo → Name} {kw : LayerInfo → Setup.Kwargs} (hps : ∀ T B l hl, Describes M (ty l) (kw l) (ps T B l hl))
    (S : Sited layers L data rest fun T B => libNetwork F (ps T B)) (hctx : ∀ h ∈ (netOf layers L).hubs, h.ctx ≤ 1)
    (hM : M.training = false) {x : Name} {w b : Batch} (C : Shortened data x w b) (hal : b.T = w.T ∨ DataAlone layers L data) {θ : List ℝ}
    {wst st : State ℝ} (hw : Ran layers L data (fun T B => libNetwork F (ps T B)) θ w wst)
    (hb : Ran layers L data (fun T B => libNetwork F (ps T B)) θ b st)
    (hclock : ∀ s, Found layers L data w.T w.B w.data θ (contextRows (netOf layers L) w.T w.B) s →
      ∀ l ∈ rest, ty l = str "Clockwork" ∨ ty l = str "ClockworkLstm" → ∀ n, (str "timing", vec n) ∈ l.paramShapes → ∀ j < n,
      value (netOf layers L) w.T w.B l.name (forward (libNetwork F (ps w.T w.B)) s) ⟨str "parameters", str "timing", j⟩ ≠ 0)
    {n : Name} {sh : Struct} (hn : Shown layers ty n sh) :
    ∃ xs xs', wst.read n = some xs ∧ st.read n = some xs' ∧ ∀ r < b.T * w.B, chunk sh.featureSize xs r = chunk sh.featureSize xs' r := by
  obtain ⟨l, hl, y, hne, hy, hbt, rfl⟩ := hn
  obtain ⟨s, sz, k, vs, i, hm, H⟩ := hw
  obtain ⟨s', sz', k', vs', i', hm', H'⟩ := hb
  obtain ⟨xs, h1, h2⟩ := reads F.laid i hm hl hy
  obtain ⟨xs', h1', h2'⟩ := reads F.laid i' hm' hl hy
  refine ⟨xs, xs', h1, h1', fun r hr => ?_⟩
  have hB := C.size.2
  have hst := C.steps
  let A : Align := ⟨w.T, w.B, r % w.B, b.T, b.B, r % w.B, 0, b.T, by omega, le_rfl, Nat.mod_lt _ hB, lt_of_lt_of_eq (Nat.mod_lt r hB) C.size.1.symm⟩
  have hA : First w b A := ⟨⟨rfl, rfl⟩, ⟨rfl, rfl⟩, rfl, rfl, rfl⟩
  obtain ⟨W, D, -⟩ := ran_same F ps hps S hctx hM C.good.1 C.good.2 hal H H' (hclock s H) (A := A) ⟨rfl, rfl⟩ ⟨rfl, rfl⟩ rfl (C.same A hA)
  have hsame : A.Same sh
      (fun j => value (netOf layers L) w.T w.B l.name (forward (libNetwork F (ps w.T w.B)) s) ⟨str "outputs", y, j⟩)
      (fun j => value (netOf layers L) b.T b.B l.name (forward (libNetwork F (ps b.T b.B)) s') ⟨str "outputs", y, j⟩) := by
    rw [F.ordered.all] at hl
    rcases List.mem_cons.1 hl with rfl | hl
    · exact D y sh hy
    · exact (W l hl hne).outs y sh hy
  have hdm := Nat.div_add_mod r w.B
  rw [Nat.mul_comm] at hdm
  have hrr : A.Rows sh r r := by
    simp only [Align.Rows, hbt]
    refine ⟨r / w.B, (Nat.div_lt_iff_lt_mul hB).2 hr, ?_, ?_⟩
    · show r = (0 + r / w.B) * w.B + r % w.B
      rw [Nat.zero_add]; exact hdm.symm
    · show r = r / w.B * b.B + r % w.B
      rw [C.size.1]; exact hdm.symm
  have hlt := Align.lt_rows hrr
  rw [h2 _ hlt.1, h2' _ hlt.2]
  exact List.map_congr_left fun k hk => hsame _ _ hrr k (List.mem_range.1 hk)

/-- The rows that are scored: for the longer batch, further ones that are masked out. -/
theorem scored_short (F : Memory.Fits layers L data rest) (ps : ∀ T B, ∀ l ∈ rest, LibLayer layers data l T B) {M : Mode}
    {ty : LayerInfo → Name} {kw : LayerInfo → Setup.Kwargs} (hps : ∀ T B l hl, Describes M (ty l) (kw l) (ps T B l hl))
    (S : Sited layers L data rest fun T B => libNetwork F (ps T B)) (hctx : ∀ h ∈ (netOf layers L).hubs, h.ctx ≤ 1)
    (hM : M.training = false) {x : Name} {w b : Batch} (C : Shortened data x w b) (hal : b.T = w.T ∨ DataAlone layers L data) {θ : List ℝ}
    {wst st : State ℝ} (hw : Ran layers L data (fun T B => libNetwork F (ps T B)) θ w wst)
    (hb : Ran layers L data (fun T B => libNetwork F (ps T B)) θ b st)
    (hclock : ∀ s, Found layers L data w.T w.B w.data θ (contextRows (netOf layers L) w.T w.B) s →
      ∀ l ∈ rest, ty l = str "Clockwork" ∨ ty l = str "ClockworkLstm" → ∀ n, (str "timing", vec n) ∈ l.paramShapes → ∀ j < n,
      value (netOf layers L) w.T w.B l.name (forward (libNetwork F (ps w.T w.B)) s) ⟨str "parameters", str "timing", j⟩ ≠ 0)
    {out targets : Name} {so sl sx : Struct} (ho : Shown layers ty out so) (ht : Shown layers ty targets sl)
    (hx : (x, sx) ∈ data.outShapes) (hxb : sx.bufferType = 2) (hx1 : sx.featureSize = 1) (hd : ty data ≠ str "Loss") :
    ∃ rows tail, scored out targets so.featureSize sl.featureSize (some (path data.name (str "outputs") x)) (w.T * w.B) wst = some (rows ++ tail) ∧
      scored out targets so.featureSize sl.featureSize (some (path data.name (str "outputs") x)) (b.T * b.B) st = some rows ∧
      ∀ r ∈ tail, r.mask = 0 := by
  have hdl : data ∈ layers := S.data_mem
  obtain ⟨xs, xs', h1, h1', h1e⟩ := rows_first F ps hps S hctx hM C hal hw hb hclock ho
  obtain ⟨ls, ls', h2, h2', h2e⟩ := rows_first F ps hps S hctx hM C hal hw hb hclock ht
  obtain ⟨ms, ms', h3, h3', h3e⟩ := rows_first F ps hps S hctx hM C hal hw hb hclock
    (n := path data.name (str "outputs") x) (sh := sx) ⟨data, hdl, x, hd, hx, hxb, rfl⟩
  have hz : ∀ r, b.T * w.B ≤ r → r < w.T * w.B → ms.getD r 0 = 0 := by
    intro r hr1 hr2
    obtain ⟨s, sz, k, vs, i, hm, H⟩ := hw
    obtain ⟨ys, g1, g2⟩ := reads F.laid i hm hdl hx
    rw [h3] at g1
    obtain rfl := Option.some.inj g1
    have g3 := g2 r (by simp only [rows, hxb]; exact lt_of_lt_of_le hr2 (Nat.mul_le_mul_right _ (by omega)))
    rw [hx1] at g3
    rw [getD_chunk, g3]
    obtain ⟨⟨y', ys'⟩, hys, ey⟩ := List.mem_map.1 (C.good.1.complete _ hx)
    simp only at ey
    subst ey
    show forward (libNetwork F (ps w.T w.B)) s ((cells _ _ _ _).getD (r * 1 + 0) 0) = 0
    rcases data_value S H hx hxb hys hr2 (k := 0) (by omega) with h | h
    · rw [hx1] at h; exact h
    · have := C.masked _ _ hx hys (r * sx.featureSize + 0) (by rw [hx1]; omega)
      rw [this, hx1] at h
      exact h
  obtain ⟨d, hd'⟩ : ∃ d, w.T * w.B = b.T * w.B + d :=
    ⟨w.T * w.B - b.T * w.B, (Nat.add_sub_cancel' (Nat.mul_le_mul_right _ C.steps)).symm⟩
  refine ⟨(List.range (b.T * w.B)).map fun r => ⟨chunk so.featureSize xs r, chunk sl.featureSize ls r, ms.getD r 0⟩,
    (List.range d).map fun i => ⟨chunk so.featureSize xs (b.T * w.B + i), chunk sl.featureSize ls (b.T * w.B + i), ms.getD (b.T * w.B + i) 0⟩, ?_, ?_, ?_⟩
  · unfold scored
    rw [h1, h2, Option.bind_some, Option.bind_some, maskOf, h3, Option.map_some, hd', List.range_add, List.map_append, List.map_map]
    rfl
  · unfold scored
    rw [h1', h2', Option.bind_some, Option.bind_some, maskOf, h3', Option.map_some, C.size.1]
    congr 1
    refine List.map_congr_left fun r hr => ?_
    rw [List.mem_range] at hr
    have a1 := h1e r hr
    have a2 := h2e r hr
    have a3 := h3e r hr
    rw [hx1] at a3
    rw [getD_chunk ms, a3, ← getD_chunk ms', a1, a2]
    rfl
  · intro r hr
    obtain ⟨i, hi, rfl⟩ := List.mem_map.1 hr
    rw [List.mem_range] at hi
    exact hz _ (by omega) (by omega)

end

end Verif.Padding
