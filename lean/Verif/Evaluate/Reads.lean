import Verif.Evaluate.Losses
import Verif.Data.ExtractProps

/-!
# C79: arrays of a whole batch and of its parts
-/

namespace Verif.Evaluate

open Verif.Structure Verif.Layout Verif.Buffers Verif.Memory Verif.EndToEnd
open Verif.Session Verif.Sequence

/-- Row `r` of an array with `n` numbers in each row. -/
def chunk (n : ℕ) (xs : List ℝ) (r : ℕ) : List ℝ := (xs.drop (r * n)).take n

theorem chunk_eq {n r : ℕ} {xs : List ℝ} {g : ℕ → ℝ} (h : ∀ k < n, xs[r * n + k]? = some (g k)) : chunk n xs r = (List.range n).map g := by
  refine List.ext_getElem? fun k => ?_
  unfold chunk
  rw [List.getElem?_take, List.getElem?_map]
  split
  · next hk => rw [List.getElem?_drop, h k hk, List.getElem?_range hk, Option.map_some]
  · next hk => rw [List.getElem?_eq_none (by rw [List.length_range]; omega), Option.map_none]

theorem getD_chunk (xs : List ℝ) (r : ℕ) : xs.getD r 0 = (chunk 1 xs r).headD 0 := by
  unfold chunk
  rw [Nat.mul_one, List.getD_eq_getElem?_getD]
  cases h : xs[r]? with
  | none => rw [List.drop_eq_nil_of_le (List.getElem?_eq_none_iff.1 h)]; rfl
  | some v =>
    obtain ⟨h1, rfl⟩ := List.getElem?_eq_some_iff.1 h
    rw [List.drop_eq_getElem_cons h1]
    rfl

theorem zip_split {β : Type} {R : Batch → β → Prop} : ∀ {bs : List Batch} {sts : List β}, List.Forall₂ R bs sts → ∀ x ∈ bs.zip sts,
    ∃ done later, bs = done ++ x.1 :: later ∧ R x.1 x.2
  | [], _, h, x, hx => by cases h; simp at hx
  | b :: bs, _, h, x, hx => by
    cases h with
    | @cons _ st _ sts h1 h2 =>
    rw [List.zip_cons_cons, List.mem_cons] at hx
    rcases hx with rfl | hx
    · exact ⟨[], bs, rfl, h1⟩
    · obtain ⟨done, later, e, hR⟩ := zip_split h2 x hx
      exact ⟨b :: done, later, by rw [e]; rfl, hR⟩

theorem zip_fst {β : Type} {R : Batch → β → Prop} {bs : List Batch} {sts : List β} (h : List.Forall₂ R bs sts) :
    (bs.zip sts).map Prod.fst = bs := List.map_fst_zip h.length_eq.le

/-- Rows of the parts, one after the other. -/
theorem parts_row {α β : Type} (R : Batch → β → Prop) (F : Batch → β → List α) (f : ℕ → α) : ∀ (bs : List Batch) (sts : List β) (lo : ℕ),
    List.Forall₂ R bs sts →
    (∀ done b later, bs = done ++ b :: later → ∀ st, R b st → F b st = (List.range b.B).map fun q => f (lo + (done.map Batch.B).sum + q)) →
    ((bs.zip sts).map fun x => F x.1 x.2).flatten = (List.range (bs.map Batch.B).sum).map fun q => f (lo + q)
  | [], _, lo, h, _ => by
    cases h
    simp
  | b :: bs, _, lo, h, hF => by
    cases h with
    | @cons _ st _ sts h1 h2 =>
    have e := hF [] b bs rfl st h1
    simp only [List.map_nil, List.sum_nil, Nat.add_zero] at e
    have e' := parts_row R F f bs sts (lo + b.B) h2 fun done b' later e' st' hst' => by
      rw [hF (b :: done) b' later (by rw [e']; rfl) st' hst', List.map_cons, List.sum_cons, Nat.add_assoc]
    rw [List.zip_cons_cons, List.map_cons, List.flatten_cons, e, e', List.map_cons, List.sum_cons, List.range_add, List.map_append, List.map_map]
    simp only [Function.comp_def, Nat.add_assoc]

section
variable {layers : List LayerInfo} {L : Layout} {data : LayerInfo} {rest : List LayerInfo}

theorem reads (hL : Laid layers L) {st : State ℝ} {T B sz k : ℕ} {vs : List (Name × View)}
    (i : Inv (netOf layers L) st T B sz k vs) {m : Mem}
    (hm : ∀ c < total (netOf layers L) T B, memOf st c = m c) {l : LayerInfo} (hl : l ∈ layers) {x : Name} {sh : Struct}
    (hx : (x, sh) ∈ l.outShapes) : ∃ xs, st.read (path l.name (str "outputs") x) = some xs ∧
      ∀ r < rows sh T B, chunk sh.featureSize xs r = (List.range sh.featureSize).map fun k =>
        value (netOf layers L) T B l.name m ⟨str "outputs", x, r * sh.featureSize + k⟩ := by
  obtain ⟨e, h, hloc⟩ := loc hL (array_get hL.wf hl (cat := str "outputs") (sh := l.outShapes) (by simp [layerCats]) hx)
  refine ⟨_, read_inv hL i hloc.get, fun r hr => chunk_eq fun k hk => ?_⟩
  have hc := hloc.cell T B r k hr hk
  show _ = some (m ((cells _ _ _ _).getD _ 0))
  rw [List.getElem?_map, hc, List.getD_eq_getElem?_getD, hc]
  exact congrArg some (hm _ (cells_lt (List.mem_of_getElem? hc)))

/-- An output of a layer that is not a Loss layer, with axes for time and batch. -/
def Shown (layers : List LayerInfo) (ty : LayerInfo → Name) (n : Name) (s : Struct) : Prop :=
  ∃ l ∈ layers, ∃ x, ty l ≠ str "Loss" ∧ (x, s) ∈ l.outShapes ∧ s.bufferType = 2 ∧ n = path l.name (str "outputs") x

/-- The rows of such an array are the same for the whole batch and for the parts. -/
theorem rows_same (F : Memory.Fits layers L data rest) (ps : ∀ T B, ∀ l ∈ rest, LibLayer layers data l T B) {M : Mode}
    {ty : LayerInfo → Name} {kw : LayerInfo → Setup.Kwargs} (hps : ∀ T B l hl, Describes M (ty l) (kw l) (ps T B l hl))
    (S : Sited layers L data rest fun T B => libNetwork F (ps T B)) (hctx : ∀ h ∈ (netOf layers L).hubs, h.ctx ≤ 1)
    (hM : M.training = false) {w : Batch} {bs : List Batch} (C : Cut data w bs) {θ : List ℝ} {wst : State ℝ}
    (hw : Ran layers L data (fun T B => libNetwork F (ps T B)) θ w wst)
    (hclock : ∀ s, Found layers L data w.T w.B w.data θ (contextRows (netOf layers L) w.T w.B) s →
      ∀ l ∈ rest, ty l = str "Clockwork" ∨ ty l = str "ClockworkLstm" → ∀ n, (str "timing", vec n) ∈ l.paramShapes → ∀ j < n,
      value (netOf layers L) w.T w.B l.name (forward (libNetwork F (ps w.T w.B)) s) ⟨str "parameters", str "timing", j⟩ ≠ 0)
    {n : Name} {sh : Struct} (hn : Shown layers ty n sh) :
    ∃ xs, wst.read n = some xs ∧ ∀ done b later, bs = done ++ b :: later → ∀ st, Ran layers L data (fun T B => libNetwork F (ps T B)) θ b st →
      ∃ xs', st.read n = some xs' ∧ ∀ t < w.T, ∀ q < b.B,
        chunk sh.featureSize xs' (t * b.B + q) = chunk sh.featureSize xs (t * w.B + ((done.map Batch.B).sum + q)) := by
  obtain ⟨l, hl, x, hne, hx, hbt, rfl⟩ := hn
  obtain ⟨s, sz, k, vs, i, hm, H⟩ := hw
  obtain ⟨xs, h1, h2⟩ := reads F.laid i hm hl hx
  refine ⟨xs, h1, ?_⟩
  rintro done b later e st ⟨s', sz', k', vs', i', hm', H'⟩
  obtain ⟨xs', h1', h2'⟩ := reads F.laid i' hm' hl hx
  refine ⟨xs', h1', fun t ht q hq => ?_⟩
  have hmem : b ∈ bs := by simp [e]
  obtain ⟨W, D, -⟩ := ran_same F ps hps S hctx hM C.good.1 (C.good.2 b hmem) (.inl (C.steps b hmem)) H H' (hclock s H) (A := C.align e hq) ⟨rfl, rfl⟩
    ⟨rfl, rfl⟩ rfl (C.same done b later e _ (C.align_part e hq))
  have hsame : (C.align e hq).Same sh
      (fun j => value (netOf layers L) w.T w.B l.name (forward (libNetwork F (ps w.T w.B)) s) ⟨str "outputs", x, j⟩)
      (fun j => value (netOf layers L) b.T b.B l.name (forward (libNetwork F (ps b.T b.B)) s') ⟨str "outputs", x, j⟩) := by
    rw [F.ordered.all] at hl
    rcases List.mem_cons.1 hl with rfl | hl
    · exact D x sh hx
    · exact (W l hl hne).outs x sh hx
  have hr : (C.align e hq).Rows sh (t * w.B + ((done.map Batch.B).sum + q)) (t * b.B + q) := by
    simp only [Align.Rows, hbt]
    exact ⟨t, ht, by simp [Cut.align], rfl⟩
  have hlt := Align.lt_rows hr
  rw [h2' _ hlt.2, h2 _ hlt.1]
  exact (List.map_congr_left fun k hk => hsame _ _ hr k (List.mem_range.1 hk)).symm

/-- The rows that are scored. -/
theorem scored_parts (F : Memory.Fits layers L data rest) (ps : ∀ T B, ∀ l ∈ rest, LibLayer layers data l T B) {M : Mode}
    {ty : LayerInfo → Name} {kw : LayerInfo → Setup.Kwargs} (hps : ∀ T B l hl, Describes M (ty l) (kw l) (ps T B l hl))
    (S : Sited layers L data rest fun T B => libNetwork F (ps T B)) (hctx : ∀ h ∈ (netOf layers L).hubs, h.ctx ≤ 1)
    (hM : M.training = false) {w : Batch} {bs : List Batch} (C : Cut data w bs) {θ : List ℝ} {wst : State ℝ}
    (hw : Ran layers L data (fun T B => libNetwork F (ps T B)) θ w wst)
    (hclock : ∀ s, Found layers L data w.T w.B w.data θ (contextRows (netOf layers L) w.T w.B) s →
      ∀ l ∈ rest, ty l = str "Clockwork" ∨ ty l = str "ClockworkLstm" → ∀ n, (str "timing", vec n) ∈ l.paramShapes → ∀ j < n,
      value (netOf layers L) w.T w.B l.name (forward (libNetwork F (ps w.T w.B)) s) ⟨str "parameters", str "timing", j⟩ ≠ 0)
    {out targets : Name} {so sl : Struct} {mask : Option Name} (ho : Shown layers ty out so) (ht : Shown layers ty targets sl)
    (hk : ∀ m ∈ mask, ∃ s, Shown layers ty m s ∧ s.featureSize = 1) :
    ∃ f : ℕ → ℕ → Scoring.Row ℝ, scored out targets so.featureSize sl.featureSize mask (w.T * w.B) wst = some (blk f w.T 0 w.B) ∧
      ∀ done b later, bs = done ++ b :: later → ∀ st, Ran layers L data (fun T B => libNetwork F (ps T B)) θ b st →
        scored out targets so.featureSize sl.featureSize mask (b.T * b.B) st = some (blk f w.T (0 + (done.map Batch.B).sum) b.B) := by
  obtain ⟨xs, h1, h2⟩ := rows_same F ps hps S hctx hM C hw hclock ho
  obtain ⟨ls, h3, h4⟩ := rows_same F ps hps S hctx hM C hw hclock ht
  obtain ⟨ms, h5, h6⟩ : ∃ ms : List ℝ, maskOf mask wst = some ms ∧
      ∀ done b later, bs = done ++ b :: later → ∀ st, Ran layers L data (fun T B => libNetwork F (ps T B)) θ b st →
      ∃ ms' : List ℝ, maskOf mask st = some ms' ∧ ∀ t < w.T, ∀ q < b.B,
        ms'.getD (t * b.B + q) 0 = ms.getD (t * w.B + ((done.map Batch.B).sum + q)) 0 := by
    cases mask with
    | none => exact ⟨[], rfl, fun _ _ _ _ _ _ => ⟨[], rfl, fun _ _ _ _ => rfl⟩⟩
    | some m =>
      obtain ⟨s, hs, h1s⟩ := hk m rfl
      obtain ⟨ms, h5, h6⟩ := rows_same F ps hps S hctx hM C hw hclock hs
      refine ⟨ms, h5, fun done b later e st hst => ?_⟩
      obtain ⟨ms', g1, g2⟩ := h6 done b later e st hst
      refine ⟨ms', g1, fun t ht q hq => ?_⟩
      have := g2 t ht q hq
      rw [h1s] at this
      rw [getD_chunk, getD_chunk, this]
  refine ⟨fun t q => ⟨chunk so.featureSize xs (t * w.B + q), chunk sl.featureSize ls (t * w.B + q), ms.getD (t * w.B + q) 0⟩, ?_, ?_⟩
  · unfold scored
    rw [h1, h3, h5, Option.bind_some, Option.bind_some, Option.map_some, range_mul]
    rfl
  · intro done b later e st hst
    obtain ⟨xs', g1, g2⟩ := h2 done b later e st hst
    obtain ⟨ls', g3, g4⟩ := h4 done b later e st hst
    obtain ⟨ms', g5, g6⟩ := h6 done b later e st hst
    unfold scored
    rw [g1, g3, g5, Option.bind_some, Option.bind_some, Option.map_some, range_mul, C.steps b (by simp [e])]
    congr 1
    unfold blk
    refine List.flatMap_congr fun t ht => List.map_congr_left fun q hq => ?_
    rw [List.mem_range] at ht hq
    have a1 := g2 t ht q hq
    have a2 := g4 t ht q hq
    have a3 := g6 t ht q hq
    unfold chunk at a1 a2
    simp only [Nat.zero_add]
    rw [a1, a2, a3]
    rfl

end

end Verif.Evaluate
