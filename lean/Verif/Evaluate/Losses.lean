import Verif.Evaluate.Ran

/-!
# C79: losses of a whole batch and of its parts
-/

namespace Verif.Evaluate

open Verif.Structure Verif.Layout Verif.Buffers Verif.Memory Verif.EndToEnd
open Verif.Session Verif.Sequence

theorem parts_sum {β : Type} (R : Batch → β → Prop) (V : Batch → β → ℝ) (imp : ℝ) (f : ℕ → ℕ → ℝ) (T : ℕ) :
    ∀ (bs : List Batch) (sts : List β) (lo : ℕ), List.Forall₂ R bs sts →
    (∀ done b later, bs = done ++ b :: later → ∀ st, R b st → V b st = imp * (blk f T (lo + (done.map Batch.B).sum) b.B).sum) →
    ((bs.zip sts).map fun x => V x.1 x.2).sum = imp * (blk f T lo (bs.map Batch.B).sum).sum
  | [], _, lo, h, _ => by
    cases h
    have : blk f T lo 0 = [] := by simp [blk]
    simp [this]
  | b :: bs, _, lo, h, hV => by
    cases h with
    | @cons _ st _ sts h1 h2 =>
    have e := hV [] b bs rfl st h1
    simp only [List.map_nil, List.sum_nil, Nat.add_zero] at e
    have e' := parts_sum R V imp f T bs sts (lo + b.B) h2 fun done b' later e' st' hst' => by
      rw [hV (b :: done) b' later (by rw [e']; rfl) st' hst', List.map_cons, List.sum_cons, Nat.add_assoc]
    rw [List.zip_cons_cons, List.map_cons, List.sum_cons, e, e', List.map_cons, List.sum_cons, (blk_add f T lo _ _).sum_eq, List.sum_append,
      mul_add]

section
variable {layers : List LayerInfo} {L : Layout} {data : LayerInfo} {rest : List LayerInfo}

/-- What a Loss layer has computed. -/
noncomputable def lossV (net : Net) (n : Name) (b : Batch) (st : State ℝ) : ℝ := entry net b.T b.B n (memOf st) "outputs" "loss" 0

theorem lossV_eq (hL : Laid layers L) {l : LayerInfo} (hl : l ∈ layers) (hx : (str "loss", vec 1) ∈ l.outShapes) {b : Batch} {st : State ℝ} {m : Mem}
    (hm : ∀ c < total (netOf layers L) b.T b.B, memOf st c = m c) :
    lossV (netOf layers L) l.name b st = entry (netOf layers L) b.T b.B l.name m "outputs" "loss" 0 := by
  obtain ⟨e, h, hloc⟩ := loc hL (array_get hL.wf hl (cat := str "outputs") (sh := l.outShapes) (by simp [layerCats]) hx)
  have hc := hloc.cell b.T b.B 0 0 (by unfold rows; exact Nat.one_pos) (by decide)
  rw [Nat.zero_mul] at hc
  refine hm _ (cells_lt (n := path l.name (str "outputs") (str "loss")) ?_)
  show List.getD _ _ _ ∈ _
  rw [List.getD_eq_getElem?_getD, hc]
  exact List.mem_of_getElem? hc

/-- An input without source has no features. -/
theorem input_context (F : Memory.Fits layers L data rest) {l : LayerInfo} (hl : l ∈ rest) {x : Name} {sx : Struct}
    (hx : (x, sx) ∈ l.inShapes) : sx.featureSize = 0 ∨ sx.contextSize = 0 := by
  rcases Nat.eq_zero_or_pos sx.featureSize with h | h
  · exact Or.inl h
  · obtain ⟨off, -, h2⟩ := C76_inputs F l hl x sx hx
    obtain ⟨p, s, hf, -⟩ := h2 0 h
    exact Or.inr (feeds_type F hl hx hf).2

theorem Cut.place {w : Batch} {bs : List Batch} (C : Cut data w bs) {done later : List Batch} {b : Batch} (e : bs = done ++ b :: later) :
    (done.map Batch.B).sum + b.B ≤ w.B := by
  have := C.sum
  rw [e] at this
  simp only [List.map_append, List.map_cons, List.sum_append, List.sum_cons] at this
  omega

theorem Cut.pos {w : Batch} {bs : List Batch} (C : Cut data w bs) : 0 < w.B := by
  obtain ⟨h1, h2⟩ := C.some
  cases bs with
  | nil => exact absurd rfl h1
  | cons b bs =>
    have := C.place (done := []) rfl
    have := h2 b (by simp)
    omega

/-- Sequence `q` of the part `b`. -/
def Cut.align {w : Batch} {bs : List Batch} (C : Cut data w bs) {done later : List Batch} {b : Batch} (e : bs = done ++ b :: later) {q : ℕ}
    (hq : q < b.B) : Align :=
  ⟨w.T, w.B, (done.map Batch.B).sum + q, b.T, b.B, q, 0, w.T, by omega, (C.steps b (by simp [e])).ge, by have := C.place e; omega, hq⟩

theorem Cut.align_part {w : Batch} {bs : List Batch} (C : Cut data w bs) {done later : List Batch} {b : Batch} (e : bs = done ++ b :: later) {q : ℕ}
    (hq : q < b.B) : Part w done b (C.align e hq) := ⟨⟨rfl, rfl⟩, ⟨rfl, rfl⟩, rfl, rfl, rfl⟩

/-- The loss of a batch is made of the contributions of its sequences. -/
theorem loss_parts (F : Memory.Fits layers L data rest) (ps : ∀ T B, ∀ l ∈ rest, LibLayer layers data l T B) {M : Mode}
    {ty : LayerInfo → Name} {kw : LayerInfo → Setup.Kwargs} (hps : ∀ T B l hl, Describes M (ty l) (kw l) (ps T B l hl))
    (S : Sited layers L data rest fun T B => libNetwork F (ps T B)) (hctx : ∀ h ∈ (netOf layers L).hubs, h.ctx ≤ 1)
    (hM : M.training = false) {w : Batch} {bs : List Batch} (C : Cut data w bs) {θ : List ℝ} {wst : State ℝ}
    (hw : Ran layers L data (fun T B => libNetwork F (ps T B)) θ w wst)
    (hclock : ∀ s, Found layers L data w.T w.B w.data θ (contextRows (netOf layers L) w.T w.B) s →
      ∀ l ∈ rest, ty l = str "Clockwork" ∨ ty l = str "ClockworkLstm" → ∀ n, (str "timing", vec n) ∈ l.paramShapes → ∀ j < n,
      value (netOf layers L) w.T w.B l.name (forward (libNetwork F (ps w.T w.B)) s) ⟨str "parameters", str "timing", j⟩ ≠ 0)
    {l : LayerInfo} (hl : l ∈ rest) (hty : ty l = str "Loss") :
    ∃ imp f τ, w.B * lossV (netOf layers L) l.name w wst = imp * (blk f τ 0 w.B).sum ∧
      ∀ done b later, bs = done ++ b :: later → ∀ st, Ran layers L data (fun T B => libNetwork F (ps T B)) θ b st →
        b.B * lossV (netOf layers L) l.name b st = imp * (blk f τ (0 + (done.map Batch.B).sum) b.B).sum := by
  obtain ⟨s, -, -, -, -, hm, H⟩ := hw
  have hd : ∀ T B, Describes M (str "Loss") (kw l) (ps T B l hl) := fun T B => hty ▸ hps T B l hl
  have hll := F.ordered.mem hl
  obtain ⟨imp, x, e1, e2, e3, e4⟩ := loss_entry F (ps w.T w.B) hl (hd w.T w.B) s
  rw [lossV_eq F.laid hll e3 hm, e4]
  have key : ∀ done b later, bs = done ++ b :: later → ∀ st, Ran layers L data (fun T B => libNetwork F (ps T B)) θ b st →
      ∃ v : ℕ → ℝ, lossV (netOf layers L) l.name b st = imp * ((List.range (rows x b.T b.B)).map v).sum / (if x.bufferType = 0 then 1 else (b.B : ℝ)) ∧
        (∀ r, x.featureSize = 0 → v r = 0) ∧
        ∀ q (hq : q < b.B) (A : Align), Part w done b A → A.b' = q → ∀ r r', A.Rows x r r' →
          inputSum (netOf layers L) l.name x.featureSize w.T w.B (forward (libNetwork F (ps w.T w.B)) s) r = v r' := by
    rintro done b later e st ⟨s', -, -, -, -, hm', H'⟩
    obtain ⟨imp', x', e1', e2', e3', e4'⟩ := loss_entry F (ps b.T b.B) hl (hd b.T b.B) s'
    rw [e1] at e1'
    obtain rfl := Option.some.inj e1'
    obtain rfl : x = x' := Option.some.inj ((Dict.get?_of_mem (F.laid.wf.inNodup l hll) e2).symm.trans (Dict.get?_of_mem (F.laid.wf.inNodup l hll) e2'))
    refine ⟨inputSum (netOf layers L) l.name x.featureSize b.T b.B (forward (libNetwork F (ps b.T b.B)) s'),
      (lossV_eq F.laid hll e3' hm').trans e4', fun r h0 => by rw [inputSum, h0]; rfl, ?_⟩
    intro q hq A hA hb' r r' hr
    have hmem : b ∈ bs := by simp [e]
    have := (ran_same F ps hps S hctx hM C.good.1 (C.good.2 b hmem) (.inl (C.steps b hmem)) H H' (hclock s H) hA.whole hA.part hA.steps.1
      (C.same done b later e A hA)).2.2 l hl _ _ e2 r r' hr
    rw [hA.whole.1, hA.whole.2, hA.part.1, hA.part.2] at this
    unfold inputSum
    congr 1
    exact List.map_congr_left fun k hk => this k (List.mem_range.1 hk)
  have hB0 : (w.B : ℝ) ≠ 0 := by have := C.pos; positivity
  by_cases hf : x.featureSize = 0
  · refine ⟨0, fun _ _ => 0, 0, ?_, ?_⟩
    · have : (List.range (rows x w.T w.B)).map
          (inputSum (netOf layers L) l.name x.featureSize w.T w.B (forward (libNetwork F (ps w.T w.B)) s)) =
          (List.range (rows x w.T w.B)).map fun _ => (0 : ℝ) :=
        List.map_congr_left fun r _ => by rw [inputSum, hf]; rfl
      rw [this]
      simp
    · intro done b later e st hst
      obtain ⟨v, g1, g2, -⟩ := key done b later e st hst
      have : (List.range (rows x b.T b.B)).map v = (List.range (rows x b.T b.B)).map fun _ => (0 : ℝ) :=
        List.map_congr_left fun r _ => g2 r hf
      rw [g1, this]
      simp
  have hcx : x.contextSize = 0 := (input_context F hl e2).resolve_left hf
  by_cases hb : x.bufferType = 0
  · have hr : ∀ T B, rows x T B = 1 := fun T B => by simp only [rows, hb]
    refine ⟨imp, fun _ _ => inputSum (netOf layers L) l.name x.featureSize w.T w.B (forward (libNetwork F (ps w.T w.B)) s) 0, 1, ?_, ?_⟩
    · rw [hr, if_pos hb]
      simp [blk]
      ring
    · intro done b later e st hst
      obtain ⟨v, g1, -, g3⟩ := key done b later e st hst
      have hq : 0 < b.B := C.some.2 b (by simp [e])
      have := g3 0 hq (C.align e hq) (C.align_part e hq) rfl 0 0 (by simp only [Align.Rows, hb]; trivial)
      rw [g1, hr, if_pos hb, this]
      simp [blk]
      ring
  · obtain ⟨τ, hτ, hrow⟩ : ∃ τ, (∀ B, rows x w.T B = τ * B) ∧ ∀ A : Align, A.o = 0 → A.n = w.T → ∀ t < τ,
        A.Rows x (t * A.B + A.b) (t * A.B' + A.b') := by
      rcases hbt : x.bufferType with _ | _ | n
      · exact absurd hbt hb
      · exact ⟨1, fun B => by simp only [rows, hbt, Nat.one_mul], fun A h1 h2 t ht => by
          simp only [Align.Rows, hbt]
          obtain rfl : t = 0 := by omega
          simp⟩
      · refine ⟨w.T, fun B => by simp only [rows, hbt, hcx, Nat.add_zero], fun A h1 h2 t ht => ?_⟩
        simp only [Align.Rows, hbt]
        exact ⟨t, by omega, by rw [h1, Nat.zero_add], rfl⟩
    refine ⟨imp, fun t q => inputSum (netOf layers L) l.name x.featureSize w.T w.B (forward (libNetwork F (ps w.T w.B)) s) (t * w.B + q), τ, ?_, ?_⟩
    · rw [if_neg hb, hτ, range_mul]
      field_simp
    · intro done b later e st hst
      obtain ⟨v, g1, -, g3⟩ := key done b later e st hst
      have hb0 : (b.B : ℝ) ≠ 0 := by have := C.some.2 b (by simp [e]); positivity
      rw [g1, if_neg hb, C.steps b (by simp [e]), hτ, range_mul]
      have : blk (fun t q => v (t * b.B + q)) τ 0 b.B = blk (fun t q => inputSum (netOf layers L) l.name x.featureSize w.T w.B
          (forward (libNetwork F (ps w.T w.B)) s) (t * w.B + q)) τ (0 + (done.map Batch.B).sum) b.B := by
        unfold blk
        refine List.flatMap_congr fun t ht => List.map_congr_left fun q hq => ?_
        rw [List.mem_range] at ht hq
        have := g3 q hq (C.align e hq) (C.align_part e hq) rfl _ _ (hrow (C.align e hq) rfl rfl t ht)
        rw [Nat.zero_add, Nat.zero_add]
        exact this.symm
      rw [this]
      field_simp

/-- The losses of the parts, weighted with the numbers of sequences, give the loss of the whole. -/
theorem loss_sum (F : Memory.Fits layers L data rest) (ps : ∀ T B, ∀ l ∈ rest, LibLayer layers data l T B) {M : Mode}
    {ty : LayerInfo → Name} {kw : LayerInfo → Setup.Kwargs} (hps : ∀ T B l hl, Describes M (ty l) (kw l) (ps T B l hl))
    (S : Sited layers L data rest fun T B => libNetwork F (ps T B)) (hctx : ∀ h ∈ (netOf layers L).hubs, h.ctx ≤ 1)
    (hM : M.training = false) {w : Batch} {bs : List Batch} (C : Cut data w bs) {θ : List ℝ} {wst : State ℝ}
    (hw : Ran layers L data (fun T B => libNetwork F (ps T B)) θ w wst)
    (hclock : ∀ s, Found layers L data w.T w.B w.data θ (contextRows (netOf layers L) w.T w.B) s →
      ∀ l ∈ rest, ty l = str "Clockwork" ∨ ty l = str "ClockworkLstm" → ∀ n, (str "timing", vec n) ∈ l.paramShapes → ∀ j < n,
      value (netOf layers L) w.T w.B l.name (forward (libNetwork F (ps w.T w.B)) s) ⟨str "parameters", str "timing", j⟩ ≠ 0)
    {l : LayerInfo} (hl : l ∈ rest) (hty : ty l = str "Loss") {sts : List (State ℝ)}
    (hs : List.Forall₂ (Ran layers L data (fun T B => libNetwork F (ps T B)) θ) bs sts) :
    ((bs.zip sts).map fun x => (x.1.B : ℝ) * lossV (netOf layers L) l.name x.1 x.2).sum = w.B * lossV (netOf layers L) l.name w wst := by
  obtain ⟨imp, f, τ, h1, h2⟩ := loss_parts F ps hps S hctx hM C hw hclock hl hty
  rw [parts_sum _ (fun b st => (b.B : ℝ) * lossV (netOf layers L) l.name b st) imp f τ bs sts 0 hs h2, h1, C.sum]

end

end Verif.Evaluate
