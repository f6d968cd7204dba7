import Verif.Evaluate.Reads
import Verif.Scoring.Props

/-!
# C79: losses, scores and arrays of all parts
-/

namespace Verif.Evaluate

open Verif.Structure Verif.Layout Verif.Buffers Verif.Memory Verif.EndToEnd
open Verif.Session Verif.Sequence

/-! ### Losses -/

theorem passes_one {net : Net} {input : Name} {P : ℕ → ℕ → List MLayer} {w : Batch} {st wst : State ℝ}
    (h : passes net input P [w] st = some [wst]) (loss : ℕ → ℕ → Mem → Option ℝ) :
    evaluateLoss net input P loss [w] st = (loss w.T w.B (memOf wst)).map fun v => v * (w.B : ℝ) / (w.B : ℝ) := by
  unfold evaluateLoss
  rw [h, Option.bind_some]
  simp only [List.zip_cons_cons, List.zip_nil_right, List.mapM_cons, List.mapM_nil]
  cases loss w.T w.B (memOf wst) with
  | none => rfl
  | some v => simp [Scoring.weightedAverage]

theorem sum_map_div {α : Type} (l : List α) (f : α → ℝ) (c : ℝ) : (l.map f).sum / c = (l.map fun x => f x / c).sum := by
  induction l with
  | nil => simp
  | cons x l ih => rw [List.map_cons, List.sum_cons, add_div, ih, List.map_cons, List.sum_cons]

theorem weightedAverage_eq {α : Type} (l : List α) (B v : α → ℝ) :
    Scoring.weightedAverage (l.map fun x => (B x, v x)) = (l.map fun x => B x * v x).sum / (l.map B).sum := by
  unfold Scoring.weightedAverage
  simp only [List.map_map, Function.comp_def]
  rw [sum_map_div]
  congr 1
  refine List.map_congr_left fun x _ => ?_
  rw [mul_comm (v x)]

/-- What is known for every element of a list is known in every order. -/
theorem perm_zip {α β : Type} {R : α → β → Prop} {xs xs' : List α} (hp : xs'.Perm xs) : ∀ {ys' : List β}, List.Forall₂ R xs' ys' →
    ∃ ys, List.Forall₂ R xs ys ∧ (xs'.zip ys').Perm (xs.zip ys) := by
  induction hp with
  | nil => intro ys h; exact ⟨ys, h, .refl _⟩
  | cons x _ ih =>
    rintro _ (_ | ⟨h1, h2⟩)
    obtain ⟨ys, g1, g2⟩ := ih h2
    exact ⟨_, .cons h1 g1, g2.cons _⟩
  | swap x y l =>
    rintro _ (_ | ⟨h1, _ | ⟨h2, h3⟩⟩)
    exact ⟨_, .cons h2 (.cons h1 h3), .swap _ _ _⟩
  | trans _ _ ih1 ih2 =>
    intro ys h
    obtain ⟨ys1, g1, g2⟩ := ih1 h
    obtain ⟨ys2, g3, g4⟩ := ih2 g1
    exact ⟨ys2, g3, g2.trans g4⟩

/-- Losses that are sums of outputs of Loss layers do not depend on the batches. -/
theorem evaluate_losses {net : Net} {input : Name} {P : ℕ → ℕ → List MLayer} {w : Batch} {bs bs' : List Batch} {st st' wst : State ℝ}
    {sts sts' : List (State ℝ)} (hw : passes net input P [w] st' = some [wst]) (hs : passes net input P bs' st = some sts')
    (hzip : (bs'.zip sts').Perm (bs.zip sts)) (hlen : bs.length = sts.length) (hsum : (bs.map Batch.B).sum = w.B) (hpos : 0 < w.B) (names : List Name)
    (hp : ∀ n ∈ names, ((bs.zip sts).map fun x => (x.1.B : ℝ) * lossV net n x.1 x.2).sum = w.B * lossV net n w wst)
    (loss : ℕ → ℕ → Mem → Option ℝ) (hl : ∀ T B m, loss T B m = some (names.map fun n => entry net T B n m "outputs" "loss" 0).sum) :
    evaluateLoss net input P loss bs' st = evaluateLoss net input P loss [w] st' ∧
      evaluateLoss net input P loss bs' st = some (names.map fun n => lossV net n w wst).sum := by
  have hB : (w.B : ℝ) ≠ 0 := by positivity
  have e1 : evaluateLoss net input P loss [w] st' = some (names.map fun n => lossV net n w wst).sum := by
    rw [passes_one hw, hl, Option.map_some, mul_div_assoc, div_self hB, mul_one]
    rfl
  have e2 : evaluateLoss net input P loss bs' st = some (names.map fun n => lossV net n w wst).sum := by
    unfold evaluateLoss
    rw [hs, Option.bind_some]
    rw [mapM_some (g := fun x => ((x.1.B : ℝ), (names.map fun n => lossV net n x.1 x.2).sum)) fun x _ => by rw [hl]; rfl]
    rw [Option.map_some, weightedAverage_eq, (hzip.map _).sum_eq, (hzip.map _).sum_eq]
    have f1 : ((bs.zip sts).map fun x => (x.1.B : ℝ)).sum = w.B := by
      have := congrArg (fun l => (List.map Batch.B l).sum) (List.map_fst_zip (l₁ := bs) (l₂ := sts) hlen.le)
      simp only [List.map_map] at this
      rw [← hsum, ← this]
      generalize bs.zip sts = l
      induction l with
      | nil => simp
      | cons x l ih => simp [ih]
    have f2 : ∀ names : List Name, (∀ n ∈ names, ((bs.zip sts).map fun x => (x.1.B : ℝ) * lossV net n x.1 x.2).sum = w.B * lossV net n w wst) →
        ((bs.zip sts).map fun x => (x.1.B : ℝ) * (names.map fun n => lossV net n x.1 x.2).sum).sum =
          w.B * (names.map fun n => lossV net n w wst).sum := by
      intro names
      induction names with
      | nil => intro _; simp
      | cons n names ih =>
        intro hp
        simp only [List.map_cons, List.sum_cons, mul_add, List.sum_map_add]
        rw [hp n (by simp), ih fun n' hn' => hp n' (by simp [hn'])]
    rw [f1, f2 names hp, mul_div_assoc, mul_comm, div_mul_cancel₀ _ hB]
  exact ⟨e2.trans e1.symm, e2⟩

/-! ### Scores -/

/-- The score of the rows of a batch is a sum over the rows. -/
theorem accuracy_sum (useMask : Bool) : ∃ g : Scoring.Row ℝ → ℝ, ∀ rs, Scoring.accuracy useMask rs = (rs.map g).sum := ⟨_, fun _ => rfl⟩

theorem hamming_sum (θ : ℝ) (c : ℕ) (useMask : Bool) : ∃ g : Scoring.Row ℝ → ℝ, ∀ rs, Scoring.hamming θ c useMask rs = (rs.map g).sum := by
  refine ⟨fun r => ((r.pred.zip r.label).map fun pl => Scoring.weighted useMask r (if Scoring.hit θ pl.1 pl.2 then 1 else 0)).sum / c, fun rs => ?_⟩
  unfold Scoring.hamming
  rw [sum_map_div]

theorem squaredError_sum (useMask : Bool) : ∃ g : Scoring.Row ℝ → ℝ, ∀ rs, Scoring.squaredError useMask rs = (rs.map g).sum := by
  refine ⟨fun r => 1 / 2 * ((r.pred.zip r.label).map fun pl => Scoring.weighted useMask r ((pl.2 - pl.1) ^ 2)).sum, fun rs => ?_⟩
  unfold Scoring.squaredError
  rw [List.sum_map_mul_left]

theorem weight_sum (useMask : Bool) : ∃ g : Scoring.Row ℝ → ℝ, ∀ rs, Scoring.weight useMask rs = (rs.map g).sum := by
  refine ⟨fun r => if useMask then r.mask else 1, fun rs => ?_⟩
  unfold Scoring.weight
  cases useMask <;> simp

theorem sum_flatten_map {α β : Type} (l : List α) (F : α → List β) (g : β → ℝ) :
    (l.map fun x => ((F x).map g).sum).sum = (((l.map F).flatten).map g).sum := by
  induction l with
  | nil => rfl
  | cons x l ih => simp [ih]

theorem evaluate_scores {net : Net} {input : Name} {P : ℕ → ℕ → List MLayer} {w : Batch} {bs bs' : List Batch} {st st' wst : State ℝ}
    {sts sts' : List (State ℝ)} (hw : passes net input P [w] st' = some [wst]) (hs : passes net input P bs' st = some sts')
    (hzip : (bs'.zip sts').Perm (bs.zip sts))
    {R : Batch → State ℝ → Prop} (hR : List.Forall₂ R bs sts) (hsum : (bs.map Batch.B).sum = w.B) {rows : ℕ → State ℝ → Option (List (Scoring.Row ℝ))}
    {f : ℕ → ℕ → Scoring.Row ℝ} (h1 : rows (w.T * w.B) wst = some (blk f w.T 0 w.B))
    (h2 : ∀ done b later, bs = done ++ b :: later → ∀ st, R b st → rows (b.T * b.B) st = some (blk f w.T (0 + (done.map Batch.B).sum) b.B))
    (useMask : Bool) {score : List (Scoring.Row ℝ) → ℝ} {g : Scoring.Row ℝ → ℝ} (hg : ∀ rs, score rs = (rs.map g).sum) :
    evaluateScore net input P rows useMask score bs' st = evaluateScore net input P rows useMask score [w] st' ∧
      evaluateScore net input P rows useMask score [w] st' = some (score (blk f w.T 0 w.B) / Scoring.weight useMask (blk f w.T 0 w.B)) := by
  obtain ⟨gw, hgw⟩ := weight_sum useMask
  have e1 : evaluateScore net input P rows useMask score [w] st' = some (score (blk f w.T 0 w.B) / Scoring.weight useMask (blk f w.T 0 w.B)) := by
    unfold evaluateScore
    rw [hw, Option.bind_some]
    rw [mapM_some (g := fun x => (Scoring.weight useMask (blk f w.T 0 w.B), score (blk f w.T 0 w.B))) fun x hx => by
      simp only [List.zip_cons_cons, List.zip_nil_right, List.mem_singleton] at hx
      rw [hx, h1]
      rfl]
    simp [Scoring.aggregate]
  refine ⟨Eq.trans ?_ e1.symm, e1⟩
  have hsome : ∀ x ∈ bs.zip sts, rows (x.1.T * x.1.B) x.2 = some ((rows (x.1.T * x.1.B) x.2).getD []) := fun x hx => by
    obtain ⟨done, later, e, r⟩ := zip_split hR x hx
    rw [h2 done x.1 later e x.2 r]
    rfl
  have hperm := parts_perm R (fun b st => (rows (b.T * b.B) st).getD []) f w.T bs sts 0 hR fun done b later e st r => by
    rw [h2 done b later e st r]
    rfl
  rw [hsum] at hperm
  unfold evaluateScore
  rw [hs, Option.bind_some]
  rw [mapM_some (g := fun x => (Scoring.weight useMask ((rows (x.1.T * x.1.B) x.2).getD []), score ((rows (x.1.T * x.1.B) x.2).getD [])))
    fun x hx => by rw [hsome x (hzip.mem_iff.1 hx)]; rfl]
  rw [Option.map_some]
  congr 1
  unfold Scoring.aggregate
  rw [List.map_map, List.map_map]
  simp only [Function.comp_def, hg, hgw]
  rw [(hzip.map _).sum_eq, (hzip.map _).sum_eq, sum_flatten_map, sum_flatten_map, (hperm.map g).sum_eq, (hperm.map gw).sum_eq]

/-! ### Arrays -/

theorem get?_map {arrays : List (Name × Struct)} {g : Name × Struct → Data.Arr (List ℝ)} (hnd : (arrays.map Prod.fst).Nodup)
    {x : Name × Struct} (hx : x ∈ arrays) : Dict.get? (arrays.map fun x => (x.1, g x)) x.1 = some (g x) := by
  refine Dict.get?_of_mem ?_ (List.mem_map.2 ⟨x, hx, rfl⟩)
  unfold Dict.keys
  rw [List.map_map]
  exact hnd

theorem table_regular (s : Struct) (T B : ℕ) (xs : List ℝ) : (table s T B xs).Regular := by
  intro r hr
  simp only [table, List.mem_map] at hr
  obtain ⟨t, -, rfl⟩ := hr
  simp [table]

theorem table_row (s : Struct) (T B : ℕ) (xs : List ℝ) {t : ℕ} (ht : t < T + s.contextSize) :
    (table s T B xs).rows[t]? = some ((List.range B).map fun q => chunk s.featureSize xs (t * B + q)) := by
  simp only [table, List.getElem?_map, List.getElem?_range ht, Option.map_some]
  rfl

theorem extract_rows {net : Net} {input : Name} {P : ℕ → ℕ → List MLayer} {w : Batch} {bs : List Batch} {st wst : State ℝ}
    {sts : List (State ℝ)} (hs : passes net input P bs st = some sts) {R : Batch → State ℝ → Prop} (hR : List.Forall₂ R bs sts)
    (hne : bs ≠ []) (hT : ∀ b ∈ bs, b.T = w.T) (hsum : (bs.map Batch.B).sum = w.B) {arrays : List (Name × Struct)} (ha : arrays ≠ [])
    (hnd : (arrays.map Prod.fst).Nodup)
    (h : ∀ x ∈ arrays, ∃ xs, wst.read x.1 = some xs ∧ ∀ done b later, bs = done ++ b :: later → ∀ st, R b st →
      ∃ xs', st.read x.1 = some xs' ∧ ∀ t < w.T, ∀ q < b.B,
        chunk x.2.featureSize xs' (t * b.B + q) = chunk x.2.featureSize xs (t * w.B + ((done.map Batch.B).sum + q))) :
    ∃ d, extract net input P arrays w.B bs st = some d ∧ Dict.keys d = arrays.map Prod.fst ∧
      ∀ x ∈ arrays, ∃ A xs, Dict.get? d x.1 = some A ∧ wst.read x.1 = some xs ∧ A.seqs = w.B ∧ A.times = w.T + x.2.contextSize ∧
        ∀ t < w.T, A.rows[t]? = (table x.2 w.T w.B xs).rows[t]? := by
  have hread : ∀ x ∈ arrays, ∀ y ∈ bs.zip sts, y.2.read x.1 = some ((y.2.read x.1).getD []) := fun x hx y hy => by
    obtain ⟨done, later, e, r⟩ := zip_split hR y hy
    obtain ⟨xs, -, h2⟩ := h x hx
    obtain ⟨xs', h3, -⟩ := h2 done y.1 later e y.2 r
    rw [h3]
    rfl
  set D : Batch × State ℝ → Dict Name (Data.Arr (List ℝ)) := fun y =>
    arrays.map fun x => (x.1, table x.2 y.1.T y.1.B ((y.2.read x.1).getD [])) with hD
  have e1 : (bs.zip sts).mapM (fun x => buffersOf arrays x.1 x.2) = some ((bs.zip sts).map D) :=
    mapM_some fun y hy => mapM_some fun x hx => by rw [hread x hx y hy]; rfl
  have hlen := hR.length_eq
  have hz : bs.zip sts ≠ [] := by
    intro hz
    have := congrArg List.length hz
    rw [List.length_zip, ← hlen, min_self, List.length_nil, List.length_eq_zero_iff] at this
    exact hne this
  obtain ⟨d, g1, g2, g3⟩ := Data.C52_extract (fun x => List.replicate (((Dict.get? arrays x).map Struct.featureSize).getD 0) (0 : ℝ)) w.B
    (arrays.map Prod.fst) hnd (by simpa using ha) (fun n => w.T + ((Dict.get? arrays n).map Struct.contextSize).getD 0)
    ((bs.zip sts).map fun y => (D y, y.1.B)) (by simpa using hz)
    (by
      intro p hp n hn
      obtain ⟨y, hy, rfl⟩ := List.mem_map.1 hp
      obtain ⟨x, hx, rfl⟩ := List.mem_map.1 hn
      refine ⟨_, get?_map hnd hx, table_regular _ _ _ _, ?_, rfl⟩
      obtain ⟨done, later, e, -⟩ := zip_split hR y hy
      simp only
      rw [Dict.get?_of_mem hnd (show (x.1, x.2) ∈ arrays from hx), ← hT y.1 (by rw [e]; simp)]
      simp [table, Data.Arr.times])
    (by rw [List.map_map, ← hsum]; conv_rhs => rw [← zip_fst hR, List.map_map]
        rfl)
  rw [List.map_map] at g1 g3
  refine ⟨d, ?_, g2, fun x hx => ?_⟩
  · unfold extract
    rw [hs, Option.bind_some, e1, Option.bind_some]
    exact g1
  · obtain ⟨A, a1, a2, a3, a4⟩ := g3 x.1 (List.mem_map.2 ⟨x, hx, rfl⟩)
    obtain ⟨xs, h1, h2⟩ := h x hx
    rw [Dict.get?_of_mem hnd (show (x.1, x.2) ∈ arrays from hx)] at a3 a4
    simp only [Option.map_some, Option.getD_some] at a3 a4
    refine ⟨A, xs, a1, h1, a2, a3, fun t ht => ?_⟩
    rw [a4 t (by omega), table_row _ _ _ _ (by omega)]
    congr 1
    unfold Data.gluedRow
    rw [List.map_map]
    have := parts_row R (fun b st => (List.range b.B).map fun q => chunk x.2.featureSize ((st.read x.1).getD []) (t * b.B + q))
      (fun q => chunk x.2.featureSize xs (t * w.B + q)) bs sts 0 hR fun done b later e st r => by
        obtain ⟨xs', h3, h4⟩ := h2 done b later e st r
        rw [h3]
        refine List.map_congr_left fun q hq => ?_
        rw [Nat.zero_add]
        exact h4 t ht q (List.mem_range.1 hq)
    simp only [Nat.zero_add] at this
    rw [hsum] at this
    rw [← this]
    congr 1
    refine List.map_congr_left fun y hy => ?_
    obtain ⟨done, later, e, -⟩ := zip_split hR y hy
    have hy' := hT y.1 (by rw [e]; simp)
    simp only [Function.comp]
    rw [get?_map hnd hx, Option.map_some, Option.getD_some, Data.Arr.row, List.getD_eq_getElem?_getD, table_row _ _ _ _ (by omega)]
    rfl

end Verif.Evaluate
