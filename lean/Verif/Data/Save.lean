import Verif.Data.ExtractProps

/-!
# `extract_and_save`: `brainstorm/tools.py:124-176`

The HDF5 file is the list of its datasets.  What the network has in its buffers after the forward pass of each batch is given, as for
`extract`.
-/

namespace Verif.Data

variable {α : Type}

/-- `dataset.resize(size=n, axis=1)`: columns are cut off or filled with zeros. -/
def Arr.resizeCols (a : Arr α) (n : Nat) (z : α) : Arr α :=
  ⟨a.rank, n, a.rows.map (fun r => r.take n ++ List.replicate (n - r.length) z)⟩

/-- The inner loop of `extract_and_save` (tools.py:165-176).  `create_dataset` raises if there is a dataset with this name already, and
if the chunks would be empty.  Assignment to a dataset broadcasts as in numpy. -/
def saveBatch (zero : Name → α) (batch : Dict Name (Arr α)) (firstPass : Bool) :
    List (Nat × Name) → Dict Name (Arr α) × Nat → Option (Dict Name (Arr α) × Nat)
  | [], st => some st
  | (num, name) :: rest, (ds, nrItems) =>
    match Dict.get? batch name with
    | none => none
    | some data =>
      let nrItems := if num = 0 then nrItems + data.seqs else nrItems
      if firstPass then
        if name ∈ Dict.keys ds ∨ data.times = 0 ∨ data.seqs = 0 then none
        else saveBatch zero batch firstPass rest (ds ++ [(name, data)], nrItems)
      else match ds[num]? with
        | none => none
        | some (n, dst) => match (dst.resizeCols nrItems (zero n)).assignCols (nrItems - data.seqs) nrItems data with
          | none => none
          | some dst' => saveBatch zero batch firstPass rest (List.set ds num (n, dst'), nrItems)

/-- The outer loop of `extract_and_save` (tools.py:162-176). -/
def saveLoop (zero : Name → α) (names : List Name) :
    List (Dict Name (Arr α)) → Dict Name (Arr α) × Nat → Option (Dict Name (Arr α) × Nat)
  | [], st => some st
  | batch :: rest, st =>
    let firstPass := decide (st.1.length = 0)
    match saveBatch zero batch firstPass (names.zipIdx.map (fun p => (p.2, p.1))) st with
    | none => none
    | some st' => saveLoop zero names rest st'

/-- `extract_and_save` (tools.py:124-176): the datasets of the file. -/
def extractAndSave (zero : Name → α) (names : List Name) (batches : List (Dict Name (Arr α))) : Option (Dict Name (Arr α)) :=
  (saveLoop zero names batches ([], 0)).map Prod.fst

/-! ### Proofs -/

variable {zero : Name → α}

theorem map_set_nodup {ν : Type} {names pre ns : List Name} {n : Name} (e : names = pre ++ n :: ns) (hnd : names.Nodup) (f : Name → ν) (v : ν) :
    (names.map fun x => (x, f x)).set pre.length (n, v) = names.map fun x => (x, if x = n then v else f x) := by
  subst e
  have hn := List.nodup_append.1 hnd
  have h1 : ∀ x ∈ pre, x ≠ n := fun x hx => hn.2.2 x hx n (by simp)
  have h2 : ∀ x ∈ ns, x ≠ n := fun x hx e => (List.nodup_cons.1 hn.2.1).1 (e ▸ hx)
  simp only [List.map_append, List.map_cons]
  rw [List.set_append_right _ _ (by simp)]
  simp only [List.length_map, Nat.sub_self, List.set_cons_zero, if_true]
  congr 1
  · exact List.map_congr_left fun x hx => by rw [if_neg (h1 x hx)]
  · congr 1
    exact List.map_congr_left fun x hx => by rw [if_neg (h2 x hx)]

/-- A later pass. -/
theorem save_later {names : List Name} (hnd : names.Nodup) {batch : Dict Name (Arr α)} {lo w : Nat} (D : Name → Arr α) (f g : Name → Arr α)
    (hget : ∀ n ∈ names, Dict.get? batch n = some (D n)) (hw : ∀ n ∈ names, (D n).seqs = w)
    (hg : ∀ n ∈ names, ((f n).resizeCols (lo + w) (zero n)).assignCols lo (lo + w) (D n) = some (g n)) :
    ∀ (ns pre : List Name), names = pre ++ ns → ∀ items, (if pre.length = 0 ∧ ns ≠ [] then items + w else items) = lo + w →
      saveBatch zero batch false ((ns.zipIdx pre.length).map (fun p => (p.2, p.1)))
        (names.map (fun x => (x, if x ∈ pre then g x else f x)), items) = some (names.map (fun x => (x, g x)), lo + w)
  | [], pre, e, items, hi => by
    simp only [List.append_nil] at e
    subst e
    simp only [ne_eq, not_true_eq_false, and_false, if_false] at hi
    simp only [List.zipIdx_nil, List.map_nil, saveBatch, hi]
    congr 2
    exact List.map_congr_left fun x hx => by rw [if_pos hx]
  | n :: ns, pre, e, items, hi => by
    have hn : n ∈ names := by rw [e]; simp
    have hnp : n ∉ pre := fun hx => (List.nodup_append.1 (e ▸ hnd)).2.2 n hx n (by simp) rfl
    have hi' : (if pre.length = 0 then items + w else items) = lo + w := by
      simpa using hi
    have hget' : (names.map (fun x => (x, if x ∈ pre then g x else f x)))[pre.length]? = some (n, f n) := by
      rw [e]
      simp [hnp]
    simp only [List.zipIdx_cons, List.map_cons, saveBatch, hget n hn, hw n hn, hi', Bool.false_eq_true, if_false, hget',
      Nat.add_sub_cancel, hg n hn]
    rw [map_set_nodup e hnd]
    have := save_later hnd D f g hget hw hg ns (pre ++ [n]) (by simpa using e) (lo + w) (by simp)
    simp only [List.length_append, List.length_cons, List.length_nil, Nat.zero_add] at this
    rw [← this]
    congr 2
    refine List.map_congr_left fun x _ => ?_
    by_cases hx : x = n
    · simp [hx]
    · simp [hx]

/-- The first pass. -/
theorem save_first {names : List Name} (hnd : names.Nodup) {batch : Dict Name (Arr α)} {w : Nat} (D : Name → Arr α)
    (hget : ∀ n ∈ names, Dict.get? batch n = some (D n)) (hw : ∀ n ∈ names, (D n).seqs = w) (hw0 : 0 < w) (ht : ∀ n ∈ names, 0 < (D n).times) :
    ∀ (ns pre : List Name), names = pre ++ ns → ∀ items, (if pre.length = 0 ∧ ns ≠ [] then items + w else items) = w →
      saveBatch zero batch true ((ns.zipIdx pre.length).map (fun p => (p.2, p.1))) (pre.map (fun x => (x, D x)), items) =
        some (names.map (fun x => (x, D x)), w)
  | [], pre, e, items, hi => by
    simp only [List.append_nil] at e
    subst e
    simp only [ne_eq, not_true_eq_false, and_false, if_false] at hi
    simp only [List.zipIdx_nil, List.map_nil, saveBatch, hi]
  | n :: ns, pre, e, items, hi => by
    have hn : n ∈ names := by rw [e]; simp
    have hnp : n ∉ pre := fun hx => (List.nodup_append.1 (e ▸ hnd)).2.2 n hx n (by simp) rfl
    have hi' : (if pre.length = 0 then items + w else items) = w := by
      simpa using hi
    have hk : ¬ (n ∈ Dict.keys (pre.map (fun x => (x, D x))) ∨ (D n).times = 0 ∨ (D n).seqs = 0) := by
      rintro (h | h | h)
      · exact hnp (by simpa [Dict.keys] using h)
      · exact absurd h (ht n hn).ne'
      · rw [hw n hn] at h
        omega
    simp only [List.zipIdx_cons, List.map_cons, saveBatch, hget n hn, if_true, hk, if_false]
    rw [hw n hn, hi']
    have := save_first hnd D hget hw hw0 ht ns (pre ++ [n]) (by simpa using e) w (by simp)
    simpa using this

/-- Resizing and appending. -/
theorem resize_assign {rank T lo w : Nat} {z : α} {pre : Nat → List α} {src : Arr α} (hpre : ∀ t, t < T → (pre t).length = lo)
    (ht : src.times = T) (hs : src.seqs = w) :
    ((⟨rank, lo, (List.range T).map pre⟩ : Arr α).resizeCols (lo + w) z).assignCols lo (lo + w) src =
      some ⟨rank, lo + w, (List.range T).map fun t => pre t ++ src.row t⟩ := by
  have h1 : (⟨rank, lo, (List.range T).map pre⟩ : Arr α).resizeCols (lo + w) z = canon rank T (lo + w) z pre lo := by
    simp only [Arr.resizeCols, canon, List.map_map, Arr.mk.injEq, true_and]
    refine List.map_congr_left fun t h => ?_
    have := hpre t (List.mem_range.1 h)
    simp only [Function.comp]
    rw [List.take_of_length_le (by omega), this]
  rw [h1, assign_canon hpre le_rfl ht hs]
  simp [canon]

/-- What is in the file after the batches `bw`. -/
def fileOf (names : List Name) (T : Name → Nat) (rk : Name → Nat) (bw : List (Dict Name (Arr α) × Nat)) : Dict Name (Arr α) :=
  names.map fun n => (n, ⟨rk n, (bw.map Prod.snd).sum, (List.range (T n)).map (gluedRow (bw.map Prod.fst) n)⟩)

theorem save_all {names : List Name} (hnd : names.Nodup) (hne : names ≠ []) {T : Name → Nat} {rk : Name → Nat} :
    ∀ (todo done : List (Dict Name (Arr α) × Nat)), (∀ p ∈ done ++ todo, UniformBatch names T p.1 p.2) → done ≠ [] →
      saveLoop zero names (todo.map Prod.fst) (fileOf names T rk done, (done.map Prod.snd).sum) =
        some (fileOf names T rk (done ++ todo), ((done ++ todo).map Prod.snd).sum)
  | [], done, _, _ => by simp [saveLoop]
  | (b, w) :: todo, done, hall, hd => by
    have hb := hall (b, w) (by simp)
    let D : Name → Arr α := fun n => (Dict.get? b n).getD ⟨0, 0, []⟩
    have hD : ∀ n ∈ names, Dict.get? b n = some (D n) ∧ (D n).times = T n ∧ (D n).seqs = w := by
      intro n hn
      obtain ⟨a, h1, -, h3, h4⟩ := hb n hn
      have : D n = a := by simp [D, h1]
      exact ⟨by rw [this, h1], by rw [this, h3], by rw [this, h4]⟩
    have hl : (fileOf names T rk done).length ≠ 0 := by
      simp [fileOf, hne]
    have hglue : ∀ n ∈ names, ∀ t, gluedRow ((done ++ [(b, w)]).map Prod.fst) n t = gluedRow (done.map Prod.fst) n t ++ (D n).row t := by
      intro n hn t
      simp [gluedRow, (hD n hn).1]
    have step := save_later (zero := zero) hnd D
      (fun n => ⟨rk n, (done.map Prod.snd).sum, (List.range (T n)).map (gluedRow (done.map Prod.fst) n)⟩)
      (fun n => ⟨rk n, (done.map Prod.snd).sum + w, (List.range (T n)).map (gluedRow ((done ++ [(b, w)]).map Prod.fst) n)⟩)
      (lo := (done.map Prod.snd).sum) (fun n hn => (hD n hn).1) (fun n hn => (hD n hn).2.2)
      (fun n hn => by
        rw [resize_assign (fun t ht => length_gluedRow (fun p hp => hall p (by simp [hp])) hn ht) (hD n hn).2.1 (hD n hn).2.2]
        simp only [Option.some.injEq, Arr.mk.injEq, true_and]
        exact List.map_congr_left fun t _ => (hglue n hn t).symm)
      names [] rfl (done.map Prod.snd).sum (by simp [hne])
    have ih := save_all hnd hne (rk := rk) todo (done ++ [(b, w)]) (by simpa using hall) (by simp)
    simp only [List.length_nil, List.not_mem_nil, if_false] at step
    simp only [List.map_cons, saveLoop, hl, decide_false]
    unfold fileOf at ih ⊢
    rw [step]
    simpa using ih

theorem get?_map_self {ν : Type} {names : List Name} {f : Name → ν} {n : Name} (hn : n ∈ names) :
    Dict.get? (names.map fun x => (x, f x)) n = some (f n) := by
  induction names with
  | nil => simp at hn
  | cons m ms ih =>
    simp only [List.map_cons, Dict.get?_cons]
    by_cases h : m = n
    · simp [h]
    · simp only [h, if_false]
      exact ih ((List.mem_cons.1 hn).resolve_left (Ne.symm h))

theorem rows_range (a : Arr α) : a.rows = (List.range a.times).map a.row := by
  refine List.ext_getElem (by simp [Arr.times]) fun t h1 h2 => ?_
  simp [Arr.row, h1]

/-- **C89.**  For distinct buffer names, with the same number of steps (at least one) in every batch and no empty batch, `extract_and_save`
writes a file with exactly these datasets, in which the buffer is put together from all batches, in their order. -/
theorem C89_file (zero : Name → α) (names : List Name) (hnd : names.Nodup) (hne : names ≠ []) (T : Name → Nat)
    (batches : List (Dict Name (Arr α) × Nat)) (hb : batches ≠ []) (hall : ∀ p ∈ batches, UniformBatch names T p.1 p.2)
    (hpos : ∀ p ∈ batches, 0 < p.2) (hT : ∀ n ∈ names, 0 < T n) :
    ∃ file, extractAndSave zero names (batches.map Prod.fst) = some file ∧ Dict.keys file = names ∧
      ∀ name ∈ names, ∃ A : Arr α, Dict.get? file name = some A ∧ A.seqs = (batches.map Prod.snd).sum ∧
        A.rows = (List.range (T name)).map (gluedRow (batches.map Prod.fst) name) := by
  obtain ⟨⟨b, w⟩, todo, rfl⟩ := List.exists_cons_of_ne_nil hb
  have hb' := hall (b, w) (by simp)
  let D : Name → Arr α := fun n => (Dict.get? b n).getD ⟨0, 0, []⟩
  have hD : ∀ n ∈ names, Dict.get? b n = some (D n) ∧ (D n).times = T n ∧ (D n).seqs = w := by
    intro n hn
    obtain ⟨a, h1, -, h3, h4⟩ := hb' n hn
    have : D n = a := by simp [D, h1]
    exact ⟨by rw [this, h1], by rw [this, h3], by rw [this, h4]⟩
  have step := save_first (zero := zero) hnd D (fun n hn => (hD n hn).1) (fun n hn => (hD n hn).2.2) (hpos (b, w) (by simp))
    (fun n hn => by rw [(hD n hn).2.1]; exact hT n hn) names [] rfl 0 (by simp [hne])
  have e : names.map (fun x => (x, D x)) = fileOf names T (fun n => (D n).rank) [(b, w)] := by
    refine List.map_congr_left fun n hn => ?_
    congr 1
    obtain ⟨h1, h2, h3⟩ := hD n hn
    have h4 : (List.range (T n)).map (gluedRow ([(b, w)].map Prod.fst) n) = (D n).rows := by
      rw [rows_range (D n), h2]
      refine List.map_congr_left fun t _ => ?_
      simp [gluedRow, h1]
    rw [h4]
    show D n = ⟨(D n).rank, ([(b, w)].map Prod.snd).sum, (D n).rows⟩
    simp only [List.map_cons, List.map_nil, List.sum_cons, List.sum_nil, Nat.add_zero, ← h3]
  have rest := save_all (zero := zero) hnd hne (rk := fun n => (D n).rank) todo [(b, w)] (by simpa using hall) (by simp)
  refine ⟨fileOf names T (fun n => (D n).rank) ((b, w) :: todo), ?_, ?_, ?_⟩
  · simp only [List.length_nil, List.map_nil] at step
    simp only [extractAndSave, List.map_cons, saveLoop, List.length_nil, decide_true, step, e]
    simp only [List.map_cons, List.map_nil, List.sum_cons, List.sum_nil, Nat.add_zero, List.cons_append, List.nil_append] at rest
    rw [rest]
    rfl
  · simp only [fileOf, Dict.keys, List.map_map]
    exact List.map_id'' (fun _ => rfl) names
  · intro n hn
    exact ⟨_, get?_map_self hn, rfl, rfl⟩

/-- **C89**: the file holds what `extract` returns. -/
theorem C89_same_as_extract (zero : Name → α) (names : List Name) (hnd : names.Nodup) (hne : names ≠ []) (T : Name → Nat)
    (batches : List (Dict Name (Arr α) × Nat)) (hb : batches ≠ []) (hall : ∀ p ∈ batches, UniformBatch names T p.1 p.2)
    (hpos : ∀ p ∈ batches, 0 < p.2) (hT : ∀ n ∈ names, 0 < T n) :
    ∃ file ret, extractAndSave zero names (batches.map Prod.fst) = some file ∧
      extract zero (batches.map Prod.snd).sum names (batches.map Prod.fst) = some ret ∧ Dict.keys file = Dict.keys ret ∧
      ∀ name ∈ names, ∃ A B : Arr α, Dict.get? file name = some A ∧ Dict.get? ret name = some B ∧ A.seqs = B.seqs ∧ A.rows = B.rows := by
  obtain ⟨file, f1, f2, f3⟩ := C89_file zero names hnd hne T batches hb hall hpos hT
  obtain ⟨ret, r1, r2, r3⟩ := C52_extract zero _ names hnd hne T batches hb hall rfl
  refine ⟨file, ret, f1, r1, f2.trans r2.symm, fun n hn => ?_⟩
  obtain ⟨A, a1, a2, a3⟩ := f3 n hn
  obtain ⟨B, b1, b2, b3, b4⟩ := r3 n hn
  refine ⟨A, B, a1, b1, a2.trans b2.symm, ?_⟩
  rw [a3]
  refine List.ext_getElem? fun t => ?_
  by_cases ht : t < T n
  · rw [b4 t ht]
    simp [ht]
  · rw [List.getElem?_eq_none (by simp; omega), List.getElem?_eq_none (by have : B.rows.length = T n := b3; omega)]

/-- A buffer that is requested twice makes `extract_and_save` fail, whereas `extract` loses the first batch (`C52_duplicate_name`). -/
theorem C89_duplicate_name (zero : Name → α) (n : Name) (names : List Name) (hn : n ∈ names) (b : Dict Name (Arr α)) (bs : List (Dict Name (Arr α))) :
    extractAndSave zero (n :: names) (b :: bs) = none := by
  have key : ∀ (ns : List Name), n ∈ ns → ∀ k ds items, n ∈ Dict.keys ds →
      saveBatch zero b true ((ns.zipIdx k).map (fun p => (p.2, p.1))) (ds, items) = none := by
    intro ns
    induction ns with
    | nil => simp
    | cons m ns ih =>
      intro hm k ds items hk
      simp only [List.zipIdx_cons, List.map_cons, saveBatch]
      split
      · rfl
      · simp only [if_true]
        split_ifs with h
        · rfl
        all_goals
          have hmn : n ≠ m := fun e => h (Or.inl (e ▸ hk))
          exact ih ((List.mem_cons.1 hm).resolve_left hmn) _ _ _ (by simpa [Dict.keys] using Or.inl (by simpa [Dict.keys] using hk))
  have h : saveBatch zero b true (((n :: names).zipIdx).map (fun p => (p.2, p.1))) ([], 0) = none := by
    simp only [List.zipIdx_cons, List.map_cons, saveBatch]
    split
    · rfl
    · simp only [if_true]
      split_ifs with h
      · rfl
      all_goals exact key names hn _ _ _ (by simp [Dict.keys])
  simp only [extractAndSave, saveLoop, List.length_nil, decide_true, h, Option.map_none]

/-- A batch in which all sequences have one step only, behind a longer one, is written to all steps: the number of steps has to be the
same in all batches.  The same happens in `extract`. -/
theorem C89_one_step :
    (extractAndSave (fun _ => 0) [str "a"] [[(str "a", ⟨3, 1, [[1], [2], [3]]⟩)], [(str "a", ⟨3, 1, [[7]]⟩)]]).map (List.map (fun e => e.2.rows)) =
      some [[[1, 7], [2, 7], [3, 7]]] ∧
    (extract (fun _ => 0) 2 [str "a"] [[(str "a", ⟨3, 1, [[1], [2], [3]]⟩)], [(str "a", ⟨3, 1, [[7]]⟩)]]).map (List.map (fun e => e.2.rows)) =
      some [[[1, 7], [2, 7], [3, 7]]] := by
  decide +kernel

example : (extractAndSave (fun _ => 0) [str "a", str "b"] (extractDemo.map Prod.fst)).map (List.map (fun e => e.2.rows)) =
    some [[[1, 2, 11], [3, 4, 12]], [[5, 6, 13]]] := by decide +kernel

/-- All assumptions are met. -/
example : ∃ file, extractAndSave (fun _ => 0) [str "a", str "b"] (extractDemo.map Prod.fst) = some file ∧ Dict.keys file = [str "a", str "b"] := by
  obtain ⟨file, h1, h2, -⟩ := C89_file (fun _ => 0) [str "a", str "b"] (by decide) (by simp) (fun n => if n = str "a" then 2 else 1) extractDemo
    (by simp [extractDemo]) (by
      intro p hp name hn
      simp only [extractDemo, List.mem_cons, List.not_mem_nil, or_false] at hp hn
      rcases hp with rfl | rfl <;> rcases hn with rfl | rfl <;> exact ⟨_, rfl, by simp [Arr.Regular], rfl, rfl⟩)
    (by simp [extractDemo]) (fun n _ => by split <;> omega)
  exact ⟨file, h1, h2⟩

end Verif.Data
