import Verif.Data.Tools

/-! # C52: `extract` -/

namespace Verif.Data

variable {α : Type}

/-- The row `t` of an array. -/
def Arr.row (a : Arr α) (t : Nat) : List α := a.rows.getD t []

/-- An array filled up to column `items`. -/
def canon (rank T nr : Nat) (z : α) (pre : Nat → List α) (items : Nat) : Arr α :=
  ⟨rank, nr, (List.range T).map (fun t => pre t ++ List.replicate (nr - items) z)⟩

theorem canon_zero (rank T nr : Nat) (z : α) :
    canon rank T nr z (fun _ => []) 0 = ⟨rank, nr, List.replicate T (List.replicate nr z)⟩ := by
  simp [canon]

theorem assign_canon {rank T nr lo w : Nat} {z : α} {pre : Nat → List α} {src : Arr α}
    (hpre : ∀ t, t < T → (pre t).length = lo) (hle : lo + w ≤ nr) (ht : src.times = T) (hs : src.seqs = w) :
    (canon rank T nr z pre lo).assignCols lo (lo + w) src =
      some (canon rank T nr z (fun t => pre t ++ src.row t) (lo + w)) := by
  have hw : min (lo + w) nr - min lo nr = w := by omega
  have h1 : (canon rank T nr z pre lo).times = T := by simp [canon, Arr.times]
  unfold Arr.assignCols
  simp only [h1]
  simp only [canon] at *
  simp only [hw, ht, hs, true_or, and_self, if_true, Option.some.injEq, Arr.mk.injEq, true_and]
  apply List.ext_getElem
  · simp
  · intro t h2 h3
    simp only [List.getElem_mapIdx, List.getElem_map, List.getElem_range]
    have htT : t < T := by simpa using h3
    have hl := hpre t htT
    rw [List.take_append_of_le_length (by omega), List.take_of_length_le (by omega)]
    rw [List.drop_append, List.drop_of_length_le (by omega), List.nil_append, List.drop_replicate]
    simp only [Arr.row]
    congr 2
    omega

variable {zero : Name → α} {nr : Nat} {batch : Dict Name (Arr α)}

theorem keys_set_mem {κ ν : Type} [DecidableEq κ] (d : Dict κ ν) (k : κ) (v : ν) (h : k ∈ Dict.keys d) :
    Dict.keys (Dict.set d k v) = Dict.keys d := by
  rw [Dict.keys_set]; simp [h]

theorem keys_set_not_mem {κ ν : Type} [DecidableEq κ] (d : Dict κ ν) (k : κ) (v : ν) (h : k ∉ Dict.keys d) :
    Dict.keys (Dict.set d k v) = Dict.keys d ++ [k] := by
  rw [Dict.keys_set]; simp [h]

/-- One name. -/
theorem extract_step {firstPass : Bool} {num : Nat} {name : Name} {rest : List (Nat × Name)}
    {ret : Dict Name (Arr α)} {items lo w T : Nat} {src : Arr α} {pre : Nat → List α}
    (hsrc : Dict.get? batch name = some src) (hs : src.seqs = w) (ht : src.times = T)
    (hitems : (if num = 0 then items + w else items) = lo + w) (hle : lo + w ≤ nr)
    (hpre : ∀ t, t < T → (pre t).length = lo)
    (hold : firstPass = false → ∃ rk, Dict.get? ret name = some (canon rk T nr (zero name) pre lo))
    (hfirst : firstPass = true → lo = 0 ∧ name ∉ Dict.keys ret) :
    ∃ ret' rk, extractBatch zero nr batch firstPass ((num, name) :: rest) (ret, items) =
        extractBatch zero nr batch firstPass rest (ret', lo + w) ∧
      Dict.get? ret' name = some (canon rk T nr (zero name) (fun t => pre t ++ src.row t) (lo + w)) ∧
      (∀ n, n ≠ name → Dict.get? ret' n = Dict.get? ret n) ∧
      Dict.keys ret' = Dict.keys ret ++ (if firstPass then [name] else []) := by
  simp only [extractBatch, hsrc, hs, hitems]
  have hsub : lo + w - w = lo := by omega
  rw [hsub]
  cases firstPass with
  | true =>
    obtain ⟨hlo, hnk⟩ := hfirst rfl
    have hpre0 : ∀ t, t < T → pre t = [] := fun t h => List.length_eq_zero_iff.1 (by rw [hpre t h, hlo])
    have hcz : canon src.rank T nr (zero name) pre lo =
        ⟨src.rank, nr, List.replicate T (List.replicate nr (zero name))⟩ := by
      rw [← canon_zero]
      simp only [canon, Arr.mk.injEq, true_and, hlo]
      apply List.map_congr_left
      intro t h
      rw [hpre0 t (List.mem_range.1 h)]
    simp only [if_true, Dict.get?_set_self, ht]
    rw [← hcz, assign_canon hpre hle ht hs]
    refine ⟨_, src.rank, rfl, Dict.get?_set_self _ _ _, ?_, ?_⟩
    · intro n hn
      rw [Dict.get?_set_ne _ _ _ _ (Ne.symm hn), Dict.get?_set_ne _ _ _ _ (Ne.symm hn)]
    · rw [keys_set_mem, keys_set_not_mem _ _ _ hnk]
      rw [keys_set_not_mem _ _ _ hnk]
      simp
  | false =>
    obtain ⟨rk, hrk⟩ := hold rfl
    simp only [Bool.false_eq_true, if_false, hrk, assign_canon hpre hle ht hs]
    refine ⟨_, rk, rfl, Dict.get?_set_self _ _ _, ?_, ?_⟩
    · intro n hn
      rw [Dict.get?_set_ne _ _ _ _ (Ne.symm hn)]
    · rw [keys_set_mem, List.append_nil]
      rw [Dict.mem_keys_iff, hrk]; rfl

/-- The names after the first. -/
theorem extract_tail {firstPass : Bool} {lo w : Nat} {T : Name → Nat} {pre : Name → Nat → List α}
    (hle : lo + w ≤ nr) :
    ∀ (ns : List (Nat × Name)) (ret : Dict Name (Arr α)),
      (∀ n ∈ ns, n.1 ≠ 0) → (ns.map Prod.snd).Nodup →
      (∀ n ∈ ns, ∃ src, Dict.get? batch n.2 = some src ∧ src.seqs = w ∧ src.times = T n.2) →
      (∀ n ∈ ns, ∀ t, t < T n.2 → (pre n.2 t).length = lo) →
      (firstPass = false → ∀ n ∈ ns, ∃ rk, Dict.get? ret n.2 = some (canon rk (T n.2) nr (zero n.2) (pre n.2) lo)) →
      (firstPass = true → lo = 0 ∧ ∀ n ∈ ns, n.2 ∉ Dict.keys ret) →
      ∃ ret', extractBatch zero nr batch firstPass ns (ret, lo + w) = some (ret', lo + w) ∧
        (∀ n ∈ ns, ∀ src, Dict.get? batch n.2 = some src → ∃ rk, Dict.get? ret' n.2 =
          some (canon rk (T n.2) nr (zero n.2) (fun t => pre n.2 t ++ src.row t) (lo + w))) ∧
        (∀ m, m ∉ ns.map Prod.snd → Dict.get? ret' m = Dict.get? ret m) ∧
        Dict.keys ret' = Dict.keys ret ++ (if firstPass then ns.map Prod.snd else []) := by
  intro ns
  induction ns with
  | nil =>
    intro ret _ _ _ _ _ _
    exact ⟨ret, rfl, by simp, by simp, by simp⟩
  | cons n ns ih =>
    obtain ⟨num, name⟩ := n
    intro ret hnum hnd hsrc hpre hold hfirst
    obtain ⟨src, hs1, hs2, hs3⟩ := hsrc (num, name) (by simp)
    simp only [List.map_cons, List.nodup_cons] at hnd
    obtain ⟨ret₁, rk, h1, h2, h3, h4⟩ := extract_step (zero := zero) (rest := ns) hs1 hs2 hs3
      (by rw [if_neg (hnum (num, name) (by simp))]) hle (hpre (num, name) (by simp))
      (fun h => hold h (num, name) (by simp)) (fun h => ⟨(hfirst h).1, (hfirst h).2 (num, name) (by simp)⟩)
    have hne : ∀ n ∈ ns, n.2 ≠ name := fun n hn he => hnd.1 (List.mem_map.2 ⟨n, hn, he⟩)
    obtain ⟨ret', g1, g2, g3, g4⟩ := ih ret₁ (fun n hn => hnum n (by simp [hn])) hnd.2
      (fun n hn => hsrc n (by simp [hn])) (fun n hn => hpre n (by simp [hn]))
      (fun h n hn => by rw [h3 _ (hne n hn)]; exact hold h n (by simp [hn]))
      (fun h => ⟨(hfirst h).1, fun n hn => by
        rw [h4, if_pos h]
        simp only [List.mem_append, List.mem_singleton, not_or]
        exact ⟨(hfirst h).2 n (by simp [hn]), hne n hn⟩⟩)
    refine ⟨ret', by rw [h1]; exact g1, ?_, ?_, ?_⟩
    · intro n hn src' hsrc'
      rcases List.mem_cons.1 hn with rfl | hn
      · rw [hs1] at hsrc'
        cases hsrc'
        exact ⟨rk, by rw [g3 _ hnd.1]; exact h2⟩
      · exact g2 n hn src' hsrc'
    · intro m hm
      simp only [List.map_cons, List.mem_cons, not_or] at hm
      rw [g3 m hm.2, h3 m hm.1]
    · rw [g4, h4]
      cases firstPass <;> simp

/-- The buffer `name` of all batches put together at step `t`. -/
def gluedRow (batches : List (Dict Name (Arr α))) (name : Name) (t : Nat) : List α :=
  (batches.map (fun b => ((Dict.get? b name).map (fun a => a.row t)).getD [])).flatten

/-- Every batch has every requested buffer, with `T name` steps and one common
number of examples. -/
def UniformBatch (names : List Name) (T : Name → Nat) (b : Dict Name (Arr α)) (w : Nat) : Prop :=
  ∀ name ∈ names, ∃ a : Arr α, Dict.get? b name = some a ∧ a.Regular ∧ a.times = T name ∧ a.seqs = w

theorem length_gluedRow {names : List Name} {T : Name → Nat} {bw : List (Dict Name (Arr α) × Nat)}
    (h : ∀ p ∈ bw, UniformBatch names T p.1 p.2) {name : Name} (hn : name ∈ names) {t : Nat} (ht : t < T name) :
    (gluedRow (bw.map Prod.fst) name t).length = (bw.map Prod.snd).sum := by
  induction bw with
  | nil => rfl
  | cons p bw ih =>
    obtain ⟨a, h1, h2, h3, h4⟩ := h p (by simp) name hn
    have := ih (fun p hp => h p (by simp [hp]))
    simp only [gluedRow, List.map_map] at this
    simp only [gluedRow, List.map_cons, List.flatten_cons, List.length_append, h1, Option.map_some, Option.getD_some,
      List.sum_cons, List.map_map, this]
    congr 1
    have htl : t < a.rows.length := by have : a.rows.length = T name := h3; omega
    simp only [Arr.row, List.getD_eq_getElem?_getD, List.getElem?_eq_getElem htl, Option.getD_some]
    rw [h2 _ (List.getElem_mem htl), h4]

/-- The state of `extract` after the batches `bw`. -/
structure Filled (zero : Name → α) (nr : Nat) (names : List Name) (T : Name → Nat)
    (bw : List (Dict Name (Arr α) × Nat)) (st : Dict Name (Arr α) × Nat) : Prop where
  items : st.2 = (bw.map Prod.snd).sum
  keys : Dict.keys st.1 = names
  value : ∀ name ∈ names, ∃ rk, Dict.get? st.1 name =
    some (canon rk (T name) nr (zero name) (gluedRow (bw.map Prod.fst) name) st.2)

theorem extract_one {names : List Name} (hnd : names.Nodup) (hne : names ≠ []) {T : Name → Nat}
    {bw : List (Dict Name (Arr α) × Nat)} {b : Dict Name (Arr α)} {w : Nat} {st : Dict Name (Arr α) × Nat}
    (hbw : ∀ p ∈ bw, UniformBatch names T p.1 p.2) (hb : UniformBatch names T b w)
    (hle : (bw.map Prod.snd).sum + w ≤ nr)
    (hst : (bw = [] ∧ st = ([], 0)) ∨ (bw ≠ [] ∧ Filled zero nr names T bw st)) :
    ∃ st', extractBatch zero nr b (decide (st.1.length ≠ names.length)) (names.zipIdx.map (fun p => (p.2, p.1))) st =
        some st' ∧ Filled zero nr names T (bw ++ [(b, w)]) st' := by
  obtain ⟨n₀, ns, rfl⟩ := List.exists_cons_of_ne_nil hne
  set fp := decide (st.1.length ≠ (n₀ :: ns).length) with hfp
  have hitems : st.2 = (bw.map Prod.snd).sum := by
    rcases hst with ⟨rfl, rfl⟩ | ⟨-, h⟩
    · rfl
    · exact h.items
  have hkeys : fp = true → bw = [] ∧ Dict.keys st.1 = [] := by
    intro h
    rcases hst with ⟨rfl, rfl⟩ | ⟨-, h'⟩
    · simp [Dict.keys]
    · exfalso
      have := congrArg List.length h'.keys
      simp only [Dict.keys, List.length_map] at this
      simp [hfp, this] at h
  have hval : fp = false → Filled zero nr (n₀ :: ns) T bw st := by
    intro h
    rcases hst with ⟨rfl, rfl⟩ | ⟨-, h'⟩
    · simp [hfp] at h
    · exact h'
  have hpre : ∀ name ∈ n₀ :: ns, ∀ t, t < T name → (gluedRow (bw.map Prod.fst) name t).length = (bw.map Prod.snd).sum :=
    fun name hn t ht => length_gluedRow hbw hn ht
  obtain ⟨src, s1, s2, s3, s4⟩ := hb n₀ (by simp)
  obtain ⟨ret, items⟩ := st
  simp only at hitems hkeys hval
  have hzip : ((n₀ :: ns).zipIdx.map (fun p => (p.2, p.1))) = (0, n₀) :: (ns.zipIdx 1).map (fun p => (p.2, p.1)) := by
    simp [List.zipIdx_cons]
  have htail : ((ns.zipIdx 1).map (fun p => (p.2, p.1))).map Prod.snd = ns := by
    rw [List.map_map]
    have : (Prod.snd ∘ fun p : Name × Nat => (p.2, p.1)) = Prod.fst := rfl
    rw [this, List.zipIdx_map_fst]
  obtain ⟨ret₁, rk, h1, h2, h3, h4⟩ := extract_step (zero := zero) (nr := nr) (batch := b) (num := 0) (ret := ret)
    (items := items) (lo := (bw.map Prod.snd).sum) (pre := gluedRow (bw.map Prod.fst) n₀)
    (rest := (ns.zipIdx 1).map (fun p => (p.2, p.1))) (firstPass := fp) s1 s4 s3 (by simp [hitems]) hle
    (hpre n₀ (by simp))
    (fun h => by
      obtain ⟨rk, hr⟩ := (hval h).value n₀ (by simp)
      exact ⟨rk, by simpa [hitems] using hr⟩)
    (fun h => by
      obtain ⟨rfl, hk⟩ := hkeys h
      exact ⟨rfl, by rw [hk]; simp⟩)
  rw [List.nodup_cons] at hnd
  have hmemtail : ∀ n ∈ (ns.zipIdx 1).map (fun p => (p.2, p.1)), n.2 ∈ ns := by
    intro n hn
    rw [← htail]; exact List.mem_map.2 ⟨n, hn, rfl⟩
  have hnum : ∀ n ∈ (ns.zipIdx 1).map (fun p => (p.2, p.1)), n.1 ≠ 0 := by
    intro n hn
    obtain ⟨⟨x, i⟩, hx, rfl⟩ := List.mem_map.1 hn
    have := (List.mem_zipIdx hx).1
    simp only
    omega
  have hnet : ∀ n ∈ (ns.zipIdx 1).map (fun p => (p.2, p.1)), n.2 ≠ n₀ :=
    fun n hn he => hnd.1 (he ▸ hmemtail n hn)
  obtain ⟨ret', g1, g2, g3, g4⟩ := extract_tail (zero := zero) (nr := nr) (batch := b) (firstPass := fp)
    (T := T) (pre := gluedRow (bw.map Prod.fst)) hle ((ns.zipIdx 1).map (fun p => (p.2, p.1))) ret₁ hnum
    (by rw [htail]; exact hnd.2)
    (fun n hn => by
      obtain ⟨a, a1, a2, a3, a4⟩ := hb n.2 (by simp [hmemtail n hn])
      exact ⟨a, a1, a4, a3⟩)
    (fun n hn => hpre n.2 (by simp [hmemtail n hn]))
    (fun h n hn => by
      rw [h3 _ (hnet n hn)]
      obtain ⟨rk, hr⟩ := (hval h).value n.2 (by simp [hmemtail n hn])
      exact ⟨rk, by simpa [hitems] using hr⟩)
    (fun h => by
      obtain ⟨hbn, hk⟩ := hkeys h
      refine ⟨by simp [hbn], fun n hn => ?_⟩
      rw [h4, hk, if_pos h]
      simpa using hnet n hn)
  refine ⟨(ret', (bw.map Prod.snd).sum + w), ?_, ⟨by simp, ?_, ?_⟩⟩
  · rw [hzip, h1, g1]
  · rw [g4, h4, htail]
    cases hf : fp with
    | true =>
      obtain ⟨-, hk⟩ := hkeys hf
      simp [hk]
    | false => simpa using (hval hf).keys
  · have hglue : ∀ (name : Name) (a : Arr α), Dict.get? b name = some a →
        gluedRow ((bw ++ [(b, w)]).map Prod.fst) name = fun t => gluedRow (bw.map Prod.fst) name t ++ a.row t := by
      intro name a ha
      funext t
      simp [gluedRow, ha]
    intro name hn
    rcases List.mem_cons.1 hn with rfl | hn
    · refine ⟨rk, ?_⟩
      rw [hglue _ _ s1]
      simp only
      rw [g3 _ (by rw [htail]; exact hnd.1)]
      exact h2
    · obtain ⟨a, a1, -, -, -⟩ := hb name (by simp [hn])
      have : name ∈ ((ns.zipIdx 1).map (fun p => (p.2, p.1))).map Prod.snd := by rw [htail]; exact hn
      obtain ⟨n, hn', rfl⟩ := List.mem_map.1 this
      obtain ⟨rk', hr⟩ := g2 n hn' a a1
      exact ⟨rk', by rw [hglue _ _ a1]; exact hr⟩

theorem extract_all {names : List Name} (hnd : names.Nodup) (hne : names ≠ []) {T : Name → Nat} :
    ∀ (todo done : List (Dict Name (Arr α) × Nat)) (st : Dict Name (Arr α) × Nat),
      (∀ p ∈ done ++ todo, UniformBatch names T p.1 p.2) → ((done ++ todo).map Prod.snd).sum ≤ nr →
      ((done = [] ∧ st = ([], 0)) ∨ (done ≠ [] ∧ Filled zero nr names T done st)) → done ++ todo ≠ [] →
      ∃ st', extractLoop zero nr names (todo.map Prod.fst) st = some st' ∧ Filled zero nr names T (done ++ todo) st' := by
  intro todo
  induction todo with
  | nil =>
    intro done st _ _ hst hne'
    rcases hst with ⟨rfl, -⟩ | ⟨-, h⟩
    · simp at hne'
    · exact ⟨st, rfl, by simpa using h⟩
  | cons p todo ih =>
    intro done st hall hle hst _
    obtain ⟨b, w⟩ := p
    obtain ⟨st₁, h1, h2⟩ := extract_one (zero := zero) (nr := nr) hnd hne (b := b) (w := w)
      (fun p hp => hall p (by simp [hp])) (hall (b, w) (by simp))
      (by simp only [List.map_append, List.map_cons, List.sum_append, List.sum_cons] at hle; omega) hst
    obtain ⟨st', g1, g2⟩ := ih (done ++ [(b, w)]) st₁ (by simpa using hall) (by simpa using hle)
      (Or.inr ⟨by simp, h2⟩) (by simp)
    refine ⟨st', ?_, by simpa using g2⟩
    simp only [List.map_cons, extractLoop, h1]
    exact g1

/-- **C52**: for distinct buffer names, with the same number of steps in every
batch and batches that together have `nr` examples, `extract` returns for exactly
these names the concatenation of the buffer over the batches. -/
theorem C52_extract (zero : Name → α) (nr : Nat) (names : List Name) (hnd : names.Nodup) (hne : names ≠ [])
    (T : Name → Nat) (batches : List (Dict Name (Arr α) × Nat)) (hb : batches ≠ [])
    (hall : ∀ p ∈ batches, UniformBatch names T p.1 p.2) (hsum : (batches.map Prod.snd).sum = nr) :
    ∃ ret, extract zero nr names (batches.map Prod.fst) = some ret ∧ Dict.keys ret = names ∧
      ∀ name ∈ names, ∃ A : Arr α, Dict.get? ret name = some A ∧ A.seqs = nr ∧ A.times = T name ∧
        ∀ t, t < T name → A.rows[t]? = some (gluedRow (batches.map Prod.fst) name t) := by
  obtain ⟨st', h1, h2⟩ := extract_all (zero := zero) (nr := nr) hnd hne batches [] ([], 0) (by simpa using hall)
    (by simp [hsum]) (Or.inl ⟨rfl, rfl⟩) (by simpa using hb)
  simp only [List.nil_append] at h2
  refine ⟨st'.1, by simp [extract, h1], h2.keys, ?_⟩
  intro name hn
  obtain ⟨rk, hr⟩ := h2.value name hn
  refine ⟨_, hr, rfl, by simp [canon, Arr.times], ?_⟩
  intro t ht
  simp only [canon, List.getElem?_map, List.getElem?_range ht, Option.map_some, h2.items, hsum]
  simp

/-! ### Concrete cases -/

/-- Two batches with two and one examples. -/
def extractDemo : List (Dict Name (Arr Nat) × Nat) :=
  [([(str "a", ⟨3, 2, [[1, 2], [3, 4]]⟩), (str "b", ⟨3, 2, [[5, 6]]⟩)], 2),
   ([(str "a", ⟨3, 1, [[11], [12]]⟩), (str "b", ⟨3, 1, [[13]]⟩)], 1)]

example : (extract (fun _ => 0) 3 [str "a", str "b"] (extractDemo.map Prod.fst)).map (List.map (fun e => e.2.rows)) =
    some [[[1, 2, 11], [3, 4, 12]], [[5, 6, 13]]] := by decide +kernel

example : ∀ p ∈ extractDemo, UniformBatch [str "a", str "b"] (fun n => if n = str "a" then 2 else 1) p.1 p.2 := by
  intro p hp name hn
  simp only [extractDemo, List.mem_cons, List.not_mem_nil, or_false] at hp hn
  rcases hp with rfl | rfl <;> rcases hn with rfl | rfl <;> exact ⟨_, rfl, by simp [Arr.Regular], rfl, rfl⟩

/-- Requesting a buffer twice loses the first batch: the names must be distinct. -/
theorem C52_duplicate_name : (extract (fun _ => 0) 3 [str "a", str "a"] (extractDemo.map Prod.fst)).map
    (List.map (fun e => e.2.rows)) = some [[[0, 0, 11], [0, 0, 12]]] := by decide +kernel

example : (split [some ⟨3, 5, [[1, 2, 3, 4, 5]]⟩, none, some ⟨3, 5, [[6, 7, 8, 9, 10]]⟩] [1, 1]).map
    (List.map (List.map (Option.map (Arr.rows (α := Nat))))) =
    some [[some [[1, 2]], none, some [[6, 7]]], [some [[3, 4, 5]], none, some [[8, 9, 10]]]] := by
  decide +kernel

example : (shuffleData [some ⟨3, 3, [[1, 2, 3]]⟩, none, some ⟨3, 3, [[6, 7, 8]]⟩] [2, 0, 1]).map
    (List.map (Option.map (Arr.rows (α := Nat)))) = some [some [[3, 1, 2]], none, some [[8, 6, 7]]] := by
  decide +kernel

end Verif.Data
