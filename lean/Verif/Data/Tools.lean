import Verif.Data.Spec
import Mathlib.Data.List.Basic
import Mathlib.Data.List.Range
import Mathlib.Data.Rat.Floor
import Mathlib.Algebra.Order.Floor.Ring
import Mathlib.Tactic.Linarith
import Mathlib.Tactic.FieldSimp
import Mathlib.Algebra.BigOperators.Group.List.Basic
import Mathlib.Algebra.Order.BigOperators.Group.List

/-!
# `shuffle_data`, `split` (C51) and `extract` (C52): `brainstorm/tools.py`

Simplification: the ratios and their cumulative sums are exact rationals (the code
uses floats).
-/

namespace Verif.Data

variable {α : Type}

/-! ### Model -/

/-- `np.round` on a number: to the nearest integer, halves to even. -/
def roundHalfEven (q : ℚ) : Int :=
  let f := ⌊q⌋
  if q - f < 1 / 2 then f
  else if q - f > 1 / 2 then f + 1
  else if f % 2 = 0 then f else f + 1

/-- `np.cumsum`. -/
def cumsumQ : ℚ → List ℚ → List ℚ
  | _, [] => []
  | acc, x :: xs => (acc + x) :: cumsumQ (acc + x) xs

/-- `split_idxs` (tools.py:639-641). -/
def splitIdxs (ratios : List ℚ) (n : Nat) : List Nat :=
  let normalized := ratios.map (· / ratios.sum)
  0 :: (cumsumQ 0 normalized).map (fun c => (roundHalfEven (c * n)).toNat)

/-- `A[:, start:stop]`. -/
def Arr.cols (a : Arr α) (start stop : Nat) : Arr α :=
  ⟨a.rank, min stop a.seqs - min start a.seqs, a.rows.map (fun r => (r.drop start).take (stop - start))⟩

/-- `split` (tools.py:622-646); `None` arguments stay `None`.  Raises without
arguments or if the first is `None`; a zero sum of ratios gives no result. -/
def split (args : List (Option (Arr α))) (ratios : List ℚ) : Option (List (List (Option (Arr α)))) :=
  match args with
  | some a :: _ =>
    if ratios.sum = 0 then none
    else
      let idxs := splitIdxs ratios a.seqs
      some ((idxs.zip idxs.tail).map (fun p => args.map (Option.map (fun A => A.cols p.1 p.2))))
  | _ => none

/-- `A[:, idxs]`; an index outside raises. -/
def Arr.index (a : Arr α) (idxs : List Nat) : Option (Arr α) :=
  (a.rows.mapM (fun r => idxs.mapM (fun i => r[i]?))).map (fun rows => ⟨a.rank, idxs.length, rows⟩)

/-- `shuffle_data` (tools.py:602-619); `idxs` is the shuffled `arange`. -/
def shuffleData (args : List (Option (Arr α))) (idxs : List Nat) : Option (List (Option (Arr α))) :=
  args.mapM (fun A => match A with
    | none => some none
    | some a => (a.index idxs).map some)

/-- `dst[:, lo:hi] = src` with numpy's broadcasting over the first two axes. -/
def Arr.assignCols (dst : Arr α) (lo hi : Nat) (src : Arr α) : Option (Arr α) :=
  let width := min hi dst.seqs - min lo dst.seqs
  if (src.times = dst.times ∨ src.times = 1) ∧ (src.seqs = width ∨ src.seqs = 1) then
    some ⟨dst.rank, dst.seqs, dst.rows.mapIdx (fun t row =>
      let srow := src.rows.getD (if src.times = dst.times then t else 0) []
      let vals := if src.seqs = width then srow else (List.range width).flatMap (fun _ => srow)
      row.take lo ++ vals ++ row.drop (lo + width))⟩
  else none

/-- The inner loop of `extract` over the buffer names (tools.py:111-120). -/
def extractBatch (zero : Name → α) (nrExamples : Nat) (batch : Dict Name (Arr α)) (firstPass : Bool) :
    List (Nat × Name) → Dict Name (Arr α) × Nat → Option (Dict Name (Arr α) × Nat)
  | [], st => some st
  | (num, name) :: rest, (ret, nrItems) =>
    match Dict.get? batch name with
    | none => none
    | some data =>
      let nrItems := if num = 0 then nrItems + data.seqs else nrItems
      let ret := if firstPass then
          Dict.set ret name ⟨data.rank, nrExamples, List.replicate data.times (List.replicate nrExamples (zero name))⟩
        else ret
      match Dict.get? ret name with
      | none => none
      | some dst => match dst.assignCols (nrItems - data.seqs) nrItems data with
        | none => none
        | some dst' => extractBatch zero nrExamples batch firstPass rest (Dict.set ret name dst', nrItems)

/-- The outer loop of `extract` (tools.py:107-120); `batches` holds the buffers after
the forward pass of each batch. -/
def extractLoop (zero : Name → α) (nrExamples : Nat) (names : List Name) :
    List (Dict Name (Arr α)) → Dict Name (Arr α) × Nat → Option (Dict Name (Arr α) × Nat)
  | [], st => some st
  | batch :: rest, st =>
    let firstPass := decide (st.1.length ≠ names.length)
    match extractBatch zero nrExamples batch firstPass (names.zipIdx.map (fun p => (p.2, p.1))) st with
    | none => none
    | some st' => extractLoop zero nrExamples names rest st'

/-- `extract` (tools.py:85-121). -/
def extract (zero : Name → α) (nrExamples : Nat) (names : List Name) (batches : List (Dict Name (Arr α))) :
    Option (Dict Name (Arr α)) :=
  (extractLoop zero nrExamples names batches ([], 0)).map Prod.fst

/-! ### Rounding -/

theorem roundHalfEven_near (q : ℚ) : |(roundHalfEven q : ℚ) - q| ≤ 1 / 2 := by
  have h1 := Int.floor_le q
  have h2 := Int.lt_floor_add_one q
  unfold roundHalfEven
  rw [abs_le]
  simp only
  split_ifs <;> push_cast <;> constructor <;> linarith

theorem roundHalfEven_mono {p q : ℚ} (h : p ≤ q) : roundHalfEven p ≤ roundHalfEven q := by
  have hle : ∀ r : ℚ, ⌊r⌋ ≤ roundHalfEven r ∧ roundHalfEven r ≤ ⌊r⌋ + 1 := by
    intro r
    unfold roundHalfEven
    simp only
    split_ifs <;> omega
  rcases lt_or_eq_of_le (Int.floor_le_floor h) with hlt | heq
  · have := (hle p).2; have := (hle q).1; omega
  · unfold roundHalfEven
    simp only [heq]
    split_ifs <;> first | omega | (exfalso; linarith)

theorem roundHalfEven_natCast (n : Nat) : roundHalfEven (n : ℚ) = n := by
  simp [roundHalfEven]

/-! ### split -/

theorem cumsumQ_last (l : List ℚ) (a : ℚ) : (a :: cumsumQ a l).getLast (by simp) = a + l.sum := by
  induction l generalizing a with
  | nil => simp [cumsumQ]
  | cons x l ih =>
    simp only [cumsumQ]
    rw [List.getLast_cons (by simp), ih, List.sum_cons]
    ring

theorem cumsumQ_sorted (l : List ℚ) (a : ℚ) (h : ∀ x ∈ l, 0 ≤ x) : (a :: cumsumQ a l).IsChain (· ≤ ·) := by
  induction l generalizing a with
  | nil => simp [cumsumQ]
  | cons x l ih =>
    have hx := h x (by simp)
    simp only [cumsumQ]
    refine List.IsChain.cons_cons (by linarith) (ih _ (fun y hy => h y (by simp [hy])))

theorem length_cumsumQ (l : List ℚ) (a : ℚ) : (cumsumQ a l).length = l.length := by
  induction l generalizing a with
  | nil => rfl
  | cons x l ih => simp [cumsumQ, ih]

/-- Cutting at a chain of places and gluing gives the part between the ends. -/
theorem glue (r : List α) : ∀ (idxs : List Nat) (a : Nat), (a :: idxs).IsChain (· ≤ ·) →
    (((a :: idxs).zip idxs).map (fun p => (r.drop p.1).take (p.2 - p.1))).flatten =
      (r.drop a).take ((a :: idxs).getLast (by simp) - a) := by
  intro idxs
  induction idxs with
  | nil => intro a _; simp
  | cons b idxs ih =>
    intro a h
    have hab : a ≤ b := by
      cases h with
      | cons_cons h _ => exact h
    have htl : (b :: idxs).IsChain (· ≤ ·) := by
      cases h with
      | cons_cons _ h => exact h
    have hle : b ≤ (b :: idxs).getLast (by simp) := by
      have hp := List.isChain_iff_pairwise.1 htl
      rcases List.mem_cons.1 (List.getLast_mem (l := b :: idxs) (by simp)) with h | h
      · omega
      · exact (List.pairwise_cons.1 hp).1 _ h
    simp only [List.zip_cons_cons, List.map_cons, List.flatten_cons, ih b htl]
    rw [List.getLast_cons (by simp : b :: idxs ≠ [])]
    generalize (b :: idxs).getLast _ = c at hle
    have h1 : c - a = (b - a) + (c - b) := by omega
    rw [h1, List.take_add, List.drop_drop]
    congr 3
    omega

/-- **C51** (split): all arrays are cut at the same places `cuts`, one part per
ratio; the parts put together along the example axis are the original array; and
each cut lies within half an example of the exact share. -/
theorem C51_split (args : List (Option (Arr α))) (ratios : List ℚ) (a : Arr α) (rest : List (Option (Arr α)))
    (hargs : args = some a :: rest) (hnn : ∀ x ∈ ratios, 0 ≤ x) (hpos : 0 < ratios.sum) :
    ∃ parts, split args ratios = some parts ∧ parts.length = ratios.length ∧
      (∀ p ∈ parts, p.length = args.length) ∧
      (∃ cuts : List Nat, cuts.length = ratios.length + 1 ∧ cuts.head? = some 0 ∧
        cuts.getLast? = some a.seqs ∧ cuts.IsChain (· ≤ ·) ∧
        (∀ (i k c c' : Nat) (A : Arr α), args[k]? = some (some A) → cuts[i]? = some c → cuts[i + 1]? = some c' →
          ((parts[i]?).bind (fun p => p[k]?)) = some (some (A.cols c c')))  ∧
        (∀ (i c : Nat), cuts[i]? = some c → |(c : ℚ) - (ratios.take i).sum / ratios.sum * a.seqs| ≤ 1 / 2)) ∧
      (∀ (k : Nat) (A : Arr α), args[k]? = some (some A) → A.Regular → A.seqs = a.seqs →
        ∀ (t : Nat) (row : List α), A.rows[t]? = some row →
          (parts.map (fun p => ((((p[k]?).join).bind (fun B => B.rows[t]?)).getD []))).flatten = row) := by
  subst hargs
  have hne : ratios.sum ≠ 0 := ne_of_gt hpos
  set n := a.seqs with hn
  set normalized := ratios.map (· / ratios.sum) with hnorm
  have hnorm0 : ∀ x ∈ normalized, 0 ≤ x := by
    intro x hx
    obtain ⟨y, hy, rfl⟩ := List.mem_map.1 hx
    exact div_nonneg (hnn y hy) (le_of_lt hpos)
  have hsum : ∀ l : List ℚ, (l.map (· / ratios.sum)).sum = l.sum / ratios.sum := by
    intro l
    induction l with
    | nil => simp
    | cons x l ih => simp [ih, add_div]
  set g : ℚ → Nat := fun c => (roundHalfEven (c * n)).toNat with hg
  have hg0 : g 0 = 0 := by
    have := roundHalfEven_natCast 0
    simp only [Nat.cast_zero] at this
    simp [hg, this]
  have hgm : ∀ p q : ℚ, p ≤ q → g p ≤ g q := by
    intro p q h
    apply Int.toNat_le_toNat
    apply roundHalfEven_mono
    exact mul_le_mul_of_nonneg_right h (by positivity)
  have hidx : splitIdxs ratios n = ((0 : ℚ) :: cumsumQ 0 normalized).map g := by
    simp only [splitIdxs, ← hnorm, List.map_cons, hg0]
    rfl
  have hchain : (splitIdxs ratios n).IsChain (· ≤ ·) := by
    rw [hidx]
    have := List.isChain_iff_pairwise.1 (cumsumQ_sorted normalized 0 hnorm0)
    exact List.isChain_iff_pairwise.2 (List.Pairwise.map g (fun p q h => hgm p q h) this)
  have hlast : (splitIdxs ratios n).getLast (by simp [splitIdxs]) = n := by
    have h1 : ((0 : ℚ) :: cumsumQ 0 normalized).getLast (by simp) = 1 := by
      rw [cumsumQ_last, hnorm, hsum, div_self hne, zero_add]
    have h2 : (splitIdxs ratios n).getLast (by simp [splitIdxs]) = g 1 := by
      simp only [hidx]
      rw [List.getLast_map, h1]
    rw [h2]
    simp [hg, roundHalfEven_natCast]
  have hlen : (splitIdxs ratios n).length = ratios.length + 1 := by
    rw [hidx]; simp [length_cumsumQ, hnorm]
  obtain ⟨c0, idxs, hcons⟩ : ∃ c0 idxs, splitIdxs ratios n = c0 :: idxs := ⟨_, _, rfl⟩
  have hc0 : c0 = 0 := by
    have : (splitIdxs ratios n).head? = some 0 := rfl
    rw [hcons] at this; simpa using this
  refine ⟨_, by simp only [split, hne, if_false]; rfl, ?_, ?_, ?_, ?_⟩
  · simp [hlen, ← hn]
  · intro p hp
    obtain ⟨x, -, rfl⟩ := List.mem_map.1 hp
    simp
  · refine ⟨splitIdxs ratios n, hlen, rfl, ?_, hchain, ?_, ?_⟩
    · rw [List.getLast?_eq_getLast_of_ne_nil (by simp [splitIdxs]), hlast]
    · intro i k c c' A hA hc hc'
      have : (splitIdxs ratios n).tail[i]? = some c' := by rw [List.getElem?_tail]; exact hc'
      rw [List.getElem?_map, ← hn, List.getElem?_zip_eq_some (z := (c, c')) |>.2 ⟨hc, this⟩]
      simp only [Option.map_some, Option.bind_some, List.getElem?_map, hA]
    · intro i c hc
      have key : ∀ (l : List ℚ) (acc : ℚ) (i : Nat) (x : ℚ), (acc :: cumsumQ acc l)[i]? = some x →
          x = acc + (l.take i).sum := by
        intro l
        induction l with
        | nil =>
          intro acc i x hx
          cases i with
          | zero => simp at hx; simp [hx]
          | succ i => simp [cumsumQ] at hx
        | cons y l ih =>
          intro acc i x hx
          cases i with
          | zero => simp at hx; simp [hx]
          | succ i =>
            simp only [cumsumQ, List.getElem?_cons_succ] at hx
            rw [ih _ i x hx, List.take_succ_cons, List.sum_cons]
            ring
      rw [hidx, List.getElem?_map] at hc
      obtain ⟨x, hx, rfl⟩ := Option.map_eq_some_iff.1 hc
      have hxv := key normalized 0 i x hx
      have htake : (normalized.take i).sum = (ratios.take i).sum / ratios.sum := by
        rw [hnorm, ← List.map_take, hsum]
      rw [zero_add, htake] at hxv
      have hx0 : 0 ≤ x := by
        rw [hxv]
        exact div_nonneg (List.sum_nonneg (fun y hy => hnn y (List.mem_of_mem_take hy))) (le_of_lt hpos)
      have hr0 : 0 ≤ roundHalfEven (x * n) := by
        have h0 : roundHalfEven 0 = 0 := by
          have := roundHalfEven_natCast 0
          simpa using this
        rw [← h0]
        exact roundHalfEven_mono (mul_nonneg hx0 (by positivity))
      have hcast : ((g x : Nat) : ℚ) = (roundHalfEven (x * n) : ℚ) := by
        have : ((g x : Nat) : Int) = roundHalfEven (x * n) := Int.toNat_of_nonneg hr0
        exact_mod_cast this
      rw [hcast, ← hxv]
      exact roundHalfEven_near _
  · intro k A hA hreg hseq t row hrow
    rw [List.map_map]
    have hf : ∀ p : Nat × Nat, ((fun p : List (Option (Arr α)) =>
          ((((p[k]?).join).bind (fun B => B.rows[t]?)).getD [])) ∘
        (fun p : Nat × Nat => (some a :: rest).map (Option.map (fun A => A.cols p.1 p.2)))) p =
        (row.drop p.1).take (p.2 - p.1) := by
      intro p
      simp only [Function.comp, List.getElem?_map, hA, Option.map_some, Option.join_some, Option.bind_some, Arr.cols,
        hrow, Option.getD_some]
    rw [List.map_congr_left (fun p _ => hf p), ← hn, hcons, List.tail_cons, glue row idxs c0 (hcons ▸ hchain)]
    have hl : row.length = n := by rw [hreg row (List.mem_of_getElem? hrow), hseq]
    have hlast' : (c0 :: idxs).getLast (by simp) = n := by
      rw [← hlast]; simp only [hcons]
    rw [hlast', hc0]
    simp [← hl]

/-! ### shuffle_data -/

theorem mapM_getElem? (r : List α) (idxs : List Nat) (h : ∀ i ∈ idxs, i < r.length) :
    idxs.mapM (fun i => r[i]?) = some (idxs.filterMap (fun i => r[i]?)) := by
  induction idxs with
  | nil => rfl
  | cons i l ih =>
    have hi := h i (by simp)
    rw [List.mapM_cons, ih (fun j hj => h j (by simp [hj])), List.filterMap_cons, List.getElem?_eq_getElem hi]
    rfl

theorem mapM_some {β γ : Type} (f : β → Option γ) (g : β → γ) (l : List β) (h : ∀ x ∈ l, f x = some (g x)) :
    l.mapM f = some (l.map g) := by
  induction l with
  | nil => rfl
  | cons x l ih =>
    rw [List.mapM_cons, h x (by simp), ih (fun y hy => h y (by simp [hy]))]
    rfl

theorem getElem?_pick (r : List α) (l : List Nat) (h : ∀ i ∈ l, i < r.length) (j : Nat) :
    (l.filterMap (fun i => r[i]?))[j]? = (l[j]?).bind (fun i => r[i]?) := by
  induction l generalizing j with
  | nil => simp
  | cons i l ih =>
    rw [List.filterMap_cons, List.getElem?_eq_getElem (h i (by simp))]
    cases j with
    | zero => simp [List.getElem?_eq_getElem (h i (by simp))]
    | succ j => simpa using ih (fun j hj => h j (by simp [hj])) j

/-- **C51** (shuffle_data): if all arrays have `n` examples, every array is
rearranged by the same permutation: example `j` of each result is example
`idxs[j]` of the argument, and each row is a permutation of the old row. -/
theorem C51_shuffle (args : List (Option (Arr α))) (n : Nat) (idxs : List Nat) (hperm : idxs.Perm (List.range n))
    (hreg : ∀ (A : Arr α), some A ∈ args → A.Regular ∧ A.seqs = n) :
    ∃ out, shuffleData args idxs = some out ∧ out.length = args.length ∧
      (∀ k : Nat, args[k]? = some none → out[k]? = some none) ∧
      ∀ (k : Nat) (A : Arr α), args[k]? = some (some A) → ∃ B : Arr α, out[k]? = some (some B) ∧ B.seqs = n ∧
        B.rows.length = A.rows.length ∧
        ∀ (t : Nat) (row : List α), A.rows[t]? = some row → ∃ row', B.rows[t]? = some row' ∧ row'.Perm row ∧
          ∀ (j i : Nat), idxs[j]? = some i → row'[j]? = row[i]? := by
  set g : Option (Arr α) → Option (Arr α) := Option.map (fun A => A.pick idxs A.times) with hg
  have hidx : ∀ A : Arr α, some A ∈ args → A.index idxs = some (A.pick idxs A.times) := by
    intro A hA
    obtain ⟨h1, h2⟩ := hreg A hA
    unfold Arr.index
    rw [mapM_some _ (fun r => idxs.filterMap (fun i => r[i]?))]
    · simp [Arr.pick, Arr.times]
    · intro r hr
      apply mapM_getElem?
      intro i hi
      have := List.mem_range.1 (hperm.subset hi)
      rw [h1 r hr]; omega
  have hout : shuffleData args idxs = some (args.map g) := by
    apply mapM_some
    intro A hA
    cases A with
    | none => rfl
    | some a => simp only [hidx a hA]; rfl
  refine ⟨_, hout, by simp, ?_, ?_⟩
  · intro k hk; simp [hk, hg]
  · intro k A hk
    obtain ⟨h1, h2⟩ := hreg A (List.mem_of_getElem? hk)
    refine ⟨A.pick idxs A.times, by simp [hk, hg], ?_, by simp [Arr.pick, Arr.times], ?_⟩
    · simp [Arr.pick, hperm.length_eq]
    · intro t row hrow
      have hl : row.length = n := by rw [h1 row (List.mem_of_getElem? hrow), h2]
      refine ⟨idxs.filterMap (fun i => row[i]?), ?_, ?_, ?_⟩
      · simp only [Arr.pick, Arr.times, List.take_length, List.getElem?_map, hrow, Option.map_some]
      · have := hperm.filterMap (fun i => row[i]?)
        refine this.trans (List.Perm.of_eq ?_)
        rw [← hl]
        clear this hrow hl h1 h2 hk hout hidx
        induction row using List.reverseRecOn with
        | nil => simp
        | append_singleton r x ih =>
          rw [List.length_append, List.length_singleton, List.range_succ, List.filterMap_append]
          have : (List.range r.length).filterMap (fun i => (r ++ [x])[i]?) =
              (List.range r.length).filterMap (fun i => r[i]?) := by
            apply List.filterMap_congr
            intro i hi
            rw [List.getElem?_append_left (List.mem_range.1 hi)]
          rw [this, ih]
          simp
      · intro j i hj
        rw [getElem?_pick row idxs (fun i hi => by rw [hl]; exact List.mem_range.1 (hperm.subset hi)), hj]
        rfl

end Verif.Data
