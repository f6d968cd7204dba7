import Verif.Data.Spec
import Mathlib.Data.List.Basic
import Mathlib.Data.List.Range
import Mathlib.Data.List.Flatten
import Mathlib.Tactic.Ring
import Mathlib.Tactic.Linarith

/-! # C30, C31 -/

namespace Verif.Data

variable {α : Type}

/-- The indices of batch `idx`. -/
def part (n bs idx : Nat) : List Nat := List.range' (idx * bs) (min bs (n - idx * bs))

theorem ceil_lt {n bs idx : Nat} (hbs : 0 < bs) (h : idx < (n + bs - 1) / bs) : idx * bs < n := by
  have : (idx + 1) * bs ≤ n + bs - 1 := (Nat.le_div_iff_mul_le hbs).1 h
  have h2 : (idx + 1) * bs = idx * bs + bs := by ring
  omega

theorem ceil_full {n bs idx : Nat} (hbs : 0 < bs) (h : idx + 1 < (n + bs - 1) / bs) :
    (idx + 1) * bs ≤ n := le_of_lt (ceil_lt hbs h)

theorem flatten_parts {n bs : Nat} (hbs : 0 < bs) (k : Nat) (hk : k ≤ (n + bs - 1) / bs) :
    ((List.range k).map (part n bs)).flatten = List.range (min n (k * bs)) := by
  induction k with
  | zero => simp
  | succ k ih =>
    rw [List.range_succ, List.map_append, List.flatten_append, ih (by omega)]
    have hlt := ceil_lt hbs (show k < _ from hk)
    have h2 : (k + 1) * bs = k * bs + bs := by ring
    simp only [List.map_cons, List.map_nil, List.flatten_cons, List.flatten_nil, List.append_nil, part]
    rw [Nat.min_eq_right (le_of_lt hlt), List.range_eq_range', List.range_eq_range']
    have := List.range'_append_1 (s := 0) (m := k * bs) (n := min bs (n - k * bs))
    simp only [Nat.zero_add] at this
    rw [this]
    congr 1
    omega

theorem ceil_mul_ge {n bs : Nat} (hbs : 0 < bs) : n ≤ (n + bs - 1) / bs * bs := by
  have h1 := Nat.div_add_mod (n + bs - 1) bs
  have h2 := Nat.mod_lt (n + bs - 1) hbs
  have h3 : bs * ((n + bs - 1) / bs) = (n + bs - 1) / bs * bs := Nat.mul_comm _ _
  omega

theorem short_le {n bs : Nat} (hbs : 0 < bs) :
    (((List.range ((n + bs - 1) / bs)).map (part n bs)).filter (fun p => decide (p.length ≠ bs))).length ≤ 1 := by
  generalize hL : (n + bs - 1) / bs = L
  cases L with
  | zero => simp
  | succ L =>
    rw [List.range_succ, List.map_append, List.filter_append]
    have : ((List.range L).map (part n bs)).filter (fun p => decide (p.length ≠ bs)) = [] := by
      rw [List.filter_eq_nil_iff]
      intro p hp
      obtain ⟨i, hi, rfl⟩ := List.mem_map.1 hp
      have hi := List.mem_range.1 hi
      have h := ceil_full (n := n) hbs (idx := i) (by omega)
      have h2 : (i + 1) * bs = i * bs + bs := by ring
      have : min bs (n - i * bs) = bs := by omega
      simp [part, this]
    rw [this, List.nil_append]
    exact (List.length_filter_le _ _).trans (by simp)

/-- The index lists in yield order. -/
theorem covers {n bs : Nat} (hbs : 0 < bs) (order : List Nat) (ordered : Bool)
    (hperm : order.Perm (List.range ((n + bs - 1) / bs)))
    (hord : ordered = true → order = List.range ((n + bs - 1) / bs)) :
    CoversOnce n bs ordered (order.map (part n bs)) where
  once := by
    have := (hperm.map (part n bs)).flatten
    rw [flatten_parts hbs _ le_rfl, Nat.min_eq_left (ceil_mul_ge hbs)] at this
    exact this
  inOrder h := by
    rw [hord h, flatten_parts hbs _ le_rfl, Nat.min_eq_left (ceil_mul_ge hbs)]
  consecutive p hp := by
    obtain ⟨i, -, rfl⟩ := List.mem_map.1 hp
    exact ⟨i * bs, by simp [part]⟩
  nonempty p hp := by
    obtain ⟨i, hi, rfl⟩ := List.mem_map.1 hp
    have := ceil_lt hbs (List.mem_range.1 (hperm.subset hi))
    have hl : (part n bs i).length ≠ 0 := by simp [part]; omega
    intro h; rw [h] at hl; simp at hl
  atMost p hp := by
    obtain ⟨i, -, rfl⟩ := List.mem_map.1 hp
    simp [part]
  oneShort := by
    have := ((hperm.map (part n bs)).filter (fun p => decide (p.length ≠ bs))).length_eq
    rw [this]
    exact short_le hbs
  shortLast h p hp := by
    rw [hord h, ← List.map_dropLast] at hp
    obtain ⟨i, hi, rfl⟩ := List.mem_map.1 hp
    have hi : i + 1 < (n + bs - 1) / bs := by
      generalize (n + bs - 1) / bs = L at hi
      cases L with
      | zero => simp at hi
      | succ L => rw [List.range_succ, List.dropLast_concat] at hi; have := List.mem_range.1 hi; omega
    have h := ceil_full (n := n) hbs hi
    have h2 : (i + 1) * bs = i * bs + bs := by ring
    simp [part]; omega

theorem slice_eq_pick {a : Arr α} (ha : a.Regular) {bs idx stop : Nat} (h : idx * bs < a.seqs) :
    a.slice stop (idx * bs) ((idx + 1) * bs) = a.pick (part a.seqs bs idx) stop := by
  have h2 : (idx + 1) * bs = idx * bs + bs := by ring
  have h3 : idx * bs + bs - idx * bs = bs := by omega
  simp only [Arr.slice, Arr.pick, h2, h3, Arr.mk.injEq, true_and]
  refine ⟨by simp [part]; omega, ?_⟩
  apply List.map_congr_left
  intro r hr
  have hl := ha r (List.mem_of_mem_take hr)
  rw [part, ← hl]
  -- `filterMap` over a range is a slice
  have key : ∀ (k s : Nat), s + k ≤ r.length →
      (List.range' s k).filterMap (fun i => r[i]?) = (r.drop s).take k := by
    intro k
    induction k with
    | zero => intro s _; simp
    | succ k ih =>
      intro s hs
      have hlt : s < r.length := by omega
      rw [List.range'_succ, List.filterMap_cons, List.getElem?_eq_getElem hlt, ih (s + 1) (by omega),
        List.drop_eq_getElem_cons hlt, List.take_succ_cons]
  rw [key _ _ (by omega)]
  rw [List.take_eq_take_iff, List.length_drop]
  omega

theorem create_eq {nonzero : α → Option Bool} {bs : Nat} {sh : Bool} {cut : Cut} {data : Dict Name (Arr α)}
    {m : Minibatches α} (h : Minibatches.create nonzero bs sh cut data = some m) :
    ∃ n T lens, assertFormat data = some (n, T) ∧ seqLensOf nonzero data n T cut = some lens ∧ 0 < bs ∧
      m = ⟨data, (n + bs - 1) / bs, sh, bs, lens⟩ := by
  unfold Minibatches.create at h
  split at h
  · simp at h
  rename_i n T hf
  split at h
  · simp at h
  rename_i hbs
  split at h
  · simp at h
  rename_i lens hl
  simp only [Option.some.injEq] at h
  exact ⟨n, T, lens, hf, hl, Nat.pos_of_ne_zero hbs, h.symm⟩

theorem assertFormat_all {data : Dict Name (Arr α)} {n T : Nat} (h : assertFormat data = some (n, T)) :
    data ≠ [] ∧ ∀ d ∈ data, 3 ≤ d.2.rank ∧ d.2.seqs = n ∧ d.2.times = T := by
  unfold assertFormat at h
  split at h
  · simp at h
  rename_i k a rest
  split at h
  · simp at h
  rename_i h1
  split at h
  · simp at h
  rename_i h2
  split at h
  · simp at h
  rename_i h3
  simp only [Option.some.injEq, Prod.mk.injEq] at h
  obtain ⟨rfl, rfl⟩ := h
  refine ⟨by simp, fun d hd => ⟨?_, ?_, ?_⟩⟩
  · by_contra hlt
    exact h1 (List.any_eq_true.2 ⟨d, hd, by simp; omega⟩)
  · simp only [not_not] at h2
    simpa using List.all_eq_true.1 h2 d hd
  · simp only [not_not] at h3
    simpa using List.all_eq_true.1 h3 d hd

theorem seqLens_length {nonzero : α → Option Bool} {data : Dict Name (Arr α)} {n T : Nat} {cut : Cut}
    {lens : List Nat} (hf : ∀ d ∈ data, d.2.seqs = n) (h : seqLensOf nonzero data n T cut = some lens) :
    lens.length = n := by
  unfold seqLensOf at h
  split at h
  · split at h
    · rename_i mask hm
      unfold lengthsFromMask at h
      split at h
      · simp only [Option.some.injEq] at h
        rw [← h]
        simpa using hf _ (Dict.mem_of_get? hm)
      · simp at h
    · simp only [Option.some.injEq] at h; rw [← h]; simp
  · simp only [Option.some.injEq] at h; rw [← h]; simp
  · split at h
    · simp only [Option.some.injEq] at h; rw [← h]; assumption
    · simp at h

theorem maxOf_spec (l : List Nat) : (∀ x ∈ l, x ≤ maxOf l) ∧ (l ≠ [] → maxOf l ∈ l) := by
  have key : ∀ (l : List Nat) (a : Nat), (∀ x ∈ l, x ≤ l.foldl max a) ∧ a ≤ l.foldl max a ∧
      (l.foldl max a = a ∨ l.foldl max a ∈ l) := by
    intro l
    induction l with
    | nil => intro a; simp
    | cons b l ih =>
      intro a
      obtain ⟨h1, h2, h3⟩ := ih (max a b)
      refine ⟨?_, le_trans (le_max_left _ _) h2, ?_⟩
      · intro x hx
        rcases List.mem_cons.1 hx with rfl | hx
        · exact le_trans (le_max_right _ _) h2
        · exact h1 x hx
      · simp only [List.foldl_cons, List.mem_cons]
        rcases h3 with h3 | h3
        · rcases max_choice a b with h | h
          · left; omega
          · right; left; omega
        · right; right; exact h3
  refine ⟨(key l 0).1, fun hne => ?_⟩
  rcases (key l 0).2.2 with h | h
  · cases l with
    | nil => simp at hne
    | cons b l =>
      have := (key (b :: l) 0).1 b (by simp)
      unfold maxOf
      rw [h] at this ⊢
      have : b = 0 := by omega
      simp [this]
  · exact h

theorem lens_part {lens : List Nat} {bs idx : Nat} (h : idx * bs < lens.length) :
    (lens.drop (idx * bs)).take ((idx + 1) * bs - idx * bs) =
      (part lens.length bs idx).filterMap (fun i => lens[i]?) := by
  have := slice_eq_pick (a := ⟨3, lens.length, [lens]⟩) (by simp [Arr.Regular]) (bs := bs) (idx := idx) (stop := 1) h
  simp only [Arr.slice, Arr.pick, Arr.mk.injEq, List.take_succ_cons, List.take_zero, List.map_cons, List.map_nil,
    List.cons.injEq, and_true, true_and] at this
  exact this.2

/-- **C30**: one pass of `Minibatches` yields as many batches as announced; there
are index lists covering every sequence exactly once (in order without shuffling)
in runs of the batch size, and the batches consist of exactly these sequences, cut
to the largest of their lengths. -/
theorem C30_cover_once (nonzero : α → Option Bool) (bs : Nat) (sh : Bool) (cut : Cut)
    (data : Dict Name (Arr α)) (m : Minibatches α) (hm : Minibatches.create nonzero bs sh cut data = some m)
    (hreg : ∀ d ∈ data, d.2.Regular) (shuffled : List Nat) (hsh : shuffled.Perm (List.range m.length)) :
    (m.call shuffled).length = m.length ∧
    ∃ n parts, (∀ d ∈ data, d.2.seqs = n) ∧ m.seqLens.length = n ∧ CoversOnce n bs (!sh) parts ∧
      parts.length = m.length ∧
      ∀ (j : Nat) (p : List Nat), parts[j]? = some p → ∃ stop,
        (∀ i ∈ p, ∀ len, m.seqLens[i]? = some len → len ≤ stop) ∧ (∃ i ∈ p, m.seqLens[i]? = some stop) ∧
        (m.call shuffled)[j]? = some (data.map (fun d => (d.1, d.2.pick p stop))) := by
  obtain ⟨n, T, lens, hf, hl, hbs, rfl⟩ := create_eq hm
  have hall := (assertFormat_all hf).2
  have hlen := seqLens_length (fun d hd => (hall d hd).2.1) hl
  simp only at hsh
  set order := if sh then shuffled else List.range ((n + bs - 1) / bs) with horder
  have hperm : order.Perm (List.range ((n + bs - 1) / bs)) := by
    rw [horder]; split
    · exact hsh
    · exact List.Perm.refl _
  have hcall : ∀ m : Minibatches α, m = ⟨data, (n + bs - 1) / bs, sh, bs, lens⟩ →
      m.call shuffled = order.map m.batch := by rintro m rfl; rfl
  refine ⟨by rw [hcall _ rfl]; simpa using hperm.length_eq, n, order.map (part n bs),
    fun d hd => (hall d hd).2.1, hlen, ?_, by simpa using hperm.length_eq, ?_⟩
  · apply covers hbs order (!sh) hperm
    intro h
    simp only [Bool.not_eq_true'] at h
    simp [horder, h]
  · intro j p hp
    rw [List.getElem?_map] at hp
    obtain ⟨idx, hidx, rfl⟩ := Option.map_eq_some_iff.1 hp
    have hlt : idx * bs < n := ceil_lt hbs (List.mem_range.1 (hperm.subset (List.mem_of_getElem? hidx)))
    have hstop := lens_part (lens := lens) (bs := bs) (idx := idx) (by omega)
    rw [hlen] at hstop
    obtain ⟨hmx, hin⟩ := maxOf_spec ((part n bs idx).filterMap (fun i => lens[i]?))
    refine ⟨maxOf ((part n bs idx).filterMap (fun i => lens[i]?)), ?_, ?_, ?_⟩
    · intro i hi len hle
      exact hmx _ (List.mem_filterMap.2 ⟨i, hi, hle⟩)
    · have hne : (part n bs idx).filterMap (fun i => lens[i]?) ≠ [] := by
        have hmem : idx * bs ∈ part n bs idx := by simp [part]; omega
        have : lens[idx * bs] ∈ (part n bs idx).filterMap (fun i => lens[i]?) :=
          List.mem_filterMap.2 ⟨_, hmem, List.getElem?_eq_getElem (by omega)⟩
        intro h; rw [h] at this; simp at this
      obtain ⟨i, hi, h⟩ := List.mem_filterMap.1 (hin hne)
      exact ⟨i, hi, h⟩
    · rw [hcall _ rfl, List.getElem?_map, hidx, Option.map_some]
      congr 1
      simp only [Minibatches.batch]
      apply List.map_congr_left
      intro d hd
      rw [hstop]
      have hs := (hall d hd).2.1
      have := slice_eq_pick (hreg d hd) (bs := bs) (idx := idx)
        (stop := maxOf ((part n bs idx).filterMap (fun i => lens[i]?))) (by omega)
      rw [this, hs]

theorem lengthOfColumn_spec (b : List Bool) :
    (∀ t, b[t]? = some true → t < lengthOfColumn b) ∧
    (lengthOfColumn b ≠ 0 → b[lengthOfColumn b - 1]? = some true) := by
  unfold lengthOfColumn argmaxB
  by_cases hany : b.any id
  · have hany' : b.reverse.any id := by simpa using hany
    rw [if_pos hany, if_pos hany']
    have hk : b.reverse.findIdx id < b.reverse.length := by
      rw [List.findIdx_lt_length]
      simpa using hany'
    have hkt : b.reverse[b.reverse.findIdx id] = true := List.findIdx_getElem (w := hk)
    have hlen : b.reverse.length = b.length := List.length_reverse
    constructor
    · intro t ht
      by_contra hge
      obtain ⟨htl, hbt⟩ := List.getElem?_eq_some_iff.1 ht
      have hlt : b.length - 1 - t < b.reverse.findIdx id := by omega
      have h1 := List.not_of_lt_findIdx hlt
      rw [List.getElem_reverse] at h1
      have h2 : b.length - 1 - (b.length - 1 - t) = t := by omega
      simp only [h2, hbt, id] at h1
      simp at h1
    · intro _
      rw [List.getElem_reverse] at hkt
      have h2 : b.length - b.reverse.findIdx id - 1 = b.length - 1 - b.reverse.findIdx id := by omega
      rw [h2, List.getElem?_eq_getElem (by omega), hkt]
  · rw [if_neg hany]
    refine ⟨?_, fun h => absurd rfl h⟩
    intro t ht
    exact absurd (List.any_eq_true.2 ⟨true, List.mem_of_getElem? ht, rfl⟩) hany

/-- **C31**: with a mask the batch of the sequences `p` is cut after the last step
at which one of them is unmasked: every unmasked step is kept, and unless all of
them are masked everywhere the last kept step is unmasked for one of them. -/
theorem C31_cut (nonzero : α → Option Bool) (bs : Nat) (sh : Bool) (maskName : Name)
    (data : Dict Name (Arr α)) (m : Minibatches α)
    (hm : Minibatches.create nonzero bs sh (.name maskName) data = some m)
    (mask : Arr α) (hmask : Dict.get? data maskName = some mask)
    (hreg : ∀ d ∈ data, d.2.Regular) (shuffled : List Nat) (hsh : shuffled.Perm (List.range m.length)) :
    ∃ parts, CoversOnce mask.seqs bs (!sh) parts ∧ parts.length = m.length ∧
      ∀ (j : Nat) (p : List Nat), parts[j]? = some p → ∃ stop,
        (m.call shuffled)[j]? = some (data.map (fun d => (d.1, d.2.pick p stop))) ∧
        (∀ i ∈ p, ∀ t, mask.Unmasked nonzero t i → t < stop) ∧
        (stop ≠ 0 → ∃ i ∈ p, mask.Unmasked nonzero (stop - 1) i) := by
  obtain ⟨-, n, parts, hn, hln, hcov, hpl, hp⟩ := C30_cover_once nonzero bs sh _ data m hm hreg shuffled hsh
  have hmn : mask.seqs = n := hn _ (Dict.mem_of_get? hmask)
  obtain ⟨n', T, lens, hf, hl, hbs, rfl⟩ := create_eq hm
  refine ⟨parts, hmn ▸ hcov, hpl, ?_⟩
  intro j p hjp
  obtain ⟨stop, h1, ⟨i₀, hi₀, h2⟩, h3⟩ := hp j p hjp
  simp only [seqLensOf, hmask, lengthsFromMask] at hl
  split at hl
  swap
  · simp at hl
  rename_i hsome
  simp only [Option.some.injEq] at hl
  simp only at h1 h2 hln
  have hcol : ∀ i, i < mask.seqs → lens[i]? = some (lengthOfColumn (mask.rows.map (fun r => ((r[i]?).bind nonzero).getD false))) := by
    intro i hi
    rw [← hl, List.getElem?_map, List.getElem?_range hi]
    rfl
  have hun : ∀ i t, (mask.rows.map (fun r => ((r[i]?).bind nonzero).getD false))[t]? = some true ↔
      mask.Unmasked nonzero t i := by
    intro i t
    rw [List.getElem?_map, Option.map_eq_some_iff]
    constructor
    · rintro ⟨r, hr, hb⟩
      cases hx : r[i]? with
      | none => simp [hx] at hb
      | some x =>
        simp only [hx, Option.bind_some] at hb
        cases hz : nonzero x with
        | none => simp [hz] at hb
        | some z => simp only [hz, Option.getD_some] at hb; exact ⟨r, x, hr, hx, by rw [hz, hb]⟩
    · rintro ⟨r, x, hr, hx, hz⟩
      exact ⟨r, hr, by simp [hx, hz]⟩
  refine ⟨stop, h3, ?_, ?_⟩
  · intro i hi t ht
    have hilt : i < mask.seqs := by
      have : i ∈ parts.flatten := List.mem_flatten.2 ⟨p, List.mem_of_getElem? hjp, hi⟩
      have := hcov.once.subset this
      rw [hmn]; exact List.mem_range.1 this
    exact lt_of_lt_of_le ((lengthOfColumn_spec _).1 t ((hun i t).2 ht)) (h1 i hi _ (hcol i hilt))
  · intro hne
    have hilt : i₀ < mask.seqs := by
      have := (List.getElem?_eq_some_iff.1 h2).1
      omega
    have := hcol i₀ hilt
    rw [h2] at this
    simp only [Option.some.injEq] at this
    refine ⟨i₀, hi₀, (hun _ _).1 ?_⟩
    rw [this] at hne ⊢
    exact (lengthOfColumn_spec _).2 hne

/-- **C31**: without cutting, and with the name of a mask the data does not contain, every batch keeps all steps. -/
theorem C31_uncut (nonzero : α → Option Bool) (bs : Nat) (sh : Bool) (cut : Cut) (data : Dict Name (Arr α)) (m : Minibatches α)
    (hm : Minibatches.create nonzero bs sh cut data = some m)
    (hcut : cut = .nothing ∨ ∃ c, cut = .name c ∧ Dict.get? data c = none)
    (hreg : ∀ d ∈ data, d.2.Regular) (shuffled : List Nat) (hsh : shuffled.Perm (List.range m.length)) :
    ∃ n T parts, (∀ d ∈ data, d.2.seqs = n ∧ d.2.times = T) ∧ CoversOnce n bs (!sh) parts ∧ parts.length = m.length ∧
      ∀ (j : Nat) (p : List Nat), parts[j]? = some p →
        (m.call shuffled)[j]? = some (data.map (fun d => (d.1, d.2.pick p T))) := by
  obtain ⟨-, n, parts, hn, hln, hcov, hpl, hp⟩ := C30_cover_once nonzero bs sh _ data m hm hreg shuffled hsh
  obtain ⟨n', T, lens, hf, hl, hbs, rfl⟩ := create_eq hm
  refine ⟨n, T, parts, fun d hd => ⟨hn d hd, ((assertFormat_all hf).2 d hd).2.2⟩, hcov, hpl, ?_⟩
  intro j p hjp
  obtain ⟨stop, -, ⟨i₀, -, h2⟩, h3⟩ := hp j p hjp
  have hrep : lens = List.replicate n' T := by
    rcases hcut with rfl | ⟨c, rfl, hc⟩
    · simpa [seqLensOf] using hl.symm
    · simpa [seqLensOf, hc] using hl.symm
  simp only [hrep] at h2
  have : stop = T := List.eq_of_mem_replicate (List.mem_of_getElem? h2)
  rw [h3, this]

/-- **C31**: with lengths given by the user the batch of the sequences `p` is cut after the longest of them. -/
theorem C31_lengths (nonzero : α → Option Bool) (bs : Nat) (sh : Bool) (lens : List Nat) (data : Dict Name (Arr α))
    (m : Minibatches α) (hm : Minibatches.create nonzero bs sh (.lens lens) data = some m)
    (hreg : ∀ d ∈ data, d.2.Regular) (shuffled : List Nat) (hsh : shuffled.Perm (List.range m.length)) :
    ∃ parts, CoversOnce lens.length bs (!sh) parts ∧ parts.length = m.length ∧
      ∀ (j : Nat) (p : List Nat), parts[j]? = some p → ∃ stop,
        (m.call shuffled)[j]? = some (data.map (fun d => (d.1, d.2.pick p stop))) ∧
        (∀ i ∈ p, ∀ len, lens[i]? = some len → len ≤ stop) ∧ ∃ i ∈ p, lens[i]? = some stop := by
  obtain ⟨-, n, parts, hn, hln, hcov, hpl, hp⟩ := C30_cover_once nonzero bs sh _ data m hm hreg shuffled hsh
  obtain ⟨n', T, lens', hf, hl, hbs, rfl⟩ := create_eq hm
  have hle : lens = lens' := by
    simp only [seqLensOf] at hl
    split at hl
    · simpa using hl
    · simp at hl
  subst hle
  simp only at hln
  refine ⟨parts, hln ▸ hcov, hpl, fun j p hjp => ?_⟩
  obtain ⟨stop, h1, h2, h3⟩ := hp j p hjp
  exact ⟨stop, h3, h1, h2⟩

/-! ### A concrete case: five sequences of three steps, batches of two -/

/-- A mask and data of three steps and five sequences. -/
def demoData : Dict Name (Arr Nat) :=
  [(str "x", ⟨3, 5, [[1, 2, 3, 4, 5], [11, 12, 13, 14, 15], [21, 22, 23, 24, 25]]⟩),
   (str "mask", ⟨3, 5, [[1, 1, 1, 1, 1], [1, 0, 0, 0, 1], [0, 0, 0, 0, 1]]⟩)]

example : ((Minibatches.create (fun x : Nat => some (x != 0)) 2 false (.name (str "mask")) demoData).map
    (fun m => (m.length, (m.call []).map (fun b => (Dict.get? b (str "x")).map Arr.rows)))) =
    some (3, [some [[1, 2], [11, 12]], some [[3, 4]], some [[5], [15], [25]]]) := by
  decide +kernel

example : ((Minibatches.create (fun x : Nat => some (x != 0)) 2 false (.name (str "none")) demoData).map
    (fun m => (m.call []).map (fun b => (Dict.get? b (str "x")).map Arr.rows))) =
    some [some [[1, 2], [11, 12], [21, 22]], some [[3, 4], [13, 14], [23, 24]], some [[5], [15], [25]]] ∧
    ((Minibatches.create (fun x : Nat => some (x != 0)) 2 false (.lens [1, 2, 1, 1, 3]) demoData).map
    (fun m => (m.call []).map (fun b => (Dict.get? b (str "x")).map Arr.rows))) =
    some [some [[1, 2], [11, 12]], some [[3, 4]], some [[5], [15], [25]]] := by
  decide +kernel

example : ((Minibatches.create (fun x : Nat => some (x != 0)) 2 true (.name (str "mask")) demoData).map
    (fun m => (m.length, (m.call [2, 0, 1]).map (fun b => (Dict.get? b (str "x")).map Arr.rows)))) =
    some (3, [some [[5], [15], [25]], some [[1, 2], [11, 12]], some [[3, 4]]]) := by
  decide +kernel

example : ∀ d ∈ demoData, d.2.Regular := by
  intro d hd
  simp only [demoData, List.mem_cons, List.not_mem_nil, or_false] at hd
  rcases hd with rfl | rfl <;> simp [Arr.Regular]

end Verif.Data
