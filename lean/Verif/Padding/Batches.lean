import Verif.Padding.Model
import Verif.Padding.Spec
import Verif.Iterate.Lemmas

/-!
# C87: batches that `Minibatches` has cut according to the mask
-/

namespace Verif.Padding

open Verif.Structure Verif.Layout Verif.Buffers Verif.Session Verif.Data Verif.Sequence Verif.Iterate

theorem column_le (b : List Bool) : lengthOfColumn b ≤ b.length := by
  unfold lengthOfColumn
  split <;> omega

/-- A batch that was cut, and the same one that was not. -/
theorem batch_pair {α : Type} {nonzero : α → Option Bool} {size : ℕ} {sh : Bool} {x : Name} {d : Dict Name (Arr α)} {m m' : Minibatches α}
    (hm : Minibatches.create nonzero size sh (.name x) d = some m) (hm' : Minibatches.create nonzero size sh .nothing d = some m')
    (hreg : ∀ e ∈ d, e.2.Regular) {mask : Arr α} (hmask : Dict.get? d x = some mask) :
    m.length = m'.length ∧ m.shuffle = m'.shuffle ∧ d ≠ [] ∧ ∃ n T, (∀ e ∈ d, e.2.seqs = n ∧ e.2.times = T) ∧
      ∀ idx < m.length, ∃ p stop, p ≠ [] ∧ (∀ i ∈ p, i < n) ∧ stop ≤ T ∧ m.batch idx = d.map (fun e => (e.1, e.2.pick p stop)) ∧
        m'.batch idx = d.map (fun e => (e.1, e.2.pick p T)) ∧
        ∀ i ∈ p, ∀ t r v, mask.rows[t]? = some r → r[i]? = some v → stop ≤ t → nonzero v = some false := by
  obtain ⟨n, T, lens, hf, hl, hbs, rfl⟩ := create_eq hm
  obtain ⟨n', T', lens', hf', hl', -, rfl⟩ := create_eq hm'
  rw [hf] at hf'
  obtain ⟨rfl, rfl⟩ := Prod.mk.inj (Option.some.inj hf')
  have hall := (assertFormat_all hf).2
  have hlen := seqLens_length (fun d hd => (hall d hd).2.1) hl
  have hlen' := seqLens_length (fun d hd => (hall d hd).2.1) hl'
  have hrep : lens' = List.replicate n T := by simpa [seqLensOf] using hl'.symm
  have hms := hall _ (Dict.mem_of_get? hmask)
  simp only [seqLensOf, hmask, lengthsFromMask] at hl
  split at hl
  swap
  · simp at hl
  rename_i hsome
  simp only [Option.some.injEq] at hl
  have hcol : ∀ i, i < n → lens[i]? = some (lengthOfColumn (mask.rows.map (fun r => ((r[i]?).bind nonzero).getD false))) := by
    intro i hi
    rw [← hl, List.getElem?_map, List.getElem?_range (by rw [hms.2.1]; exact hi)]
    rfl
  refine ⟨rfl, rfl, ?_, n, T, fun e he => (hall e he).2, fun idx hidx => ?_⟩
  · rintro rfl
    cases hf
  have hlt : idx * size < n := ceil_lt hbs hidx
  have hstop := lens_part (lens := lens) (bs := size) (idx := idx) (by omega)
  have hstop' := lens_part (lens := lens') (bs := size) (idx := idx) (by omega)
  rw [hlen] at hstop
  rw [hlen'] at hstop'
  have hpn : ∀ i ∈ part n size idx, i < n := fun i hi => by
    simp only [part, List.mem_range'_1] at hi
    omega
  have hmem : idx * size ∈ part n size idx := by simp [part]; omega
  have hne : ∀ l : List ℕ, l.length = n → (part n size idx).filterMap (fun i => l[i]?) ≠ [] := by
    intro l hl h
    have : l[idx * size] ∈ (part n size idx).filterMap (fun i => l[i]?) :=
      List.mem_filterMap.2 ⟨_, hmem, List.getElem?_eq_getElem (by omega)⟩
    rw [h] at this
    simp at this
  have hT : maxOf ((part n size idx).filterMap (fun i => lens'[i]?)) = T := by
    obtain ⟨i, -, h⟩ := List.mem_filterMap.1 ((maxOf_spec _).2 (hne lens' hlen'))
    rw [hrep] at h
    rw [hrep]
    exact List.eq_of_mem_replicate (List.mem_of_getElem? h)
  obtain ⟨hmx, hin⟩ := maxOf_spec ((part n size idx).filterMap (fun i => lens[i]?))
  have hbatch : ∀ (l : List ℕ), l.length = n → (l.drop (idx * size)).take ((idx + 1) * size - idx * size) =
      (part n size idx).filterMap (fun i => l[i]?) →
      (⟨d, (n + size - 1) / size, sh, size, l⟩ : Minibatches α).batch idx =
        d.map (fun e => (e.1, e.2.pick (part n size idx) (maxOf ((part n size idx).filterMap (fun i => l[i]?))))) := by
    intro l _ h
    simp only [Minibatches.batch]
    refine List.map_congr_left fun e he => ?_
    rw [h]
    have hs := (hall e he).2.1
    have := slice_eq_pick (hreg e he) (bs := size) (idx := idx)
      (stop := maxOf ((part n size idx).filterMap (fun i => l[i]?))) (by omega)
    rw [this, hs]
  refine ⟨part n size idx, maxOf ((part n size idx).filterMap (fun i => lens[i]?)), List.ne_nil_of_mem hmem, hpn, ?_, hbatch lens hlen hstop, ?_, ?_⟩
  · obtain ⟨i, hi, h⟩ := List.mem_filterMap.1 (hin (hne lens hlen))
    rw [hcol i (hpn i hi)] at h
    rw [← Option.some.inj h]
    refine le_trans (column_le _) ?_
    rw [List.length_map]
    exact hms.2.2.le
  · rw [hbatch lens' hlen' hstop', hT]
  · intro i hi t r v hr hv ht
    have h1 : (nonzero v).isSome := by
      have := List.all_eq_true.1 hsome r (List.mem_of_getElem? hr)
      exact List.all_eq_true.1 this v (List.mem_of_getElem? hv)
    obtain ⟨z, hz⟩ := Option.isSome_iff_exists.1 h1
    cases z with
    | false => exact hz
    | true =>
      have h2 := (lengthOfColumn_spec (mask.rows.map (fun r => ((r[i]?).bind nonzero).getD false))).1 t (by
        rw [List.getElem?_map, hr, Option.map_some, hv, Option.bind_some, hz]
        rfl)
      have h3 := hmx _ (List.mem_filterMap.2 ⟨i, hi, hcol i (hpn i hi)⟩)
      omega

theorem pick_take {α : Type} (x : Arr α) (p : List ℕ) {stop T : ℕ} (h : stop ≤ T) : (x.pick p stop).rows = (x.pick p T).rows.take stop := by
  simp only [Arr.pick]
  rw [← List.map_take, List.take_take, Nat.min_eq_left h]

theorem numbers_take {x y : Arr (List ℝ)} {stop n : ℕ} (hr : x.Regular) (hn : ∀ r ∈ x.rows, ∀ v ∈ r, v.length = n) (h : y.rows = x.rows.take stop)
    {i : ℕ} (hi : i < stop * x.seqs * n) : (numbers y)[i]? = (numbers x)[i]? := by
  unfold numbers
  rw [h]
  conv_rhs => rw [← List.take_append_drop stop x.rows]
  rw [List.flatten_append, List.flatten_append]
  by_cases hs : stop ≤ x.rows.length
  · rw [List.getElem?_append_left]
    rw [flatten_length (n := n), flatten_length (n := x.seqs)]
    · rw [List.length_take, Nat.min_eq_left hs]
      exact hi
    · exact fun r h => hr r (List.mem_of_mem_take h)
    · intro v hv
      obtain ⟨r, h1, h2⟩ := List.mem_flatten.1 hv
      exact hn r (List.mem_of_mem_take h1) v h2
  · rw [List.drop_eq_nil_of_le (by omega)]
    simp

/-- Arrays that were cut after `stop` steps. -/
theorem shortened_of {input : LayerInfo} (hnd : (input.outShapes.map Prod.fst).Nodup) {g g' : Name → Arr (List ℝ)} {n T stop : ℕ}
    (hs : ∀ e ∈ input.outShapes, e.2.bufferType = 2 ∧ e.2.contextSize = 0)
    (hg : ∀ e ∈ input.outShapes, (g e.1).Regular ∧ (g e.1).seqs = n ∧ (g e.1).times = T ∧ ∀ r ∈ (g e.1).rows, ∀ v ∈ r, v.length = e.2.featureSize)
    (hg' : ∀ e ∈ input.outShapes, (g' e.1).Regular ∧ (g' e.1).seqs = n ∧ (g' e.1).times = stop ∧
      ∀ r ∈ (g' e.1).rows, ∀ v ∈ r, v.length = e.2.featureSize)
    (hcut : ∀ e ∈ input.outShapes, (g' e.1).rows = (g e.1).rows.take stop) (hn : 0 < n) (hT : stop ≤ T) {x : Name}
    (hmask : ∀ s, (x, s) ∈ input.outShapes → ∀ t r, stop ≤ t → (g x).rows[t]? = some r → ∀ v ∈ r, nonzero v = some false) (r r' : ℕ → ℝ) :
    Shortened input x ⟨T, n, input.outShapes.map fun e => (e.1, numbers (g e.1)), r⟩
      ⟨stop, n, input.outShapes.map fun e => (e.1, numbers (g' e.1)), r'⟩ := by
  refine ⟨⟨good_of hnd hs hg r, good_of hnd hs hg' r'⟩, ⟨rfl, hn⟩, hT, ?_, ?_⟩
  · intro A hA y s xs xs' hy hxs hxs'
    simp only [List.mem_map, Prod.mk.injEq] at hxs hxs'
    obtain ⟨e1, he1, rfl, rfl⟩ := hxs
    obtain ⟨e2, he2, hxx, rfl⟩ := hxs'
    have u1 : e1 = (e1.1, s) := List.inj_on_of_nodup_map hnd he1 hy rfl
    have u2 : e2 = (e1.1, s) := List.inj_on_of_nodup_map hnd he2 hy hxx
    obtain ⟨g1, g2, g3, g4⟩ := hg e1 he1
    rw [u1] at g4
    intro ρ ρ' hρ k hk
    obtain ⟨t, ht, rfl, rfl⟩ := (Align.rows_seq (hs _ hy).1).1 hρ
    have q1 := A.seq
    have q2 := A.seq'
    rw [hA.whole.2] at q1 ⊢
    rw [hA.short.2] at q2 ⊢
    rw [hA.steps.2] at ht
    rw [hA.steps.1, Nat.zero_add, ← hA.seq]
    simp only at q1 q2 ht ⊢
    rw [u2]
    simp only
    rw [List.getD_eq_getElem?_getD, List.getD_eq_getElem?_getD, numbers_take g1 g4 (hcut e1 he1)]
    rw [g2]
    calc (t * n + A.b) * s.featureSize + k < (t * n + A.b) * s.featureSize + s.featureSize := by omega
      _ = (t * n + A.b + 1) * s.featureSize := by ring
      _ ≤ ((t + 1) * n) * s.featureSize := Nat.mul_le_mul_right _ (by rw [Nat.add_mul]; omega)
      _ ≤ stop * n * s.featureSize := Nat.mul_le_mul_right _ (Nat.mul_le_mul_right _ ht)
  · intro s xs hx hxs i hi
    simp only [List.mem_map, Prod.mk.injEq] at hxs
    obtain ⟨e1, he1, rfl, rfl⟩ := hxs
    have u1 : e1 = (e1.1, s) := List.inj_on_of_nodup_map hnd he1 hx rfl
    obtain ⟨g1, g2, g3, g4⟩ := hg e1 he1
    rw [u1] at g4
    simp only at hi
    rcases Nat.eq_zero_or_pos s.featureSize with h0 | h0
    · rw [List.getD_eq_getElem?_getD, List.getElem?_eq_none (by rw [numbers_length g1 g4]; rw [h0]; simp)]
      rfl
    obtain ⟨q, k, hk, rfl⟩ : ∃ q k, k < s.featureSize ∧ i = q * s.featureSize + k :=
      ⟨i / s.featureSize, i % s.featureSize, Nat.mod_lt _ h0, by rw [Nat.mul_comm]; exact (Nat.div_add_mod _ _).symm⟩
    obtain ⟨t, b, hb, rfl⟩ : ∃ t b, b < n ∧ q = t * n + b :=
      ⟨q / n, q % n, Nat.mod_lt _ hn, by rw [Nat.mul_comm]; exact (Nat.div_add_mod _ _).symm⟩
    have ht : stop ≤ t := by
      by_contra hlt
      have : t + 1 ≤ stop := by omega
      have h1 : (t * n + b + 1) * s.featureSize ≤ stop * n * s.featureSize :=
        le_trans (Nat.mul_le_mul_right _ (by rw [Nat.add_mul]; omega : t * n + b + 1 ≤ (t + 1) * n))
          (Nat.mul_le_mul_right _ (Nat.mul_le_mul_right _ this))
      rw [Nat.add_mul (t * n + b)] at h1
      omega
    have hv := numbers_get g1 g4 (q := b) (k := k) (by rw [g2]; exact hb) hk t
    rw [g2] at hv
    rw [List.getD_eq_getElem?_getD, hv]
    cases h1 : (g e1.1).rows[t]? with
    | none => rfl
    | some row =>
      rw [Option.bind_some]
      cases h2 : row[b]? with
      | none => rfl
      | some v =>
        have h3 := hmask s hx t row ht h1 v (List.mem_of_getElem? h2)
        rw [Option.bind_some]
        cases v with
        | nil => rfl
        | cons z v =>
          cases v with
          | cons => cases h3
          | nil =>
            have : z = 0 := by simpa [nonzero] using h3
            subst this
            cases k <;> rfl

/-- The batches that `Minibatches` cuts according to the mask are those that it would give otherwise, shortened. -/
theorem minibatches_shortened {input : LayerInfo} (hnd : (input.outShapes.map Prod.fst).Nodup) {d : Dict Name (Arr (List ℝ))} (hd : FitsInput input d)
    {size : ℕ} {sh : Bool} {x : Name} {m m' : Minibatches (List ℝ)} (hm : Minibatches.create nonzero size sh (.name x) d = some m)
    (hm' : Minibatches.create nonzero size sh .nothing d = some m') {mask : Arr (List ℝ)} (hmask : Dict.get? d x = some mask)
    {shuffled : List ℕ} (hsh : shuffled.Perm (List.range m.length)) (rs rs' : ℕ → ℕ → ℝ) :
    ∃ us bs, batchesOf input (m'.call shuffled) rs' = some us ∧ batchesOf input (m.call shuffled) rs = some bs ∧
      List.Forall₂ (Shortened input x) us bs := by
  obtain ⟨e1, e2, hne, n, T, hn, hb⟩ := batch_pair hm hm' hd.regular hmask
  have harr : ∀ e ∈ input.outShapes, ∃ x, Dict.get? d e.1 = some x ∧ x.Regular ∧ x.seqs = n ∧ x.times = T ∧
      ∀ r ∈ x.rows, ∀ v ∈ r, v.length = e.2.featureSize := fun e he => by
    obtain ⟨x, h1, h2⟩ := hd.arrays e he
    have hm := Dict.mem_of_get? h1
    exact ⟨x, h1, hd.regular _ hm, (hn _ hm).1, (hn _ hm).2, h2⟩
  have hone : ∀ idx < m.length, ∀ r r', ∃ u b, batchOf input (m'.batch idx) r' = some u ∧ batchOf input (m.batch idx) r = some b ∧
      Shortened input x u b := by
    intro idx hidx r r'
    obtain ⟨p, stop, hp, hpn, hst, b1, b2, b3⟩ := hb idx hidx
    have hbo : ∀ s ≤ T, ∀ r, batchOf input (d.map fun e => (e.1, e.2.pick p s)) r =
        some ⟨s, p.length, input.outShapes.map fun e => (e.1, numbers (((Dict.get? d e.1).getD ⟨0, 0, []⟩).pick p s)), r⟩ := by
      intro s hs r
      rw [batchOf_eq (n := p.length) (T := s) (by simpa using hne) (fun e he => by
          obtain ⟨e, he', rfl⟩ := List.mem_map.1 he
          refine ⟨rfl, ?_⟩
          have := (hn e he').2
          simp only [Arr.times, Arr.pick, List.length_map, List.length_take] at this ⊢
          omega) (fun e he => by
          obtain ⟨x, h1, -⟩ := harr e he
          exact ⟨_, by rw [get?_pick (fun x => x.pick p s), h1]; rfl⟩), Option.some.injEq]
      congr 1
      refine List.map_congr_left fun e he => ?_
      obtain ⟨x, h1, -⟩ := harr e he
      rw [get?_pick (fun x => x.pick p s), h1]
      rfl
    refine ⟨_, _, by rw [b2]; exact hbo T le_rfl r', by rw [b1]; exact hbo stop hst r, ?_⟩
    have hgs : ∀ s ≤ T, ∀ e ∈ input.outShapes, (((Dict.get? d e.1).getD ⟨0, 0, []⟩).pick p s).Regular ∧
        (((Dict.get? d e.1).getD ⟨0, 0, []⟩).pick p s).seqs = p.length ∧ (((Dict.get? d e.1).getD ⟨0, 0, []⟩).pick p s).times = s ∧
        ∀ r ∈ (((Dict.get? d e.1).getD ⟨0, 0, []⟩).pick p s).rows, ∀ v ∈ r, v.length = e.2.featureSize := by
      intro s hs e he
      obtain ⟨y, h1, h2, h3, h4, h5⟩ := harr e he
      rw [h1, Option.getD_some]
      refine ⟨pick_regular h2 (by rw [h3]; exact hpn) s, rfl, ?_, pick_blocks h5 p s⟩
      simp only [Arr.times, Arr.pick, List.length_map, List.length_take] at h4 ⊢
      omega
    refine shortened_of (g := fun y => ((Dict.get? d y).getD ⟨0, 0, []⟩).pick p T) (g' := fun y => ((Dict.get? d y).getD ⟨0, 0, []⟩).pick p stop)
      hnd hd.shapes (hgs T le_rfl) (hgs stop hst) (fun e he => pick_take _ _ hst) (List.length_pos_iff.2 hp) hst ?_ _ _
    intro s hs t row ht hrow v hv
    simp only [hmask, Option.getD_some, Arr.pick, List.getElem?_map] at hrow
    obtain ⟨row', h1, rfl⟩ := Option.map_eq_some_iff.1 hrow
    obtain ⟨i, hi, hiv⟩ := List.mem_filterMap.1 hv
    rw [List.getElem?_take] at h1
    split at h1
    · exact b3 i hi t row' v h1 hiv ht
    · cases h1
  have hlist : ∀ (idxs : List ℕ) (k : ℕ), (∀ i ∈ idxs, i < m.length) → ∃ us bs,
      (((idxs.map m'.batch).zipIdx k).mapM fun x => batchOf input x.1 (rs' x.2)) = some us ∧
      (((idxs.map m.batch).zipIdx k).mapM fun x => batchOf input x.1 (rs x.2)) = some bs ∧ List.Forall₂ (Shortened input x) us bs := by
    intro idxs
    induction idxs with
    | nil => exact fun k _ => ⟨[], [], rfl, rfl, .nil⟩
    | cons i idxs ih =>
      intro k hi
      obtain ⟨u, b, h1, h2, h3⟩ := hone i (hi i (by simp)) (rs k) (rs' k)
      obtain ⟨us, bs, h4, h5, h6⟩ := ih (k + 1) fun i h => hi i (by simp [h])
      refine ⟨u :: us, b :: bs, ?_, ?_, .cons h3 h6⟩
      · rw [List.map_cons, List.zipIdx_cons, List.mapM_cons, h1, h4]; rfl
      · rw [List.map_cons, List.zipIdx_cons, List.mapM_cons, h2, h5]; rfl
  obtain ⟨us, bs, h1, h2, h3⟩ := hlist (if m.shuffle then shuffled else List.range m.length) 0 fun i hi => by
    split at hi
    · exact List.mem_range.1 (hsh.mem_iff.1 hi)
    · exact List.mem_range.1 hi
  refine ⟨us, bs, ?_, h2, h3⟩
  unfold batchesOf Minibatches.call
  rw [← e1, ← e2]
  exact h1

end Verif.Padding
