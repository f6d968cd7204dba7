import Verif.Noise.Model
import Mathlib.MeasureTheory.Measure.Lebesgue.Basic

/-!
# Property C69: noise
-/

namespace Verif.Noise

/-! ## Specification -/

/-- Salt and pepper on one number `x`, where `r` is the random number drawn for it. -/
noncomputable def noisy (pr ratio r x : ℝ) : ℝ :=
  open Classical in if r ≤ pr * (1 - ratio) then 0 else if 1 - pr * ratio ≤ r then 1 else x

/-- The batch `out` is the batch `data` with the items `main` changed entry by entry: same names in the same order, the other
items untouched, shapes kept, and entry number `i` of item `k` is `g k v r x` for the old entry `x`, the setting `v` and the
random number `r` at position `start k + i` of the stream. -/
structure Noised (draws : Nat → ℝ) (g : Name → ℝ → ℝ → ℝ → ℝ) (main : Dict Name ℝ) (start : Name → Nat) (data out : Batch) : Prop where
  names : Dict.keys out = Dict.keys data
  others : ∀ k, k ∉ Dict.keys main → Dict.get? out k = Dict.get? data k
  changed : ∀ k v, Dict.get? main k = some v → ∃ a o, Dict.get? data k = some a ∧ Dict.get? out k = some o ∧
    o.shape = a.shape ∧ o.vals.length = a.vals.length ∧
    ∀ i x, a.vals[i]? = some x → o.vals[i]? = some (g k v (draws (start k + i)) x)

/-- The number of entries of item `k`. -/
def count (data : Batch) (k : Name) : Nat := ((Dict.get? data k).map (fun a => a.vals.length)).getD 0

/-! ## Lemmas -/

theorem length_drawn (draws : Nat → ℝ) (pos n : Nat) : (drawn draws pos n).length = n := by simp [drawn]

theorem get_drawn (draws : Nat → ℝ) (pos n i : Nat) (h : i < n) : (drawn draws pos n)[i]? = some (draws (pos + i)) := by
  rw [drawn, List.getElem?_map, List.getElem?_range h]; rfl

theorem zip_drawn {a : NArr} (ha : a.Ok) (h : ℝ → ℝ → ℝ) (draws : Nat → ℝ) (pos : Nat) :
    (List.zipWith h a.vals (drawn draws pos a.shape.prod)).length = a.vals.length ∧
    ∀ i x, a.vals[i]? = some x → (List.zipWith h a.vals (drawn draws pos a.shape.prod))[i]? = some (h x (draws (pos + i))) := by
  refine ⟨by rw [List.length_zipWith, length_drawn, ha, Nat.min_self], ?_⟩
  intro i x hx
  have hi : i < a.shape.prod := ha ▸ (List.getElem?_eq_some_iff.1 hx).1
  rw [List.getElem?_zipWith, hx, get_drawn _ _ _ _ hi]

/-- What the loop over items does, for a function that works entry by entry. -/
theorem overItems_spec (draws : Nat → ℝ) (f : Name → ℝ → List ℝ → NArr → NArr) (g : Name → ℝ → ℝ → ℝ → ℝ)
    (hf : ∀ k v a pos, a.Ok → (f k v (drawn draws pos a.shape.prod) a).shape = a.shape ∧
      (f k v (drawn draws pos a.shape.prod) a).vals.length = a.vals.length ∧
      ∀ i x, a.vals[i]? = some x → (f k v (drawn draws pos a.shape.prod) a).vals[i]? = some (g k v (draws (pos + i)) x)) :
    ∀ (main : Dict Name ℝ) (pos : Nat) (data : Batch), (Dict.keys main).Nodup →
      (∀ k ∈ Dict.keys main, ∃ a, Dict.get? data k = some a ∧ a.Ok) →
      ∃ out pos' start, overItems draws f main pos data = some (out, pos') ∧ pos ≤ pos' ∧ Noised draws g main start data out ∧
        (∀ k ∈ Dict.keys main, pos ≤ start k ∧ start k + count data k ≤ pos') ∧
        ∀ k ∈ Dict.keys main, ∀ k' ∈ Dict.keys main, k ≠ k' →
          start k + count data k ≤ start k' ∨ start k' + count data k' ≤ start k
  | [], pos, data, _, _ => ⟨data, pos, fun _ => 0, rfl, Nat.le_refl _, ⟨rfl, fun _ _ => rfl, fun k v h => by simp at h⟩,
      fun k h => by simp [Dict.keys] at h, fun k h => by simp [Dict.keys] at h⟩
  | (key, v) :: rest, pos, data, hnd, hall => by
    obtain ⟨a, ha, hok⟩ := hall key (by simp [Dict.keys])
    have hnd' : key ∉ Dict.keys rest ∧ (Dict.keys rest).Nodup := by simpa [Dict.keys] using hnd
    set data' := Dict.set data key (f key v (drawn draws pos a.shape.prod) a) with hd'
    have hother : ∀ k, k ≠ key → Dict.get? data' k = Dict.get? data k :=
      fun k hk => Dict.get?_set_ne _ _ _ _ (fun e => hk e.symm)
    have hne : ∀ k ∈ Dict.keys rest, k ≠ key := fun k hk e => hnd'.1 (e ▸ hk)
    have hcount : ∀ k, k ≠ key → count data' k = count data k := fun k hk => by rw [count, hother k hk]; rfl
    have hck : count data key = a.shape.prod := by rw [count, ha]; exact hok
    obtain ⟨out, pos', start, h1, h2, h3, h4, h5⟩ := overItems_spec draws f g hf rest (pos + a.shape.prod) data' hnd'.2 (by
      intro k hk
      obtain ⟨a', q1, q2⟩ := hall k (by simp only [Dict.keys, List.map_cons, List.mem_cons]; exact .inr hk)
      exact ⟨a', by rw [hother k (hne k hk)]; exact q1, q2⟩)
    have hkeys : Dict.keys data' = Dict.keys data := by
      rw [hd', Dict.keys_set, if_pos ((Dict.mem_keys_iff _ _).2 (by rw [ha]; rfl))]
    have hstart : ∀ k, k ≠ key → (fun k => if k = key then pos else start k) k = start k := fun k hk => if_neg hk
    refine ⟨out, pos', fun k => if k = key then pos else start k, ?_, by omega, ⟨h3.names.trans hkeys, ?_, ?_⟩, ?_, ?_⟩
    · rw [overItems, ha]; exact h1
    · intro k hk
      have hk' : k ≠ key ∧ k ∉ Dict.keys rest := by simpa [Dict.keys] using hk
      rw [h3.others k hk'.2, hother k hk'.1]
    · intro k w hw
      rw [Dict.get?_cons] at hw
      by_cases e : key = k
      · subst e
        rw [if_pos rfl] at hw
        cases hw
        obtain ⟨r1, r2, r3⟩ := hf key v a pos hok
        refine ⟨a, _, ha, by rw [h3.others key hnd'.1, hd', Dict.get?_set_self], r1, r2, ?_⟩
        simpa using r3
      · rw [if_neg e] at hw
        obtain ⟨a', o, r1, r2, r3⟩ := h3.changed k w hw
        refine ⟨a', o, by rw [← hother k (fun h => e h.symm)]; exact r1, r2, ?_⟩
        simpa [show k ≠ key from fun h => e h.symm] using r3
    · intro k hk
      simp only [Dict.keys, List.map_cons, List.mem_cons] at hk
      by_cases e : k = key
      · subst e
        simp only [if_true, hck]
        omega
      · have hk' : k ∈ Dict.keys rest := hk.resolve_left e
        have := h4 k hk'
        rw [hcount k e] at this
        simp only [e, if_false]
        omega
    · intro k hk k' hk' hkk
      simp only [Dict.keys, List.map_cons, List.mem_cons] at hk hk'
      by_cases e : k = key
      · subst e
        have e' : k' ≠ k := fun h => hkk h.symm
        have := h4 k' (hk'.resolve_left e')
        simp only [if_true, hck, e', if_false]
        omega
      · by_cases e' : k' = key
        · subst e'
          have := h4 k (hk.resolve_left e)
          simp only [if_true, hck, e, if_false]
          omega
        · have := h5 k (hk.resolve_left e) k' (hk'.resolve_left e') hkk
          rw [hcount k e, hcount k' e'] at this
          simp only [e, e', if_false]
          exact this

theorem overBatches_spec (draws : Nat → ℝ) (f : Name → ℝ → List ℝ → NArr → NArr) (g : Name → ℝ → ℝ → ℝ → ℝ)
    (hf : ∀ k v a pos, a.Ok → (f k v (drawn draws pos a.shape.prod) a).shape = a.shape ∧
      (f k v (drawn draws pos a.shape.prod) a).vals.length = a.vals.length ∧
      ∀ i x, a.vals[i]? = some x → (f k v (drawn draws pos a.shape.prod) a).vals[i]? = some (g k v (draws (pos + i)) x))
    (main : Dict Name ℝ) (hnd : (Dict.keys main).Nodup) :
    ∀ (batches : List Batch) (pos : Nat), (∀ data ∈ batches, ∀ k ∈ Dict.keys main, ∃ a, Dict.get? data k = some a ∧ a.Ok) →
      ∃ outs, overBatches draws f main pos batches = some outs ∧ outs.length = batches.length ∧
        ∃ start : Nat → Name → Nat,
          (∀ b data out, batches[b]? = some data → outs[b]? = some out → Noised draws g main (start b) data out) ∧
          (∀ b data, batches[b]? = some data → ∀ k ∈ Dict.keys main, pos ≤ start b k) ∧
          ∀ b data k b' data' k', batches[b]? = some data → batches[b']? = some data' → k ∈ Dict.keys main → k' ∈ Dict.keys main →
            (b, k) ≠ (b', k') → start b k + count data k ≤ start b' k' ∨ start b' k' + count data' k' ≤ start b k
  | [], pos, _ => ⟨[], rfl, rfl, fun _ _ => 0, by simp, by simp, by simp⟩
  | data :: rest, pos, hall => by
    obtain ⟨out, pos', st, h1, h2, h3, h4, h5⟩ := overItems_spec draws f g hf main pos data hnd (hall data (by simp))
    obtain ⟨outs, r1, r2, start, r3, r4, r5⟩ := overBatches_spec draws f g hf main hnd rest pos'
      (fun d hd => hall d (List.mem_cons_of_mem _ hd))
    refine ⟨out :: outs, by rw [overBatches, h1, Option.bind_some, r1]; rfl, by simp [r2],
      fun b => match b with | 0 => st | b + 1 => start b, ?_, ?_, ?_⟩
    · intro b d o hb ho
      cases b with
      | zero => cases hb; cases ho; exact h3
      | succ b => exact r3 b d o hb ho
    · intro b d hb k hk
      cases b with
      | zero => exact (h4 k hk).1
      | succ b => exact Nat.le_trans h2 (r4 b d hb k hk)
    · intro b d k b' d' k' hb hb' hk hk' hne
      cases b with
      | zero =>
        cases hb
        cases b' with
        | zero =>
          cases hb'
          exact h5 k hk k' hk' (fun e => hne (by rw [e]))
        | succ b' => exact .inl (Nat.le_trans (h4 k hk).2 (r4 b' d' hb' k' hk'))
      | succ b =>
        cases b' with
        | zero =>
          cases hb'
          exact .inr (Nat.le_trans (h4 k' hk').2 (r4 b d hb k hk))
        | succ b' => exact r5 b d k b' d' k' hb hb' hk hk' (fun e => hne (by cases e; rfl))

theorem gaussian_entry (mean : Option (Dict Name ℝ)) (draws : Nat → ℝ) (k : Name) (v : ℝ) (a : NArr) (pos : Nat) (ha : a.Ok) :
    (gaussian v (getOr mean k 0) (drawn draws pos a.shape.prod) a).shape = a.shape ∧
      (gaussian v (getOr mean k 0) (drawn draws pos a.shape.prod) a).vals.length = a.vals.length ∧
      ∀ i x, a.vals[i]? = some x → (gaussian v (getOr mean k 0) (drawn draws pos a.shape.prod) a).vals[i]? =
        some (x + v * draws (pos + i) + getOr mean k 0) := by
  obtain ⟨h1, h2⟩ := zip_drawn ha (fun x r => x + v * r + getOr mean k 0) draws pos
  exact ⟨rfl, h1, h2⟩

theorem salt_entry (ratio : Option (Dict Name ℝ)) (draws : Nat → ℝ) (k : Name) (v : ℝ) (a : NArr) (pos : Nat) (ha : a.Ok) :
    (saltPepper v (getOr ratio k (1 / 2)) (drawn draws pos a.shape.prod) a).shape = a.shape ∧
      (saltPepper v (getOr ratio k (1 / 2)) (drawn draws pos a.shape.prod) a).vals.length = a.vals.length ∧
      ∀ i x, a.vals[i]? = some x → (saltPepper v (getOr ratio k (1 / 2)) (drawn draws pos a.shape.prod) a).vals[i]? =
        some (noisy v (getOr ratio k (1 / 2)) (draws (pos + i)) x) := by
  classical
  set q := getOr ratio k (1 / 2)
  obtain ⟨h1, h2⟩ := zip_drawn ha (fun x r => if r ≥ 1 - v * q then 1 else x) draws pos
  set b : NArr := assignIf (fun r => r ≥ 1 - v * q) 1 (drawn draws pos a.shape.prod) a with hb
  have hbv : b.vals = List.zipWith (fun x r => if r ≥ 1 - v * q then 1 else x) a.vals (drawn draws pos a.shape.prod) := by
    rw [hb, assignIf]
  have hbo : b.Ok := by
    show b.vals.length = a.shape.prod
    rw [hbv, h1]; exact ha
  obtain ⟨h3, h4⟩ := zip_drawn hbo (fun x r => if r ≤ v * (1 - q) then 0 else x) draws pos
  have hv : (saltPepper v q (drawn draws pos a.shape.prod) a).vals =
      List.zipWith (fun x r => if r ≤ v * (1 - q) then 0 else x) b.vals (drawn draws pos b.shape.prod) := by
    rw [saltPepper, ← hb, assignIf]
    show List.zipWith _ b.vals (drawn draws pos a.shape.prod) = List.zipWith _ b.vals (drawn draws pos a.shape.prod)
    congr!
  refine ⟨rfl, by rw [hv, h3, hbv, h1], ?_⟩
  intro i x hx
  have := h2 i x hx
  rw [← hbv] at this
  rw [hv, h4 i _ this, noisy]

/-! ## Theorems -/

/-- **C69 (Gaussian noise).** Over a whole pass through another iterator whose batches have the items named in `std`: there is
one batch for each batch of the other iterator; names, shapes and all items without a standard deviation are the same; and
every entry `x` of an item becomes `x + std * z + mean`, where `z` is a number of the generator that is used for no other
entry of any item of any batch. -/
theorem C69_gaussian (draws : Nat → ℝ) (std : Dict Name ℝ) (mean : Option (Dict Name ℝ)) (hnd : (Dict.keys std).Nodup) (pos : Nat)
    (batches : List Batch) (hall : ∀ data ∈ batches, ∀ k ∈ Dict.keys std, ∃ a, Dict.get? data k = some a ∧ a.Ok) :
    ∃ outs, addGaussianNoise draws std mean pos batches = some outs ∧ outs.length = batches.length ∧
      ∃ start : Nat → Name → Nat,
        (∀ b data out, batches[b]? = some data → outs[b]? = some out →
          Noised draws (fun k s z x => x + s * z + getOr mean k 0) std (start b) data out) ∧
        ∀ b data k i b' data' k' i', batches[b]? = some data → batches[b']? = some data' → k ∈ Dict.keys std → k' ∈ Dict.keys std →
          i < count data k → i' < count data' k' → start b k + i = start b' k' + i' → b = b' ∧ k = k' ∧ i = i' := by
  obtain ⟨outs, h1, h2, start, h3, h4, h5⟩ := overBatches_spec draws _ (fun k s z x => x + s * z + getOr mean k 0)
    (fun k v a p ha => gaussian_entry mean draws k v a p ha) std hnd batches pos hall
  refine ⟨outs, h1, h2, start, h3, ?_⟩
  intro b data k i b' data' k' i' hb hb' hk hk' hi hi' he
  by_cases e : (b, k) = (b', k')
  · cases e
    exact ⟨rfl, rfl, by omega⟩
  · have := h5 b data k b' data' k' hb hb' hk hk' e
    omega

/-- **C69 (salt and pepper).** The same with salt and pepper: every entry becomes 0, 1 or stays, according to its own random
number. -/
theorem C69_salt_and_pepper (draws : Nat → ℝ) (prob : Dict Name ℝ) (ratio : Option (Dict Name ℝ)) (hnd : (Dict.keys prob).Nodup)
    (pos : Nat) (batches : List Batch) (hall : ∀ data ∈ batches, ∀ k ∈ Dict.keys prob, ∃ a, Dict.get? data k = some a ∧ a.Ok) :
    ∃ outs, addSaltNPepper draws prob ratio pos batches = some outs ∧ outs.length = batches.length ∧
      ∃ start : Nat → Name → Nat,
        (∀ b data out, batches[b]? = some data → outs[b]? = some out →
          Noised draws (fun k p r x => noisy p (getOr ratio k (1 / 2)) r x) prob (start b) data out) ∧
        ∀ b data k i b' data' k' i', batches[b]? = some data → batches[b']? = some data' → k ∈ Dict.keys prob → k' ∈ Dict.keys prob →
          i < count data k → i' < count data' k' → start b k + i = start b' k' + i' → b = b' ∧ k = k' ∧ i = i' := by
  obtain ⟨outs, h1, h2, start, h3, h4, h5⟩ := overBatches_spec draws _ (fun k p r x => noisy p (getOr ratio k (1 / 2)) r x)
    (fun k v a p ha => salt_entry ratio draws k v a p ha) prob hnd batches pos hall
  refine ⟨outs, h1, h2, start, h3, ?_⟩
  intro b data k i b' data' k' i' hb hb' hk hk' hi hi' he
  by_cases e : (b, k) = (b', k')
  · cases e
    exact ⟨rfl, rfl, by omega⟩
  · have := h5 b data k b' data' k' hb hb' hk hk' e
    omega

open MeasureTheory Set in
/-- **C69 (probabilities).** For a random number that is uniform in [0, 1), an entry is turned into 0 (pepper) with probability
`pr * (1 - ratio)`, into 1 (salt) with probability `pr * ratio`, and stays what it is with probability `1 - pr`. -/
theorem C69_probabilities (pr ratio : ℝ) (hp0 : 0 ≤ pr) (hp1 : pr ≤ 1) (hr0 : 0 ≤ ratio) (hr1 : ratio ≤ 1) :
    volume (Ico (0 : ℝ) 1 ∩ {r | ∀ x, noisy pr ratio r x = 0}) = ENNReal.ofReal (pr * (1 - ratio)) ∧
    volume (Ico (0 : ℝ) 1 ∩ {r | ∀ x, noisy pr ratio r x = 1}) = ENNReal.ofReal (pr * ratio) ∧
    volume (Ico (0 : ℝ) 1 ∩ {r | ∀ x, noisy pr ratio r x = x}) = ENNReal.ofReal (1 - pr) := by
  set c := pr * (1 - ratio) with hc
  set d := 1 - pr * ratio with hd
  have hc0 : 0 ≤ c := mul_nonneg hp0 (by linarith)
  have hcd : c ≤ d := by rw [hc, hd]; nlinarith
  have hd1 : d ≤ 1 := by rw [hd]; nlinarith
  have hn : ∀ r x, (r ≤ c → noisy pr ratio r x = 0) ∧ (c < r → d ≤ r → noisy pr ratio r x = 1) ∧
      (c < r → r < d → noisy pr ratio r x = x) := by
    intro r x
    refine ⟨fun h => if_pos h, fun h h' => ?_, fun h h' => ?_⟩
    · rw [noisy, if_neg (not_le.2 h), if_pos h']
    · rw [noisy, if_neg (not_le.2 h), if_neg (not_le.2 h')]
  refine ⟨le_antisymm ?_ ?_, le_antisymm ?_ ?_, le_antisymm ?_ ?_⟩
  · refine (measure_mono (t := Icc 0 c) ?_).trans (by rw [Real.volume_Icc, sub_zero])
    rintro r ⟨h1, h2⟩
    refine ⟨h1.1, ?_⟩
    by_contra h
    push Not at h
    rcases lt_or_ge r d with h' | h'
    · have := (hn r 2).2.2 h h'; rw [h2 2] at this; norm_num at this
    · have := (hn r 2).2.1 h h'; rw [h2 2] at this; norm_num at this
  · refine le_trans (by rw [Real.volume_Ico, sub_zero]) (measure_mono (s := Ico 0 c) ?_)
    intro r hr
    exact ⟨⟨hr.1, by linarith [hr.2]⟩, fun x => (hn r x).1 hr.2.le⟩
  · refine (measure_mono (t := Icc d 1) ?_).trans (by rw [Real.volume_Icc, hd]; simp)
    rintro r ⟨h1, h2⟩
    refine ⟨?_, h1.2.le⟩
    by_contra h
    push Not at h
    rcases le_or_gt r c with h' | h'
    · have := (hn r 2).1 h'; rw [h2 2] at this; norm_num at this
    · have := (hn r 2).2.2 h' h; rw [h2 2] at this; norm_num at this
  · refine le_trans (by rw [Real.volume_Ioo, hd]; simp) (measure_mono (s := Ioo d 1) ?_)
    intro r hr
    exact ⟨⟨by linarith [hr.1], hr.2⟩, fun x => (hn r x).2.1 (by linarith [hr.1]) hr.1.le⟩
  · refine (measure_mono (t := Icc c d) ?_).trans (by rw [Real.volume_Icc, hd, hc]; exact le_of_eq (by congr 1; ring))
    rintro r ⟨h1, h2⟩
    constructor
    · by_contra h
      push Not at h
      have := (hn r 2).1 h.le; rw [h2 2] at this; norm_num at this
    · by_contra h
      push Not at h
      have := (hn r 2).2.1 (lt_of_le_of_lt hcd h) h.le; rw [h2 2] at this; norm_num at this
  · refine le_trans (by rw [Real.volume_Ioo, hd, hc]; exact le_of_eq (by congr 1; ring)) (measure_mono (s := Ioo c d) ?_)
    intro r hr
    exact ⟨⟨by linarith [hr.1], by linarith [hr.2]⟩, fun x => (hn r x).2.2 hr.1 hr.2⟩

/-- **C69 (exception).** With probability 0 an entry is still turned into 0 if its random number happens to be 0. -/
theorem C69_never_is_not_never (ratio x : ℝ) : noisy 0 ratio 0 x = 0 := by
  rw [noisy, if_pos (by simp)]

/-- **C69 (what is accepted).** An iterator with noise can be made exactly if all items are announced by the other iterator
and means (or ratios), if given, are given for the same items. -/
theorem C69_accepts {S : Type} (shapes : Dict Name S) (main : Dict Name ℝ) (second : Option (Dict Name ℝ)) :
    accepts shapes main second = true ↔
      (∀ k ∈ Dict.keys main, k ∈ Dict.keys shapes) ∧
      ∀ d, second = some d → ∀ k, k ∈ Dict.keys d ↔ k ∈ Dict.keys main := by
  unfold accepts
  rw [Bool.and_eq_true, and_comm]
  refine and_congr ?_ ?_
  · rw [List.all_eq_true]
    simp only [Dict.has, Dict.mem_keys_iff]
  · cases second with
    | none => simp
    | some d =>
      simp only [sameKeys, Bool.and_eq_true, List.all_eq_true, decide_eq_true_eq, Option.some.injEq, forall_eq']
      exact ⟨fun h k => ⟨h.1 k, h.2 k⟩, fun h => ⟨fun k => (h k).1, fun k => (h k).2⟩⟩

/-! ## Examples -/

/-- Two batches with two items of which one gets noise. -/
example : ∀ data ∈ ([[(str "default", ⟨[1, 2], [3, 4]⟩), (str "targets", ⟨[1], [1]⟩)],
    [(str "default", ⟨[1, 1], [5]⟩), (str "targets", ⟨[1], [0]⟩)]] : List Batch), ∀ k ∈ Dict.keys ([(str "default", 0.1)] : Dict Name ℝ),
    ∃ a, Dict.get? data k = some a ∧ a.Ok := by
  intro data hd k hk
  simp only [Dict.keys, List.map_cons, List.map_nil, List.mem_singleton] at hk
  subst hk
  simp only [List.mem_cons, List.not_mem_nil, or_false] at hd
  rcases hd with rfl | rfl
  · exact ⟨_, rfl, rfl⟩
  · exact ⟨_, rfl, rfl⟩

/-- Amount 0.4, three quarters of it salt: a number below 0.1 gives pepper, one from 0.7 on gives salt. -/
example (x : ℝ) : noisy 0.4 0.75 0.05 x = 0 ∧ noisy 0.4 0.75 0.8 x = 1 ∧ noisy 0.4 0.75 0.5 x = x := by
  refine ⟨?_, ?_, ?_⟩
  · rw [noisy, if_pos (by norm_num)]
  · rw [noisy, if_neg (by norm_num), if_pos (by norm_num)]
  · rw [noisy, if_neg (by norm_num), if_neg (by norm_num)]

end Verif.Noise
