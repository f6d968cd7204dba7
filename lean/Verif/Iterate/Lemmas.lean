import Verif.Iterate.Spec
import Verif.Evaluate.Results
import Verif.Data.Props

/-!
# C86: the batches of `Minibatches` are a division of the data
-/

namespace Verif.Iterate

open Verif.Structure Verif.Layout Verif.Buffers Verif.Session Verif.Data Verif.Sequence
open Verif.Evaluate (Part perm_zip)

theorem flatten_get {α : Type} {n k : ℕ} (hk : k < n) : ∀ {L : List (List α)} (_ : ∀ x ∈ L, x.length = n) (i : ℕ),
    L.flatten[i * n + k]? = (L[i]?).bind (·[k]?)
  | [], _, i => by simp
  | x :: L, h, 0 => by
    have := h x (by simp)
    rw [Nat.zero_mul, Nat.zero_add, List.flatten_cons, List.getElem?_append_left (by omega)]
    rfl
  | x :: L, h, i + 1 => by
    have := h x (by simp)
    rw [List.flatten_cons, List.getElem?_append_right (by rw [Nat.add_mul]; omega), List.getElem?_cons_succ,
      ← flatten_get hk (fun y hy => h y (by simp [hy])) i]
    congr 1
    rw [Nat.add_mul]
    omega

theorem flatten_length {α : Type} {n : ℕ} {L : List (List α)} (h : ∀ x ∈ L, x.length = n) : L.flatten.length = L.length * n := by
  rw [List.length_flatten, List.map_congr_left h]
  simp

theorem numbers_length {x : Arr (List ℝ)} (hr : x.Regular) {n : ℕ} (hn : ∀ r ∈ x.rows, ∀ v ∈ r, v.length = n) :
    (numbers x).length = x.times * x.seqs * n := by
  unfold numbers
  rw [flatten_length (n := n), flatten_length hr]
  · rfl
  · intro v hv
    obtain ⟨r, h1, h2⟩ := List.mem_flatten.1 hv
    exact hn r h1 v h2

theorem numbers_get {x : Arr (List ℝ)} (hr : x.Regular) {n : ℕ} (hn : ∀ r ∈ x.rows, ∀ v ∈ r, v.length = n) {q k : ℕ} (hq : q < x.seqs)
    (hk : k < n) (t : ℕ) : (numbers x)[(t * x.seqs + q) * n + k]? = ((x.rows[t]?).bind (·[q]?)).bind (·[k]?) := by
  unfold numbers
  rw [flatten_get hk, flatten_get hq hr]
  intro v hv
  obtain ⟨r, h1, h2⟩ := List.mem_flatten.1 hv
  exact hn r h1 v h2

theorem pick_row {α : Type} {r : List α} : ∀ {p : List ℕ}, (∀ i ∈ p, i < r.length) → ∀ q : ℕ,
    (p.filterMap fun i => r[i]?)[q]? = (p[q]?).bind (r[·]?)
  | [], _, q => by simp
  | i :: p, h, q => by
    have hi := h i (by simp)
    rw [List.filterMap_cons, List.getElem?_eq_getElem hi]
    cases q with
    | zero => simp [List.getElem?_eq_getElem hi]
    | succ q => simpa using pick_row (fun j hj => h j (by simp [hj])) q

theorem pick_length {α : Type} {r : List α} : ∀ {p : List ℕ}, (∀ i ∈ p, i < r.length) → (p.filterMap fun i => r[i]?).length = p.length
  | [], _ => rfl
  | i :: p, h => by
    rw [List.filterMap_cons, List.getElem?_eq_getElem (h i (by simp))]
    simpa using pick_length fun j hj => h j (by simp [hj])

theorem pick_regular {α : Type} {x : Arr α} (hr : x.Regular) {p : List ℕ} (hp : ∀ i ∈ p, i < x.seqs) (T : ℕ) : (x.pick p T).Regular := by
  intro r hr'
  simp only [Arr.pick, List.mem_map] at hr' ⊢
  obtain ⟨r, h1, rfl⟩ := hr'
  exact pick_length fun i hi => by rw [hr r (List.mem_of_mem_take h1)]; exact hp i hi

theorem pick_blocks {α : Type} {x : Arr (List α)} {n : ℕ} (hn : ∀ r ∈ x.rows, ∀ v ∈ r, v.length = n) (p : List ℕ) (T : ℕ) :
    ∀ r ∈ (x.pick p T).rows, ∀ v ∈ r, v.length = n := by
  intro r hr v hv
  simp only [Arr.pick, List.mem_map] at hr
  obtain ⟨r, h1, rfl⟩ := hr
  obtain ⟨i, -, h2⟩ := List.mem_filterMap.1 hv
  exact hn r (List.mem_of_mem_take h1) v (List.mem_of_getElem? h2)

theorem pick_times {α : Type} (x : Arr α) (p : List ℕ) : (x.pick p x.times).times = x.times := by
  simp [Arr.pick, Arr.times]

theorem pick_get {α : Type} {x : Arr α} (hr : x.Regular) {p : List ℕ} (hp : ∀ i ∈ p, i < x.seqs) (t q : ℕ) :
    ((x.pick p x.times).rows[t]?).bind (·[q]?) = (p[q]?).bind fun i => (x.rows[t]?).bind (·[i]?) := by
  simp only [Arr.pick, Arr.times, List.take_length, List.getElem?_map]
  cases h : x.rows[t]? with
  | none => simp
  | some r =>
    have hl := hr r (List.mem_of_getElem? h)
    simp only [Option.map_some, Option.bind_some]
    exact pick_row (fun i hi => by rw [hl]; exact hp i hi) q

theorem get?_pick {α : Type} (f : Arr α → Arr α) (x : Name) : ∀ d : Dict Name (Arr α),
    Dict.get? (d.map fun e => (e.1, f e.2)) x = (Dict.get? d x).map f
  | [] => rfl
  | (k, v) :: d => by
    rw [List.map_cons, Dict.get?_cons, Dict.get?_cons, get?_pick f x d]
    split <;> rfl

/-- What the network is provided with. -/
theorem batchOf_eq {input : LayerInfo} {d : Dict Name (Arr (List ℝ))} {n T : ℕ} (hne : d ≠ []) (hn : ∀ e ∈ d, e.2.seqs = n ∧ e.2.times = T)
    (ha : ∀ e ∈ input.outShapes, ∃ x, Dict.get? d e.1 = some x) (r : ℕ → ℝ) :
    batchOf input d r = some ⟨T, n, input.outShapes.map fun e => (e.1, numbers ((Dict.get? d e.1).getD ⟨0, 0, []⟩)), r⟩ := by
  unfold batchOf
  cases d with
  | nil => exact absurd rfl hne
  | cons e d =>
    obtain ⟨k, x⟩ := e
    obtain ⟨h1, h2⟩ := hn (k, x) (by simp)
    simp only at h1 h2
    simp only
    rw [Sequence.mapM_some (g := fun e => (e.1, numbers ((Dict.get? ((k, x) :: d) e.1).getD ⟨0, 0, []⟩))) fun e he => by
      obtain ⟨y, hy⟩ := ha e he
      rw [hy]
      rfl]
    rw [Option.map_some, h1, h2]

theorem good_of {input : LayerInfo} (hnd : (input.outShapes.map Prod.fst).Nodup) {g : Name → Arr (List ℝ)} {n T : ℕ}
    (hs : ∀ e ∈ input.outShapes, e.2.bufferType = 2 ∧ e.2.contextSize = 0)
    (hg : ∀ e ∈ input.outShapes, (g e.1).Regular ∧ (g e.1).seqs = n ∧ (g e.1).times = T ∧ ∀ r ∈ (g e.1).rows, ∀ v ∈ r, v.length = e.2.featureSize)
    (r : ℕ → ℝ) : Batch.Good input ⟨T, n, input.outShapes.map fun e => (e.1, numbers (g e.1)), r⟩ := by
  refine ⟨?_, ?_, ?_⟩
  · rw [List.map_map]
    exact hnd
  · intro e he
    rw [List.map_map]
    exact List.mem_map.2 ⟨e, he, rfl⟩
  · intro x hx
    obtain ⟨e, he, rfl⟩ := List.mem_map.1 hx
    obtain ⟨h1, h2, h3, h4⟩ := hg e he
    refine ⟨e.2, he, ?_⟩
    obtain ⟨h5, h6⟩ := hs e he
    rw [numbers_length h1 h4, h2, h3, featureSize_prod]
    simp [structShape, h5, h6, mul_assoc]

theorem append_of_forall₂ {α β : Type} {R : α → β → Prop} : ∀ {xs : List α} {done : List β} {b : β} {later : List β},
    List.Forall₂ R xs (done ++ b :: later) → ∃ xs₁ x xs₂, xs = xs₁ ++ x :: xs₂ ∧ List.Forall₂ R xs₁ done ∧ R x b
  | _, [], b, later, h => by
    cases h with
    | cons h1 h2 => exact ⟨[], _, _, rfl, .nil, h1⟩
  | _, _ :: done, b, later, h => by
    cases h with
    | cons h1 h2 =>
      obtain ⟨xs₁, x, xs₂, rfl, h3, h4⟩ := append_of_forall₂ h2
      exact ⟨_ :: xs₁, x, xs₂, rfl, .cons h1 h3, h4⟩

/-- Batches made of consecutive sequences are a division of the data. -/
theorem cut_of_parts {input : LayerInfo} (hnd : (input.outShapes.map Prod.fst).Nodup) {d : Dict Name (Arr (List ℝ))} (hd : FitsInput input d)
    {n T : ℕ} (hn : ∀ e ∈ d, e.2.seqs = n ∧ e.2.times = T) {parts : List (List ℕ)} (hall : parts.flatten = List.range n)
    (hp : ∀ p ∈ parts, p ≠ []) (hne : d ≠ []) {w : Batch} {r : ℕ → ℝ} (hw : batchOf input d r = some w) {bs : List Batch}
    (hbs : List.Forall₂ (fun p b => ∃ r, batchOf input (d.map fun e => (e.1, e.2.pick p T)) r = some b) parts bs) : Evaluate.Cut input w bs := by
  have hlt : ∀ p ∈ parts, ∀ i ∈ p, i < n := fun p hp i hi => by
    have : i ∈ parts.flatten := List.mem_flatten.2 ⟨p, hp, hi⟩
    rw [hall] at this
    exact List.mem_range.1 this
  have harr : ∀ e ∈ input.outShapes, ∃ x, Dict.get? d e.1 = some x ∧ x.Regular ∧ x.seqs = n ∧ x.times = T ∧
      ∀ r ∈ x.rows, ∀ v ∈ r, v.length = e.2.featureSize := fun e he => by
    obtain ⟨x, h1, h2⟩ := hd.arrays e he
    have hm := Dict.mem_of_get? h1
    exact ⟨x, h1, hd.regular _ hm, (hn _ hm).1, (hn _ hm).2, h2⟩
  set g : Name → Arr (List ℝ) := fun x => (Dict.get? d x).getD ⟨0, 0, []⟩ with hg
  have hgs : ∀ e ∈ input.outShapes, (g e.1).Regular ∧ (g e.1).seqs = n ∧ (g e.1).times = T ∧
      ∀ r ∈ (g e.1).rows, ∀ v ∈ r, v.length = e.2.featureSize := fun e he => by
    obtain ⟨x, h1, h2⟩ := harr e he
    simp only [hg, h1, Option.getD_some]
    exact h2
  rw [batchOf_eq hne hn (fun e he => by obtain ⟨x, h1, -⟩ := harr e he; exact ⟨x, h1⟩), Option.some.injEq] at hw
  have hpart : ∀ p ∈ parts, ∀ r b, batchOf input (d.map fun e => (e.1, e.2.pick p T)) r = some b →
      b = ⟨T, p.length, input.outShapes.map fun e => (e.1, numbers ((g e.1).pick p T)), r⟩ := by
    intro p hp r b hb
    rw [batchOf_eq (n := p.length) (T := T) (by simpa using hne) (fun e he => by
        obtain ⟨e, he', rfl⟩ := List.mem_map.1 he
        refine ⟨rfl, ?_⟩
        simp only [← (hn e he').2]
        exact pick_times _ _) (fun e he => by
        obtain ⟨x, h1, -⟩ := harr e he
        exact ⟨_, by rw [get?_pick (fun x => x.pick p T), h1]; rfl⟩), Option.some.injEq] at hb
    rw [← hb]
    congr 1
    refine List.map_congr_left fun e he => ?_
    obtain ⟨x, h1, -⟩ := harr e he
    rw [get?_pick (fun x => x.pick p T), h1]
    simp [hg, h1]
  have hbs' : List.Forall₂ (fun p b => p ∈ parts ∧ ∃ r, b = ⟨T, p.length, input.outShapes.map fun e => (e.1, numbers ((g e.1).pick p T)), r⟩)
      parts bs := by
    have : ∀ (ps : List (List ℕ)) bs, (∀ p ∈ ps, p ∈ parts) →
        List.Forall₂ (fun p b => ∃ r, batchOf input (d.map fun e => (e.1, e.2.pick p T)) r = some b) ps bs →
        List.Forall₂ (fun p b => p ∈ parts ∧ ∃ r, b = ⟨T, p.length, input.outShapes.map fun e => (e.1, numbers ((g e.1).pick p T)), r⟩) ps bs := by
      intro ps bs hm h
      induction h with
      | nil => exact .nil
      | cons h1 _ ih =>
        obtain ⟨r, h1⟩ := h1
        exact .cons ⟨hm _ (by simp), r, hpart _ (hm _ (by simp)) _ _ h1⟩ (ih fun p hp => hm p (by simp [hp]))
    exact this parts bs (fun _ h => h) hbs
  have hmem : ∀ b ∈ bs, ∃ p ∈ parts, ∃ r, b = ⟨T, p.length, input.outShapes.map fun e => (e.1, numbers ((g e.1).pick p T)), r⟩ := by
    intro b hb
    obtain ⟨done, later, rfl⟩ := List.append_of_mem hb
    obtain ⟨_, p, _, -, -, h1, h2⟩ := append_of_forall₂ hbs'
    exact ⟨p, h1, h2⟩
  have hlen : ∀ (ps : List (List ℕ)) (bs : List Batch), List.Forall₂ (fun p b => p ∈ parts ∧ ∃ r, b =
      ⟨T, p.length, input.outShapes.map fun e => (e.1, numbers ((g e.1).pick p T)), r⟩) ps bs → (bs.map Batch.B).sum = ps.flatten.length := by
    intro ps bs h
    induction h with
    | nil => rfl
    | cons h1 _ ih =>
      obtain ⟨-, r, rfl⟩ := h1
      simp [ih]
  have hn0 : 0 < n := by
    obtain ⟨e, he⟩ := List.exists_mem_of_ne_nil d hne
    rw [← (hn e he).1]
    exact hd.sequences e he
  subst hw
  refine ⟨⟨good_of hnd hd.shapes hgs r, fun b hb => ?_⟩, fun b hb => ?_, ⟨?_, fun b hb => ?_⟩, ?_, ?_⟩
  · obtain ⟨p, h1, r, rfl⟩ := hmem b hb
    refine good_of (g := fun x => (g x).pick p T) hnd hd.shapes (fun e he => ?_) r
    obtain ⟨g1, g2, g3, g4⟩ := hgs e he
    refine ⟨pick_regular g1 (by rw [g2]; exact hlt p h1) _, rfl, ?_, pick_blocks g4 _ _⟩
    rw [← g3]
    exact pick_times _ _
  · obtain ⟨p, h1, r, rfl⟩ := hmem b hb
    rfl
  · rintro rfl
    have := hlen _ _ hbs'
    rw [hall, List.length_range] at this
    simp at this
    omega
  · obtain ⟨p, h1, r, rfl⟩ := hmem b hb
    exact List.length_pos_iff.2 (hp p h1)
  · rw [hlen _ _ hbs', hall, List.length_range]
  · rintro done b later rfl A hA
    obtain ⟨ps₁, p, ps₂, e, h1, hp', r', rfl⟩ := append_of_forall₂ hbs'
    have hB := hlen _ _ h1
    intro x s xs xs' hx hxs hxs'
    simp only [List.mem_map, Prod.mk.injEq] at hxs hxs'
    obtain ⟨e1, he1, rfl, rfl⟩ := hxs
    obtain ⟨e2, he2, hxx, rfl⟩ := hxs'
    have u1 : e1 = (e1.1, s) := List.inj_on_of_nodup_map hnd he1 hx rfl
    have u2 : e2 = (e1.1, s) := List.inj_on_of_nodup_map hnd he2 hx hxx
    obtain ⟨g1, g2, g3, g4⟩ := hgs e1 he1
    rw [u1] at g4
    intro ρ ρ' hρ k hk
    obtain ⟨t, ht, rfl, rfl⟩ := (Align.rows_seq (hd.shapes _ hx).1).1 hρ
    have q1 := A.seq
    have q2 := A.seq'
    rw [hA.whole.2] at q1 ⊢
    rw [hA.part.2] at q2 ⊢
    rw [hA.steps.1, Nat.zero_add]
    simp only at q1 q2 ⊢
    rw [u2]
    simp only
    have hpk := pick_regular g1 (by rw [g2]; exact hlt p hp') T
    have v1 := numbers_get g1 g4 (q := A.b) (k := k) (by omega) hk t
    have v2 := numbers_get hpk (pick_blocks g4 p T) (q := A.b') (k := k) q2 hk t
    rw [g2] at v1
    rw [← g3, pick_get g1 (by rw [g2]; exact hlt p hp')] at v2
    rw [List.getD_eq_getElem?_getD, List.getD_eq_getElem?_getD, v1]
    have : p[A.b']? = some A.b := by
      have h2 : (parts.flatten)[ps₁.flatten.length + A.b']? = p[A.b']? := by
        rw [e, List.flatten_append, List.getElem?_append_right (by omega), Nat.add_sub_cancel_left, List.flatten_cons,
          List.getElem?_append_left q2]
      rw [← h2, hall, ← hB, ← hA.seq, List.getElem?_range q1]
    rw [this, Option.bind_some] at v2
    rw [← v2, ← g3]
    rfl

theorem mapM_batches {input : LayerInfo} (rs : ℕ → ℕ → ℝ) : ∀ (ds : List (Dict Name (Arr (List ℝ)))) (k : ℕ),
    (∀ d ∈ ds, ∀ r, ∃ b, batchOf input d r = some b) →
    ∃ bs, ((ds.zipIdx k).mapM fun x => batchOf input x.1 (rs x.2)) = some bs ∧
      List.Forall₂ (fun d b => ∃ r, batchOf input d r = some b) ds bs
  | [], _, _ => ⟨[], rfl, .nil⟩
  | d :: ds, k, h => by
    obtain ⟨b, hb⟩ := h d (by simp) (rs k)
    obtain ⟨bs, h1, h2⟩ := mapM_batches rs ds (k + 1) fun d hd => h d (by simp [hd])
    refine ⟨b :: bs, ?_, .cons ⟨_, hb⟩ h2⟩
    rw [List.zipIdx_cons, List.mapM_cons, hb, h1]
    rfl

theorem zip_snd {α β : Type} {R : α → β → Prop} {xs : List α} {ys : List β} (h : List.Forall₂ R xs ys) : (xs.zip ys).map Prod.snd = ys :=
  List.map_snd_zip h.length_eq.ge

/-- One pass of `Minibatches` over the data gives a division of the data into batches, perhaps in another order. -/
theorem minibatches_cut {input : LayerInfo} (hnd : (input.outShapes.map Prod.fst).Nodup) {d : Dict Name (Arr (List ℝ))} (hd : FitsInput input d)
    {nonzero : List ℝ → Option Bool} {size : ℕ} {sh : Bool} {cut : Data.Cut} (hc : Uncut d cut) {m : Minibatches (List ℝ)}
    (hm : Minibatches.create nonzero size sh cut d = some m) {shuffled : List ℕ} (hsh : shuffled.Perm (List.range m.length))
    (rs : ℕ → ℕ → ℝ) (r : ℕ → ℝ) :
    ∃ bs' w bs, batchesOf input (m.call shuffled) rs = some bs' ∧ batchOf input d r = some w ∧ Evaluate.Cut input w bs ∧ bs'.Perm bs ∧
      (sh = false → bs = bs') := by
  obtain ⟨n', T', lens, hf, hl, hsz, e⟩ := create_eq hm
  have hm0 : Minibatches.create nonzero size false cut d = some { m with shuffle := false } := by
    rw [e]
    unfold Minibatches.create
    rw [hf]
    simp only
    rw [if_neg (by omega), hl]
  obtain ⟨n, T, parts, hn, hcov, hpl, hparts⟩ := C31_uncut nonzero size false cut d _ hm0 hc hd.regular (List.range m.length) (List.Perm.refl _)
  have hcall : m.call shuffled = (if m.shuffle then shuffled else List.range m.length).map m.batch := rfl
  have hne : d ≠ [] := by
    rintro rfl
    cases hf
  have hds : ({ m with shuffle := false } : Minibatches (List ℝ)).call (List.range m.length) =
      parts.map fun p => d.map fun e => (e.1, e.2.pick p T) := by
    refine List.ext_getElem? fun j => ?_
    by_cases hj : j < parts.length
    · rw [hparts j _ (List.getElem?_eq_getElem hj), List.getElem?_map, List.getElem?_eq_getElem hj]
      rfl
    · rw [List.getElem?_eq_none, List.getElem?_eq_none]
      · simpa using hj
      · simp only [Minibatches.call, Bool.false_eq_true, if_false, List.length_map, List.length_range]
        simp only at hpl
        omega
  have hperm : (m.call shuffled).Perm (parts.map fun p => d.map fun e => (e.1, e.2.pick p T)) := by
    rw [← hds, hcall]
    simp only [Minibatches.call, Bool.false_eq_true, if_false]
    refine List.Perm.map m.batch ?_
    split
    · exact hsh
    · exact List.Perm.refl _
  have hget : ∀ e ∈ input.outShapes, ∃ x, Dict.get? d e.1 = some x := fun e he => by
    obtain ⟨x, h1, -⟩ := hd.arrays e he
    exact ⟨x, h1⟩
  have hsome : ∀ d' ∈ m.call shuffled, ∀ r, ∃ b, batchOf input d' r = some b := by
    intro d' hd' r
    obtain ⟨p, -, rfl⟩ := List.mem_map.1 (hperm.mem_iff.1 hd')
    refine ⟨_, batchOf_eq (n := p.length) (T := T) (by simpa using hne) (fun e he => ?_) (fun e he => ?_) r⟩
    · obtain ⟨e, he', rfl⟩ := List.mem_map.1 he
      refine ⟨rfl, ?_⟩
      simp only [← (hn e he').2]
      exact pick_times _ _
    · obtain ⟨x, h1⟩ := hget e he
      exact ⟨_, by rw [get?_pick (fun x => x.pick p T), h1]; rfl⟩
  obtain ⟨bs', h1, h2⟩ := mapM_batches (input := input) rs (m.call shuffled) 0 hsome
  have hw := batchOf_eq (input := input) hne hn hget r
  have hcut : ∀ bs, List.Forall₂ (fun d b => ∃ r, batchOf input d r = some b) (parts.map fun p => d.map fun e => (e.1, e.2.pick p T)) bs →
      Evaluate.Cut input _ bs := fun bs hbs =>
    cut_of_parts hnd hd hn (hcov.inOrder rfl) hcov.nonempty hne hw (List.forall₂_map_left_iff.1 hbs)
  cases sh with
  | false =>
    have : m.call shuffled = parts.map fun p => d.map fun e => (e.1, e.2.pick p T) := by
      rw [← hds, hcall, e]
      rfl
    exact ⟨bs', _, bs', h1, hw, hcut bs' (this ▸ h2), List.Perm.refl _, fun _ => rfl⟩
  | true =>
    obtain ⟨bs, h3, h4⟩ := perm_zip hperm h2
    have := h4.map Prod.snd
    rw [zip_snd h2, zip_snd h3] at this
    exact ⟨bs', _, bs, h1, hw, hcut bs h3, this, fun h => absurd h (by simp)⟩

end Verif.Iterate
