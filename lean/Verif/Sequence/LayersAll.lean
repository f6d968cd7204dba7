import Verif.Sequence.LayersMore

/-!
# C78: what a layer of the library computes for a sequence
-/

namespace Verif.Sequence

open Verif.Structure Verif.Layout Verif.Buffers Verif.Network Verif.Layers Verif.Memory Verif.EndToEnd

section
variable {layers : List LayerInfo} {data l : LayerInfo} {M : Mode} {ty : Name} {kw : Setup.Kwargs} {A : Align} {v v' : Slot → ℝ}

/-- What is asked of a layer: it does not mix sequences, and does not draw random numbers; clocks start with the sequence. -/
structure Alike (A : Align) (M : Mode) (ty : Name) (l : LayerInfo) (v : Slot → ℝ) : Prop where
  noLoss : ty ≠ str "Loss"
  noDropout : ty = str "Dropout" → M.training = false
  clock : ty = str "Clockwork" ∨ ty = str "ClockworkLstm" → A.o = 0 ∧
    ∀ n, (str "timing", vec n) ∈ l.paramShapes → ∀ j < n, v ⟨str "parameters", str "timing", j⟩ ≠ 0

/-- What a layer writes is the same in both passes: outputs, and the states of LSTM cells. -/
structure Writes (A : Align) (ty : Name) (l : LayerInfo) (v v' : Slot → ℝ) : Prop where
  outs : ∀ x s, (x, s) ∈ l.outShapes → A.Same s (fun j => v ⟨str "outputs", x, j⟩) (fun j => v' ⟨str "outputs", x, j⟩)
  cells : ∀ n, ty = str "Lstm" ∨ ty = str "ClockworkLstm" → (str "Ca", rec1 n) ∈ l.internalShapes →
    A.Same (rec1 n) (fun j => v ⟨str "internals", str "Ca", j⟩) (fun j => v' ⟨str "internals", str "Ca", j⟩)

theorem writes_of (h : ∀ x s, (x, s) ∈ l.outShapes → A.Same s (fun j => v ⟨str "outputs", x, j⟩) (fun j => v' ⟨str "outputs", x, j⟩))
    (h1 : ty ≠ str "Lstm") (h2 : ty ≠ str "ClockworkLstm") : Writes A ty l v v' :=
  ⟨h, fun _ ht => absurd ht (not_or.2 ⟨h1, h2⟩)⟩

theorem rec1_inj {n m : ℕ} (h : rec1 n = rec1 m) : n = m := by
  rw [← featureSize_rec1 n, h, featureSize_rec1]

theorem seq_rec_in {x : Struct} (hx : Seq x) : (rec1 0).bufferType = x.bufferType := hx.1.symm

/-- Both passes do the same for the sequence. -/
theorem layer_same (q : LibLayer layers data l A.T A.B) (q' : LibLayer layers data l A.T' A.B')
    (nd : (l.inShapes.map Prod.fst).Nodup) (ndi : (l.internalShapes.map Prod.fst).Nodup) (hp : ∀ e ∈ l.paramShapes, e.2.bufferType = 0)
    {rnd rnd' : ℕ → ℝ} (C : q.placed.Holds v rnd) (C' : q'.placed.Holds v' rnd') (d : Describes M ty kw q) (d' : Describes M ty kw q')
    (K : Alike A M ty l v) (H : Reads A l v v')
    (Hc : ∀ n, ty = str "Lstm" ∨ ty = str "ClockworkLstm" → (str "Ca", rec1 n) ∈ l.internalShapes →
      A.SameBefore (rec1 n) (fun j => v ⟨str "internals", str "Ca", j⟩) (fun j => v' ⟨str "internals", str "Ca", j⟩)) : Writes A ty l v v' := by
  have hq := q.computes v rnd C
  have hq' := q'.computes v' rnd' C'
  have et := (describes_type d).symm.trans (describes_type d')
  cases q with
  | fullyConnected a x y has hx hy own => cases q' with
    | fullyConnected a' x' y' has' hx' hy' own' =>
      obtain ⟨rfl, d⟩ := d
      refine writes_of (fun _ _ hm => same_of_one has.outs hm ?_) (by decide) (by decide)
      obtain rfl := one_struct has.outs has'.outs
      obtain rfl := same_struct nd (has.ins (str "default", x) (by simp)) (has'.ins (str "default", x') (by simp))
      obtain rfl := act_inj d d'.2
      intro r r' hr k hk
      have hr2 := Align.lt hy.1 hr
      refine (hq ⟨r, hr2.1⟩ ⟨k, hk⟩).trans (Eq.trans ?_ (hq' ⟨r', hr2.2⟩ ⟨k, hk⟩).symm)
      congr 1
      congr 1
      · refine Finset.sum_congr rfl fun i _ => ?_
        exact congrArg₂ (· * ·) (H.mm (has.pars (str "W", mm y.featureSize x.featureSize) (by simp)) ⟨k, hk⟩ i)
          (H.inp (has.ins (str "default", x) (by simp)) (hy.1.trans hx.1.symm) hr i.2)
      · exact H.vec (has.pars (str "bias", vec y.featureSize) (by simp)) ⟨k, hk⟩
    | _ => simp only [typeName] at et; exact absurd et (by decide)
  | elementwise a x has hx => cases q' with
    | elementwise a' x' has' hx' =>
      obtain ⟨rfl, d⟩ := d
      refine writes_of (fun _ _ hm => same_of_one has.outs hm ?_) (by decide) (by decide)
      obtain rfl := one_struct has.outs has'.outs
      obtain rfl := act_inj d d'.2
      intro r r' hr k hk
      have hr2 := Align.lt hx.1 hr
      rw [hq _ (pos_lt hr2.1 hk), hq' _ (pos_lt hr2.2 hk), H.inp (has.ins (str "default", x) (by simp)) rfl hr hk]
    | _ => simp only [typeName] at et; exact absurd et (by decide)
  | noOp x has hx => cases q' with
    | noOp x' has' hx' =>
      obtain rfl := d
      refine writes_of (fun _ _ hm => same_of_one has.outs hm ?_) (by decide) (by decide)
      obtain rfl := one_struct has.outs has'.outs
      intro r r' hr k hk
      have hr2 := Align.lt hx.1 hr
      rw [hq _ (pos_lt hr2.1 hk), hq' _ (pos_lt hr2.2 hk), H.inp (has.ins (str "default", x) (by simp)) rfl hr hk]
    | _ => simp only [typeName] at et; exact absurd et (by decide)
  | highway h t x y has hh ht hx hy eh et' ey => cases q' with
    | highway h' t' x' y' has' hh' ht' hx' hy' eh' et'' ey' =>
      obtain rfl := d
      refine writes_of (fun _ _ hm => same_of_one has.outs hm ?_) (by decide) (by decide)
      obtain rfl := one_struct has.outs has'.outs
      obtain rfl := same_struct nd (has.ins (str "x", x) (by simp)) (has'.ins (str "x", x') (by simp))
      intro r r' hr k hk
      have hr2 := Align.lt hy.1 hr
      rw [ey] at hk ⊢
      have e1 := H.inp (has.ins (str "H", h) (by simp)) (hy.1.trans hh.1.symm) hr (k := k) (by rw [eh]; exact hk)
      have e2 := H.inp (has.ins (str "T", t) (by simp)) (hy.1.trans ht.1.symm) hr (k := k) (by rw [et']; exact hk)
      have e3 := H.inp (has.ins (str "x", x) (by simp)) (hy.1.trans hx.1.symm) hr hk
      rw [eh] at e1
      rw [et'] at e2
      rw [hq _ (pos_lt hr2.1 hk), hq' _ (pos_lt hr2.2 hk), e1, e2, e3]
    | _ => simp only [typeName] at et; exact absurd et (by decide)
  | merge R m n x y z has hx hy hz hc => cases q' with
    | merge R' m' n' x' y' z' has' hx' hy' hz' hc' =>
      have hty := d.1
      refine writes_of (fun _ _ hm => same_of_one has.outs hm ?_) (by rw [hty]; decide) (by rw [hty]; decide)
      exact merge_same nd hq hq' d d' H
    | _ => simp only [typeName] at et; exact absurd et (by decide)
  | mask R n x k has hx hxs hks hdata =>
    have hty := d.1
    refine writes_of (fun _ _ hm => same_of_one has.outs hm ?_) (by rw [hty]; decide) (by rw [hty]; decide)
    cases q' with
    | mask R' n' x' k' has' hx' hxs' hks' hdata' =>
      obtain rfl := one_struct has.outs has'.outs
      obtain rfl := same_struct nd (has.ins (str "mask", k) (by simp)) (has'.ins (str "mask", k') (by simp))
      exact mask_same hx d.2.1 (has.ins (str "default", x) (by simp)) (has.ins (str "mask", k) (by simp)) (mask_row d.2.1 hq)
        (mask_row d'.2.1 hq') H
    | maskFull x' k' has' hx' hk' ek' hdata' =>
      obtain rfl := one_struct has.outs has'.outs
      obtain rfl := same_struct nd (has.ins (str "mask", k) (by simp)) (has'.ins (str "mask", k') (by simp))
      exact mask_same hx d.2.1 (has.ins (str "default", x) (by simp)) (has.ins (str "mask", k) (by simp)) (mask_row d.2.1 hq)
        (maskFull_row hq') H
    | _ => simp only [typeName] at et; exact absurd et (by decide)
  | maskFull x k has hx hk ek hdata =>
    have hty := d.1
    refine writes_of (fun _ _ hm => same_of_one has.outs hm ?_) (by rw [hty]; decide) (by rw [hty]; decide)
    cases q' with
    | mask R' n' x' k' has' hx' hxs' hks' hdata' =>
      obtain rfl := one_struct has.outs has'.outs
      obtain rfl := same_struct nd (has.ins (str "mask", k) (by simp)) (has'.ins (str "mask", k') (by simp))
      exact mask_same hx hk (has.ins (str "default", x) (by simp)) (has.ins (str "mask", k) (by simp)) (maskFull_row hq)
        (mask_row d'.2.1 hq') H
    | maskFull x' k' has' hx' hk' ek' hdata' =>
      obtain rfl := one_struct has.outs has'.outs
      obtain rfl := same_struct nd (has.ins (str "mask", k) (by simp)) (has'.ins (str "mask", k') (by simp))
      exact mask_same hx hk (has.ins (str "default", x) (by simp)) (has.ins (str "mask", k) (by simp)) (maskFull_row hq)
        (maskFull_row hq') H
    | _ => simp only [typeName] at et; exact absurd et (by decide)
  | dropout training p off x has hx hb => cases q' with
    | dropout training' p' off' x' has' hx' hb' =>
      obtain ⟨rfl, ht, -⟩ := d
      obtain ⟨-, ht', -⟩ := d'
      have hf := K.noDropout rfl
      rw [hf] at ht ht'
      subst ht ht'
      refine writes_of (fun _ _ hm => same_of_one has.outs hm ?_) (by decide) (by decide)
      obtain rfl := one_struct has.outs has'.outs
      intro r r' hr k hk
      have hr2 := Align.lt hx.1 hr
      have c := hq _ (pos_lt hr2.1 hk)
      have c' := hq' _ (pos_lt hr2.2 hk)
      simp only [Bool.false_eq_true, if_false] at c c'
      rw [c, c', H.inp (has.ins (str "default", x) (by simp)) rfl hr hk]
    | _ => simp only [typeName] at et; exact absurd et (by decide)
  | squaredDifference x y z w has hx hy hz hd ey ez ed hb => cases q' with
    | squaredDifference x' y' z' w' has' hx' hy' hz' hd' ey' ez' ed' hb' =>
      obtain rfl := d
      refine writes_of (fun _ _ hm => same_of_one has.outs hm ?_) (by decide) (by decide)
      obtain rfl := one_struct has.outs has'.outs
      obtain rfl := same_struct nd (has.ins (str "inputs_1", x) (by simp)) (has'.ins (str "inputs_1", x') (by simp))
      intro r r' hr k hk
      have hr2 := Align.lt hz.1 hr
      rw [ez] at hk ⊢
      have e1 := H.inp (has.ins (str "inputs_1", x) (by simp)) (hz.1.trans hx.1.symm) hr hk
      have e2 := H.inp (has.ins (str "inputs_2", y) (by simp)) (hz.1.trans hy.1.symm) hr (k := k) (by rw [ey]; exact hk)
      rw [ey] at e2
      rw [hq _ (pos_lt hr2.1 hk), hq' _ (pos_lt hr2.2 hk), e1, e2]
    | _ => simp only [typeName] at et; exact absurd et (by decide)
  | squaredError x t p z w has hx ht hp hz hd et' ep ez ed hb hdata loose => cases q' with
    | squaredError x' t' p' z' w' has' hx' ht' hp' hz' hd' et'' ep' ez' ed' hb' hdata' loose' =>
      obtain rfl := d
      obtain ⟨rfl, rfl⟩ := two_structs has.outs has'.outs
      obtain rfl := same_struct nd (has.ins (str "default", x) (by simp)) (has'.ins (str "default", x') (by simp))
      refine writes_of (fun _ _ hm => same_of_two has.outs hm ?_ ?_) (by decide) (by decide)
      · intro r r' hr k hk
        have hr2 := Align.lt hp.1 hr
        rw [ep] at hk ⊢
        rw [(hq _ (pos_lt hr2.1 hk)).1, (hq' _ (pos_lt hr2.2 hk)).1, H.inp (has.ins (str "default", x) (by simp)) (hp.1.trans hx.1.symm) hr hk]
      · intro r r' hr k hk
        have hr2 := Align.lt hz.1 hr
        rw [ez] at hk ⊢
        have e2 := H.inp (has.ins (str "targets", t) (by simp)) (hz.1.trans ht.1.symm) hr (k := k) (by rw [et']; exact hk)
        rw [et'] at e2
        rw [(hq _ (pos_lt hr2.1 hk)).2, (hq' _ (pos_lt hr2.2 hk)).2, e2,
          H.inp (has.ins (str "default", x) (by simp)) (hz.1.trans hx.1.symm) hr hk]
    | _ => simp only [typeName] at et; exact absurd et (by decide)
  | sigmoidCE x t p z has hx ht hp hz et' ep ez hdata loose => cases q' with
    | sigmoidCE x' t' p' z' has' hx' ht' hp' hz' et'' ep' ez' hdata' loose' =>
      obtain rfl := d
      obtain ⟨rfl, rfl⟩ := two_structs has.outs has'.outs
      obtain rfl := same_struct nd (has.ins (str "default", x) (by simp)) (has'.ins (str "default", x') (by simp))
      refine writes_of (fun _ _ hm => same_of_two has.outs hm ?_ ?_) (by decide) (by decide)
      · intro r r' hr k hk
        have hr2 := Align.lt hp.1 hr
        rw [ep] at hk ⊢
        rw [(hq _ (pos_lt hr2.1 hk)).1, (hq' _ (pos_lt hr2.2 hk)).1, H.inp (has.ins (str "default", x) (by simp)) (hp.1.trans hx.1.symm) hr hk]
      · intro r r' hr k hk
        have hr2 := Align.lt hz.1 hr
        rw [ez] at hk ⊢
        have e2 := H.inp (has.ins (str "targets", t) (by simp)) (hz.1.trans ht.1.symm) hr (k := k) (by rw [et']; exact hk)
        rw [et'] at e2
        rw [(hq _ (pos_lt hr2.1 hk)).2, (hq' _ (pos_lt hr2.2 hk)).2, e2,
          H.inp (has.ins (str "default", x) (by simp)) (hz.1.trans hx.1.symm) hr hk]
    | _ => simp only [typeName] at et; exact absurd et (by decide)
  | softmaxCE R n dec x t p z has hx ht hp hz sx st sp sz hdata loose => cases q' with
    | softmaxCE R' n' dec' x' t' p' z' has' hx' ht' hp' hz' sx' st' sp' sz' hdata' loose' =>
      have hty := d.1
      have := softmax_same nd hq hq' d d' H
      exact writes_of (fun _ _ hm => same_of_two has.outs hm this.1 this.2) (by rw [hty]; decide) (by rw [hty]; decide)
    | _ => simp only [typeName] at et; exact absurd et (by decide)
  | binomialCE x t z c has hx ht hz hc et' ez ec hb hdata => cases q' with
    | binomialCE x' t' z' c' has' hx' ht' hz' hc' et'' ez' ec' hb' hdata' =>
      obtain rfl := d
      exact writes_of (fun _ _ hm => same_of_one has.outs hm (binomial_same nd C C' H)) (by decide) (by decide)
    | _ => simp only [typeName] at et; exact absurd et (by decide)
  | l1Decay x z has hx hz ez hb => cases q' with
    | l1Decay x' z' has' hx' hz' ez' hb' =>
      obtain rfl := d
      refine writes_of (fun _ _ hm => same_of_one has.outs hm ?_) (by decide) (by decide)
      obtain rfl := one_struct has.outs has'.outs
      obtain rfl := same_struct nd (has.ins (str "default", x) (by simp)) (has'.ins (str "default", x') (by simp))
      intro r r' hr k hk
      have hr2 := Align.lt hz.1 hr
      rw [ez] at hk ⊢
      obtain rfl : k = 0 := by omega
      rw [Nat.mul_one, Nat.mul_one, Nat.add_zero, Nat.add_zero]
      refine (hq ⟨r, hr2.1⟩).trans (Eq.trans ?_ (hq' ⟨r', hr2.2⟩).symm)
      refine Finset.sum_congr rfl fun i _ => ?_
      exact congrArg _ (H.inp (has.ins (str "default", x) (by simp)) (hz.1.trans hx.1.symm) hr i.2)
    | _ => simp only [typeName] at et; exact absurd et (by decide)
  | l2Decay x z has hx hz ez hb => cases q' with
    | l2Decay x' z' has' hx' hz' ez' hb' =>
      obtain rfl := d
      refine writes_of (fun _ _ hm => same_of_one has.outs hm ?_) (by decide) (by decide)
      obtain rfl := one_struct has.outs has'.outs
      obtain rfl := same_struct nd (has.ins (str "default", x) (by simp)) (has'.ins (str "default", x') (by simp))
      intro r r' hr k hk
      have hr2 := Align.lt hz.1 hr
      rw [ez] at hk ⊢
      obtain rfl : k = 0 := by omega
      rw [Nat.mul_one, Nat.mul_one, Nat.add_zero, Nat.add_zero]
      refine (hq ⟨r, hr2.1⟩).trans (Eq.trans ?_ (hq' ⟨r', hr2.2⟩).symm)
      refine congrArg (· / 2) (Finset.sum_congr rfl fun i _ => ?_)
      exact congrArg (· ^ 2) (H.inp (has.ins (str "default", x) (by simp)) (hz.1.trans hx.1.symm) hr i.2)
    | _ => simp only [typeName] at et; exact absurd et (by decide)
  | loss importance x has loose => exact absurd d.1 K.noLoss
  | recurrent a n x has hx => cases q' with
    | recurrent a' n' x' has' hx' =>
      obtain ⟨rfl, d⟩ := d
      refine writes_of (fun _ _ hm => same_of_one has.outs hm ?_) (by decide) (by decide)
      obtain rfl := rec1_inj (one_struct has.outs has'.outs)
      obtain rfl := same_struct nd (has.ins (str "default", x) (by simp)) (has'.ins (str "default", x') (by simp))
      obtain rfl := act_inj d d'.2
      refine same_rec (before_all (yBefore_zero (H.outs _ _ (by rw [has.outs]; simp))) fun t ht hy => yBefore_succ fun j => ?_)
      have s1 := A.steps
      have s2 := A.steps'
      refine (hq ⟨A.o + t, by omega⟩ ⟨A.b, A.seq⟩ j).trans (Eq.trans ?_ (hq' ⟨t, by omega⟩ ⟨A.b', A.seq'⟩ j).symm)
      exact congrArg _ (net_same H (has.ins (str "default", x) (by simp)) (has.pars (str "W", mm n x.featureSize) (by simp))
        (has.pars (str "R", mm n n) (by simp)) (has.pars (str "bias", vec n) (by simp)) hx ht hy j)
    | _ => simp only [typeName] at et; exact absurd et (by decide)
  | clockwork a n x has hx => cases q' with
    | clockwork a' n' x' has' hx' =>
      obtain ⟨rfl, d⟩ := d
      refine writes_of (fun _ _ hm => same_of_one has.outs hm ?_) (by decide) (by decide)
      obtain rfl := rec1_inj (one_struct has.outs has'.outs)
      obtain rfl := same_struct nd (has.ins (str "default", x) (by simp)) (has'.ins (str "default", x') (by simp))
      obtain rfl := act_inj d d'.2
      have hm : (str "timing", vec n) ∈ l.paramShapes := has.pars (str "timing", vec n) (by simp)
      obtain ⟨ho, ht0⟩ := K.clock (Or.inl rfl)
      have ht1 : ∀ j : Fin n, read v "parameters" "timing" j ≠ 0 := fun j => ht0 n hm j j.2
      have ht2 : ∀ j : Fin n, read v' "parameters" "timing" j ≠ 0 := fun j => by rw [← H.vec hm j]; exact ht1 j
      refine same_rec (before_all (yBefore_zero (H.outs _ _ (by rw [has.outs]; simp))) fun t ht hy => yBefore_succ fun j => ?_)
      have s1 := A.steps
      have s2 := A.steps'
      have c := hq ht1 ⟨A.o + t, by omega⟩ ⟨A.b, A.seq⟩ j
      have c' := hq' ht2 ⟨t, by omega⟩ ⟨A.b', A.seq'⟩ j
      rw [← H.vec hm j] at c'
      have hot : A.o + t = t := by omega
      by_cases hd : OnTime (read v "parameters" "timing" j) t
      · refine (c.1 (by simp only [hot]; exact hd)).trans (Eq.trans ?_ (c'.1 hd).symm)
        exact congrArg _ (net_same H (has.ins (str "default", x) (by simp)) (has.pars (str "W", mm n x.featureSize) (by simp))
          (has.pars (str "R", mm n n) (by simp)) (has.pars (str "bias", vec n) (by simp)) hx ht hy j)
      · exact (c.2 (by simp only [hot]; exact hd)).trans ((hy j).trans (c'.2 hd).symm)
    | _ => simp only [typeName] at et; exact absurd et (by decide)
  | lstm a n x has hx => cases q' with
    | lstm a' n' x' has' hx' =>
      obtain ⟨rfl, d⟩ := d
      obtain rfl := rec1_inj (one_struct has.outs has'.outs)
      obtain rfl := same_struct nd (has.ins (str "default", x) (by simp)) (has'.ins (str "default", x') (by simp))
      obtain rfl := act_inj d d'.2
      have hca : (str "Ca", rec1 n) ∈ l.internalShapes := has.ints (str "Ca", rec1 n) (by simp [lstmInts])
      have all : ∀ t ≤ A.n, YBefore A n v v' "outputs" "default" t ∧ YBefore A n v v' "internals" "Ca" t := by
        refine before_all ⟨yBefore_zero (H.outs _ _ (by rw [has.outs]; simp)), yBefore_zero (Hc _ (by decide) hca)⟩ fun t ht hy => ?_
        have s1 := A.steps
        have s2 := A.steps'
        have := fun j => lstm_same H (has.ins (str "default", x) (by simp)) has.pars hx ht hy.1 hy.2 j
          (hq ⟨A.o + t, by omega⟩ ⟨A.b, A.seq⟩ j) (hq' ⟨t, by omega⟩ ⟨A.b', A.seq'⟩ j)
        exact ⟨yBefore_succ fun j => (this j).1, yBefore_succ fun j => (this j).2⟩
      refine ⟨fun _ _ hm => same_of_one has.outs hm (same_rec fun t ht => (all t ht).1), fun m _ hm => ?_⟩
      obtain rfl := rec1_inj (same_struct ndi hca hm)
      exact same_rec fun t ht => (all t ht).2
    | _ => simp only [typeName] at et; exact absurd et (by decide)
  | clockworkLstm a n x has hx => cases q' with
    | clockworkLstm a' n' x' has' hx' =>
      obtain ⟨rfl, d⟩ := d
      obtain rfl := rec1_inj (one_struct has.outs has'.outs)
      obtain rfl := same_struct nd (has.ins (str "default", x) (by simp)) (has'.ins (str "default", x') (by simp))
      obtain rfl := act_inj d d'.2
      have hca : (str "Ca", rec1 n) ∈ l.internalShapes := has.ints (str "Ca", rec1 n) (by simp [lstmInts])
      have hm : (str "timing", vec n) ∈ l.paramShapes := has.pars (str "timing", vec n) (by simp)
      obtain ⟨ho, ht0⟩ := K.clock (Or.inr rfl)
      have ht1 : ∀ j : Fin n, read v "parameters" "timing" j ≠ 0 := fun j => ht0 n hm j j.2
      have ht2 : ∀ j : Fin n, read v' "parameters" "timing" j ≠ 0 := fun j => by rw [← H.vec hm j]; exact ht1 j
      have all : ∀ t ≤ A.n, YBefore A n v v' "outputs" "default" t ∧ YBefore A n v v' "internals" "Ca" t := by
        refine before_all ⟨yBefore_zero (H.outs _ _ (by rw [has.outs]; simp)), yBefore_zero (Hc _ (by decide) hca)⟩ fun t ht hy => ?_
        have s1 := A.steps
        have s2 := A.steps'
        have hot : A.o + t = t := by omega
        have : ∀ j : Fin n, read v "outputs" "default" ((A.o + t) * (A.B * n) + (A.b * n + j)) =
              read v' "outputs" "default" (t * (A.B' * n) + (A.b' * n + j)) ∧
            read v "internals" "Ca" ((A.o + t) * (A.B * n) + (A.b * n + j)) = read v' "internals" "Ca" (t * (A.B' * n) + (A.b' * n + j)) := by
          intro j
          have c := hq ht1 ⟨A.o + t, by omega⟩ ⟨A.b, A.seq⟩ j
          have c' := hq' ht2 ⟨t, by omega⟩ ⟨A.b', A.seq'⟩ j
          rw [← H.vec hm j] at c'
          by_cases hd : OnTime (read v "parameters" "timing" j) t
          · exact lstm_same H (has.ins (str "default", x) (by simp)) (fun e he => has.pars e (List.mem_append_left _ he)) hx ht hy.1 hy.2 j
              (c.1 (by simp only [hot]; exact hd)) (c'.1 hd)
          · have r1 := c.2 (by simp only [hot]; exact hd)
            have r2 := c'.2 hd
            exact ⟨r1.1.trans ((hy.1 j).trans r2.1.symm), r1.2.trans ((hy.2 j).trans r2.2.symm)⟩
        exact ⟨yBefore_succ fun j => (this j).1, yBefore_succ fun j => (this j).2⟩
      refine ⟨fun _ _ hm => same_of_one has.outs hm (same_rec fun t ht => (all t ht).1), fun m _ hm => ?_⟩
      obtain rfl := rec1_inj (same_struct ndi hca hm)
      exact same_rec fun t ht => (all t ht).2
    | _ => simp only [typeName] at et; exact absurd et (by decide)
  | convolution2D a g hs nf x y w has hx hy ex ey ew own => cases q' with
    | convolution2D a' g' hs' nf' x' y' w' has' hx' hy' ex' ey' ew' own' =>
      have hty := d.1
      exact writes_of (fun _ _ hm => same_of_one has.outs hm (conv_same nd hp hq hq' d d' H)) (by rw [hty]; decide) (by rw [hty]; decide)
    | _ => simp only [typeName] at et; exact absurd et (by decide)
  | avgPooling2D g x y has hx hy ex ey => cases q' with
    | avgPooling2D g' x' y' has' hx' hy' ex' ey' =>
      have hty := d.1
      exact writes_of (fun _ _ hm => same_of_one has.outs hm (avg_same nd C C' d d' H)) (by rw [hty]; decide) (by rw [hty]; decide)
    | maxPooling2D g' lo store load x' y' k' has' hx' hy' hk' ex' ey' ek' hb' =>
      exact absurd (d.2.kind.symm.trans d'.2.1.kind) (by decide)
    | _ => simp only [typeName] at et; exact absurd et (by decide)
  | maxPooling2D g lo store load x y k has hx hy hk ex ey ek hb => cases q' with
    | maxPooling2D g' lo' store' load' x' y' k' has' hx' hy' hk' ex' ey' ek' hb' =>
      have hty := d.1
      exact writes_of (fun _ _ hm => same_of_one has.outs hm (max_same nd C C' d d' H)) (by rw [hty]; decide) (by rw [hty]; decide)
    | avgPooling2D g' x' y' has' hx' hy' ex' ey' =>
      exact absurd (d.2.1.kind.symm.trans d'.2.kind) (by decide)
    | _ => simp only [typeName] at et; exact absurd et (by decide)

end

end Verif.Sequence
