import Verif.Network.Model
import Mathlib.Analysis.Calculus.Deriv.Shift

/-!
# C20 and C21 for networks of any layers
-/

namespace Verif.Network

variable {C : Type}

theorem forwardPass_cons (l : Layer C) (rest : List (Layer C)) (s : C → ℝ) :
    forwardPass (l :: rest) s = forwardPass rest (l.fwd s) := rfl

theorem backwardPass_cons (l : Layer C) (rest : List (Layer C)) (s δ : C → ℝ) :
    backwardPass (l :: rest) s δ = l.bwd s (backwardPass rest s δ) := by
  unfold backwardPass
  rw [List.reverse_cons, List.foldl_append]
  rfl

theorem totalLoss_cons (l : Layer C) (rest : List (Layer C)) (s : C → ℝ) :
    totalLoss (l :: rest) s = ∑ c ∈ l.losses, s c + totalLoss rest s := by
  unfold totalLoss
  rw [List.map_cons, List.sum_cons]

/-- What no layer writes keeps its value. -/
theorem forwardPass_other (layers : List (Layer C)) (h : ∀ l ∈ layers, l.Honest) (s : C → ℝ) (c : C)
    (hc : ∀ l ∈ layers, ¬ l.written c) : forwardPass layers s c = s c := by
  induction layers generalizing s with
  | nil => rfl
  | cons l rest ih =>
    rw [forwardPass_cons, ih (fun l hl => h l (by simp [hl])) _ (fun l hl => hc l (by simp [hl]))]
    have := hc l (by simp)
    unfold Layer.written at this
    push Not at this
    exact (h l (by simp)).writes s c this.1 this.2

/-- **C20.**  The values of all outputs after a forward pass depend only on the cells that exist
before (`A`: parameters and data) and on what layers read besides (`fixed`: targets, context, random numbers):
two memories that agree on these, whatever earlier passes left in the rest, agree
after the pass on the outputs of all layers. -/
theorem C20_network [DecidableEq C] (layers : List (Layer C)) (h : ∀ l ∈ layers, l.Honest) (A : Finset C)
    (hw : Wired A layers) (s s' : C → ℝ) (hA : ∀ c ∈ A, s c = s' c)
    (hf : ∀ l ∈ layers, ∀ c ∈ l.fixed, s c = s' c) :
    ∀ l ∈ layers, ∀ c ∈ l.outs, forwardPass layers s c = forwardPass layers s' c := by
  induction layers generalizing A s s' with
  | nil => intro l hl; simp at hl
  | cons l rest ih =>
    obtain ⟨hins, hwr, _, _, _, hrest, hw'⟩ := hw
    have hl := h l (by simp)
    have hout : ∀ c ∈ l.outs, l.fwd s c = l.fwd s' c := hl.reads s s' (by
      rintro c (hc | hc)
      · exact hA c (hins hc)
      · exact hf l (by simp) c hc)
    have keep : ∀ c, ¬ l.written c → ∀ s, l.fwd s c = s c := fun c hc s =>
      hl.writes s c (fun h => hc (Or.inl h)) (fun h => hc (Or.inr h))
    have hrec := ih (fun m hm => h m (by simp [hm])) (A ∪ l.outs) hw' (l.fwd s) (l.fwd s') (by
      intro c hc
      rcases Finset.mem_union.1 hc with hc | hc
      · have : ¬ l.written c := fun hwc => (hwr c hwc).1 hc
        rw [keep c this, keep c this, hA c hc]
      · exact hout c hc) (by
      intro m hm c hc
      have : ¬ l.written c := fun hwc => (hrest m hm).2.1 c hwc hc
      rw [keep c this, keep c this, hf m (by simp [hm]) c hc])
    intro m hm c hc
    rw [forwardPass_cons, forwardPass_cons]
    rcases List.mem_cons.1 hm with rfl | hm
    · have hno : ∀ m' ∈ rest, ¬ m'.written c := fun m' hm' hwc =>
        (hrest m' hm').1 c hwc (Or.inr (Or.inr (Or.inl hc)))
      rw [forwardPass_other rest (fun m hm => h m (by simp [hm])) _ c hno,
        forwardPass_other rest (fun m hm => h m (by simp [hm])) _ c hno]
      exact hout c hc
    · exact hrec m hm c hc

/-- Deltas of cells that no layer uses stay zero. -/
theorem backwardPass_other (layers : List (Layer C)) (h : ∀ l ∈ layers, l.HonestBack) (s δ : C → ℝ) (c : C)
    (hc : ∀ l ∈ layers, c ∉ l.ins ∧ ¬ l.written c) : backwardPass layers s δ c = 0 := by
  induction layers with
  | nil => rfl
  | cons l rest ih =>
    obtain ⟨h1, h2⟩ := hc l (by simp)
    unfold Layer.written at h2
    push Not at h2
    rw [backwardPass_cons, (h l (by simp)).writes _ _ c h1 h2.1 h2.2]
    exact ih (fun l hl => h l (by simp [hl])) (fun l hl => hc l (by simp [hl]))

theorem Wired.written_new [DecidableEq C] {A : Finset C} {layers : List (Layer C)} (hw : Wired A layers) :
    ∀ l ∈ layers, ∀ c, l.written c → c ∉ A := by
  induction layers generalizing A with
  | nil => intro l hl; simp at hl
  | cons l rest ih =>
    obtain ⟨_, hwr, _, _, _, _, hw'⟩ := hw
    intro m hm c hc
    rcases List.mem_cons.1 hm with rfl | hm
    · exact (hwr c hc).1
    · exact fun hA => ih hw' m hm c hc (Finset.mem_union_left _ hA)

theorem Wired.losses_outs [DecidableEq C] {A : Finset C} {layers : List (Layer C)} (hw : Wired A layers) :
    ∀ l ∈ layers, l.losses ⊆ l.outs := by
  induction layers generalizing A with
  | nil => intro l hl; simp at hl
  | cons l rest ih =>
    obtain ⟨_, _, _, hl, _, _, hw'⟩ := hw
    intro m hm
    rcases List.mem_cons.1 hm with rfl | hm
    · exact hl
    · exact ih hw' m hm

/-- **C21 along a motion.**  Let the parameters and data `A` move, with anything fixed that is read
without computing deltas.  Then the total loss moves with the velocity that the gradients of a backward pass
say. -/
theorem backward_motion [DecidableEq C] (layers : List (Layer C)) (h : ∀ l ∈ layers, l.Honest)
    (hb : ∀ l ∈ layers, l.HonestBack) (A : Finset C) (hw : Wired A layers) (s0 : C → ℝ)
    (hd : AllDifferentiate layers s0) (S : ℝ → C → ℝ) (S' : C → ℝ) (hS0 : S 0 = s0)
    (hS : ∀ c ∈ A, HasDerivAt (fun t => S t c) (S' c) 0) (hfix : ∀ l ∈ layers, ∀ c ∈ l.fixed, ∀ t, S t c = s0 c)
    (δ0 : C → ℝ) :
    HasDerivAt (fun t => totalLoss layers (forwardPass layers (S t)))
      (∑ c ∈ A, backwardPass layers (forwardPass layers s0) δ0 c * S' c) 0 := by
  induction layers generalizing A s0 S S' with
  | nil =>
    have : (fun t => totalLoss [] (forwardPass [] (S t))) = fun _ => 0 := funext fun t => by simp [totalLoss]
    rw [this]
    refine (hasDerivAt_const _ _).congr_deriv ?_
    symm
    refine Finset.sum_eq_zero fun c _ => ?_
    show (0 : ℝ) * S' c = 0
    ring
  | cons l rest ih =>
    obtain ⟨hins, hwr, hos, hlo, hov, hrest, hw'⟩ := hw
    obtain ⟨hdl, hd'⟩ := hd
    have hl := h l (by simp)
    have hlb := hb l (by simp)
    have keep : ∀ c, ¬ l.written c → ∀ s, l.fwd s c = s c := fun c hc s =>
      hl.writes s c (fun h => hc (Or.inl h)) (fun h => hc (Or.inr h))
    have hAnot : ∀ c ∈ A, ¬ l.written c := fun c hc hwc => (hwr c hwc).1 hc
    obtain ⟨v, hv, hδ⟩ := hdl S S' hS0 (fun c hc => hS c (hins hc)) (hfix l (by simp))
    -- the motion seen by the remaining layers
    set V : C → ℝ := fun c => if c ∈ A then S' c else v c with hV
    have hrec := ih (fun m hm => h m (by simp [hm])) (fun m hm => hb m (by simp [hm])) (A ∪ l.outs) hw' (l.fwd s0)
      hd' (fun t => l.fwd (S t)) V (by rw [hS0]) (by
        intro c hc
        by_cases hcA : c ∈ A
        · rw [hV]
          simp only [if_pos hcA]
          rw [show (fun t => l.fwd (S t) c) = fun t => S t c from funext fun t => keep c (hAnot c hcA) (S t)]
          exact hS c hcA
        · rw [hV]
          simp only [if_neg hcA]
          exact hv c ((Finset.mem_union.1 hc).resolve_left hcA)) (by
        intro m hm c hc t
        have : ¬ l.written c := fun hwc => (hrest m hm).2.1 c hwc hc
        rw [keep c this, keep c this, hfix m (by simp [hm]) c hc t])
    set δ1 := backwardPass rest (forwardPass rest (l.fwd s0)) δ0 with hδ1
    -- the losses of this layer
    have hlossval : ∀ c ∈ l.outs, ∀ s, forwardPass rest s c = s c := fun c hc s =>
      forwardPass_other rest (fun m hm => h m (by simp [hm])) s c fun m hm hwc =>
        (hrest m hm).1 c hwc (Or.inr (Or.inr (Or.inl hc)))
    have hloss : HasDerivAt (fun t => ∑ c ∈ l.losses, forwardPass rest (l.fwd (S t)) c) (∑ c ∈ l.losses, v c) 0 := by
      refine HasDerivAt.fun_sum fun c hc => ?_
      rw [show (fun t => forwardPass rest (l.fwd (S t)) c) = fun t => l.fwd (S t) c from
        funext fun t => hlossval c (hlo hc) _]
      exact hv c (hlo hc)
    have htot : (fun t => totalLoss (l :: rest) (forwardPass (l :: rest) (S t))) =
        fun t => ∑ c ∈ l.losses, forwardPass rest (l.fwd (S t)) c + totalLoss rest (forwardPass rest (l.fwd (S t))) :=
      funext fun t => by rw [totalLoss_cons, forwardPass_cons]
    rw [htot]
    refine (hloss.add hrec).congr_deriv ?_
    -- deltas of losses and of gradients that are overwritten
    have z1 : ∀ c ∈ l.losses, δ1 c = 0 := fun c hc => backwardPass_other rest (fun m hm => hb m (by simp [hm])) _ _ c
      fun m hm => ⟨(hrest m hm).2.2.1 c hc, fun hwc => (hrest m hm).1 c hwc (Or.inr (Or.inr (Or.inl (hlo hc))))⟩
    have z2 : ∀ c ∈ l.over, δ1 c = 0 := fun c hc => backwardPass_other rest (fun m hm => hb m (by simp [hm])) _ _ c
      fun m hm => ⟨(hrest m hm).2.2.2 c hc, fun hwc => (hrest m hm).1 c hwc (Or.inl (hov hc))⟩
    have hmain := hδ δ1 z1 z2
    have hdisj : Disjoint A l.outs := Finset.disjoint_left.2 fun c hc ho => hAnot c hc (Or.inl ho)
    have e1 : ∑ c ∈ A ∪ l.outs, δ1 c * V c = ∑ c ∈ A, δ1 c * S' c + ∑ c ∈ l.outs, δ1 c * v c := by
      rw [Finset.sum_union hdisj]
      congr 1
      · refine Finset.sum_congr rfl fun c hc => ?_
        rw [hV]; simp only [if_pos hc]
      · refine Finset.sum_congr rfl fun c hc => ?_
        have : c ∉ A := fun hA => Finset.disjoint_left.1 hdisj hA hc
        rw [hV]; simp only [if_neg this]
    have e2 : ∑ c ∈ l.losses, v c + ∑ c ∈ l.outs, δ1 c * v c =
        ∑ c ∈ l.outs, (if c ∈ l.losses then 1 else δ1 c) * v c := by
      have : ∑ c ∈ l.losses, v c = ∑ c ∈ l.outs, if c ∈ l.losses then v c else 0 := by
        rw [Finset.sum_ite_mem, Finset.inter_eq_right.2 hlo]
      rw [this, ← Finset.sum_add_distrib]
      refine Finset.sum_congr rfl fun c _ => ?_
      by_cases hc : c ∈ l.losses
      · rw [if_pos hc, if_pos hc, z1 c hc]; ring
      · rw [if_neg hc, if_neg hc]; ring
    have hstate : ∀ c ∈ l.ins, l.bwd (forwardPass rest (l.fwd s0)) δ1 c = l.bwd (l.fwd s0) δ1 c := by
      refine hlb.reads _ _ δ1 fun c hc => ?_
      refine forwardPass_other rest (fun m hm => h m (by simp [hm])) _ c fun m hm hwc => ?_
      exact (hrest m hm).1 c hwc hc
    have e3 : ∑ c ∈ A, backwardPass (l :: rest) (forwardPass (l :: rest) s0) δ0 c * S' c =
        ∑ c ∈ A, δ1 c * S' c + ∑ c ∈ l.ins, (l.bwd (l.fwd s0) δ1 c - δ1 c) * S' c := by
      have : ∑ c ∈ l.ins, (l.bwd (l.fwd s0) δ1 c - δ1 c) * S' c =
          ∑ c ∈ A, (l.bwd (forwardPass rest (l.fwd s0)) δ1 c - δ1 c) * S' c := by
        rw [← Finset.sum_subset hins]
        · exact Finset.sum_congr rfl fun c hc => by rw [hstate c hc]
        · intro c hcA hci
          have hnw := hAnot c hcA
          rw [hlb.writes _ _ c hci (fun h => hnw (Or.inl h)) (fun h => hnw (Or.inr h)), sub_self, zero_mul]
      rw [this, ← Finset.sum_add_distrib]
      refine Finset.sum_congr rfl fun c _ => ?_
      rw [backwardPass_cons, forwardPass_cons]
      ring
    rw [e3, ← hmain, ← e2, e1]
    exact add_left_comm _ _ _

/-- **C21.**  For every network of layers whose own backward passes are right, after `forward_pass` and
`backward_pass` the delta (gradient) of every parameter and input `c` is the partial derivative of the total loss
with respect to it, whatever the deltas held before. -/
theorem C21_network [DecidableEq C] (layers : List (Layer C)) (h : ∀ l ∈ layers, l.Honest)
    (hb : ∀ l ∈ layers, l.HonestBack) (A : Finset C) (hw : Wired A layers) (s : C → ℝ)
    (hd : AllDifferentiate layers s) (δ0 : C → ℝ) (c : C) (hc : c ∈ A) (hf : ∀ l ∈ layers, c ∉ l.fixed) :
    HasDerivAt (fun x => totalLoss layers (forwardPass layers (Function.update s c x)))
      (backwardPass layers (forwardPass layers s) δ0 c) (s c) := by
  have key := backward_motion layers h hb A hw s hd (fun t => Function.update s c (s c + t)) (fun d => if d = c then 1 else 0)
    (by simp) (by
      intro d _
      by_cases e : d = c
      · subst e
        simpa using (hasDerivAt_id (0 : ℝ)).const_add (s d)
      · simp only [Function.update_of_ne e, if_neg e]
        exact hasDerivAt_const _ _) (by
      intro l hl d hdf t
      exact Function.update_of_ne (fun e => hf l hl (by rw [← e]; exact hdf)) _ _) δ0
  have e : ∑ d ∈ A, backwardPass layers (forwardPass layers s) δ0 d * (if d = c then 1 else 0) =
      backwardPass layers (forwardPass layers s) δ0 c := by
    simp [hc]
  rw [e] at key
  have h2 := HasDerivAt.comp_sub_const (f := fun t => totalLoss layers (forwardPass layers (Function.update s c (s c + t))))
    (f' := backwardPass layers (forwardPass layers s) δ0 c) (s c) (s c) (by simpa using key)
  simpa using h2

end Verif.Network
