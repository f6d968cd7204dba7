import Verif.Network.Props
import Mathlib.Logic.Function.Basic

/-!
# Layers given by functions on arrays, placed into the memory of a network

`I`, `O`, `K`, `P` index the numbers of the inputs and parameters, the outputs, the internals and of what
is read without computing deltas.  The views of a layer tell the cell of each of these.
-/

namespace Verif.Network

/-- A layer by itself: its two passes as functions of the arrays it is given. -/
structure VLayer (I O K P : Type) where
  /-- `P`, inputs, old outputs, old internals ↦ outputs, internals -/
  F : (P → ℝ) → (I → ℝ) → (O → ℝ) → (K → ℝ) → (O → ℝ) × (K → ℝ)
  /-- `P`, inputs, outputs, internals, output deltas, input deltas ↦ input deltas -/
  B : (P → ℝ) → (I → ℝ) → (O → ℝ) → (K → ℝ) → (O → ℝ) → (I → ℝ) → (I → ℝ)
  /-- the output is a loss -/
  isLoss : Bool
  /-- parameters whose gradient is overwritten -/
  over : I → Bool

/-- The views of a layer: the arrays do not overlap. -/
structure Views (C I O K P : Type) where
  i : I → C
  o : O → C
  k : K → C
  p : P → C
  i_inj : Function.Injective i
  o_inj : Function.Injective o
  k_inj : Function.Injective k
  o_i : ∀ a b, o a ≠ i b
  k_i : ∀ a b, k a ≠ i b
  k_o : ∀ a b, k a ≠ o b
  o_p : ∀ a b, o a ≠ p b
  k_p : ∀ a b, k a ≠ p b

variable {C I O K P : Type} [Fintype I] [Fintype O]

open Classical in
/-- The layer working on its views of the memory. -/
noncomputable def VLayer.place (L : VLayer I O K P) (v : Views C I O K P) : Layer C where
  ins := Finset.univ.image v.i
  outs := Finset.univ.image v.o
  scratch := Set.range v.k
  fixed := Set.range v.p
  losses := if L.isLoss then Finset.univ.image v.o else ∅
  over := (Finset.univ.filter fun i => L.over i = true).image v.i
  fwd := fun s =>
    let r := L.F (s ∘ v.p) (s ∘ v.i) (s ∘ v.o) (s ∘ v.k)
    Function.extend v.o r.1 (Function.extend v.k r.2 s)
  bwd := fun s δ => Function.extend v.i (L.B (s ∘ v.p) (s ∘ v.i) (s ∘ v.o) (s ∘ v.k) (δ ∘ v.o) (δ ∘ v.i)) δ

/-- The outputs do not depend on what outputs and internals held before. -/
def VLayer.Fresh (L : VLayer I O K P) : Prop := ∀ p i o k o' k', (L.F p i o k).1 = (L.F p i o' k').1

/-- The backward pass is the derivative of the forward pass. -/
def VLayer.Right (L : VLayer I O K P) (p : P → ℝ) (i : I → ℝ) : Prop :=
  ∀ (X : ℝ → I → ℝ) (X' : I → ℝ), X 0 = i → (∀ a, HasDerivAt (fun t => X t a) (X' a) 0) →
    ∀ (o : O → ℝ) (k : K → ℝ) (δO : O → ℝ) (δI : I → ℝ), (∀ a, L.over a = true → δI a = 0) →
      HasDerivAt (fun t => ∑ b, (if L.isLoss then 1 else δO b) * (L.F p (X t) o k).1 b)
        (∑ a, (L.B p i (L.F p i o k).1 (L.F p i o k).2 δO δI a - δI a) * X' a) 0

section place
variable (L : VLayer I O K P) (v : Views C I O K P)

theorem fwd_o (s : C → ℝ) (b : O) : (L.place v).fwd s (v.o b) = (L.F (s ∘ v.p) (s ∘ v.i) (s ∘ v.o) (s ∘ v.k)).1 b :=
  v.o_inj.extend_apply _ _ _

theorem fwd_k (s : C → ℝ) (b : K) : (L.place v).fwd s (v.k b) = (L.F (s ∘ v.p) (s ∘ v.i) (s ∘ v.o) (s ∘ v.k)).2 b := by
  show Function.extend v.o _ (Function.extend v.k _ s) (v.k b) = _
  rw [Function.extend_apply', v.k_inj.extend_apply]
  rintro ⟨a, h⟩
  exact v.k_o _ _ h.symm

theorem fwd_other (s : C → ℝ) (c : C) (ho : ∀ b, v.o b ≠ c) (hk : ∀ b, v.k b ≠ c) : (L.place v).fwd s c = s c := by
  show Function.extend v.o _ (Function.extend v.k _ s) c = _
  rw [Function.extend_apply', Function.extend_apply']
  · rintro ⟨a, h⟩; exact hk a h
  · rintro ⟨a, h⟩; exact ho a h

theorem bwd_i (s δ : C → ℝ) (a : I) : (L.place v).bwd s δ (v.i a) =
    L.B (s ∘ v.p) (s ∘ v.i) (s ∘ v.o) (s ∘ v.k) (δ ∘ v.o) (δ ∘ v.i) a := v.i_inj.extend_apply _ _ _

theorem mem_ins {c : C} : c ∈ (L.place v).ins ↔ ∃ a, v.i a = c := by
  simp [VLayer.place]

theorem mem_outs {c : C} : c ∈ (L.place v).outs ↔ ∃ a, v.o a = c := by
  simp [VLayer.place]

theorem mem_scratch {c : C} : c ∈ (L.place v).scratch ↔ ∃ a, v.k a = c := Iff.rfl

theorem mem_fixed {c : C} : c ∈ (L.place v).fixed ↔ ∃ a, v.p a = c := Iff.rfl

theorem mem_over {c : C} : c ∈ (L.place v).over ↔ ∃ a, L.over a = true ∧ v.i a = c := by
  simp [VLayer.place]

theorem mem_losses {c : C} : c ∈ (L.place v).losses ↔ L.isLoss = true ∧ ∃ a, v.o a = c := by
  by_cases h : L.isLoss = true <;> simp [VLayer.place, h]

/-- Placed layers read and write what they say. -/
theorem place_honest (hF : L.Fresh) : (L.place v).Honest where
  writes := by
    intro s c ho hk
    refine fwd_other L v s c (fun b h => ho ?_) (fun b h => hk ⟨b, h⟩)
    rw [mem_outs]; exact ⟨b, h⟩
  reads := by
    intro s s' h c hc
    rw [mem_outs] at hc
    obtain ⟨b, rfl⟩ := hc
    rw [fwd_o, fwd_o]
    have h1 : s ∘ v.p = s' ∘ v.p := funext fun a => h _ (Or.inr ⟨a, rfl⟩)
    have h2 : s ∘ v.i = s' ∘ v.i := funext fun a => h _ (Or.inl ((mem_ins L v).2 ⟨a, rfl⟩))
    rw [h1, h2, hF]

theorem place_honestBack : (L.place v).HonestBack where
  writes := by
    intro s δ c hi _ _
    show Function.extend v.i _ δ c = δ c
    rw [Function.extend_apply']
    rintro ⟨a, h⟩
    exact hi ((mem_ins L v).2 ⟨a, h⟩)
  reads := by
    intro s s' δ h c hc
    rw [mem_ins] at hc
    obtain ⟨a, rfl⟩ := hc
    rw [bwd_i, bwd_i]
    have h1 : s ∘ v.p = s' ∘ v.p := funext fun a => h _ (Or.inr (Or.inl ⟨a, rfl⟩))
    have h2 : s ∘ v.i = s' ∘ v.i := funext fun a => h _ (Or.inl ((mem_ins L v).2 ⟨a, rfl⟩))
    have h3 : s ∘ v.o = s' ∘ v.o := funext fun a => h _ (Or.inr (Or.inr (Or.inl ((mem_outs L v).2 ⟨a, rfl⟩))))
    have h4 : s ∘ v.k = s' ∘ v.k := funext fun a => h _ (Or.inr (Or.inr (Or.inr ⟨a, rfl⟩)))
    rw [h1, h2, h3, h4]

/-- If the layer by itself is right, so is the placed one. -/
theorem place_differentiates [DecidableEq C] (hF : L.Fresh) (hone : L.isLoss = true → Subsingleton O) (s0 : C → ℝ)
    (hR : L.Right (s0 ∘ v.p) (s0 ∘ v.i)) : (L.place v).Differentiates s0 := by
  classical
  intro S S' hS0 hS hfix
  have hX : ∀ a, HasDerivAt (fun t => (S t ∘ v.i) a) ((S' ∘ v.i) a) 0 := fun a =>
    hS _ ((mem_ins L v).2 ⟨a, rfl⟩)
  have key := hR (fun t => S t ∘ v.i) (S' ∘ v.i) (by rw [hS0]) hX (s0 ∘ v.o) (s0 ∘ v.k)
  have hval : ∀ t b, (L.place v).fwd (S t) (v.o b) = (L.F (s0 ∘ v.p) (S t ∘ v.i) (s0 ∘ v.o) (s0 ∘ v.k)).1 b := by
    intro t b
    rw [fwd_o]
    have h1 : S t ∘ v.p = s0 ∘ v.p := funext fun a => hfix _ ⟨a, rfl⟩ t
    rw [h1, hF]
  -- the velocity of each output
  have hvel : ∀ b : O, ∃ w : ℝ, HasDerivAt (fun t => (L.F (s0 ∘ v.p) (S t ∘ v.i) (s0 ∘ v.o) (s0 ∘ v.k)).1 b) w 0 := by
    intro b
    have := key (fun b' => if b' = b then 1 else 0) (fun _ => 0) (fun _ _ => rfl)
    refine ⟨_, this.congr_of_eventuallyEq (Filter.Eventually.of_forall fun t => ?_)⟩
    dsimp only
    by_cases hl : L.isLoss = true
    · have := hone hl
      have hu : (Finset.univ : Finset O) = {b} := by
        ext b'
        simp [Subsingleton.elim b' b]
      rw [hu, Finset.sum_singleton, if_pos hl, one_mul]
    · simp [hl]
  choose w hw using hvel
  have hb : ∀ δ : C → ℝ, (L.place v).bwd ((L.place v).fwd s0) δ = Function.extend v.i
      (L.B (s0 ∘ v.p) (s0 ∘ v.i) (L.F (s0 ∘ v.p) (s0 ∘ v.i) (s0 ∘ v.o) (s0 ∘ v.k)).1
        (L.F (s0 ∘ v.p) (s0 ∘ v.i) (s0 ∘ v.o) (s0 ∘ v.k)).2 (δ ∘ v.o) (δ ∘ v.i)) δ := by
    intro δ
    have h1 : (L.place v).fwd s0 ∘ v.p = s0 ∘ v.p := funext fun a =>
      fwd_other L v s0 _ (fun b => v.o_p b a) (fun b => v.k_p b a)
    have h2 : (L.place v).fwd s0 ∘ v.i = s0 ∘ v.i := funext fun a =>
      fwd_other L v s0 _ (fun b => v.o_i b a) (fun b => v.k_i b a)
    have h3 : (L.place v).fwd s0 ∘ v.o = (L.F (s0 ∘ v.p) (s0 ∘ v.i) (s0 ∘ v.o) (s0 ∘ v.k)).1 :=
      funext fun a => fwd_o L v s0 a
    have h4 : (L.place v).fwd s0 ∘ v.k = (L.F (s0 ∘ v.p) (s0 ∘ v.i) (s0 ∘ v.o) (s0 ∘ v.k)).2 :=
      funext fun a => fwd_k L v s0 a
    show Function.extend v.i (L.B ((L.place v).fwd s0 ∘ v.p) ((L.place v).fwd s0 ∘ v.i) ((L.place v).fwd s0 ∘ v.o)
      ((L.place v).fwd s0 ∘ v.k) (δ ∘ v.o) (δ ∘ v.i)) δ = _
    rw [h1, h2, h3, h4]
  refine ⟨Function.extend v.o w (fun _ => 0), ?_, ?_⟩
  · intro c hc
    rw [mem_outs] at hc
    obtain ⟨b, rfl⟩ := hc
    rw [v.o_inj.extend_apply, show (fun t => (L.place v).fwd (S t) (v.o b)) = _ from funext fun t => hval t b]
    exact hw b
  · intro δ hloss hover
    have e1 : (L.place v).outs = Finset.univ.image v.o := by
      ext c; rw [mem_outs]; simp
    have e2 : (L.place v).ins = Finset.univ.image v.i := by
      ext c; rw [mem_ins]; simp
    rw [e1, e2, Finset.sum_image (fun a _ b _ h => v.o_inj h), Finset.sum_image (fun a _ b _ h => v.i_inj h)]
    have h1 := key (δ ∘ v.o) (δ ∘ v.i) (by
      intro a ha
      exact hover (v.i a) ((mem_over L v).2 ⟨a, ha, rfl⟩))
    have h2 : HasDerivAt (fun t => ∑ b, (if L.isLoss then 1 else (δ ∘ v.o) b) *
        (L.F (s0 ∘ v.p) (S t ∘ v.i) (s0 ∘ v.o) (s0 ∘ v.k)).1 b)
        (∑ b, (if L.isLoss then 1 else (δ ∘ v.o) b) * w b) 0 :=
      HasDerivAt.fun_sum fun b _ => (hw b).const_mul _
    have h3 := h2.unique h1
    have e3 : ∀ b, (v.o b ∈ (L.place v).losses) ↔ L.isLoss = true := by
      intro b
      rw [mem_losses]
      exact ⟨fun h => h.1, fun h => ⟨h, b, rfl⟩⟩
    refine Eq.trans (Finset.sum_congr rfl fun b _ => ?_) (h3.trans (Finset.sum_congr rfl fun a _ => ?_))
    · rw [v.o_inj.extend_apply]
      by_cases hl : L.isLoss = true
      · rw [if_pos ((e3 b).2 hl), if_pos hl]
      · rw [if_neg (fun h => hl ((e3 b).1 h)), if_neg hl]
        rfl
    · rw [hb δ, v.i_inj.extend_apply]
      rfl

end place

end Verif.Network
