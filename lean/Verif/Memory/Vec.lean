import Verif.Memory.Model
import Verif.Network.Vec

/-!
# Layers given by functions on arrays, working on the memory

The layers of `Verif.Network.Instances` and `Verif.Network.Recurrent` (fully connected, recurrent, LSTM, cost
layers and so on) are functions of the arrays they are given.  Here they are placed into the memory: values at the
addresses of their views, deltas at `dual` of these.
-/

namespace Verif.Memory

open Verif.Network

variable {I O K P : Type} [Fintype I] [Fintype O]

/-- The layer working on its views of the memory. -/
noncomputable def atViews (L : VLayer I O K P) (v : Views ℕ I O K P) (dual : ℕ → ℕ) : MLayer where
  ins := (L.place v).ins
  outs := (L.place v).outs
  own := (L.place v).scratch
  fixed := (L.place v).fixed
  losses := (L.place v).losses
  over := (L.place v).over
  fwd := (L.place v).fwd
  bwd := fun m => Function.extend (dual ∘ v.i)
    (L.B (m ∘ v.p) (m ∘ v.i) (m ∘ v.o) (m ∘ v.k) (m ∘ dual ∘ v.o) (m ∘ dual ∘ v.i)) m

section
variable (L : VLayer I O K P) (v : Views ℕ I O K P) (dual : ℕ → ℕ)

/-- The deltas are at different addresses. -/
structure Duals (v : Views ℕ I O K P) (dual : ℕ → ℕ) (back : Set ℕ) : Prop where
  i_inj : Function.Injective (dual ∘ v.i)
  o_i : ∀ a b, dual (v.o a) ≠ dual (v.i b)
  value : ∀ a, v.i a ∉ back
  outs : ∀ a, v.o a ∉ back
  own : ∀ a, v.k a ∉ back
  fixed : ∀ a, v.p a ∉ back

variable {dual} {back : Set ℕ}

/-- The layer keeps to its views. -/
theorem C72_honest (hF : L.Fresh) (hd : Duals v dual back) : (atViews L v dual).Honest dual where
  fwd_writes := (place_honest L v hF).writes
  fwd_reads := (place_honest L v hF).reads
  bwd_writes := by
    intro m a _ h
    refine Function.extend_apply' _ _ _ ?_
    rintro ⟨b, hb⟩
    exact h (v.i b) (Or.inl ((mem_ins L v).2 ⟨b, rfl⟩)) hb.symm
  bwd_reads := by
    intro m m' h h' c hc
    have h1 : m ∘ v.p = m' ∘ v.p := funext fun a => h _ (Or.inr (Or.inl ⟨a, rfl⟩))
    have h2 : m ∘ v.i = m' ∘ v.i := funext fun a => h _ (Or.inl ((mem_ins L v).2 ⟨a, rfl⟩))
    have h3 : m ∘ v.o = m' ∘ v.o := funext fun a => h _ (Or.inr (Or.inr (Or.inl ((mem_outs L v).2 ⟨a, rfl⟩))))
    have h4 : m ∘ v.k = m' ∘ v.k := funext fun a => h _ (Or.inr (Or.inr (Or.inr ⟨a, rfl⟩)))
    have h5 : m ∘ dual ∘ v.o = m' ∘ dual ∘ v.o := funext fun a => h' _ (Or.inr ((mem_outs L v).2 ⟨a, rfl⟩))
    have h6 : m ∘ dual ∘ v.i = m' ∘ dual ∘ v.i := funext fun a => h' _ (Or.inl ((mem_ins L v).2 ⟨a, rfl⟩))
    show Function.extend (dual ∘ v.i) _ m (dual c) = Function.extend (dual ∘ v.i) _ m' (dual c)
    rcases hc with hc | hc
    · obtain ⟨b, rfl⟩ := (mem_ins L v).1 hc
      have e : dual (v.i b) = (dual ∘ v.i) b := rfl
      rw [e, hd.i_inj.extend_apply, hd.i_inj.extend_apply, h1, h2, h3, h4, h5, h6]
    · obtain ⟨b, rfl⟩ := (mem_outs L v).1 hc
      have hno : ¬ ∃ a, (dual ∘ v.i) a = dual (v.o b) := fun ⟨a, ha⟩ => hd.o_i b a ha.symm
      rw [Function.extend_apply' _ _ _ hno, Function.extend_apply' _ _ _ hno]
      exact h' _ (Or.inr ((mem_outs L v).2 ⟨b, rfl⟩))

/-- If the layer by itself is right, so is the layer in the memory. -/
theorem C72_differentiates (hF : L.Fresh) (hone : L.isLoss = true → Subsingleton O) (hd : Duals v dual back) (m0 : Mem)
    (hR : L.Right (m0 ∘ v.p) (m0 ∘ v.i)) : (atViews L v dual).Differentiates dual back m0 := by
  intro S S' h0 hS hfix
  obtain ⟨w, hw, hsum⟩ := place_differentiates L v hF hone m0 hR S S' h0 hS hfix
  refine ⟨w, hw, ?_⟩
  intro m hm _ hloss hover
  have := hsum (m ∘ dual) hloss hover
  refine this.trans (Finset.sum_congr rfl ?_)
  intro c hc
  obtain ⟨b, rfl⟩ := (mem_ins L v).1 hc
  congr 2
  have e : dual (v.i b) = (dual ∘ v.i) b := rfl
  have h1 : m ∘ v.p = (L.place v).fwd m0 ∘ v.p := funext fun a => hm _ (hd.fixed a)
  have h2 : m ∘ v.i = (L.place v).fwd m0 ∘ v.i := funext fun a => hm _ (hd.value a)
  have h3 : m ∘ v.o = (L.place v).fwd m0 ∘ v.o := funext fun a => hm _ (hd.outs a)
  have h4 : m ∘ v.k = (L.place v).fwd m0 ∘ v.k := funext fun a => hm _ (hd.own a)
  show _ = Function.extend (dual ∘ v.i) _ m (dual (v.i b))
  rw [bwd_i, e, hd.i_inj.extend_apply, h1, h2, h3, h4]
  rfl

end

end Verif.Memory
