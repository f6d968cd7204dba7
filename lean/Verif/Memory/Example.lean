import Verif.Memory.Props
import Verif.Memory.Vec
import Verif.Network.Instances

/-!
# A network to which C72 applies

Input → FullyConnected → SquaredError → Loss, the targets come from the Input layer; one time step, two sequences,
two features.  The arrays overlap as the layout says: parameters 0-2, data 4-9, output of the FullyConnected
layer 10-11 and so on, the gradients are at 20-22.
-/

namespace Verif.Memory

open Verif.Structure Verif.Layout Verif.Buffers Verif.Network Verif.Layers

/-- Placed layers have their deltas at other addresses. -/
theorem duals_of {layers : List LayerInfo} {L : Layout} {T B : Nat} {data : LayerInfo} {rest : List LayerInfo}
    {ms : List MLayer} (hL : Laid layers L) (ho : Ordered layers data rest)
    (hs : List.Forall₂ (Site layers L T B data) rest ms) {I O K P : Type} [Fintype I] [Fintype O] (V : VLayer I O K P)
    (v : Views ℕ I O K P) {dual : ℕ → ℕ} (hm : atViews V v dual ∈ ms) (hk : ∀ a, v.k a ∉ backCells (netOf layers L) T B) :
    Duals v (delta layers (netOf layers L) T B) (backCells (netOf layers L) T B) := by
  have hA := apart hL ho hs
  have hat := site_at hL ho hs hm
  have hi : ∀ a, v.i a ∈ values layers L T B data ms := fun a => hat.ins ((mem_ins V v).2 ⟨a, rfl⟩)
  have ho' : ∀ a, v.o a ∈ values layers L T B data ms := fun a => hat.outs ((mem_outs V v).2 ⟨a, rfl⟩)
  exact ⟨fun a b h => v.i_inj (hA.inj _ (hi a) _ (hi b) h), fun a b h => v.o_i a b (hA.inj _ (ho' a) _ (hi b) h),
    fun a => hA.not_back _ (hi a), fun a => hA.not_back _ (ho' a), hk, fun a => hat.fixed _ ⟨a, rfl⟩⟩

noncomputable section

def demoInput : LayerInfo :=
  ⟨str "Input", [], [(str "default", ⟨[.T, .B, .n 2], 0, false⟩), (str "targets", ⟨[.T, .B, .n 1], 0, false⟩)], [], [],
    [⟨.outputs, str "default", str "FC", str "default"⟩, ⟨.outputs, str "targets", str "SE", str "targets"⟩]⟩

def demoFC : LayerInfo :=
  ⟨str "FC", [(str "default", ⟨[.T, .B, .n 2], 0, false⟩)], [(str "default", ⟨[.T, .B, .n 1], 0, false⟩)],
    [(str "W", ⟨[.n 1, .n 2], 0, false⟩), (str "bias", ⟨[.n 1], 0, false⟩)], [(str "H", ⟨[.T, .B, .n 1], 0, false⟩)],
    [⟨.outputs, str "default", str "SE", str "default"⟩]⟩

def demoSE : LayerInfo :=
  ⟨str "SE", [(str "default", ⟨[.T, .B, .n 1], 0, false⟩), (str "targets", ⟨[.T, .B, .n 1], 0, false⟩)],
    [(str "predictions", ⟨[.T, .B, .n 1], 0, false⟩), (str "loss", ⟨[.T, .B, .n 1], 0, false⟩)], [],
    [(str "diff", ⟨[.T, .B, .n 1], 0, false⟩)], [⟨.outputs, str "loss", str "Loss", str "default"⟩]⟩

def demoLoss : LayerInfo :=
  ⟨str "Loss", [(str "default", ⟨[.T, .B, .n 1], 0, false⟩)], [(str "loss", ⟨[.n 1], 0, false⟩)], [], [], []⟩

def demoNet : List LayerInfo := [demoInput, demoFC, demoSE, demoLoss]

def demoL : Layout := match createLayout demoNet with | .ok L => L | .error _ => ⟨[], []⟩

theorem demo_laid : Laid demoNet demoL where
  wf :=
    { names := by decide +kernel
      noDot := by decide +kernel
      inNodup := by decide +kernel
      outNodup := by decide +kernel
      paramNodup := by decide +kernel
      internalNodup := by decide +kernel
      starts := by
        intro l hl o ho
        simp only [demoNet, List.mem_cons, List.not_mem_nil, or_false] at hl
        rcases hl with rfl | rfl | rfl | rfl <;> simp [demoInput, demoFC, demoSE, demoLoss] at ho
        · rcases ho with rfl | rfl <;> simp [demoInput]
        · subst ho; simp [demoFC]
        · subst ho; simp [demoSE]
      ends := by decide +kernel }
  roots := by unfold NoRootNames; decide +kernel
  noInternal := by unfold NoInternalConns; decide +kernel
  shaped := shaped_of_check (by decide +kernel)
  layout := by
    have h : (createLayout demoNet).toOption.isSome = true := by decide +kernel
    unfold demoL
    cases h' : createLayout demoNet with
    | ok L => rfl
    | error e => rw [h'] at h; simp [Except.toOption] at h

theorem demo_ordered : Ordered demoNet demoInput [demoFC, demoSE, demoLoss] where
  all := rfl
  order := by decide +kernel
  noLoop := by decide +kernel
  fed := by decide +kernel
  outs := by decide +kernel
  params := by decide +kernel

def demoFCView : Views ℕ (FcI (Fin 2) (Fin 2) (Fin 1)) (Fin 2 × Fin 1) Empty Empty where
  i := Sum.elim (fun q => 4 + 2 * q.1 + q.2) (Sum.elim (fun q => q.2) (fun _ => 2))
  o := fun q => 10 + q.1
  k := Empty.elim
  p := Empty.elim
  i_inj := by decide +kernel
  o_inj := by decide +kernel
  k_inj := fun a => a.elim
  o_i := by decide +kernel
  k_i := fun a => a.elim
  k_o := fun a => a.elim
  o_p := fun _ b => b.elim
  k_p := fun a => a.elim

def demoSEView : Views ℕ (Fin 2 × Fin 1) (Fin 2 × Fin 1) ((Fin 2 × Fin 1) ⊕ (Fin 2 × Fin 1)) (Fin 2 × Fin 1) where
  i := fun q => 10 + q.1
  o := fun q => 16 + q.1
  k := Sum.elim (fun q => 14 + q.1) (fun q => 18 + q.1)
  p := fun q => 8 + q.1
  i_inj := by decide +kernel
  o_inj := by decide +kernel
  k_inj := by decide +kernel
  o_i := by decide +kernel
  k_i := by decide +kernel
  k_o := by decide +kernel
  o_p := by decide +kernel
  k_p := by decide +kernel

def demoLossView : Views ℕ (Fin 2 × Fin 1) Unit Empty Empty where
  i := fun q => 16 + q.1
  o := fun _ => 3
  k := Empty.elim
  p := Empty.elim
  i_inj := by decide +kernel
  o_inj := fun a b _ => rfl
  k_inj := fun a => a.elim
  o_i := by decide +kernel
  k_i := fun a => a.elim
  k_o := fun a => a.elim
  o_p := fun _ b => b.elim
  k_p := fun a => a.elim

def demoDual : ℕ → ℕ := delta demoNet (netOf demoNet demoL) 1 2

/-- The layers of the network, for an activation function. -/
def demoLayers (a : Act) : List MLayer :=
  [atViews (fcLayer a) demoFCView demoDual, atViews squaredErrorLayer demoSEView demoDual,
    atViews (lossLayer 1 2) demoLossView demoDual]

theorem demo_fc (a : Act) : Site demoNet demoL 1 2 demoInput demoFC (atViews (fcLayer a) demoFCView demoDual) where
  ins := by
    intro c hc
    obtain ⟨b, rfl⟩ := (mem_ins (fcLayer a) demoFCView).1 hc
    rcases b with b | b | b
    · exact Or.inl ⟨str "default", by decide +kernel, (show ∀ b, demoFCView.i (.inl b) ∈ cells (netOf demoNet demoL) 1 2
        (path demoFC.name (str "inputs") (str "default")) by decide +kernel) b⟩
    · exact Or.inr ⟨str "W", _, List.mem_cons_self, (show ∀ b, demoFCView.i (.inr (.inl b)) ∈ cells (netOf demoNet demoL) 1 2
        (path demoFC.name (str "parameters") (str "W")) by decide +kernel) b⟩
    · exact Or.inr ⟨str "bias", _, List.mem_cons_of_mem _ List.mem_cons_self, (show ∀ b, demoFCView.i (.inr (.inr b)) ∈ cells (netOf demoNet demoL) 1 2
        (path demoFC.name (str "parameters") (str "bias")) by decide +kernel) b⟩
  outs := by
    intro c hc
    obtain ⟨b, rfl⟩ := (mem_outs (fcLayer a) demoFCView).1 hc
    have h : ∀ b, demoFCView.o b ∈ mainCells (netOf demoNet demoL) 1 2 (path demoFC.name (str "outputs") (str "default")) := by
      decide +kernel
    exact ⟨str "default", _, Home.of_main (c := .out) demo_laid List.mem_cons_self (h b), h b⟩
  outsAll := by
    intro o ho _ c hc
    obtain rfl : o = _ := List.mem_singleton.1 ho
    refine (mem_outs (fcLayer a) demoFCView).2 ?_
    exact (show ∀ c ∈ mainCells (netOf demoNet demoL) 1 2 (path demoFC.name (str "outputs") (str "default")),
      ∃ b, demoFCView.o b = c by decide +kernel) c hc
  own := by rintro c ⟨b, -⟩; exact b.elim
  fixed := by rintro c ⟨b, -⟩; exact b.elim
  losses := by
    intro c hc
    exact absurd ((mem_losses (fcLayer a) demoFCView).1 hc).1 (by simp [fcLayer])
  over := by
    intro c hc
    obtain ⟨b, hb, rfl⟩ := (mem_over (fcLayer a) demoFCView).1 hc
    refine ⟨(mem_ins (fcLayer a) demoFCView).2 ⟨b, rfl⟩, ?_⟩
    rcases b with b | b | b
    · simp [fcLayer] at hb
    · exact ⟨str "W", _, ⟨List.mem_cons_self, (show ∀ b, demoFCView.i (.inr (.inl b)) ∈ cells (netOf demoNet demoL) 1 2
        (path demoFC.name (str "parameters") (str "W")) by decide +kernel) b⟩, by decide +kernel⟩
    · exact ⟨str "bias", _, ⟨List.mem_cons_of_mem _ List.mem_cons_self, (show ∀ b, demoFCView.i (.inr (.inr b)) ∈ cells (netOf demoNet demoL) 1 2
        (path demoFC.name (str "parameters") (str "bias")) by decide +kernel) b⟩, by decide +kernel⟩

theorem demo_se : Site demoNet demoL 1 2 demoInput demoSE (atViews squaredErrorLayer demoSEView demoDual) where
  ins := by
    intro c hc
    obtain ⟨b, rfl⟩ := (mem_ins squaredErrorLayer demoSEView).1 hc
    exact Or.inl ⟨str "default", by decide +kernel, (show ∀ b, demoSEView.i b ∈ cells (netOf demoNet demoL) 1 2
        (path demoSE.name (str "inputs") (str "default")) by decide +kernel) b⟩
  outs := by
    intro c hc
    obtain ⟨b, rfl⟩ := (mem_outs squaredErrorLayer demoSEView).1 hc
    have h : ∀ b, demoSEView.o b ∈ mainCells (netOf demoNet demoL) 1 2 (path demoSE.name (str "outputs") (str "loss")) := by
      decide +kernel
    exact ⟨str "loss", _, Home.of_main (c := .out) demo_laid (List.mem_cons_of_mem _ List.mem_cons_self) (h b), h b⟩
  outsAll := by
    intro o ho _ c hc
    obtain rfl : o = _ := List.mem_singleton.1 ho
    refine (mem_outs squaredErrorLayer demoSEView).2 ?_
    exact (show ∀ c ∈ mainCells (netOf demoNet demoL) 1 2 (path demoSE.name (str "outputs") (str "loss")),
      ∃ b, demoSEView.o b = c by decide +kernel) c hc
  own := by
    rintro c ⟨b, rfl⟩
    rcases b with b | b
    · have h : ∀ b, demoSEView.k (.inl b) ∈ mainCells (netOf demoNet demoL) 1 2 (path demoSE.name (str "outputs") (str "predictions")) := by
        decide +kernel
      refine Or.inr (Or.inr ⟨?_, str "predictions", _, Home.of_main (c := .out) demo_laid List.mem_cons_self (h b), h b⟩)
      intro hc
      obtain ⟨b', hb'⟩ := (mem_outs squaredErrorLayer demoSEView).1 hc
      exact demoSEView.k_o _ _ hb'.symm
    · have h : ∀ b, demoSEView.k (.inr b) ∈ mainCells (netOf demoNet demoL) 1 2 (path demoSE.name (str "internals") (str "diff")) := by
        decide +kernel
      exact Or.inl ⟨str "diff", _, Home.of_main (c := .int) demo_laid List.mem_cons_self (h b), Or.inl (h b)⟩
  fixed := by
    rintro c ⟨b, rfl⟩
    have h : ∀ b, demoSEView.p b ∈ mainCells (netOf demoNet demoL) 1 2 (path demoInput.name (str "outputs") (str "targets")) := by
      decide +kernel
    exact Or.inl ⟨str "targets", _, Home.of_main (c := .out) demo_laid (List.mem_cons_of_mem _ List.mem_cons_self) (h b), h b⟩
  losses := by
    intro c hc
    exact absurd ((mem_losses squaredErrorLayer demoSEView).1 hc).1 (by simp [squaredErrorLayer])
  over := by
    intro c hc
    obtain ⟨b, hb, rfl⟩ := (mem_over squaredErrorLayer demoSEView).1 hc
    simp [squaredErrorLayer] at hb

theorem demo_loss : Site demoNet demoL 1 2 demoInput demoLoss (atViews (lossLayer 1 2) demoLossView demoDual) where
  ins := by
    intro c hc
    obtain ⟨b, rfl⟩ := (mem_ins (lossLayer 1 2) demoLossView).1 hc
    exact Or.inl ⟨str "default", by decide +kernel, (show ∀ b, demoLossView.i b ∈ cells (netOf demoNet demoL) 1 2
        (path demoLoss.name (str "inputs") (str "default")) by decide +kernel) b⟩
  outs := by
    intro c hc
    obtain ⟨b, rfl⟩ := (mem_outs (lossLayer 1 2) demoLossView).1 hc
    have h : ∀ b, demoLossView.o b ∈ mainCells (netOf demoNet demoL) 1 2 (path demoLoss.name (str "outputs") (str "loss")) := by
      decide +kernel
    exact ⟨str "loss", _, Home.of_main (c := .out) demo_laid List.mem_cons_self (h b), h b⟩
  outsAll := by intro o ho; cases ho
  own := by rintro c ⟨b, -⟩; exact b.elim
  fixed := by rintro c ⟨b, -⟩; exact b.elim
  losses := by
    intro c hc
    obtain ⟨-, b, rfl⟩ := (mem_losses (lossLayer 1 2) demoLossView).1 hc
    exact ⟨(mem_outs (lossLayer 1 2) demoLossView).2 ⟨b, rfl⟩, fun o ho => by cases ho⟩
  over := by
    intro c hc
    obtain ⟨b, hb, rfl⟩ := (mem_over (lossLayer 1 2) demoLossView).1 hc
    simp [lossLayer] at hb

theorem demo_sites (a : Act) : List.Forall₂ (Site demoNet demoL 1 2 demoInput) [demoFC, demoSE, demoLoss] (demoLayers a) :=
  .cons (demo_fc a) (.cons demo_se (.cons demo_loss .nil))

theorem demo_own (b) : demoSEView.k b ∉ backCells (netOf demoNet demoL) 1 2 := by
  have hse : demoSE ∈ demoNet := by simp [demoNet]
  rcases b with b | b
  · have h : ∀ b, demoSEView.k (.inl b) ∈ cells (netOf demoNet demoL) 1 2 (path demoSE.name (str "outputs") (str "predictions")) := by
      decide +kernel
    have hH : Home demoNet demoL 1 2 demoSE .out (str "predictions") _ (demoSEView.k (.inl b)) := ⟨List.mem_cons_self, h b⟩
    intro hb
    simpa [Src.back] using (Home.back_iff demo_laid hse hH).1 hb
  · have h : ∀ b, demoSEView.k (.inr b) ∈ cells (netOf demoNet demoL) 1 2 (path demoSE.name (str "internals") (str "diff")) := by
      decide +kernel
    have hH : Home demoNet demoL 1 2 demoSE .int (str "diff") _ (demoSEView.k (.inr b)) := ⟨List.mem_cons_self, h b⟩
    intro hb
    simpa [Src.back] using (Home.back_iff demo_laid hse hH).1 hb

theorem demo_honest (a : Act) : ∀ m ∈ demoLayers a, m.Honest demoDual := by
  intro m hm
  simp only [demoLayers, List.mem_cons, List.not_mem_nil, or_false] at hm
  have hs := demo_sites a
  rcases hm with rfl | rfl | rfl
  · exact C72_honest _ _ (C20_fully_connected a)
      (duals_of demo_laid demo_ordered hs (fcLayer a) demoFCView (dual := demoDual) (by simp [demoLayers]) (fun a => a.elim))
  · exact C72_honest _ _ C20_squared_error
      (duals_of demo_laid demo_ordered hs squaredErrorLayer demoSEView (dual := demoDual) (by simp [demoLayers]) demo_own)
  · exact C72_honest _ _ (C20_loss 1 2)
      (duals_of demo_laid demo_ordered hs (lossLayer 1 2) demoLossView (dual := demoDual) (by simp [demoLayers]) (fun a => a.elim))

theorem demo_differentiates (s : Mem) :
    AllDifferentiate demoDual (backCells (netOf demoNet demoL) 1 2) (demoLayers .tanh) s := by
  have hs := demo_sites .tanh
  refine ⟨?_, ?_, ?_, trivial⟩
  · exact C72_differentiates _ _ (C20_fully_connected _) (by simp [fcLayer])
      (duals_of demo_laid demo_ordered hs (fcLayer .tanh) demoFCView (dual := demoDual) (by simp [demoLayers]) (fun a => a.elim)) _
      (C21_fully_connected .tanh _ _ (fun _ _ => by simp [Act.Smooth]))
  · exact C72_differentiates _ _ C20_squared_error (by simp [squaredErrorLayer])
      (duals_of demo_laid demo_ordered hs squaredErrorLayer demoSEView (dual := demoDual) (by simp [demoLayers]) demo_own) _
      (C21_squared_error _ _)
  · exact C72_differentiates _ _ (C20_loss 1 2) (fun _ => inferInstanceAs (Subsingleton Unit))
      (duals_of demo_laid demo_ordered hs (lossLayer 1 2) demoLossView (dual := demoDual) (by simp [demoLayers]) (fun a => a.elim)) _
      (C21_loss 1 2 _ _)

/-- The number at address 21 after the two passes is the derivative of the loss with respect to the second weight. -/
example (s : Mem) :
    HasDerivAt (fun x => totalLoss (demoLayers .tanh) (forward (demoLayers .tanh) (Function.update s 1 x)))
      (backward (backCells (netOf demoNet demoL) 1 2) (demoLayers .tanh) (forward (demoLayers .tanh) s) 21) (s 1) := by
  refine C72_gradients demo_laid demo_ordered (demo_sites .tanh) (demo_honest .tanh) s (demo_differentiates s) 1 1 21
    (by decide +kernel) (by decide +kernel) ?_
  intro m hm
  simp only [demoLayers, List.mem_cons, List.not_mem_nil, or_false] at hm
  rcases hm with rfl | rfl | rfl
  · rintro ⟨b, -⟩; exact b.elim
  · rintro ⟨b, hb⟩
    exact absurd hb ((show ∀ b, demoSEView.p b ≠ 1 by decide +kernel) b)
  · rintro ⟨b, -⟩; exact b.elim

/-- The number at address 25 is the derivative of the loss with respect to the second number of the data. -/
example (s : Mem) :
    HasDerivAt (fun x => totalLoss (demoLayers .tanh) (forward (demoLayers .tanh) (Function.update s 5 x)))
      (backward (backCells (netOf demoNet demoL) 1 2) (demoLayers .tanh) (forward (demoLayers .tanh) s) 25) (s 5) := by
  refine C72_data_deltas demo_laid demo_ordered (demo_sites .tanh) (demo_honest .tanh) s (demo_differentiates s)
    (str "default") (by decide +kernel) 1 5 25 (by decide +kernel) (by decide +kernel) (by decide +kernel) ?_
  intro m hm
  simp only [demoLayers, List.mem_cons, List.not_mem_nil, or_false] at hm
  rcases hm with rfl | rfl | rfl
  · rintro ⟨b, -⟩; exact b.elim
  · rintro ⟨b, hb⟩
    exact absurd hb ((show ∀ b, demoSEView.p b ≠ 5 by decide +kernel) b)
  · rintro ⟨b, -⟩; exact b.elim

end

end Verif.Memory
