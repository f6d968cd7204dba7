import Verif.Network.Instances

/-!
# A network of FullyConnected, SquaredError and Loss

Its layers meet all hypotheses of C20 and C21, for every shape.
-/

namespace Verif.Network

open Verif.Layers

noncomputable section

/-- The numbers of the buffers: inputs, weights, bias, outputs of the first layer, targets, predictions,
differences, errors and the loss. -/
inductive Cell (ρ φ ψ : Type) where
  | x (p : ρ × φ) | W (p : ψ × φ) | b (j : ψ) | h (p : ρ × ψ) | tgt (p : ρ × ψ) | pred (p : ρ × ψ) | diff (p : ρ × ψ)
  | e (p : ρ × ψ) | loss
  deriving DecidableEq

variable {ρ φ ψ : Type} [Fintype ρ] [Fintype φ] [Fintype ψ] [DecidableEq ρ] [DecidableEq φ] [DecidableEq ψ]

def fcView : Views (Cell ρ φ ψ) (FcI ρ φ ψ) (ρ × ψ) Empty Empty where
  i := Sum.elim .x (Sum.elim .W .b)
  o := .h
  k := Empty.elim
  p := Empty.elim
  i_inj := by rintro (a | a | a) (b | b | b) h <;> simp_all
  o_inj := fun a b h => by simpa using h
  k_inj := fun a => a.elim
  o_i := by rintro a (b | b | b) <;> simp
  k_i := fun a => a.elim
  k_o := fun a => a.elim
  o_p := fun _ b => b.elim
  k_p := fun a => a.elim

def errView : Views (Cell ρ φ ψ) (ρ × ψ) (ρ × ψ) ((ρ × ψ) ⊕ (ρ × ψ)) (ρ × ψ) where
  i := .h
  o := .e
  k := Sum.elim .pred .diff
  p := .tgt
  i_inj := fun a b h => by simpa using h
  o_inj := fun a b h => by simpa using h
  k_inj := by rintro (a | a) (b | b) h <;> simp_all
  o_i := by simp
  k_i := by rintro (a | a) b <;> simp
  k_o := by rintro (a | a) b <;> simp
  o_p := by simp
  k_p := by rintro (a | a) b <;> simp

def lossView : Views (Cell ρ φ ψ) (ρ × ψ) Unit Empty Empty where
  i := .e
  o := fun _ => .loss
  k := Empty.elim
  p := Empty.elim
  i_inj := fun a b h => by simpa using h
  o_inj := fun a b _ => rfl
  k_inj := fun a => a.elim
  o_i := by simp
  k_i := fun a => a.elim
  k_o := fun a => a.elim
  o_p := fun _ b => b.elim
  k_p := fun a => a.elim

def exampleNet (a : Act) (batchSize : ℝ) : List (Layer (Cell ρ φ ψ)) :=
  [(fcLayer a).place fcView, squaredErrorLayer.place errView, (lossLayer 1 batchSize).place lossView]

/-- Parameters and inputs. -/
def exampleA : Finset (Cell ρ φ ψ) := Finset.univ.image (Sum.elim .x (Sum.elim .W .b) : FcI ρ φ ψ → Cell ρ φ ψ)

omit [DecidableEq ρ] [DecidableEq φ] [DecidableEq ψ] in
theorem mem_exampleA [DecidableEq ρ] [DecidableEq φ] [DecidableEq ψ] (c : Cell ρ φ ψ) :
    c ∈ exampleA (ρ := ρ) (φ := φ) (ψ := ψ) ↔ (∃ p, c = .x p) ∨ (∃ p, c = .W p) ∨ ∃ j, c = .b j := by
  simp only [exampleA, Finset.mem_image, Finset.mem_univ, true_and, Sum.exists, Sum.elim_inl, Sum.elim_inr]
  simp only [eq_comm]

theorem example_honest (a : Act) (n : ℝ) : ∀ l ∈ exampleNet (ρ := ρ) (φ := φ) (ψ := ψ) a n, l.Honest := by
  intro l hl
  simp only [exampleNet, List.mem_cons, List.not_mem_nil, or_false] at hl
  rcases hl with rfl | rfl | rfl
  · exact place_honest _ _ (C20_fully_connected a)
  · exact place_honest _ _ C20_squared_error
  · exact place_honest _ _ (C20_loss 1 n)

theorem example_honestBack (a : Act) (n : ℝ) : ∀ l ∈ exampleNet (ρ := ρ) (φ := φ) (ψ := ψ) a n, l.HonestBack := by
  intro l hl
  simp only [exampleNet, List.mem_cons, List.not_mem_nil, or_false] at hl
  rcases hl with rfl | rfl | rfl <;> exact place_honestBack _ _

theorem example_wired (a : Act) (n : ℝ) : Wired exampleA (exampleNet (ρ := ρ) (φ := φ) (ψ := ψ) a n) := by
  simp only [exampleNet, Wired, List.forall_mem_cons, List.forall_mem_nil, Layer.written, Layer.uses, mem_outs, mem_scratch,
    mem_fixed, mem_ins, Finset.subset_iff, mem_losses, mem_over, Finset.mem_union, mem_exampleA, and_true]
  simp only [fcView, errView, lossView, Sum.exists, Sum.elim_inl, Sum.elim_inr, fcLayer, squaredErrorLayer, lossLayer]
  simp only [List.not_mem_nil, false_imp_iff, implies_true, and_true]
  refine ⟨?_, ?_, ?_, ?_, ?_, ⟨⟨?_, ?_, ?_, ?_⟩, ?_, ?_, ?_, ?_⟩, ?_, ?_, ?_, ?_, ?_, ⟨?_, ?_, ?_, ?_⟩, ?_, ?_, ?_, ?_, ?_⟩
  all_goals intro c
  all_goals cases c <;> simp

/-- C20 for this network. -/
example (a : Act) (n : ℝ) (s s' : Cell ρ φ ψ → ℝ) (hx : ∀ p, s (.x p) = s' (.x p)) (hW : ∀ p, s (.W p) = s' (.W p))
    (hb : ∀ j, s (.b j) = s' (.b j)) (ht : ∀ p, s (.tgt p) = s' (.tgt p)) :
    forwardPass (exampleNet a n) s .loss = forwardPass (exampleNet a n) s' .loss := by
  refine C20_network _ (example_honest a n) exampleA (example_wired a n) s s' ?_ ?_ ((lossLayer 1 n).place lossView)
    (by simp [exampleNet]) _ ((mem_outs _ _).2 ⟨(), rfl⟩)
  · intro c hc
    rw [mem_exampleA] at hc
    rcases hc with ⟨p, rfl⟩ | ⟨p, rfl⟩ | ⟨p, rfl⟩
    exacts [hx p, hW p, hb p]
  · intro l hl c hc
    simp only [exampleNet, List.mem_cons, List.not_mem_nil, or_false] at hl
    rcases hl with rfl | rfl | rfl
    · obtain ⟨p, _⟩ := hc; exact p.elim
    · obtain ⟨p, rfl⟩ := hc; exact ht p
    · obtain ⟨p, _⟩ := hc; exact p.elim

/-- The layers differentiate wherever the activation function does. -/
theorem example_differentiates (a : Act) (n : ℝ) (s : Cell ρ φ ψ → ℝ)
    (smooth : ∀ r j, a.Smooth (∑ k, s (.x (r, k)) * s (.W (j, k)) + s (.b j))) :
    AllDifferentiate (exampleNet (ρ := ρ) (φ := φ) (ψ := ψ) a n) s := by
  refine ⟨place_differentiates _ _ (C20_fully_connected a) (by intro h; cases h) _ (C21_fully_connected a _ _ smooth),
    place_differentiates _ _ C20_squared_error (by intro h; cases h) _ (C21_squared_error _ _),
    place_differentiates _ _ (C20_loss 1 n) (fun _ => inferInstanceAs (Subsingleton Unit)) _ (C21_loss 1 n _ _), trivial⟩

/-- C21 for this network, with an activation function that is differentiable everywhere: the gradient of every
weight after the backward pass is the derivative of the loss. -/
example (n : ℝ) (s δ : Cell ρ φ ψ → ℝ) (p : ψ × φ) :
    HasDerivAt (fun x => totalLoss (exampleNet .tanh n) (forwardPass (exampleNet .tanh n) (Function.update s (.W p) x)))
      (backwardPass (exampleNet .tanh n) (forwardPass (exampleNet .tanh n) s) δ (.W p)) (s (.W p)) := by
  refine C21_network _ (example_honest _ n) (example_honestBack _ n) exampleA (example_wired _ n) s
    (example_differentiates _ n s fun _ _ => by simp [Act.Smooth]) δ (.W p) ((mem_exampleA _).2 (by simp)) ?_
  intro l hl hc
  simp only [exampleNet, List.mem_cons, List.not_mem_nil, or_false] at hl
  rcases hl with rfl | rfl | rfl
  · obtain ⟨p, _⟩ := hc; exact p.elim
  · obtain ⟨p, h⟩ := hc; cases h
  · obtain ⟨p, _⟩ := hc; exact p.elim

end

end Verif.Network
