import Verif.Network.Instances

/-!
# Mask layers with a mask of the shape of the input
-/

namespace Verif.Network

open Verif.Layers

variable {ρ φ : Type}

/-- `MaskLayerImpl` with a mask of the shape of the input (mask_layer.py:28-29, 49-66); the mask gets no deltas. -/
def maskFullLayer : VLayer (ρ × φ) (ρ × φ) Empty (ρ × φ) where
  F := fun p i o k => (fl (maskForward (mt i) (.full (mt p)) (mt o)), k)
  B := fun p _ _ _ δO δI => fl (maskBackward (.full (mt p)) (mt δO) (mt δI))
  isLoss := false
  over := fun _ => false

/-- **C20 (Mask).** -/
theorem C20_mask_full : (maskFullLayer (ρ := ρ) (φ := φ)).Fresh := fun _ _ _ _ _ _ => rfl

/-- **C21 (Mask).** -/
theorem C21_mask_full [Fintype ρ] [Fintype φ] (p i : ρ × φ → ℝ) : (maskFullLayer (ρ := ρ) (φ := φ)).Right p i := by
  rintro X X' rfl hX o k δO δI _
  have key := C22_mask (fun t => mt (X t)) (mt X') (moves_mt hX) (.full (mt p)) (mt o) (mt δO) (mt δI)
  have e : ∀ t, ∑ b, (if (maskFullLayer (ρ := ρ) (φ := φ)).isLoss then 1 else δO b) *
      (maskFullLayer.F p (X t) o k).1 b = inner (mt δO) (maskForward (mt (X t)) (.full (mt p)) (mt o)) := by
    intro t
    rw [← mt_fl (maskForward _ _ _), ← sum_mt]
    rfl
  simp only [e]
  exact key.congr_deriv (sum_fl_sub _ _ _).symm

end Verif.Network
