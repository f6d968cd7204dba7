import Verif.Memory.LibraryProps

/-!
# C74: outputs and losses of some layers in plain formulas, and a network to which C74 applies
-/

namespace Verif.Memory

open Verif.Structure Verif.Layout Verif.Buffers Verif.Network Verif.Layers

/-- Entry `j` of the array `x` of the given category of the layer called `n`. -/
def entry (net : Net) (T B : ℕ) (n : Name) (m : Mem) (cat x : String) (j : ℕ) : ℝ :=
  m ((cells net T B (path n (str cat) (str x))).getD j 0)

section
variable {layers : List LayerInfo} {L : Layout} {T B : ℕ} {data : LayerInfo} {rest : List LayerInfo}

/-- **C74 (FullyConnected).**  After the forward pass, output `j` of row `r` of a fully connected layer is the activation
function of the sum of inputs times weights plus bias. -/
theorem C74_fully_connected (F : Fits layers L data rest) (ps : ∀ l ∈ rest, LibLayer layers data l T B) (s : Mem)
    (l : LayerInfo) (hl : l ∈ rest) (a : Act) (x y : Struct) (has hx hy own)
    (h : ps l hl = .fullyConnected a x y has hx hy own) (r j : ℕ) (hr : r < T * B) (hj : j < y.featureSize) :
    let m := forward (libNetwork F ps) s
    entry (netOf layers L) T B l.name m "outputs" "default" (r * y.featureSize + j) =
      a.f (∑ k : Fin x.featureSize, entry (netOf layers L) T B l.name m "inputs" "default" (r * x.featureSize + k) *
          entry (netOf layers L) T B l.name m "parameters" "W" (j * x.featureSize + k) +
        entry (netOf layers L) T B l.name m "parameters" "bias" j) := by
  intro m
  have key := C74_forward F ps s l hl
  rw [h] at key
  have := key (fun _ => 0) (fun _ => 0) ((⟨r, hr⟩, ⟨j, hj⟩) : Fin (T * B) × Fin y.featureSize)
  have e1 : value (netOf layers L) T B l.name m ((fcSlots (T * B) x.featureSize y.featureSize).o (⟨r, hr⟩, ⟨j, hj⟩)) =
      entry (netOf layers L) T B l.name m "outputs" "default" (r * y.featureSize + j) := by
    unfold entry
    rw [← mat_val (⟨r, hr⟩ : Fin (T * B)) (⟨j, hj⟩ : Fin y.featureSize)]
    rfl
  refine e1.symm.trans (this.trans ?_)
  show a.f (_ + _) = _
  congr 2
  refine Finset.sum_congr rfl fun k _ => ?_
  congr 1
  · unfold entry
    rw [← mat_val ⟨r, hr⟩ k]; rfl
  · unfold entry
    rw [← mat_val ⟨j, hj⟩ k]; rfl

/-- **C74 (SquaredError).**  The loss is half of the squared difference of input and target. -/
theorem C74_squared_error (F : Fits layers L data rest) (ps : ∀ l ∈ rest, LibLayer layers data l T B) (s : Mem)
    (l : LayerInfo) (hl : l ∈ rest) (x t p z d : Struct) (has hx ht hp hz hd et ep ez ed hb hdata loose)
    (h : ps l hl = .squaredError x t p z d has hx ht hp hz hd et ep ez ed hb hdata loose) (r k : ℕ) (hr : r < T * B)
    (hk : k < x.featureSize) :
    let m := forward (libNetwork F ps) s
    entry (netOf layers L) T B l.name m "outputs" "loss" (r * x.featureSize + k) =
      (entry (netOf layers L) T B l.name m "inputs" "default" (r * x.featureSize + k) -
        entry (netOf layers L) T B l.name m "inputs" "targets" (r * x.featureSize + k)) ^ 2 / 2 := by
  intro m
  have key := C74_forward F ps s l hl
  rw [h] at key
  have := key (fun _ => 0) (fun _ => 0) ((⟨r, hr⟩, ⟨k, hk⟩) : Fin (T * B) × Fin x.featureSize)
  have e : ((mat (T * B) x.featureSize (⟨r, hr⟩, ⟨k, hk⟩) : Fin _) : ℕ) = r * x.featureSize + k := mat_val _ _
  unfold entry
  rw [← e]
  refine this.trans ?_
  have hh : ∀ u v : ℝ, 0.5 * ((u - v) * (u - v)) = (u - v) ^ 2 / 2 := by intro u v; ring
  exact hh _ _

/-- **C74 (Loss).**  The loss is the sum of the inputs times importance, divided by the batch size if the input has a
batch axis. -/
theorem C74_loss (F : Fits layers L data rest) (ps : ∀ l ∈ rest, LibLayer layers data l T B) (s : Mem)
    (l : LayerInfo) (hl : l ∈ rest) (importance : ℝ) (x : Struct) (has loose) (h : ps l hl = .loss importance x has loose) :
    let m := forward (libNetwork F ps) s
    entry (netOf layers L) T B l.name m "outputs" "loss" 0 =
      importance / (if x.bufferType = 0 then 1 else (B : ℝ)) *
        ∑ k : Fin (size x T B), entry (netOf layers L) T B l.name m "inputs" "default" k := by
  intro m
  have key := C74_forward F ps s l hl
  rw [h] at key
  refine (key (fun _ => 0) (fun _ => 0) ()).trans ?_
  show _ / lossBatch x B * (∑ i : Fin 1, ∑ k : Fin (size x T B), _) = _
  rw [Fin.sum_univ_one]
  unfold lossBatch
  congr 1

/-- **C74 (Elementwise).** -/
theorem C74_elementwise (F : Fits layers L data rest) (ps : ∀ l ∈ rest, LibLayer layers data l T B) (s : Mem)
    (l : LayerInfo) (hl : l ∈ rest) (a : Act) (x : Struct) (has hx)
    (h : ps l hl = .elementwise a x has hx) (j : ℕ) (hj : j < T * B * x.featureSize) :
    let m := forward (libNetwork F ps) s
    entry (netOf layers L) T B l.name m "outputs" "default" j =
      a.f (entry (netOf layers L) T B l.name m "inputs" "default" j) := by
  intro m
  have key := C74_forward F ps s l hl
  rw [h] at key
  have := key (fun _ => 0) (fun _ => 0) ((mat (T * B) x.featureSize).symm ⟨j, hj⟩)
  have e : ((mat (T * B) x.featureSize ((mat (T * B) x.featureSize).symm ⟨j, hj⟩) : Fin _) : ℕ) = j := by simp
  unfold entry
  conv_lhs => rw [← e]
  refine this.trans ?_
  show a.f (value _ _ _ _ _ _) = _
  congr 1
  show m (List.getD _ ((mat (T * B) x.featureSize ((mat (T * B) x.featureSize).symm ⟨j, hj⟩) : Fin _) : ℕ) 0) = _
  rw [e]
  rfl

end

/-! ### Example: Input → FullyConnected → SquaredError → Loss -/

noncomputable section

theorem demo_fits : Fits demoNet demoL demoInput [demoFC, demoSE, demoLoss] where
  laid := demo_laid
  ordered := demo_ordered
  unmixed := ⟨by decide +kernel, by decide +kernel⟩

def demoLib (a : Act) (l : LayerInfo) (hl : l ∈ [demoFC, demoSE, demoLoss]) : LibLayer demoNet demoInput l 1 2 :=
  if h1 : l = demoFC then
    h1 ▸ .fullyConnected a ⟨[.T, .B, .n 2], 0, false⟩ ⟨[.T, .B, .n 1], 0, false⟩
      ⟨by decide +kernel, rfl, by decide +kernel, by decide +kernel⟩ ⟨rfl, rfl⟩ ⟨rfl, rfl⟩ (by unfold OwnParams; decide +kernel)
  else if h2 : l = demoSE then
    h2 ▸ .squaredError ⟨[.T, .B, .n 1], 0, false⟩ ⟨[.T, .B, .n 1], 0, false⟩ ⟨[.T, .B, .n 1], 0, false⟩
      ⟨[.T, .B, .n 1], 0, false⟩ ⟨[.T, .B, .n 1], 0, false⟩
      ⟨by decide +kernel, rfl, by decide +kernel, by decide +kernel⟩ ⟨rfl, rfl⟩ ⟨rfl, rfl⟩ ⟨rfl, rfl⟩ ⟨rfl, rfl⟩ ⟨rfl, rfl⟩
      rfl rfl rfl rfl rfl (by unfold OnlyData; decide +kernel) (by unfold Loose; decide +kernel)
  else
    have h3 : l = demoLoss := by simp only [List.mem_cons, List.not_mem_nil, or_false] at hl; tauto
    h3 ▸ .loss 1 ⟨[.T, .B, .n 1], 0, false⟩ ⟨by decide +kernel, rfl, by decide +kernel, by decide +kernel⟩
      (by unfold Loose; decide +kernel)

theorem demo_regular (s : Mem) : AllRegular demo_fits (demoLib .tanh) s := by
  have h21 : demoSE ≠ demoFC := by decide +kernel
  have h31 : demoLoss ≠ demoFC := by decide +kernel
  have h32 : demoLoss ≠ demoSE := by decide +kernel
  intro l hl
  simp only [List.mem_cons, List.not_mem_nil, or_false] at hl
  rcases hl with rfl | rfl | rfl
  · simp only [demoLib, dite_true]
    intro r j h
    cases h
  · simp only [demoLib, dif_neg h21, dite_true]
    trivial
  · simp only [demoLib, dif_neg h31, dif_neg h32]
    trivial

/-- The number at address 21 after the two passes is the derivative of the loss with respect to the second weight. -/
example (s : Mem) :
    HasDerivAt (fun x => totalLoss (libNetwork demo_fits (demoLib .tanh)) (forward (libNetwork demo_fits (demoLib .tanh)) (Function.update s 1 x)))
      (backward (backCells (netOf demoNet demoL) 1 2) (libNetwork demo_fits (demoLib .tanh))
        (forward (libNetwork demo_fits (demoLib .tanh)) s) 21) (s 1) :=
  C74_gradients demo_fits (demoLib .tanh) s (demo_regular s) 1 1 21 (by decide +kernel) (by decide +kernel) (by decide +kernel)

/-- The same as entry 1 of `W`. -/
example (s : Mem) :
    HasDerivAt (fun x => totalLoss (libNetwork demo_fits (demoLib .tanh)) (forward (libNetwork demo_fits (demoLib .tanh)) (Function.update s 1 x)))
      (backward (backCells (netOf demoNet demoL) 1 2) (libNetwork demo_fits (demoLib .tanh))
        (forward (libNetwork demo_fits (demoLib .tanh)) s) 21) (s 1) :=
  C74_layer_gradients demo_fits (demoLib .tanh) s (demo_regular s) demoFC (by decide +kernel) (str "W") (by decide +kernel)
    (by decide +kernel) 1 1 21 (by decide +kernel) (by decide +kernel)

/-- The number at address 25 is the derivative of the loss with respect to the second number of the data. -/
example (s : Mem) :
    HasDerivAt (fun x => totalLoss (libNetwork demo_fits (demoLib .tanh)) (forward (libNetwork demo_fits (demoLib .tanh)) (Function.update s 5 x)))
      (backward (backCells (netOf demoNet demoL) 1 2) (libNetwork demo_fits (demoLib .tanh))
        (forward (libNetwork demo_fits (demoLib .tanh)) s) 25) (s 5) :=
  C74_data_deltas demo_fits (demoLib .tanh) s (demo_regular s) (str "default") (by decide +kernel) (by decide +kernel) 1 5 25
    (by decide +kernel) (by decide +kernel) (by decide +kernel)

end

end Verif.Memory
