import Verif.Determined.Backward
import Verif.Determined.Spec
import Verif.Session.Steps

/-! # Proofs for C81: both passes as functions of parameters and batch -/

namespace Verif.Determined

open Verif.Structure Verif.Layout Verif.Buffers Verif.Memory Verif.Session

section
variable {layers : List LayerInfo} {L : Layout} {data : LayerInfo} {rest : List LayerInfo} {b : Batch} {st : State ℝ}
variable {P : ℕ → ℕ → List MLayer} {report : ℕ → ℕ → Mem → Option ℝ}

/-- Gradients are cleared before the backward pass. -/
theorem grad_back (h : Sited layers L data rest P) {T B g : ℕ} (hg : g ∈ cells (netOf layers L) T B (str "gradients")) :
    g ∈ backCells (netOf layers L) T B := by
  obtain ⟨i, hi⟩ := List.mem_iff_getElem?.1 hg
  obtain ⟨p, hp⟩ : ∃ p, (cells (netOf layers L) T B (str "parameters"))[i]? = some p := by
    refine ⟨_, List.getElem?_eq_getElem ?_⟩
    have := (List.getElem?_eq_some_iff.1 hi).1
    rw [gradCount_eq h.laid] at this
    rw [paramCount_eq h.laid]
    exact this
  obtain ⟨l, hl, x, hx, hc⟩ := h.laid.root_cover (List.mem_of_getElem? hp)
  have hdc : DeltaCell layers (netOf layers L) T B p g := by
    refine ⟨_, _, i, Or.inr (Or.inr (Or.inr ⟨l, hl, ?_, rfl, rfl⟩)), hp, hi⟩
    rintro h
    rw [h] at hx
    simp at hx
  obtain ⟨sh, hsh⟩ := shape_of hx
  rw [← hdc.eq h.laid]
  exact (apart h.laid h.ordered (h.site T B)).dual_back _
    (Finset.mem_union_left _ ((mem_given p).2 (Or.inl ⟨l, hl, x, sh, hsh, hc⟩)))

/-- The gradients are those of any memory that holds the parameters and the batch. -/
def Determines (layers : List LayerInfo) (L : Layout) (data : LayerInfo) (P : ℕ → ℕ → List MLayer) : Prop :=
  ∀ (b : Batch) (θ : List ℝ) (s s' : Mem), b.Good data → Loaded (netOf layers L) data.name b θ s → Loaded (netOf layers L) data.name b θ s' →
    ∀ a ∈ backCells (netOf layers L) b.T b.B, backward (backCells (netOf layers L) b.T b.B) (P b.T b.B) (forward (P b.T b.B) s) a =
      backward (backCells (netOf layers L) b.T b.B) (P b.T b.B) (forward (P b.T b.B) s') a

theorem gradOf_eq (h : Sited layers L data rest P) (hdet : Determines layers L data P) (hb : b.Good data) {θ : List ℝ} {s : Mem}
    (hs : Loaded (netOf layers L) data.name b θ s) :
    gradOf (netOf layers L) data.name P b θ = some ((cells (netOf layers L) b.T b.B (str "gradients")).map
      (backward (backCells (netOf layers L) b.T b.B) (P b.T b.B) (forward (P b.T b.B) s))) := by
  have hwl := netOf_wellLaid h.laid.wf h.laid.shaped h.laid.layout
  obtain ⟨st₀, k₀, vs₀, h0, i0⟩ := create_inv (V := ℝ) hwl
  obtain ⟨e, he⟩ := params_entry (layers := layers) (L := L)
  have hlen : θ.length = paramCount layers L := by rw [← hs.params, List.length_map, paramCount_eq h.laid]
  obtain ⟨st₁, h1, i1, r1, -⟩ := write_inv h.laid i0 he (vals := θ) (by rw [hlen, paramCount_eq h.laid])
  obtain ⟨st₂, h2, hr2, r2⟩ := provide_ready h.laid h.data_mem i1 hb
  obtain ⟨st₃, st₄, s', _, _, _, h3, h4, -, hs', -, h5, -⟩ := passes_spec h hb hr2 (θ := θ) (by rw [r2, r1])
  simp only [gradOf, h0, h1, h2, h3, h4, h5, Option.bind_some]
  congr 1
  exact List.map_congr_left fun g hg => hdet b θ s' s hb hs' hs g (grad_back h hg)

/-- The gradients as a function on the parameter space. -/
noncomputable def gradD (layers : List LayerInfo) (L : Layout) (input : Name) (P : ℕ → ℕ → List MLayer) (b : Batch)
    (θ : Fin (paramCount layers L) → ℝ) : Fin (paramCount layers L) → ℝ :=
  fun i => ((gradOf (netOf layers L) input P b (List.ofFn θ)).getD []).getD i 0

theorem gradD_eq (h : Sited layers L data rest P) (hdet : Determines layers L data P) (hb : b.Good data)
    (θ : Fin (paramCount layers L) → ℝ) :
    gradOf (netOf layers L) data.name P b (List.ofFn θ) = some (List.ofFn (gradD layers L data.name P b θ)) := by
  obtain ⟨s, hs⟩ := exists_loaded h hb (θ := List.ofFn θ) (by simp)
  have key := gradOf_eq h hdet hb hs
  rw [key]
  congr 1
  refine List.ext_getElem (by simp [gradCount_eq h.laid]) fun j j1 j2 => ?_
  rw [List.getElem_ofFn]
  show _ = ((gradOf (netOf layers L) data.name P b (List.ofFn θ)).getD []).getD j 0
  rw [key, Option.getD_some, List.getD_eq_getElem?_getD, List.getElem?_eq_getElem j1]
  rfl

/-- Whatever the state of the network, both passes compute the loss and the gradients that a new network computes. -/
theorem computes_det (h : Sited layers L data rest P) (hdet : Determines layers L data P) (hb : b.Good data) (hrep : Reports P report) :
    Computes layers L data P b (lossV layers L data.name P report b) (gradD layers L data.name P b) := by
  intro st θ hr hθ
  obtain ⟨st₁, st₂, s, sz, k, vs, h1, h2, h3, hs, h4, h5, h6⟩ := passes_spec h hb hr hθ
  refine ⟨st₁, st₂, sz, k, vs, h1, h2, h3, h4, ?_, ?_⟩
  · rw [h5, ← gradOf_eq h hdet hb hs, gradD_eq h hdet hb θ]
  · rw [lossV_loaded h hb hrep hs]
    exact totalLoss_congr (h.site _ _) h6

/-- Where the gradient is right at one point. -/
theorem grad_at (h : Sited layers L data rest P) (hdet : Determines layers L data P) (hb : b.Good data) (hrep : Reports P report)
    {θ : Fin (paramCount layers L) → ℝ} {s : Mem} (hs : Loaded (netOf layers L) data.name b (List.ofFn θ) s)
    (i : Fin (paramCount layers L)) {p g : ℕ}
    (hp : (cells (netOf layers L) b.T b.B (str "parameters"))[(i : ℕ)]? = some p)
    (hg : (cells (netOf layers L) b.T b.B (str "gradients"))[(i : ℕ)]? = some g)
    (key : HasDerivAt (fun x => totalLoss (P b.T b.B) (forward (P b.T b.B) (Function.update s p x)))
      (backward (backCells (netOf layers L) b.T b.B) (P b.T b.B) (forward (P b.T b.B) s) g) (s p)) :
    HasDerivAt (fun x => lossV layers L data.name P report b (Function.update θ i x)) (gradD layers L data.name P b θ i) (θ i) := by
  have hsp : s p = θ i := by
    have h1 : ((cells (netOf layers L) b.T b.B (str "parameters")).map s)[(i : ℕ)]? = some (s p) := by
      rw [List.getElem?_map, hp]; rfl
    rw [hs.params, List.getElem?_ofFn] at h1
    simpa using h1.symm
  rw [hsp] at key
  have e : (fun x => lossV layers L data.name P report b (Function.update θ i x)) =
      fun x => totalLoss (P b.T b.B) (forward (P b.T b.B) (Function.update s p x)) := by
    funext x
    refine lossV_loaded h hb hrep ?_
    rw [← ofFn_set]
    exact hs.update h.laid h.data_mem hb hp x
  have eg : gradD layers L data.name P b θ i =
      backward (backCells (netOf layers L) b.T b.B) (P b.T b.B) (forward (P b.T b.B) s) g := by
    unfold gradD
    rw [gradOf_eq h hdet hb hs, Option.getD_some, List.getD_eq_getElem?_getD, List.getElem?_map, hg]
    rfl
  rw [e, eg]
  exact key

end

end Verif.Determined
