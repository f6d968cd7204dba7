import Verif.Descent.Hadamard
import Verif.Determined.Props

/-!
# The loss when all parameters move
-/

namespace Verif.Descent

open Verif.Structure Verif.Layout Verif.Buffers Verif.Memory Verif.Session Verif.Determined

section
variable {layers : List LayerInfo} {L : Layout} {T B : ℕ} {data : LayerInfo} {rest : List LayerInfo} {ms : List MLayer}

/-- The total loss when parameters and data move: as the deltas say. -/
theorem motion_given (hL : Laid layers L) (ho : Ordered layers data rest) (hs : List.Forall₂ (Site layers L T B data) rest ms)
    (hh : ∀ m ∈ ms, m.Honest (delta layers (netOf layers L) T B)) (s : Mem)
    (hd : AllDifferentiate (delta layers (netOf layers L) T B) (backCells (netOf layers L) T B) ms s)
    (S : ℝ → Mem) (S' : ℕ → ℝ) (h0 : S 0 = s) (hS : ∀ c ∈ given layers L T B data, HasDerivAt (fun t => S t c) (S' c) 0)
    (hfix : ∀ m ∈ ms, ∀ c ∈ m.fixed, ∀ t, S t c = s c) :
    HasDerivAt (fun t => totalLoss ms (forward ms (S t)))
      (∑ c ∈ given layers L T B data, backward (backCells (netOf layers L) T B) ms (forward ms s) (delta layers (netOf layers L) T B c) * S' c) 0 := by
  have hA := apart hL ho hs
  have hat : ∀ m ∈ ms, m.At _ _ _ := fun m hm => site_at hL ho hs hm
  have key := Network.backward_motion (ms.map (MLayer.abs (values layers L T B data ms)
      (delta layers (netOf layers L) T B) (backCells (netOf layers L) T B)))
    (by intro l hl; obtain ⟨m, hm, rfl⟩ := List.mem_map.1 hl; exact abs_honest (hh m hm).toHonestForward)
    (by intro l hl; obtain ⟨m, hm, rfl⟩ := List.mem_map.1 hl; exact abs_honestBack hA (hh m hm) (hat m hm))
    _ (wired hL ho hs) s (abs_all hA hat hd) S S' h0 hS
    (by intro l hl; obtain ⟨m, hm, rfl⟩ := List.mem_map.1 hl; exact hfix m hm) (fun _ => 0)
  simp only [forward_abs, totalLoss_abs] at key
  refine key.congr_deriv (Finset.sum_congr rfl fun c hc => ?_)
  rw [(backward_abs hA ms hh hat (own_unused hL ho hs) (forward ms s) (fun _ => 0)).1 c (Finset.mem_union_left _ hc)]

end

section
variable {layers : List LayerInfo} {L : Layout} {data : LayerInfo} {rest : List LayerInfo} {b : Batch}

/-- The memory `s` with the parameters `θ` moved to `γ`. -/
noncomputable def moved (layers : List LayerInfo) (L : Layout) (T B : ℕ) (s : Mem) (θ γ : Fin (paramCount layers L) → ℝ) : Mem := fun c =>
  s c + ∑ i : Fin (paramCount layers L), if (cells (netOf layers L) T B (str "parameters"))[(i : ℕ)]? = some c then γ i - θ i else 0

theorem moved_other {T B : ℕ} {s : Mem} {θ γ : Fin (paramCount layers L) → ℝ} {c : ℕ}
    (hc : ∀ i : Fin (paramCount layers L), (cells (netOf layers L) T B (str "parameters"))[(i : ℕ)]? = some c → γ i = θ i) :
    moved layers L T B s θ γ c = s c := by
  unfold moved
  rw [Finset.sum_eq_zero, add_zero]
  intro i _
  split
  · next h => rw [hc i h, sub_self]
  · rfl

theorem moved_par {T B : ℕ} {s : Mem} {θ γ : Fin (paramCount layers L) → ℝ} {c : ℕ} {i : Fin (paramCount layers L)}
    (hi : (cells (netOf layers L) T B (str "parameters"))[(i : ℕ)]? = some c) (hs : s c = θ i) : moved layers L T B s θ γ c = γ i := by
  unfold moved
  rw [Finset.sum_eq_single i, if_pos hi, hs]
  · ring
  · intro j _ hj
    rw [if_neg]
    intro h
    refine hj (Fin.ext ?_)
    obtain ⟨j1, j2⟩ := List.getElem?_eq_some_iff.1 h
    obtain ⟨i1, i2⟩ := List.getElem?_eq_some_iff.1 hi
    exact (List.Nodup.getElem_inj_iff params_nodup).1 (j2.trans i2.symm)
  · intro h
    exact absurd (Finset.mem_univ _) h

theorem loaded_par {θ : Fin (paramCount layers L) → ℝ} {s : Mem} (hs : Loaded (netOf layers L) data.name b (List.ofFn θ) s)
    {i : Fin (paramCount layers L)} {c : ℕ} (hi : (cells (netOf layers L) b.T b.B (str "parameters"))[(i : ℕ)]? = some c) : s c = θ i := by
  have h1 : ((cells (netOf layers L) b.T b.B (str "parameters")).map s)[(i : ℕ)]? = some (s c) := by
    rw [List.getElem?_map, hi]; rfl
  rw [hs.params, List.getElem?_ofFn] at h1
  simpa using h1.symm

theorem moved_loaded (hL : Laid layers L) (hd : data ∈ layers) (hb : b.Good data) {θ : Fin (paramCount layers L) → ℝ} {s : Mem}
    (hs : Loaded (netOf layers L) data.name b (List.ofFn θ) s) (γ : Fin (paramCount layers L) → ℝ) :
    Loaded (netOf layers L) data.name b (List.ofFn γ) (moved layers L b.T b.B s θ γ) := by
  have other : ∀ c, c ∉ cells (netOf layers L) b.T b.B (str "parameters") → moved layers L b.T b.B s θ γ c = s c :=
    fun c hc => moved_other fun i hi => absurd (List.mem_of_getElem? hi) hc
  refine ⟨?_, ?_, ?_, ?_⟩
  · refine List.ext_getElem (by rw [List.length_map, List.length_ofFn, paramCount_eq hL]) fun j j1 j2 => ?_
    rw [List.getElem_map, List.getElem_ofFn]
    have hj : j < paramCount layers L := by simpa using j2
    have hg : (cells (netOf layers L) b.T b.B (str "parameters"))[((⟨j, hj⟩ : Fin (paramCount layers L)) : ℕ)]? =
      some ((cells (netOf layers L) b.T b.B (str "parameters"))[j]'(by simpa using j1)) := List.getElem?_eq_getElem _
    exact moved_par hg (loaded_par hs hg)
  · intro d hdm j c hc hn
    obtain ⟨sh, hsh, -⟩ := hb.sizes d hdm
    rw [other c fun h => out_not_param hL hd hsh (List.mem_of_getElem? hc) h]
    exact hs.data d hdm j c hc hn
  · intro c hc hlt
    rw [other c fun h => param_not_context hL h hc]
    exact hs.context c hc hlt
  · intro c hc
    rw [other c fun h => by have := cells_lt h; omega]
    exact hs.outside c hc

/-- The loss of a network of library layers along a curve of parameters.  Parameters that are periods of clockwork layers are not moved. -/
theorem loss_along {report : ℕ → ℕ → Mem → Option ℝ} (F : Memory.Fits layers L data rest) (ps : ∀ T B, ∀ l ∈ rest, LibLayer layers data l T B)
    (h : Sited layers L data rest fun T B => libNetwork F (ps T B)) (hdet : Determines layers L data fun T B => libNetwork F (ps T B))
    (hb : b.Good data) (hrep : Reports (fun T B => libNetwork F (ps T B)) report) {θ : Fin (paramCount layers L) → ℝ} {s : Mem}
    (hs : Loaded (netOf layers L) data.name b (List.ofFn θ) s) (hR : AllRegular F (ps b.T b.B) s)
    (γ : ℝ → Fin (paramCount layers L) → ℝ) (v : Fin (paramCount layers L) → ℝ) (h0 : γ 0 = θ)
    (hγ : ∀ i, HasDerivAt (fun t => γ t i) (v i) 0)
    (hfix : ∀ (i : Fin (paramCount layers L)) (p : ℕ), (cells (netOf layers L) b.T b.B (str "parameters"))[(i : ℕ)]? = some p →
      ∀ l ∈ layers, str "timing" ∈ l.paramShapes.map Prod.fst →
        p ∈ cells (netOf layers L) b.T b.B (path l.name (str "parameters") (str "timing")) → ∀ t, γ t i = θ i) :
    HasDerivAt (fun t => lossV layers L data.name (fun T B => libNetwork F (ps T B)) report b (γ t))
      (∑ i, gradD layers L data.name (fun T B => libNetwork F (ps T B)) b θ i * v i) 0 := by
  have e : (fun t => lossV layers L data.name (fun T B => libNetwork F (ps T B)) report b (γ t)) =
      fun t => totalLoss (libNetwork F (ps b.T b.B)) (forward (libNetwork F (ps b.T b.B)) (moved layers L b.T b.B s θ (γ t))) :=
    funext fun t => lossV_loaded h hb hrep (moved_loaded h.laid h.data_mem hb hs (γ t))
  rw [e]
  have hpar : ∀ c, ∀ i : Fin (paramCount layers L), (cells (netOf layers L) b.T b.B (str "parameters"))[(i : ℕ)]? = some c →
      ∃ k ∈ layers, ∃ x sh, Home layers L b.T b.B k .par x sh c := by
    intro c i hi
    obtain ⟨k, hk, x, hx, hc⟩ := F.laid.root_cover (List.mem_of_getElem? hi)
    obtain ⟨sh, hsh⟩ := shape_of hx
    exact ⟨k, hk, x, sh, hsh, hc⟩
  have key := motion_given F.laid F.ordered (network_site F (fun l hl => (ps b.T b.B l hl).placed)) (network_honest F _) s
    (network_differentiates F _ s fun l hl => (ps b.T b.B l hl).regular_right L _ (hR l hl))
    (fun t => moved layers L b.T b.B s θ (γ t))
    (fun c => ∑ i : Fin (paramCount layers L), if (cells (netOf layers L) b.T b.B (str "parameters"))[(i : ℕ)]? = some c then v i else 0)
    (by
      funext c
      refine moved_other fun i _ => by rw [h0])
    (by
      intro c _
      refine HasDerivAt.const_add (s c) (HasDerivAt.fun_sum fun i _ => ?_)
      split
      · exact (hγ i).sub_const _
      · exact hasDerivAt_const _ _)
    (by
      intro m hm c hc t
      refine moved_other fun i hi => ?_
      obtain ⟨k, hk, x, sh, hx⟩ := hpar c i hi
      by_cases hxt : x = str "timing"
      · subst hxt
        exact hfix i c hi k hk (List.mem_map.2 ⟨_, hx.1, rfl⟩) hx.2 t
      · exact absurd hc (par_not_fixed F (ps b.T b.B) hk hx hxt m hm))
  refine key.congr_deriv ?_
  simp only [Finset.mul_sum]
  rw [Finset.sum_comm]
  refine Finset.sum_congr rfl fun i _ => ?_
  obtain ⟨p, hp⟩ : ∃ p, (cells (netOf layers L) b.T b.B (str "parameters"))[(i : ℕ)]? = some p :=
    ⟨_, List.getElem?_eq_getElem (by rw [paramCount_eq F.laid]; exact i.2)⟩
  obtain ⟨g, hg⟩ : ∃ p, (cells (netOf layers L) b.T b.B (str "gradients"))[(i : ℕ)]? = some p :=
    ⟨_, List.getElem?_eq_getElem (by rw [gradCount_eq F.laid]; exact i.2)⟩
  obtain ⟨k, hk, x, sh, hx⟩ := hpar p i hp
  rw [Finset.sum_eq_single p, if_pos hp]
  · congr 1
    have hdc : DeltaCell layers (netOf layers L) b.T b.B p g := by
      refine ⟨_, _, i, Or.inr (Or.inr (Or.inr ⟨k, hk, fun h => ?_, rfl, rfl⟩)), hp, hg⟩
      have := hx.1
      simp [Src.shapes, h] at this
    rw [hdc.eq F.laid]
    have h1 := gradD_eq h hdet hb θ
    rw [gradOf_eq h hdet hb hs, Option.some.injEq] at h1
    have h2 := congrArg (fun l => l[(i : ℕ)]?) h1
    simp only [List.getElem?_map, hg, List.getElem?_ofFn] at h2
    exact Option.some.inj (h2.trans (dif_pos i.2))
  · intro c _ hc
    rw [if_neg, mul_zero]
    intro h'
    rw [hp] at h'
    exact hc (Option.some.inj h').symm
  · intro hn
    exact absurd ((mem_given p).2 (Or.inl ⟨k, hk, x, sh, hx⟩)) hn

end

end Verif.Descent
