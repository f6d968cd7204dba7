import Mathlib.Analysis.Calculus.FDeriv.Basic
import Mathlib.Analysis.Calculus.Deriv.Slope
import Mathlib.Analysis.Calculus.Deriv.Mul
import Mathlib.Analysis.Calculus.Deriv.Add
import Mathlib.Topology.MetricSpace.ProperSpace
import Mathlib.Analysis.Normed.Module.FiniteDimension
import Mathlib.Topology.Sequences

/-!
# Functions that are differentiable along curves
-/

namespace Verif.Descent

open Filter Topology

/-- A product of `t` with a function that is continuous at zero. -/
theorem hasDerivAt_smul {D : ℝ → ℝ} (hD : ContinuousAt D 0) : HasDerivAt (fun t => t * D t) (D 0) 0 := by
  rw [hasDerivAt_iff_tendsto_slope]
  refine (hD.tendsto.mono_left nhdsWithin_le_nhds).congr' ?_
  filter_upwards [self_mem_nhdsWithin] with t ht
  have ht : t ≠ 0 := ht
  simp only [slope_def_field, sub_zero, zero_mul]
  field_simp

/-- If a function of finitely many variables has a derivative along every curve through a point, and it depends on the direction of the curve
as given by `g`, then it is differentiable there. -/
theorem hasFDerivAt_of_curves {n : ℕ} {f : (Fin n → ℝ) → ℝ} {x : Fin n → ℝ} {f' : (Fin n → ℝ) →L[ℝ] ℝ}
    (h : ∀ (γ : ℝ → Fin n → ℝ) (v : Fin n → ℝ), γ 0 = x → (∀ i, HasDerivAt (fun t => γ t i) (v i) 0) →
      HasDerivAt (fun t => f (γ t)) (f' v) 0) : HasFDerivAt f f' x := by
  rw [hasFDerivAt_iff_isLittleO_nhds_zero, Asymptotics.isLittleO_iff]
  by_contra hno
  push Not at hno
  obtain ⟨c, hc, hno⟩ := hno
  obtain ⟨u, hu, hbad⟩ := exists_seq_forall_of_frequently (not_eventually.1 hno)
  simp only [not_le] at hbad
  have hu0 : ∀ k, u k ≠ 0 := fun k e => by
    have := hbad k
    rw [e] at this
    simp at this
  have hpos : ∀ k, 0 < ‖u k‖ := fun k => norm_pos_iff.2 (hu0 k)
  obtain ⟨a, -, φ, hφ, ha⟩ := (isCompact_sphere (0 : Fin n → ℝ) 1).tendsto_subseq (x := fun k => ‖u k‖⁻¹ • u k) fun k => by
    rw [mem_sphere_zero_iff_norm, norm_smul, norm_inv, norm_norm, inv_mul_cancel₀ (hpos k).ne']
  classical
  -- the curve through `x + u (φ k)`
  set D : ℝ → Fin n → ℝ := fun t => if e : ∃ k, ‖u (φ k)‖ = t then ‖u (φ e.choose)‖⁻¹ • u (φ e.choose) else a with hDdef
  have hD0 : D 0 = a := by
    rw [hDdef]
    exact dif_neg fun ⟨k, e⟩ => (hpos (φ k)).ne' e
  have hDc : Tendsto D (𝓝 0) (𝓝 a) := by
    rw [Metric.tendsto_nhds]
    intro ε hε
    obtain ⟨K, hK⟩ := eventually_atTop.1 ((Metric.tendsto_nhds.1 ha) ε hε)
    have hfin : ((fun k => ‖u (φ k)‖) '' Set.Iio K).Finite := (Set.finite_Iio K).image _
    have h0 : (0 : ℝ) ∉ (fun k => ‖u (φ k)‖) '' Set.Iio K := by
      rintro ⟨k, -, e⟩
      exact (hpos (φ k)).ne' e
    filter_upwards [hfin.isClosed.isOpen_compl.mem_nhds h0] with t ht
    by_cases e : ∃ k, ‖u (φ k)‖ = t
    · have : D t = ‖u (φ e.choose)‖⁻¹ • u (φ e.choose) := dif_pos e
      rw [this]
      refine hK _ (not_lt.1 fun hlt => ht ⟨e.choose, hlt, e.choose_spec⟩)
    · have : D t = a := dif_neg e
      rw [this, dist_self]
      exact hε
  have hmove : ∀ i, HasDerivAt (fun t => x i + t * D t i) (a i) 0 := by
    intro i
    have hi : ContinuousAt (fun t => D t i) 0 := by
      have := (continuous_apply i).continuousAt.tendsto.comp hDc
      rw [ContinuousAt, hD0]
      exact this
    have := (hasDerivAt_smul hi).const_add (x i)
    rw [hD0] at this
    exact this
  have key := h (fun t i => x i + t * D t i) a (by funext i; simp) hmove
  rw [hasDerivAt_iff_tendsto_slope] at key
  have ht0 : Tendsto (fun k => ‖u (φ k)‖) atTop (𝓝[≠] 0) := by
    refine tendsto_nhdsWithin_iff.2 ⟨?_, Eventually.of_forall fun k => (hpos _).ne'⟩
    have := (hu.comp hφ.tendsto_atTop).norm
    simpa using this
  have h1 := key.comp ht0
  have h2 : Tendsto (fun k => f' (D ‖u (φ k)‖)) atTop (𝓝 (f' a)) :=
    (f'.continuous.tendsto a).comp (hDc.comp (tendsto_nhdsWithin_iff.1 ht0).1)
  have h3 := h1.sub h2
  rw [sub_self] at h3
  have h4 := (Metric.tendsto_nhds.1 h3) c hc
  obtain ⟨k, hk⟩ := h4.exists
  have e : ∃ j, ‖u (φ j)‖ = ‖u (φ k)‖ := ⟨k, rfl⟩
  have hDk : D ‖u (φ k)‖ = ‖u (φ e.choose)‖⁻¹ • u (φ e.choose) := dif_pos e
  have hj := e.choose_spec
  generalize e.choose = j at hDk hj
  rw [hj] at hDk
  have hval : (fun i => x i + ‖u (φ k)‖ * D ‖u (φ k)‖ i) = x + u (φ j) := by
    funext i
    rw [hDk]
    simp only [Pi.smul_apply, smul_eq_mul, Pi.add_apply]
    rw [mul_inv_cancel_left₀ (hpos _).ne']
  rw [Real.dist_eq, sub_zero] at hk
  simp only [Function.comp_apply, slope_def_field, sub_zero, zero_mul, add_zero] at hk
  rw [hval, hDk, map_smul, smul_eq_mul, show f (fun i => x i) = f x from rfl] at hk
  have hb := hbad (φ j)
  rw [hj, Real.norm_eq_abs] at hb
  have e2 : (f (x + u (φ j)) - f x) / ‖u (φ k)‖ - ‖u (φ k)‖⁻¹ * f' (u (φ j)) =
      (f (x + u (φ j)) - f x - f' (u (φ j))) / ‖u (φ k)‖ := by
    field_simp
  rw [e2, abs_div, abs_of_pos (hpos (φ k)), div_lt_iff₀ (hpos _)] at hk
  exact lt_asymm hk (not_not.1 hb)

/-- Small steps against the gradient decrease a function by at least half of what the gradient promises. -/
theorem descent {n : ℕ} {f : (Fin n → ℝ) → ℝ} {x g : Fin n → ℝ}
    (h : HasDerivAt (fun t : ℝ => f (x - t • g)) (-∑ i, g i ^ 2) 0) :
    ∃ ε > 0, ∀ t, 0 < t → t < ε → f (x - t • g) ≤ f x - t / 2 * ∑ i, g i ^ 2 := by
  by_cases h0 : ∑ i, g i ^ 2 = 0
  · have hg : g = 0 := by
      funext i
      have := (Finset.sum_eq_zero_iff_of_nonneg fun i _ => sq_nonneg (g i)).1 h0 i (Finset.mem_univ i)
      simpa using this
    exact ⟨1, one_pos, fun t _ _ => by rw [hg]; simp⟩
  have hpos : 0 < ∑ i, g i ^ 2 := lt_of_le_of_ne (Finset.sum_nonneg fun i _ => sq_nonneg _) (Ne.symm h0)
  rw [hasDerivAt_iff_tendsto_slope] at h
  have hlt : -∑ i, g i ^ 2 < -(∑ i, g i ^ 2) / 2 := by linarith
  have := h.eventually (gt_mem_nhds hlt)
  rw [eventually_nhdsWithin_iff, Metric.eventually_nhds_iff] at this
  obtain ⟨ε, hε, H⟩ := this
  refine ⟨ε, hε, fun t ht hte => ?_⟩
  have := H (y := t) (by rw [Real.dist_eq, sub_zero, abs_of_pos ht]; exact hte) ht.ne'
  rw [slope_def_field, sub_zero, zero_smul, sub_zero, div_lt_iff₀ ht] at this
  nlinarith

end Verif.Descent
