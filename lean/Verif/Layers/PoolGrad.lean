import Verif.Pool.Props
import Mathlib.Analysis.Calculus.Deriv.Add
import Mathlib.Analysis.Calculus.Deriv.Mul

/-!
# Gradient of Pooling2D (C22)

The layer (pooling_layer_2d.py:74-121) calls the pooling operations; images and channels are
treated one by one, so the theorems are about one channel of one image, `X s` at "time" `s` of a
motion.
-/

namespace Verif.Layers

open Verif.Pool Verif.Numeric Finset

noncomputable section

theorem sum_swap4 (A B C D : ℕ) (F : ℕ → ℕ → ℕ → ℕ → ℝ) :
    ∑ y ∈ range A, ∑ x ∈ range B, ∑ a ∈ range C, ∑ b ∈ range D, F y x a b =
    ∑ a ∈ range C, ∑ b ∈ range D, ∑ y ∈ range A, ∑ x ∈ range B, F y x a b := by
  simp only [← sum_product']
  refine sum_nbij' (fun q => (q.2.2.1, q.2.2.2, q.1, q.2.1)) (fun q => (q.2.2.1, q.2.2.2, q.1, q.2.1)) ?_ ?_ ?_ ?_ ?_
  · intro q hq; simp only [mem_product] at hq ⊢; tauto
  · intro q hq; simp only [mem_product] at hq ⊢; tauto
  · intro q _; rfl
  · intro q _; rfl
  · intro q _; rfl

theorem avgCell_hasDerivAt (g : Geom) (X : ℝ → ℕ → ℕ → ℝ) (X' : ℕ → ℕ → ℝ)
    (hX : ∀ y x, HasDerivAt (fun s => X s y x) (X' y x) 0) (yo xo : ℕ) :
    HasDerivAt (fun s => avgCell g (X s) yo xo) (avgCell g X' yo xo) 0 := by
  by_cases hne : ∃ y x, InWindow g yo xo y x
  · rw [show (fun s => avgCell g (X s) yo xo) = _ from funext fun s => C48_avg g (X s) yo xo hne, C48_avg g X' yo xo hne]
    exact (HasDerivAt.fun_sum fun c _ => hX c.1 c.2).div_const _
  · have hno : ∀ a b, ¬ InWindow g yo xo a b := fun a b h => hne ⟨a, b, h⟩
    rw [show (fun s => avgCell g (X s) yo xo) = _ from funext fun s => C48_avg_none g (X s) yo xo hno,
      C48_avg_none g X' yo xo hno]
    exact hasDerivAt_const _ _

/-- **C22 (Pooling2D, average).** -/
theorem C22_avg_pooling (g : Geom) (X : ℝ → ℕ → ℕ → ℝ) (X' : ℕ → ℕ → ℝ)
    (hX : ∀ y x, HasDerivAt (fun s => X s y x) (X' y x) 0) (δ : ℕ → ℕ → ℝ) (din : Plane ℝ)
    (hh : din.h = g.H) (hw : din.w = g.W) :
    ∃ d, avgBackward g δ din = some d ∧
      HasDerivAt (fun s => ∑ y ∈ range g.OH, ∑ x ∈ range g.OW, δ y x * avgCell g (X s) y x)
        (∑ a ∈ range g.H, ∑ b ∈ range g.W, (d.at' a b - din.at' a b) * X' a b) 0 := by
  obtain ⟨d, h1, h2⟩ := C48_avg_adjoint g X' δ din hh hw
  refine ⟨d, h1, ?_⟩
  rw [← h2]
  exact HasDerivAt.fun_sum fun y _ => HasDerivAt.fun_sum fun x _ => (avgCell_hasDerivAt g X X' hX y x).const_mul _

/-- The window of `(yo, xo)` has one largest value, above `lo`, and only pixel `(a, b)` has it. -/
def Peak (g : Geom) (lo : ℝ) (inp : ℕ → ℕ → ℝ) (yo xo a b : ℕ) : Prop :=
  InWindow g yo xo a b ∧ lo < inp a b ∧ ∀ y x, InWindow g yo xo y x → (y, x) ≠ (a, b) → inp y x < inp a b

theorem Peak.firstMax {g : Geom} {lo : ℝ} {inp : ℕ → ℕ → ℝ} {yo xo a b : ℕ} (h : Peak g lo inp yo xo a b) :
    FirstMax g lo inp yo xo a b := by
  refine ⟨h.1, h.2.1, ?_, ?_⟩
  · intro y x hyx
    by_cases e : (y, x) = (a, b)
    · rw [Prod.mk.injEq] at e; rw [e.1, e.2]
    · exact (h.2.2 y x hyx e).le
  · intro y x hyx he
    by_cases e : (y, x) = (a, b)
    · rw [Prod.mk.injEq] at e; omega
    · exact absurd he (h.2.2 y x hyx e).ne

theorem Peak.value {g : Geom} {lo : ℝ} {inp : ℕ → ℕ → ℝ} {yo xo a b : ℕ} (h : Peak g lo inp yo xo a b) :
    (maxCell g lo inp yo xo).1 = inp a b := by
  rcases maxCell_cases g lo inp yo xo with ⟨_, h'⟩ | ⟨a', b', hf, e⟩
  · exact absurd (h' a b h.1) (not_le.2 h.2.1)
  · obtain ⟨e1, e2⟩ := h.firstMax.unique hf
    rw [e, e1, e2]

theorem Peak.moves {g : Geom} {lo : ℝ} {X : ℝ → ℕ → ℕ → ℝ} {X' : ℕ → ℕ → ℝ}
    (hX : ∀ y x, HasDerivAt (fun s => X s y x) (X' y x) 0) {yo xo a b : ℕ} (h : Peak g lo (X 0) yo xo a b) :
    HasDerivAt (fun s => (maxCell g lo (X s) yo xo).1) (X' a b) 0 := by
  refine (hX a b).congr_of_eventuallyEq ?_
  have hev : ∀ᶠ s in nhds (0 : ℝ), Peak g lo (X s) yo xo a b := by
    have h1 : ∀ᶠ s in nhds (0 : ℝ), lo < X s a b := (hX a b).continuousAt.eventually (lt_mem_nhds h.2.1)
    have h2 : ∀ᶠ s in nhds (0 : ℝ), ∀ c ∈ window g yo xo, c ≠ (a, b) → X s c.1 c.2 < X s a b := by
      rw [Filter.eventually_all_finset]
      intro c hc
      by_cases e : c = (a, b)
      · exact Filter.Eventually.of_forall fun s h => absurd e h
      · have := (hX c.1 c.2).continuousAt.eventually_lt (hX a b).continuousAt (h.2.2 c.1 c.2 (mem_window.1 hc) e)
        filter_upwards [this] with s hs _ using hs
    filter_upwards [h1, h2] with s hs1 hs2
    exact ⟨h.1, hs1, fun y x hyx e => hs2 (y, x) (mem_window.2 hyx) e⟩
  filter_upwards [hev] with s hs using hs.value

/-- **C22 (Pooling2D, max).**  Where every window has a single largest value (or lies in the
padding), the backward pass is the derivative. The index of the largest value must survive
being stored as a float. -/
theorem C22_max_pooling {F : Type} (g : Geom) (hc : g.c < g.nc) (lo : ℝ) (store : ℤ → F) (load : F → ℤ)
    (hexact : ∀ i : ℤ, -1 ≤ i → i < g.H * g.W * g.nc → load (store i) = i)
    (X : ℝ → ℕ → ℕ → ℝ) (X' : ℕ → ℕ → ℝ) (hX : ∀ y x, HasDerivAt (fun s => X s y x) (X' y x) 0)
    (hpeak : ∀ yo < g.OH, ∀ xo < g.OW, (∃ a b, Peak g lo (X 0) yo xo a b) ∨ ∀ y x, ¬ InWindow g yo xo y x)
    (δ : ℕ → ℕ → ℝ) (din : Plane ℝ) (hh : din.h = g.H) (hw : din.w = g.W) :
    ∃ d, maxBackward g load (fun y x => store (maxCell g lo (X 0) y x).2) δ din = some d ∧
      HasDerivAt (fun s => ∑ y ∈ range g.OH, ∑ x ∈ range g.OW, δ y x * (maxCell g lo (X s) y x).1)
        (∑ a ∈ range g.H, ∑ b ∈ range g.W, (d.at' a b - din.at' a b) * X' a b) 0 := by
  classical
  obtain ⟨d, h1, h2⟩ := C48_max_backward g hc lo (X 0) store load hexact δ din hh hw
  refine ⟨d, h1, ?_⟩
  have hcell : ∀ y < g.OH, ∀ x < g.OW, HasDerivAt (fun s => δ y x * (maxCell g lo (X s) y x).1)
      (∑ a ∈ range g.H, ∑ b ∈ range g.W, (if FirstMax g lo (X 0) y x a b then δ y x else 0) * X' a b) 0 := by
    intro y hy x hx
    rcases hpeak y hy x hx with ⟨a, b, hp⟩ | hno
    · refine ((hp.moves hX).const_mul (δ y x)).congr_deriv ?_
      rw [sum_eq_single a, sum_eq_single b]
      · rw [if_pos hp.firstMax]
      · intro b' _ hb
        rw [if_neg, zero_mul]
        intro h; exact hb (h.unique hp.firstMax).2
      · intro h; exact absurd (mem_range.2 hp.1.2.1) h
      · intro a' _ ha
        refine sum_eq_zero fun b' _ => ?_
        rw [if_neg, zero_mul]
        intro h; exact ha (h.unique hp.firstMax).1
      · intro h; exact absurd (mem_range.2 hp.1.1) h
    · have e0 : ∀ s, maxCell g lo (X s) y x = (0, -1) := fun s =>
        C48_max_none g lo (X s) y x fun a b h => absurd h (hno a b)
      rw [show (fun s => δ y x * (maxCell g lo (X s) y x).1) = fun _ => 0 from funext fun s => by rw [e0 s, mul_zero]]
      refine (hasDerivAt_const _ _).congr_deriv ?_
      symm
      refine sum_eq_zero fun a _ => sum_eq_zero fun b _ => ?_
      rw [if_neg, zero_mul]
      intro h; exact hno a b h.1
  refine (HasDerivAt.fun_sum fun y hy => HasDerivAt.fun_sum fun x hx =>
    hcell y (mem_range.1 hy) x (mem_range.1 hx)).congr_deriv ?_
  rw [sum_swap4]
  refine sum_congr rfl fun a _ => sum_congr rfl fun b _ => ?_
  rw [h2 a b, add_sub_cancel_left, sum_mul]
  refine sum_congr rfl fun y _ => ?_
  rw [sum_mul]

/-! ### Non-vacuity: the geometry of `Pool.demo`, an image whose values are all different -/

/-- All pixels different, growing along rows and columns. -/
def poolImg : ℕ → ℕ → ℝ := fun y x => (5 * y + x : ℕ)

theorem demo_window (yo xo a b : ℕ) : InWindow demo yo xo a b ↔
    a < 3 ∧ b < 4 ∧ yo * 2 ≤ a + 1 ∧ a + 1 < yo * 2 + 2 ∧ xo * 2 ≤ b + 1 ∧ b + 1 < xo * 2 + 2 := by
  unfold InWindow demo
  dsimp only
  omega

theorem demo_peak : ∀ yo < demo.OH, ∀ xo < demo.OW,
    (∃ a b, Peak demo (-1) poolImg yo xo a b) ∨ ∀ y x, ¬ InWindow demo yo xo y x := by
  intro yo hyo xo hxo
  have hyo' : yo < 2 := hyo
  have hxo' : xo < 3 := hxo
  left
  refine ⟨yo * 2, min (xo * 2) 3, ?_, ?_, ?_⟩
  · rw [demo_window]; omega
  · unfold poolImg
    have : (0 : ℝ) ≤ ((5 * (yo * 2) + min (xo * 2) 3 : ℕ) : ℝ) := Nat.cast_nonneg _
    linarith
  · intro y x h e
    rw [demo_window] at h
    have : ¬ (y = yo * 2 ∧ x = min (xo * 2) 3) := fun h => e (by rw [h.1, h.2])
    unfold poolImg
    have : 5 * y + x < 5 * (yo * 2) + min (xo * 2) 3 := by omega
    exact_mod_cast this

end

end Verif.Layers
