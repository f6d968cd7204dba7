import Verif.Determined.Steps
import Verif.Constrained.Unique

/-! # Proofs for C81: two trainings -/

namespace Verif.Determined

open Verif.Structure Verif.Layout Verif.Buffers Verif.Memory Verif.Constrained
open Verif.Session hiding sgdRun momentumRun nesterovRun backwardPass round train Stepper

section
variable {layers : List LayerInfo} {L : Layout} {data : LayerInfo} {rest : List LayerInfo} {b : Batch}
variable {P Q Q' : ℕ → ℕ → List MLayer} {report : ℕ → ℕ → Mem → Option ℝ} {S : Type}

theorem _root_.Verif.Constrained.Modified.same {call : Call} {m m' : Mods} {θ x x' : List ℝ} {m₁ : Mods} (hs : SameMods layers m m')
    (h : Modified call layers L m θ x m₁ x') : Modified call layers L m' θ x m₁ x' := by
  intro l hl e he
  rw [← hs l hl e he]
  exact h l hl e he

/-- The rule leaves no choice. -/
def Functional (layers : List LayerInfo) (L : Layout) {S : Type} (ok : S → Prop) (rule : Rule (paramCount layers L) S) : Prop :=
  ∀ θ v G G' γ γ' θ₁ θ₁' v₁ v₁' G₁ G₁', ok v → SameMods layers G G' → rule θ v G γ θ₁ v₁ G₁ → rule θ v G' γ' θ₁' v₁' G₁' →
    θ₁ = θ₁' ∧ v₁ = v₁' ∧ SameMods layers G₁ G₁'

/-- The state can be continued. -/
structure Fine (layers : List LayerInfo) (L : Layout) {S : Type} (ok : S → Prop) (s : Run S) : Prop where
  inv : ∃ T B sz k vs, Inv (netOf layers L) s.st T B sz k vs
  mem : ok s.mem
  grads : s.grads.Good true layers
  weights : s.weights.Good false layers

theorem Fine.params {ok : S → Prop} {s : Run S} (hL : Laid layers L) (h : Fine layers L ok s) :
    ∃ θ : Fin (paramCount layers L) → ℝ, s.st.read (str "parameters") = some (List.ofFn θ) := by
  obtain ⟨T, B, sz, k, vs, i⟩ := h.inv
  obtain ⟨e, he⟩ := params_entry (layers := layers) (L := L)
  have := read_inv hL i he
  obtain ⟨θ, hθ⟩ := exists_ofFn (n := paramCount layers L) (x := (cells (netOf layers L) T B (str "parameters")).map (memOf s.st))
    (by rw [List.length_map, paramCount_eq hL])
  exact ⟨θ, by rw [this, hθ]⟩

theorem round_same (h : Sited layers L data rest P) (hQ : Sited layers L data rest Q) (hQ' : Sited layers L data rest Q')
    (hrep : Reports P report) {run : Constrained.Stepper S} {ok : S → Prop} {rule : Rule (paramCount layers L) S}
    {loss : (Fin (paramCount layers L) → ℝ) → S → ℝ} (hf : Follows layers L data P b run ok rule loss)
    (hfun : Functional layers L ok rule) (hb : b.Good data) {evals evals' : List Batch} (he : ∀ b ∈ evals, b.Good data)
    (he' : ∀ b ∈ evals', b.Good data) {s s' : Run S} (fs : Fine layers L ok s) (fs' : Fine layers L ok s') (hs : Same layers s s') :
    ∃ t t' x, round (netOf layers L) data.name Q report run b evals s = some (t, x) ∧
      round (netOf layers L) data.name Q' report run b evals' s' = some (t', x) ∧ Fine layers L ok t ∧ Fine layers L ok t' ∧
      Same layers t t' := by
  obtain ⟨θ, hθ⟩ := fs.params h.laid
  obtain ⟨T, B, sz, k, vs, i⟩ := fs.inv
  obtain ⟨T', B', sz', k', vs', i'⟩ := fs'.inv
  obtain ⟨t, _, _, _, _, _, γ, θ₁, θ', p1, p2, p3, p4, p5, p6, p7, p8⟩ := round_spec h hQ hrep hf hb he i hθ fs.mem fs.grads fs.weights
  obtain ⟨t', _, _, _, _, _, γ', ϑ₁, ϑ', q1, q2, q3, q4, q5, q6, q7, q8⟩ :=
    round_spec h hQ' hrep hf hb he' i' (hs.parameters ▸ hθ) fs'.mem fs'.grads fs'.weights
  rw [← hs.mem] at q1 q7
  obtain ⟨e1, e2, e3⟩ := hfun _ _ _ _ _ _ _ _ _ _ _ _ fs.mem hs.grads p7 q7
  subst e1
  obtain ⟨e4, e5⟩ := modified_unique h.laid (by simp) (by simp) (p8.same hs.weights) q8
  exact ⟨t, t', _, p1, q1, ⟨⟨_, _, _, _, _, p2⟩, p4, p5, p6⟩, ⟨⟨_, _, _, _, _, q2⟩, q4, q5, q6⟩, ⟨by rw [p3, q3, e4], e2, e3, e5⟩⟩

theorem train_same (h : Sited layers L data rest P) (hQ : Sited layers L data rest Q) (hQ' : Sited layers L data rest Q')
    (hrep : Reports P report) {run : ℕ → Constrained.Stepper S} {batches : ℕ → Batch} {ok : S → Prop}
    {rule : ℕ → Rule (paramCount layers L) S} {loss : ℕ → (Fin (paramCount layers L) → ℝ) → S → ℝ}
    (hf : ∀ m, Follows layers L data P (batches m) (run m) ok (rule m) (loss m)) (hfun : ∀ m, Functional layers L ok (rule m))
    (hb : ∀ m, (batches m).Good data) {evals evals' : ℕ → List Batch} (he : ∀ m, ∀ b ∈ evals m, b.Good data)
    (he' : ∀ m, ∀ b ∈ evals' m, b.Good data) {s s' : Run S} (fs : Fine layers L ok s) (fs' : Fine layers L ok s')
    (hs : Same layers s s') (m : ℕ) :
    ∃ t t' log, train (netOf layers L) data.name Q report run batches evals s m = some (t, log) ∧
      train (netOf layers L) data.name Q' report run batches evals' s' m = some (t', log) ∧ Fine layers L ok t ∧ Fine layers L ok t' ∧
      Same layers t t' := by
  induction m with
  | zero => exact ⟨s, s', [], rfl, rfl, fs, fs', hs⟩
  | succ m ih =>
    obtain ⟨t, t', log, h1, h2, f1, f2, h3⟩ := ih
    obtain ⟨u, u', x, h4, h5, g1, g2, h6⟩ := round_same h hQ hQ' hrep (hf m) (hfun m) (hb m) (he m) (he' m) f1 f2 h3
    refine ⟨u, u', log ++ [x], ?_, ?_, g1, g2, h6⟩
    · simp only [train, h1, h4, Option.bind_some, Option.map_some]
    · simp only [train, h2, h5, Option.bind_some, Option.map_some]

/-- A training in two parts. -/
theorem train_add {net : Net} {input : Name} {run : ℕ → Constrained.Stepper S} {batches : ℕ → Batch} {evals : ℕ → List Batch}
    {s : Run S} {n : ℕ} {r : Run S} {log : List ℝ}
    (h : train net input Q report run batches evals s n = some (r, log)) (m : ℕ) {r' : Run S} {log' : List ℝ}
    (h' : train net input Q report (fun k => run (n + k)) (fun k => batches (n + k)) (fun k => evals (n + k)) r m = some (r', log')) :
    train net input Q report run batches evals s (n + m) = some (r', log ++ log') := by
  induction m generalizing r' log' with
  | zero =>
    cases h'
    simpa using h
  | succ m ih =>
    simp only [train, Option.bind_eq_some_iff, Option.map_eq_some_iff] at h'
    obtain ⟨⟨u, lu⟩, h1, ⟨w, x⟩, h2, h3⟩ := h'
    obtain ⟨rfl, rfl⟩ := Prod.mk.inj h3
    have := ih h1
    rw [← Nat.add_assoc]
    simp only [train, this, h2, Option.bind_some, Option.map_some, List.append_assoc]

theorem sgd_functional (hL : Laid layers L) (g : (Fin (paramCount layers L) → ℝ) → Fin (paramCount layers L) → ℝ) (lr : ℝ) :
    Functional layers L (S := Unit) (fun _ => True) (fun θ _ G γ θ' _ G' => Modified gradCall layers L G (List.ofFn θ) (List.ofFn (g θ)) G'
      (List.ofFn γ) ∧ θ' = θ - lr • γ) := by
  rintro θ v G G' γ γ' θ₁ θ₁' v₁ v₁' G₁ G₁' - hG ⟨h1, rfl⟩ ⟨h2, rfl⟩
  obtain ⟨e1, e2⟩ := modified_unique hL (by simp) (by simp) (h1.same hG) h2
  rw [List.ofFn_injective e1]
  exact ⟨rfl, rfl, e2⟩

theorem momentum_functional (hL : Laid layers L) (g : (Fin (paramCount layers L) → ℝ) → Fin (paramCount layers L) → ℝ) (c μ : ℝ) :
    Functional layers L (S := List ℝ) (fun v => v.length = paramCount layers L)
      (fun θ v G γ θ' v' G' => Modified gradCall layers L G (List.ofFn θ) (List.ofFn (g θ)) G'
        (List.ofFn γ) ∧ (∀ w, v = List.ofFn w → v' = List.ofFn (μ • w - c • γ) ∧ θ' = θ + (μ • w - c • γ))) := by
  rintro θ v G G' γ γ' θ₁ θ₁' v₁ v₁' G₁ G₁' hv hG ⟨h1, h1'⟩ ⟨h2, h2'⟩
  obtain ⟨w, rfl⟩ := exists_ofFn hv
  obtain ⟨rfl, rfl⟩ := h1' w rfl
  obtain ⟨rfl, rfl⟩ := h2' w rfl
  obtain ⟨e1, e2⟩ := modified_unique hL (by simp) (by simp) (h1.same hG) h2
  rw [List.ofFn_injective e1]
  exact ⟨rfl, rfl, e2⟩

theorem nesterov_functional (hL : Laid layers L) (g : (Fin (paramCount layers L) → ℝ) → Fin (paramCount layers L) → ℝ) (c μ : ℝ) :
    Functional layers L (S := List ℝ) (fun v => v.length = paramCount layers L)
      (fun θ v G γ θ' v' G' => ∀ w, v = List.ofFn w → Modified gradCall layers L G (List.ofFn (θ + μ • w))
        (List.ofFn (g (θ + μ • w))) G' (List.ofFn γ) ∧ v' = List.ofFn (μ • w - c • γ) ∧ θ' = θ + (μ • w - c • γ)) := by
  rintro θ v G G' γ γ' θ₁ θ₁' v₁ v₁' G₁ G₁' hv hG h1 h2
  obtain ⟨w, rfl⟩ := exists_ofFn hv
  obtain ⟨h3, rfl, rfl⟩ := h1 w rfl
  obtain ⟨h4, rfl, rfl⟩ := h2 w rfl
  obtain ⟨e1, e2⟩ := modified_unique hL (by simp) (by simp) (h3.same hG) h4
  rw [List.ofFn_injective e1]
  exact ⟨rfl, rfl, e2⟩

end

end Verif.Determined
