import Verif.Constrained.Apply
import Verif.Session.Steps

/-! # Proofs for C80: updates with modifiers -/

namespace Verif.Constrained

open Verif.Structure Verif.Layout Verif.Buffers Verif.Memory
open Verif.Session hiding sgdRun momentumRun nesterovRun backwardPass round train Stepper

section
variable {layers : List LayerInfo} {L : Layout} {data : LayerInfo} {rest : List LayerInfo} {b : Batch} {st : State ℝ}
variable {T B sz k : ℕ} {vs : List (Name × View)}

/-- Weight modifiers. -/
theorem weights_spec (hL : Laid layers L) (hi : Inv (netOf layers L) st T B sz k vs) {W : Mods} (hW : W.Good false layers)
    {θ : List ℝ} (hθ : st.read (str "parameters") = some θ) :
    ∃ W' st' θ', applyWeightModifiers W st = some (W', st') ∧ Inv (netOf layers L) st' T B sz k vs ∧ W'.Good false layers ∧
      st'.read (str "parameters") = some θ' ∧ θ'.length = θ.length ∧ Modified weightCall layers L W θ θ W' θ' := by
  obtain ⟨W', st', h1, i1, -, g1, -, t1⟩ := applyAll_spec hL Kind.weights W hW hi
  obtain ⟨e, he⟩ := params_entry (layers := layers) (L := L)
  refine ⟨W', st', _, h1, i1, g1, read_inv hL i1 he, ?_, ?_⟩
  · rw [read_inv hL hi he, Option.some.injEq] at hθ
    rw [← hθ]
    simp
  · intro l hl e' he'
    have r0 := read_part (c := .par) hL hi (Or.inl rfl) hl he' hθ
    obtain ⟨x', q1, q2⟩ := t1 l hl e' he' _ _ r0 r0
    have r1 := read_part (c := .par) hL i1 (Or.inl rfl) hl he' (read_inv hL i1 he)
    rw [q1, Option.some.injEq] at r1
    rw [q2, r1]
    rfl

/-- Gradient modifiers. -/
theorem grads_spec (hL : Laid layers L) (hi : Inv (netOf layers L) st T B sz k vs) {G : Mods} (hG : G.Good true layers)
    {θ γ : List ℝ} (hθ : st.read (str "parameters") = some θ) (hγ : st.read (str "gradients") = some γ) :
    ∃ G' st' γ', applyGradientModifiers G st = some (G', st') ∧ Inv (netOf layers L) st' T B sz k vs ∧ G'.Good true layers ∧
      st'.read (str "parameters") = some θ ∧ st'.read (str "gradients") = some γ' ∧ γ'.length = γ.length ∧
      Modified gradCall layers L G θ γ G' γ' ∧
      ∀ a, (∀ l ∈ layers, ∀ v ∈ l.paramShapes, a ∉ cells (netOf layers L) T B (path l.name (str "gradients") v.1)) →
        memOf st' a = memOf st a := by
  obtain ⟨G', st', h1, i1, -, g1, o1, t1⟩ := applyAll_spec hL Kind.gradients G hG hi
  obtain ⟨e, he⟩ := grads_entry (layers := layers) (L := L)
  obtain ⟨e', he'⟩ := params_entry (layers := layers) (L := L)
  refine ⟨G', st', _, h1, i1, g1, ?_, read_inv hL i1 he, ?_, ?_, fun a ha => o1 a fun l hl v hv _ => ha l hl v hv⟩
  · rw [← hθ, read_inv hL i1 he', read_inv hL hi he']
    congr 1
    exact List.map_congr_left fun a ha => o1 a fun l hl v hv _ => par_not_grad hL ha hl hv
  · rw [read_inv hL hi he, Option.some.injEq] at hγ
    rw [← hγ]
    simp
  · intro l hl v hv
    have r0 := read_part (c := .par) hL hi (Or.inl rfl) hl hv hθ
    have r0' := read_part (c := .grad) hL hi (Or.inr rfl) hl hv hγ
    obtain ⟨x', q1, q2⟩ := t1 l hl v hv _ _ r0 r0'
    have r1 := read_part (c := .grad) hL i1 (Or.inr rfl) hl hv (read_inv hL i1 he)
    rw [q1, Option.some.injEq] at r1
    rw [q2, r1]
    rfl

theorem exists_ofFn {n : ℕ} {x : List ℝ} (h : x.length = n) : ∃ f : Fin n → ℝ, x = List.ofFn f := by
  subst h
  exact ⟨x.get, (List.ofFn_get x).symm⟩

variable {P Q : ℕ → ℕ → List MLayer} {report : ℕ → ℕ → Mem → Option ℝ}

/-- Both passes, with gradient modifiers. -/
theorem passes_mod (h : Sited layers L data rest P) {loss} {grad}
    (hc : Computes layers L data P b loss grad) (hr : Ready layers L data b st) {θ : Fin (paramCount layers L) → ℝ}
    (hθ : st.read (str "parameters") = some (List.ofFn θ)) {G : Mods} (hG : G.Good true layers) :
    ∃ st₁ st₂ sz k vs G' γ, forwardPass (netOf layers L) P b.rnd st = some st₁ ∧
      backwardPass (netOf layers L) P b.rnd G st₁ = some (G', st₂) ∧ Inv (netOf layers L) st₂ b.T b.B sz k vs ∧ G'.Good true layers ∧
      st₂.read (str "parameters") = some (List.ofFn θ) ∧ st₂.read (str "gradients") = some (List.ofFn γ) ∧
      Modified gradCall layers L G (List.ofFn θ) (List.ofFn (grad θ)) G'
        (List.ofFn (γ : Fin (paramCount layers L) → ℝ)) ∧
      totalLoss (P b.T b.B) (memOf st₂) = loss θ := by
  obtain ⟨st₁, st₂, sz, k, vs, h1, h2, i2, r2, g2, l2⟩ := hc st θ hr hθ
  obtain ⟨G', st₃, γ', h3, i3, gd, r3, g3, len, hm, o3⟩ := grads_spec h.laid i2 hG r2 g2
  obtain ⟨γ, rfl⟩ := exists_ofFn (n := paramCount layers L) (x := γ') (by rw [len, List.length_ofFn])
  refine ⟨st₁, st₃, sz, k, vs, G', γ, h1, by simp [backwardPass, h2, h3], i3, gd, r3, g3, hm, ?_⟩
  rw [← l2]
  refine totalLoss_congr (h.site _ _) fun m hm a ha => o3 a fun l hl v hv ha' => ?_
  obtain ⟨j, hj, hsite⟩ := forall₂_right (h.site b.T b.B) hm
  obtain ⟨x, s, hh, -⟩ := hsite.outs a ha
  have := (Home.inj h.laid (h.ordered.mem hj) hl hh (c' := .grad) (x' := v.1) (s' := v.2) ⟨hv, ha'⟩).2.1
  cases this

/-- What an update does, as far as it can be said without the network: `θ`, `v` and `G` are the parameters, what the stepper remembers
and the gradient modifiers before, `γ` the modified gradients, `θ'`, `v'` and `G'` the parameters, the memory and the gradient modifiers
after. -/
abbrev Rule (n : ℕ) (S : Type) := (Fin n → ℝ) → S → Mods → (Fin n → ℝ) → (Fin n → ℝ) → S → Mods → Prop

/-- The stepper follows the rule. -/
def Follows (layers : List LayerInfo) (L : Layout) (data : LayerInfo) (P : ℕ → ℕ → List MLayer) {S : Type} (b : Batch) (run : Stepper S)
    (ok : S → Prop) (rule : Rule (paramCount layers L) S) (loss : (Fin (paramCount layers L) → ℝ) → S → ℝ) : Prop :=
  ∀ (st : State ℝ) (θ : Fin (paramCount layers L) → ℝ) (v : S) (G : Mods), Ready layers L data b st →
    st.read (str "parameters") = some (List.ofFn θ) → ok v → G.Good true layers →
    ∃ st' v' G' θ' γ sz k vs, run b.rnd (st, v, G) = some (st', v', G') ∧ Inv (netOf layers L) st' b.T b.B sz k vs ∧
      st'.read (str "parameters") = some (List.ofFn θ') ∧ ok v' ∧ G'.Good true layers ∧ rule θ v G γ θ' v' G' ∧
      totalLoss (P b.T b.B) (memOf st') = loss θ v

theorem sgd_follows (h : Sited layers L data rest P) {loss} {grad}
    (hc : Computes layers L data P b loss grad) (lr : ℝ) :
    Follows layers L data P b (sgdRun (netOf layers L) P lr) (fun _ => True)
      (fun θ _ G γ θ' _ G' => Modified gradCall layers L G (List.ofFn θ) (List.ofFn (grad θ)) G'
        (List.ofFn γ) ∧ θ' = θ - lr • γ) (fun θ _ => loss θ) := by
  intro st θ v G hr hθ _ hG
  obtain ⟨st₁, st₂, sz, k, vs, G', γ, h1, h2, i2, gd, r2, g2, hm, l2⟩ := passes_mod h hc hr hθ hG
  obtain ⟨st₃, h3, i3, r3, o3⟩ := write_report h i2 (θ := List.ofFn (θ - lr • γ)) (by simp)
  refine ⟨st₃, (), G', θ - lr • γ, γ, sz, k, vs, ?_, i3, r3, trivial, gd, ⟨hm, rfl⟩, by
    refine Eq.trans ?_ l2; exact totalLoss_congr (h.site _ _) o3⟩
  have e : List.zipWith (· + ·) ((List.ofFn γ).map (-lr * ·)) (List.ofFn θ) = List.ofFn (θ - lr • γ) := by
    rw [map_ofFn', zipWith_ofFn]
    congr 1
    funext i
    simp only [Pi.sub_apply, Pi.smul_apply, smul_eq_mul]
    ring
  simp only [sgdRun, h1, h2, r2, g2, Option.bind_some, e, h3, Option.map_some]

theorem momentum_follows (h : Sited layers L data rest P) {loss} {grad}
    (hc : Computes layers L data P b loss grad) (scale : Bool) (lr μ : ℝ) :
    Follows layers L data P b (momentumRun (netOf layers L) P scale lr μ) (fun v => v.length = paramCount layers L)
      (fun θ v G γ θ' v' G' => Modified gradCall layers L G (List.ofFn θ) (List.ofFn (grad θ)) G'
        (List.ofFn γ) ∧ (∀ w, v = List.ofFn w → v' = List.ofFn (μ • w - rateOf scale lr μ • γ) ∧ θ' = θ + (μ • w - rateOf scale lr μ • γ)))
      (fun θ _ => loss θ) := by
  intro st θ v G hr hθ hv hG
  obtain ⟨w, rfl⟩ := exists_ofFn hv
  obtain ⟨st₁, st₂, sz, k, vs, G', γ, h1, h2, i2, gd, r2, g2, hm, l2⟩ := passes_mod h hc hr hθ hG
  set v' := μ • w - rateOf scale lr μ • γ with hv'
  obtain ⟨st₃, h3, i3, r3, o3⟩ := write_report h i2 (θ := List.ofFn (θ + v')) (by simp)
  refine ⟨st₃, List.ofFn v', G', θ + v', γ, sz, k, vs, ?_, i3, r3, by simp, gd, ⟨hm, fun w₁ hw => ?_⟩, by
    refine Eq.trans ?_ l2; exact totalLoss_congr (h.site _ _) o3⟩
  · have e1 : List.zipWith (fun g v => -rateOf scale lr μ * g + v) (List.ofFn γ) ((List.ofFn w).map (μ * ·)) = List.ofFn v' := by
      rw [map_ofFn', zipWith_ofFn, hv']
      congr 1
      funext i
      simp only [Pi.sub_apply, Pi.smul_apply, smul_eq_mul]
      ring
    have e2 : List.zipWith (· + ·) (List.ofFn v') (List.ofFn θ) = List.ofFn (θ + v') := by
      rw [zipWith_ofFn]
      congr 1
      funext i
      simp only [Pi.add_apply]
      ring
    unfold rateOf at e1
    simp only [momentumRun, h1, h2, r2, g2, Option.bind_some, e1, e2, h3, Option.map_some]
  · obtain rfl := List.ofFn_injective hw
    exact ⟨rfl, rfl⟩

theorem nesterov_follows (h : Sited layers L data rest P) (hb : b.Good data) {loss} {grad}
    (hc : Computes layers L data P b loss grad) (scale : Bool) (lr μ : ℝ) :
    Follows layers L data P b (nesterovRun (netOf layers L) P scale lr μ) (fun v => v.length = paramCount layers L)
      (fun θ v G γ θ' v' G' => ∀ w, v = List.ofFn w → Modified gradCall layers L G (List.ofFn (θ + μ • w))
        (List.ofFn (grad (θ + μ • w))) G' (List.ofFn γ) ∧
        v' = List.ofFn (μ • w - rateOf scale lr μ • γ) ∧ θ' = θ + (μ • w - rateOf scale lr μ • γ))
      (fun θ v => loss fun i => θ i + μ * v.getD i 0) := by
  intro st θ v G hr hθ hv hG
  obtain ⟨w, rfl⟩ := exists_ofFn hv
  obtain ⟨st₀, h0, hr0, r0⟩ := write_ready h.laid h.data_mem hb hr (θ := List.ofFn (θ + μ • w)) (by simp [paramCount_eq h.laid])
  obtain ⟨st₁, st₂, sz, k, vs, G', γ, h1, h2, i2, gd, r2, g2, hm, l2⟩ := passes_mod h hc hr0 r0 hG
  set v' := μ • w - rateOf scale lr μ • γ with hv'
  obtain ⟨st₃, h3, i3, r3, o3⟩ := write_report h i2 (θ := List.ofFn (θ + v')) (by simp)
  refine ⟨st₃, List.ofFn v', G', θ + v', γ, sz, k, vs, ?_, i3, r3, by simp, gd, fun w₁ hw => ?_, ?_⟩
  · have e0 : List.zipWith (· + ·) ((List.ofFn w).map (μ * ·)) (List.ofFn θ) = List.ofFn (θ + μ • w) := by
      rw [map_ofFn', zipWith_ofFn]
      congr 1
      funext i
      simp only [Pi.add_apply, Pi.smul_apply, smul_eq_mul]
      ring
    have e1 : List.zipWith (fun g v => -rateOf scale lr μ * g + v) (List.ofFn γ) ((List.ofFn w).map (μ * ·)) = List.ofFn v' := by
      rw [map_ofFn', zipWith_ofFn, hv']
      congr 1
      funext i
      simp only [Pi.sub_apply, Pi.smul_apply, smul_eq_mul]
      ring
    have e2 : List.zipWith (fun g p => -rateOf scale lr μ * g + p) (List.ofFn γ) (List.ofFn (θ + μ • w)) = List.ofFn (θ + v') := by
      rw [zipWith_ofFn, hv']
      congr 1
      funext i
      simp only [Pi.add_apply, Pi.sub_apply, Pi.smul_apply, smul_eq_mul]
      ring
    unfold rateOf at e1 e2
    simp only [nesterovRun, hθ, e0, h0, h1, h2, r2, g2, Option.bind_some, e1, e2, h3, Option.map_some]
  · obtain rfl := List.ofFn_injective hw
    exact ⟨hm, rfl, rfl⟩
  · have e : (fun i => θ i + μ * (List.ofFn w).getD i 0) = θ + μ • w := by
      funext i
      simp [List.getD_eq_getElem?_getD]
    simp only [e]
    rw [← l2]
    exact totalLoss_congr (h.site _ _) o3

/-- One round of the loop. -/
theorem round_spec {S : Type} (h : Sited layers L data rest P) (hQ : Sited layers L data rest Q) (hrep : Reports P report)
    {run : Stepper S} {ok : S → Prop} {rule : Rule (paramCount layers L) S} {loss : (Fin (paramCount layers L) → ℝ) → S → ℝ}
    (hf : Follows layers L data P b run ok rule loss) (hb : b.Good data) {evals : List Batch} (he : ∀ b ∈ evals, b.Good data)
    {s : Run S} (hi : Inv (netOf layers L) s.st T B sz k vs) {θ : Fin (paramCount layers L) → ℝ}
    (hθ : s.st.read (str "parameters") = some (List.ofFn θ)) (hok : ok s.mem) (hG : s.grads.Good true layers)
    (hW : s.weights.Good false layers) :
    ∃ s' T' B' sz' k' vs' γ θ₁ θ', round (netOf layers L) data.name Q report run b evals s = some (s', loss θ s.mem) ∧
      Inv (netOf layers L) s'.st T' B' sz' k' vs' ∧ s'.st.read (str "parameters") = some (List.ofFn θ') ∧ ok s'.mem ∧
      s'.grads.Good true layers ∧ s'.weights.Good false layers ∧ rule θ s.mem s.grads γ θ₁ s'.mem s'.grads ∧
      Modified weightCall layers L s.weights (List.ofFn θ₁) (List.ofFn θ₁) s'.weights
        (List.ofFn (θ' : Fin (paramCount layers L) → ℝ)) := by
  obtain ⟨st₂, h2, hr2, r2⟩ := provide_ready h.laid h.data_mem hi hb
  obtain ⟨st₃, v', G', θ₁, γ, _, _, _, h3, i3, r3, o3, g3, u3, l3⟩ := hf st₂ θ s.mem s.grads hr2 (by rw [r2, hθ]) hok hG
  obtain ⟨W', st₄, θl, h4, i4, w4, r4, len, m4⟩ := weights_spec h.laid i3 hW r3
  obtain ⟨θ', rfl⟩ := exists_ofFn (n := paramCount layers L) (x := θl) (by rw [len, List.length_ofFn])
  obtain ⟨st₅, _, _, _, _, _, h5, i5, r5⟩ := evaluate_spec hQ evals he i4
  refine ⟨⟨st₅, v', G', W'⟩, _, _, _, _, _, γ, θ₁, θ', ?_, i5, by rw [r5, r4], o3, g3, w4, u3, m4⟩
  have h6 := hrep b.T b.B (memOf st₃)
  simp only [round, h2, h3, h6, h4, h5, l3, Option.bind_some, Option.map_some]

/-- A whole training. -/
theorem train_spec {S : Type} (h : Sited layers L data rest P) (hQ : Sited layers L data rest Q) (hrep : Reports P report)
    {run : ℕ → Stepper S} {batches : ℕ → Batch} {evals : ℕ → List Batch} {ok : S → Prop} {rule : ℕ → Rule (paramCount layers L) S}
    {loss : ℕ → (Fin (paramCount layers L) → ℝ) → S → ℝ}
    (hf : ∀ m, Follows layers L data P (batches m) (run m) ok (rule m) (loss m))
    (hb : ∀ m, (batches m).Good data) (he : ∀ m, ∀ b ∈ evals m, b.Good data) {s : Run S}
    (hi : Inv (netOf layers L) s.st T B sz k vs) {θ₀ : Fin (paramCount layers L) → ℝ}
    (hθ : s.st.read (str "parameters") = some (List.ofFn θ₀)) (hok : ok s.mem) (hG : s.grads.Good true layers)
    (hW : s.weights.Good false layers) :
    ∃ (r : ℕ → Run S) (θ γ θ₁ : ℕ → Fin (paramCount layers L) → ℝ), r 0 = s ∧ θ 0 = θ₀ ∧
      ∀ m, train (netOf layers L) data.name Q report run batches evals s m =
          some (r m, (List.range m).map fun i => loss i (θ i) (r i).mem) ∧
        (r m).st.read (str "parameters") = some (List.ofFn (θ m)) ∧
        rule m (θ m) (r m).mem (r m).grads (γ m) (θ₁ m) (r (m + 1)).mem (r (m + 1)).grads ∧
        Modified weightCall layers L (r m).weights (List.ofFn (θ₁ m)) (List.ofFn (θ₁ m)) (r (m + 1)).weights (List.ofFn (θ (m + 1))) := by
  -- the states that come up
  let A := { x : Run S × (Fin (paramCount layers L) → ℝ) // (∃ T B sz k vs, Inv (netOf layers L) x.1.st T B sz k vs) ∧
    x.1.st.read (str "parameters") = some (List.ofFn x.2) ∧ ok x.1.mem ∧ x.1.grads.Good true layers ∧ x.1.weights.Good false layers }
  have step : ∀ (m : ℕ) (x : A), ∃ (y : A) (γ θ₁ : Fin (paramCount layers L) → ℝ),
      round (netOf layers L) data.name Q report (run m) (batches m) (evals m) x.1.1 = some (y.1.1, loss m x.1.2 x.1.1.mem) ∧
      rule m x.1.2 x.1.1.mem x.1.1.grads γ θ₁ y.1.1.mem y.1.1.grads ∧
      Modified weightCall layers L x.1.1.weights (List.ofFn θ₁) (List.ofFn θ₁) y.1.1.weights (List.ofFn y.1.2) := by
    rintro m ⟨⟨s, θ⟩, ⟨T, B, sz, k, vs, i⟩, q1, q2, q3, q4⟩
    obtain ⟨s', _, _, _, _, _, γ, θ₁, θ', p1, p2, p3, p4, p5, p6, p7, p8⟩ := round_spec h hQ hrep (hf m) (hb m) (he m) i q1 q2 q3 q4
    exact ⟨⟨(s', θ'), ⟨_, _, _, _, _, p2⟩, p3, p4, p5, p6⟩, γ, θ₁, p1, p7, p8⟩
  choose next g t hn hr hm using step
  let x₀ : A := ⟨(s, θ₀), ⟨T, B, sz, k, vs, hi⟩, hθ, hok, hG, hW⟩
  let x : ℕ → A := fun m => Nat.rec x₀ (fun m y => next m y) m
  refine ⟨fun m => (x m).1.1, fun m => (x m).1.2, fun m => g m (x m), fun m => t m (x m), rfl, rfl, fun m => ⟨?_, (x m).2.2.1, hr m (x m),
    hm m (x m)⟩⟩
  induction m with
  | zero => rfl
  | succ m ih =>
    simp only [train, ih, hn m (x m), Option.bind_some, Option.map_some, List.range_succ, List.map_append, List.map_cons, List.map_nil]
    rfl

end

end Verif.Constrained
