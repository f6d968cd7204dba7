import Verif.Session.Passes
import Mathlib.Analysis.Calculus.Deriv.Basic

/-! # Proofs for C77: the steppers -/

namespace Verif.Session

open Verif.Structure Verif.Layout Verif.Buffers Verif.Memory

theorem ofFn_set {n : ℕ} (θ : Fin n → ℝ) (i : Fin n) (x : ℝ) :
    (List.ofFn θ).set i x = List.ofFn (Function.update θ i x) := by
  refine List.ext_getElem (by simp) fun j h1 h2 => ?_
  simp only [List.getElem_set, List.getElem_ofFn]
  split
  · rename_i e
    have : (⟨j, by simpa using h1⟩ : Fin n) = i := Fin.ext e.symm
    rw [this]; simp
  · rename_i e
    rw [Function.update_of_ne]
    intro h
    exact e (congrArg Fin.val h).symm

theorem zipWith_ofFn {n : ℕ} (f : ℝ → ℝ → ℝ) (a b : Fin n → ℝ) :
    List.zipWith f (List.ofFn a) (List.ofFn b) = List.ofFn fun i => f (a i) (b i) :=
  List.ext_getElem (by simp) fun j h1 h2 => by simp

theorem map_ofFn' {n : ℕ} (f : ℝ → ℝ) (a : Fin n → ℝ) : (List.ofFn a).map f = List.ofFn fun i => f (a i) := by
  rw [List.map_ofFn]; rfl

section
variable {layers : List LayerInfo} {L : Layout} {data : LayerInfo} {rest : List LayerInfo} {b : Batch} {st : State ℝ}
variable {P Q : ℕ → ℕ → List MLayer} {report : ℕ → ℕ → Mem → Option ℝ}

/-- The loss as a function on the parameter space. -/
noncomputable def lossV (layers : List LayerInfo) (L : Layout) (input : Name) (P : ℕ → ℕ → List MLayer)
    (report : ℕ → ℕ → Mem → Option ℝ) (b : Batch) (θ : Fin (paramCount layers L) → ℝ) : ℝ :=
  (lossOf (netOf layers L) input P report b (List.ofFn θ)).getD 0

/-- Its partial derivatives. -/
noncomputable def gradV (layers : List LayerInfo) (L : Layout) (input : Name) (P : ℕ → ℕ → List MLayer)
    (report : ℕ → ℕ → Mem → Option ℝ) (b : Batch) (θ : Fin (paramCount layers L) → ℝ) : Fin (paramCount layers L) → ℝ :=
  fun i => deriv (fun x => lossV layers L input P report b (Function.update θ i x)) (θ i)

/-- The passes compute derivatives. -/
def Right (layers : List LayerInfo) (L : Layout) (P : ℕ → ℕ → List MLayer) : Prop :=
  ∀ T B, 0 < T → ∀ (s : Mem) (i p g : ℕ), (cells (netOf layers L) T B (str "parameters"))[i]? = some p →
    (cells (netOf layers L) T B (str "gradients"))[i]? = some g →
    HasDerivAt (fun x => totalLoss (P T B) (forward (P T B) (Function.update s p x)))
      (backward (backCells (netOf layers L) T B) (P T B) (forward (P T B) s) g) (s p)

/-- `report` reports the total loss. -/
def Reports (P : ℕ → ℕ → List MLayer) (report : ℕ → ℕ → Mem → Option ℝ) : Prop :=
  ∀ T B m, report T B m = some (totalLoss (P T B) m)

/-- Such a memory always exists: that of a new network with these parameters and this batch. -/
theorem exists_loaded (h : Sited layers L data rest P) (hb : b.Good data) {θ : List ℝ} (hθ : θ.length = paramCount layers L) :
    ∃ s, Loaded (netOf layers L) data.name b θ s := by
  have hwl := netOf_wellLaid h.laid.wf h.laid.shaped h.laid.layout
  obtain ⟨st₀, k₀, vs₀, h0, i0⟩ := create_inv (V := ℝ) hwl
  obtain ⟨st₁, h1, i1, r1, -⟩ := write_report h i0 hθ
  obtain ⟨st₂, h2, hr2, r2⟩ := provide_ready h.laid h.data_mem i1 hb
  exact ⟨_, before_loaded h.laid h.data_mem hb hr2 (θ := θ) (by rw [r2, r1])⟩

theorem lossV_eq (h : Sited layers L data rest P) (hb : b.Good data) (hrep : Reports P report)
    (θ : Fin (paramCount layers L) → ℝ) :
    lossOf (netOf layers L) data.name P report b (List.ofFn θ) = some (lossV layers L data.name P report b θ) := by
  obtain ⟨s, hs⟩ := exists_loaded h hb (θ := List.ofFn θ) (by simp)
  unfold lossV
  rw [lossOf_eq h hb (hrep _ _) hs]
  rfl

theorem lossV_loaded (h : Sited layers L data rest P) (hb : b.Good data) (hrep : Reports P report)
    {θ : Fin (paramCount layers L) → ℝ} {s : Mem} (hs : Loaded (netOf layers L) data.name b (List.ofFn θ) s) :
    lossV layers L data.name P report b θ = totalLoss (P b.T b.B) (forward (P b.T b.B) s) := by
  unfold lossV
  rw [lossOf_eq h hb (hrep _ _) hs]
  rfl

/-- The backward pass computes the partial derivatives of the loss. -/
theorem grad_loaded (h : Sited layers L data rest P) (hb : b.Good data) (hT : 0 < b.T) (hrep : Reports P report)
    (hD : Right layers L P) {θ : Fin (paramCount layers L) → ℝ} {s : Mem}
    (hs : Loaded (netOf layers L) data.name b (List.ofFn θ) s) (i : Fin (paramCount layers L)) {g : ℕ}
    (hg : (cells (netOf layers L) b.T b.B (str "gradients"))[(i : ℕ)]? = some g) :
    HasDerivAt (fun x => lossV layers L data.name P report b (Function.update θ i x))
      (backward (backCells (netOf layers L) b.T b.B) (P b.T b.B) (forward (P b.T b.B) s) g) (θ i) := by
  obtain ⟨p, hp⟩ : ∃ p, (cells (netOf layers L) b.T b.B (str "parameters"))[(i : ℕ)]? = some p :=
    ⟨_, List.getElem?_eq_getElem (by rw [paramCount_eq h.laid]; exact i.2)⟩
  have key := hD b.T b.B hT s i p g hp hg
  have hsp : s p = θ i := by
    have h1 : ((cells (netOf layers L) b.T b.B (str "parameters")).map s)[(i : ℕ)]? = some (s p) := by
      rw [List.getElem?_map, hp]; rfl
    rw [hs.params, List.getElem?_ofFn] at h1
    simpa using h1.symm
  rw [hsp] at key
  have e : (fun x => lossV layers L data.name P report b (Function.update θ i x)) =
      fun x => totalLoss (P b.T b.B) (forward (P b.T b.B) (Function.update s p x)) := by
    funext x
    refine lossV_loaded h hb hrep ?_
    rw [← ofFn_set]
    exact hs.update h.laid h.data_mem hb hp x
  rw [e]
  exact key

theorem gradV_right (h : Sited layers L data rest P) (hb : b.Good data) (hT : 0 < b.T) (hrep : Reports P report)
    (hD : Right layers L P) (θ : Fin (paramCount layers L) → ℝ) (i : Fin (paramCount layers L)) :
    HasDerivAt (fun x => lossV layers L data.name P report b (Function.update θ i x)) (gradV layers L data.name P report b θ i)
      (θ i) := by
  obtain ⟨s, hs⟩ := exists_loaded h hb (θ := List.ofFn θ) (by simp)
  have := grad_loaded h hb hT hrep hD hs i
    (List.getElem?_eq_getElem (by rw [gradCount_eq h.laid]; exact i.2))
  exact this.differentiableAt.hasDerivAt

/-- Whatever the state of the network, both passes on the batch compute `loss` and `grad` of the parameters. -/
def Computes (layers : List LayerInfo) (L : Layout) (data : LayerInfo) (P : ℕ → ℕ → List MLayer) (b : Batch)
    (loss : (Fin (paramCount layers L) → ℝ) → ℝ) (grad : (Fin (paramCount layers L) → ℝ) → Fin (paramCount layers L) → ℝ) : Prop :=
  ∀ (st : State ℝ) (θ : Fin (paramCount layers L) → ℝ), Ready layers L data b st → st.read (str "parameters") = some (List.ofFn θ) →
    ∃ st₁ st₂ sz k vs, forwardPass (netOf layers L) P b.rnd st = some st₁ ∧ backwardPass (netOf layers L) P b.rnd st₁ = some st₂ ∧
      Inv (netOf layers L) st₂ b.T b.B sz k vs ∧
      st₂.read (str "parameters") = some (List.ofFn θ) ∧ st₂.read (str "gradients") = some (List.ofFn (grad θ)) ∧
      totalLoss (P b.T b.B) (memOf st₂) = loss θ

/-- Both passes, in terms of the loss. -/
theorem computes_grad (h : Sited layers L data rest P) (hb : b.Good data) (hT : 0 < b.T) (hrep : Reports P report)
    (hD : Right layers L P) :
    Computes layers L data P b (lossV layers L data.name P report b) (gradV layers L data.name P report b) := by
  intro st θ hr hθ
  obtain ⟨st₁, st₂, s, sz, k, vs, h1, h2, h3, hs, h4, h5, h6⟩ := passes_spec h hb hr hθ
  refine ⟨st₁, st₂, sz, k, vs, h1, h2, h3, h4, ?_, ?_⟩
  · rw [h5]
    congr 1
    refine List.ext_getElem (by simp [gradCount_eq h.laid]) fun j j1 j2 => ?_
    rw [List.getElem_map, List.getElem_ofFn]
    have hj : j < paramCount layers L := by simpa using j2
    exact (grad_loaded h hb hT hrep hD hs ⟨j, hj⟩ (List.getElem?_eq_getElem _)).unique
      (gradV_right h hb hT hrep hD θ ⟨j, hj⟩)
  · rw [lossV_loaded h hb hrep hs]
    exact totalLoss_congr (h.site _ _) h6

/-- A whole training. -/
theorem train_spec {S : Type} (h : Sited layers L data rest P) (hQ : Sited layers L data rest Q) (hrep : Reports P report)
    {run : ℕ → Stepper S} {batches : ℕ → Batch} {evals : ℕ → List Batch} (hb : ∀ m, (batches m).Good data)
    (he : ∀ m, ∀ b ∈ evals m, b.Good data) {θ : ℕ → Fin (paramCount layers L) → ℝ} {v : ℕ → S} {losses : ℕ → ℝ}
    (hstep : ∀ m st, Ready layers L data (batches m) st → st.read (str "parameters") = some (List.ofFn (θ m)) →
      ∃ st' sz k vs, run m (batches m).rnd (st, v m) = some (st', v (m + 1)) ∧
        Inv (netOf layers L) st' (batches m).T (batches m).B sz k vs ∧
        st'.read (str "parameters") = some (List.ofFn (θ (m + 1))) ∧
        totalLoss (P (batches m).T (batches m).B) (memOf st') = losses m)
    {T B sz k : ℕ} {vs : List (Name × View)} (hi : Inv (netOf layers L) st T B sz k vs)
    (h0 : st.read (str "parameters") = some (List.ofFn (θ 0))) :
    ∀ m, ∃ st' T B sz k vs, train (netOf layers L) data.name Q report run batches evals (st, v 0) m =
        some ((st', v m), (List.range m).map losses) ∧ Inv (netOf layers L) st' T B sz k vs ∧
      st'.read (str "parameters") = some (List.ofFn (θ m))
  | 0 => ⟨st, _, _, _, _, _, rfl, hi, h0⟩
  | m + 1 => by
    obtain ⟨st₁, _, _, _, _, _, h1, i1, r1⟩ := train_spec h hQ hrep hb he hstep hi h0 m
    obtain ⟨st₂, h2, hr2, r2⟩ := provide_ready h.laid h.data_mem i1 (hb m)
    obtain ⟨st₃, _, _, _, h3, i3, r3, l3⟩ := hstep m st₂ hr2 (by rw [r2, r1])
    obtain ⟨st₄, _, _, _, _, _, h4, i4, r4⟩ := evaluate_spec hQ (evals m) (he m) i3
    refine ⟨st₄, _, _, _, _, _, ?_, i4, by rw [r4, r3]⟩
    have h5 := hrep (batches m).T (batches m).B (memOf st₃)
    simp only [train, h1, round, h2, h3, h5, h4, l3, Option.bind_some, Option.map_some, List.range_succ, List.map_append,
      List.map_cons, List.map_nil]

theorem sgdRun_spec (h : Sited layers L data rest P) {loss} {grad} (hc : Computes layers L data P b loss grad)
    (hr : Ready layers L data b st) {θ : Fin (paramCount layers L) → ℝ}
    (hθ : st.read (str "parameters") = some (List.ofFn θ)) (lr : ℝ) :
    ∃ st' sz k vs, sgdRun (netOf layers L) P lr b.rnd (st, ()) = some (st', ()) ∧
      Inv (netOf layers L) st' b.T b.B sz k vs ∧
      st'.read (str "parameters") = some (List.ofFn (θ - lr • grad θ)) ∧
      totalLoss (P b.T b.B) (memOf st') = loss θ := by
  obtain ⟨st₁, st₂, sz, k, vs, h1, h2, i2, r2, g2, l2⟩ := hc st θ hr hθ
  obtain ⟨st₃, h3, i3, r3, o3⟩ := write_report h i2 (θ := List.ofFn (θ - lr • grad θ)) (by simp)
  refine ⟨st₃, sz, k, vs, ?_, i3, r3, by rw [← l2]; exact totalLoss_congr (h.site _ _) o3⟩
  have e : List.zipWith (· + ·) ((List.ofFn (grad θ)).map (-lr * ·)) (List.ofFn θ) =
      List.ofFn (θ - lr • grad θ) := by
    rw [map_ofFn', zipWith_ofFn]
    congr 1
    funext i
    simp only [Pi.sub_apply, Pi.smul_apply, smul_eq_mul]
    ring
  simp only [sgdRun, h1, h2, r2, g2, Option.bind_some, e, h3, Option.map_some]

theorem momentumRun_spec (h : Sited layers L data rest P) {loss} {grad} (hc : Computes layers L data P b loss grad)
    (hr : Ready layers L data b st) {θ v : Fin (paramCount layers L) → ℝ}
    (hθ : st.read (str "parameters") = some (List.ofFn θ)) (scale : Bool) (lr μ : ℝ) {v' : Fin (paramCount layers L) → ℝ}
    (hv' : v' = μ • v - rateOf scale lr μ • grad θ) :
    ∃ st' sz k vs, momentumRun (netOf layers L) P scale lr μ b.rnd (st, List.ofFn v) = some (st', List.ofFn v') ∧
      Inv (netOf layers L) st' b.T b.B sz k vs ∧ st'.read (str "parameters") = some (List.ofFn (θ + v')) ∧
      totalLoss (P b.T b.B) (memOf st') = loss θ := by
  obtain ⟨st₁, st₂, sz, k, vs, h1, h2, i2, r2, g2, l2⟩ := hc st θ hr hθ
  obtain ⟨st₃, h3, i3, r3, o3⟩ := write_report h i2 (θ := List.ofFn (θ + v')) (by simp)
  refine ⟨st₃, sz, k, vs, ?_, i3, r3, by rw [← l2]; exact totalLoss_congr (h.site _ _) o3⟩
  have e1 : List.zipWith (fun g v => -rateOf scale lr μ * g + v) (List.ofFn (grad θ))
      ((List.ofFn v).map (μ * ·)) = List.ofFn v' := by
    rw [map_ofFn', zipWith_ofFn, hv']
    congr 1
    funext i
    simp only [Pi.sub_apply, Pi.smul_apply, smul_eq_mul]
    ring
  have e2 : List.zipWith (· + ·) (List.ofFn v') (List.ofFn θ) = List.ofFn (θ + v') := by
    rw [zipWith_ofFn]
    congr 1
    funext i
    simp only [Pi.add_apply]
    ring
  unfold rateOf at e1
  simp only [momentumRun, h1, h2, r2, g2, Option.bind_some, e1, e2, h3, Option.map_some]

theorem nesterovRun_spec (h : Sited layers L data rest P) (hb : b.Good data) {loss} {grad} (hc : Computes layers L data P b loss grad)
    (hr : Ready layers L data b st) {θ v : Fin (paramCount layers L) → ℝ}
    (hθ : st.read (str "parameters") = some (List.ofFn θ)) (scale : Bool) (lr μ : ℝ) {v' : Fin (paramCount layers L) → ℝ}
    (hv' : v' = μ • v - rateOf scale lr μ • grad (θ + μ • v)) :
    ∃ st' sz k vs, nesterovRun (netOf layers L) P scale lr μ b.rnd (st, List.ofFn v) = some (st', List.ofFn v') ∧
      Inv (netOf layers L) st' b.T b.B sz k vs ∧ st'.read (str "parameters") = some (List.ofFn (θ + v')) ∧
      totalLoss (P b.T b.B) (memOf st') = loss (θ + μ • v) := by
  obtain ⟨st₀, h0, hr0, r0⟩ := write_ready h.laid h.data_mem hb hr (θ := List.ofFn (θ + μ • v)) (by simp [paramCount_eq h.laid])
  obtain ⟨st₁, st₂, sz, k, vs, h1, h2, i2, r2, g2, l2⟩ := hc st₀ _ hr0 r0
  obtain ⟨st₃, h3, i3, r3, o3⟩ := write_report h i2 (θ := List.ofFn (θ + v')) (by simp)
  refine ⟨st₃, sz, k, vs, ?_, i3, r3, by rw [← l2]; exact totalLoss_congr (h.site _ _) o3⟩
  have e0 : List.zipWith (· + ·) ((List.ofFn v).map (μ * ·)) (List.ofFn θ) = List.ofFn (θ + μ • v) := by
    rw [map_ofFn', zipWith_ofFn]
    congr 1
    funext i
    simp only [Pi.add_apply, Pi.smul_apply, smul_eq_mul]
    ring
  have e1 : List.zipWith (fun g v => -rateOf scale lr μ * g + v) (List.ofFn (grad (θ + μ • v)))
      ((List.ofFn v).map (μ * ·)) = List.ofFn v' := by
    rw [map_ofFn', zipWith_ofFn, hv']
    congr 1
    funext i
    simp only [Pi.sub_apply, Pi.smul_apply, smul_eq_mul]
    ring
  have e2 : List.zipWith (fun g p => -rateOf scale lr μ * g + p) (List.ofFn (grad (θ + μ • v)))
      (List.ofFn (θ + μ • v)) = List.ofFn (θ + v') := by
    rw [zipWith_ofFn, hv']
    congr 1
    funext i
    simp only [Pi.add_apply, Pi.sub_apply, Pi.smul_apply, smul_eq_mul]
    ring
  unfold rateOf at e1 e2
  simp only [nesterovRun, hθ, e0, h0, h1, h2, r2, g2, Option.bind_some, e1, e2, h3, Option.map_some]

end

end Verif.Session
