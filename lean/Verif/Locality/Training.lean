import Verif.Locality.Gradients
import Verif.Descent.Props

/-!
# C92: parameters that do not influence a loss are not trained
-/

namespace Verif.Locality

open Verif.Architecture hiding demoArch
open Verif.Structure Verif.Layout Verif.Buffers Verif.Instantiate Verif.EndToEnd
open Verif.Memory hiding demoL Feeds
open Verif.Setup (Kwargs libEnv infos toInfo inp_some)
open Verif.Shapes (Supported)
open Verif.Session

/-! ### Proofs -/

/-- The entries of a parameter in the array of all parameters. -/
def Within (L : Layout) (l : LayerInfo) (x : Name) (sh : Struct) (i : ℕ) : Prop := ∃ j < sh.featureSize, i = Constrained.startOf L l.name x + j

theorem within_part {L : Layout} {l : LayerInfo} {x : Name} {sh : Struct} {θ θ' : List ℝ} (hp : ∀ i, Within L l x sh i → θ'[i]? = θ[i]?) :
    Constrained.part L l.name x sh θ' = Constrained.part L l.name x sh θ := by
  refine List.ext_getElem? fun j => ?_
  by_cases hj : j < sh.featureSize
  · rw [Constrained.part_getElem? _ _ _ _ hj, Constrained.part_getElem? _ _ _ _ hj]
    exact hp _ ⟨j, hj, rfl⟩
  · rw [List.getElem?_eq_none, List.getElem?_eq_none] <;>
    · simp only [Constrained.part, List.length_take]
      omega

section
variable (kwargs : Name → Kwargs) (a : Arch) (hk : (Dict.keys a).Nodup) (ord : Orders) (ho : ord.Ok)
  (layers : Dict Name (LayerObj Kwargs)) (h : Instantiates (libEnv kwargs) ord a (.ok layers))
  (hne : ∃ n l, Dict.get? layers n = some l ∧ l.shapes.outs ≠ []) (L : Layout) (hL : createLayout (infos layers) = .ok L)
  (tr : Trainable a) (num : Numeric a kwargs)
  (sup : ∀ n l t, Dict.get? layers n = some l → HasType a n t → Supported t l.kwargs l.inShapes)
include hk ho h hne hL tr num sup

/-- **C92, training.**  For layers that are differentiable everywhere (as in C77): training with any of the three steppers, for any number of
rounds, does not change the parameters of a layer from which no chain of connections leads to a Loss layer. -/
theorem C92_untrained (sm : Smooth a kwargs) (hno : ∀ n, ¬ HasType a n (str "Clockwork")) :
    ∃ data rest, HasType a data.name (str "Input") ∧ ∃ F : Memory.Fits (infos layers) L data rest,
      ∃ ps : Mode → ∀ T B, ∀ l ∈ rest, LibLayer (infos layers) data l T B,
      (∀ M T B l (hl : l ∈ rest) t, HasType a l.name t → Describes M t (kwargs l.name) (ps M T B l hl)) ∧
      ∀ (M M' : Mode) (n : ℕ) (st : State ℝ) (θ₀ : Fin n → ℝ), Reachable (netOf (infos layers) L) st →
        st.read (str "parameters") = some (List.ofFn θ₀) →
        ∀ (batches : ℕ → Batch) (evals : ℕ → List Batch), (∀ k, (batches k).Good data ∧ 0 < (batches k).T) →
        (∀ k, ∀ b ∈ evals k, b.Good data) → ∀ (lr μ : ℕ → ℝ) (scale : Bool) (k : ℕ) (l : LayerInfo), l ∈ infos layers →
        (∀ n, HasType a n (str "Loss") → ¬ Upstream a l.name n) → ∀ x s, (x, s) ∈ l.paramShapes →
        (∃ st' log ts, train (netOf (infos layers) L) data.name (fun T B => libNetwork F (ps M' T B)) (reported a layers L)
            (fun k => sgdRun (netOf (infos layers) L) (fun T B => libNetwork F (ps M T B)) (lr k)) batches evals (st, ()) k =
              some ((st', ()), log) ∧
          st.read (path l.name (str "parameters") x) = some ts ∧
          st'.read (path l.name (str "parameters") x) = some ts) ∧
        (∃ st' v log ts, train (netOf (infos layers) L) data.name (fun T B => libNetwork F (ps M' T B)) (reported a layers L)
            (fun k => momentumRun (netOf (infos layers) L) (fun T B => libNetwork F (ps M T B)) scale (lr k) (μ k)) batches evals
            (st, List.replicate n 0) k = some ((st', v), log) ∧
          st.read (path l.name (str "parameters") x) = some ts ∧
          st'.read (path l.name (str "parameters") x) = some ts) ∧
        (∃ st' v log ts, train (netOf (infos layers) L) data.name (fun T B => libNetwork F (ps M' T B)) (reported a layers L)
            (fun k => nesterovRun (netOf (infos layers) L) (fun T B => libNetwork F (ps M T B)) scale (lr k) (μ k)) batches evals
            (st, List.replicate n 0) k = some ((st', v), log) ∧
          st.read (path l.name (str "parameters") x) = some ts ∧
          st'.read (path l.name (str "parameters") x) = some ts) := by
  have m : Made kwargs a ord layers L := ⟨hk, ho, h, hne, hL⟩
  obtain ⟨data, rest, hdt, F, ps, hps⟩ := functions m tr num sup
  refine ⟨data, rest, hdt, F, ps, hps, fun M M' n st θ₀ hst hθ batches evals hb he lr μ scale k l hl hup x s hs => ?_⟩
  have hS := sited m F (ps M)
  have hQ := sited m F (ps M')
  have hrep := reports m F (ps M) hdt (hps M)
  have hD := right m F (ps M) sm hno (hps M)
  obtain ⟨T, B, _, _, _, i⟩ := hst.inv (netOf_wellLaid F.laid.wf F.laid.shaped F.laid.layout)
  obtain rfl := Determined.Reachable.count F.laid hst hθ
  have hzero : List.ofFn (0 : Fin (paramCount (infos layers) L) → ℝ) = List.replicate (paramCount (infos layers) L) 0 := by
    simp [List.ofFn_const, Pi.zero_def]
  have hg : ∀ b : Batch, b.Good data → 0 < b.T → ∀ θ, ∀ i : Fin (paramCount (infos layers) L), Within L l x s i →
      gradV (infos layers) L data.name (fun T B => libNetwork F (ps M T B)) (reported a layers L) b θ i = 0 := by
    rintro b hb hT θ q ⟨j, hj, hq⟩
    obtain ⟨s₀, hs₀⟩ := exists_loaded hS hb (θ := List.ofFn θ) (by simp)
    obtain ⟨p, hp⟩ : ∃ p, (cells (netOf (infos layers) L) b.T b.B (str "parameters"))[(q : ℕ)]? = some p :=
      ⟨_, List.getElem?_eq_getElem (by rw [paramCount_eq hS.laid]; exact q.2)⟩
    have key := gradV_right hS hb hT hrep hD θ q
    have e : (fun y => lossV (infos layers) L data.name (fun T B => libNetwork F (ps M T B)) (reported a layers L) b (Function.update θ q y)) =
        fun _ => totalLoss (libNetwork F (ps M b.T b.B)) (forward (libNetwork F (ps M b.T b.B)) s₀) := by
      funext y
      rw [lossV_loaded hS hb hrep (s := Function.update s₀ p y) (by
        rw [← ofFn_set]
        exact hs₀.update hS.laid hS.data_mem hb hp y)]
      exact loss_unmoved m F hb (ps M b.T b.B) (hps M b.T b.B) hs₀ hl hup hs hj (hq ▸ hp) y
    rw [e] at key
    exact key.unique (hasDerivAt_const _ _)
  have fin : ∀ {st' : State ℝ} {T B sz k : ℕ} {vs : List (Name × View)} {θ : Fin (paramCount (infos layers) L) → ℝ},
      Inv (netOf (infos layers) L) st' T B sz k vs → st'.read (str "parameters") = some (List.ofFn θ) →
      (∀ i : Fin (paramCount (infos layers) L), Within L l x s i → θ i = θ₀ i) →
      ∃ ts, st.read (path l.name (str "parameters") x) = some ts ∧
        st'.read (path l.name (str "parameters") x) = some ts := by
    intro st' T B sz k vs θ hi hr hp
    refine ⟨_, Constrained.read_part F.laid i (c := .par) (Or.inl rfl) hl hs hθ, ?_⟩
    refine (Constrained.read_part F.laid hi (c := .par) (Or.inl rfl) hl hs hr).trans (congrArg some (within_part fun i hi => ?_))
    rw [List.getElem?_ofFn, List.getElem?_ofFn]
    split
    · next h => rw [hp ⟨i, h⟩ hi]
    · rfl
  refine ⟨?_, ?_, ?_⟩
  · let θ : ℕ → Fin (paramCount (infos layers) L) → ℝ := fun k => Nat.rec θ₀ (fun k θ => θ - lr k •
      gradV (infos layers) L data.name (fun T B => libNetwork F (ps M T B)) (reported a layers L) (batches k) θ) k
    obtain ⟨st', _, _, _, _, _, h1, i1, h2⟩ := train_spec hS hQ hrep (fun k => (hb k).1) he (θ := θ) (v := fun _ => ())
      (fun k st hr hr' => sgdRun_spec hS (computes_grad hS (hb k).1 (hb k).2 hrep hD) hr hr' (lr k)) i hθ k
    obtain ⟨ts, e1, e2⟩ := fin i1 h2 fun j hj => by
      clear h1 h2
      induction k with
      | zero => rfl
      | succ k ih =>
        show θ k j - lr k * gradV _ _ _ _ _ (batches k) (θ k) j = _
        rw [hg _ (hb k).1 (hb k).2 _ j hj, mul_zero, sub_zero, ih]
    exact ⟨st', _, ts, h1, e1, e2⟩
  · let q : ℕ → (Fin (paramCount (infos layers) L) → ℝ) × (Fin (paramCount (infos layers) L) → ℝ) := fun k => Nat.rec (θ₀, 0) (fun k q =>
      (q.1 + (μ k • q.2 - rateOf scale (lr k) (μ k) • gradV (infos layers) L data.name (fun T B => libNetwork F (ps M T B)) (reported a layers L) (batches k) q.1),
        μ k • q.2 - rateOf scale (lr k) (μ k) • gradV (infos layers) L data.name (fun T B => libNetwork F (ps M T B)) (reported a layers L) (batches k) q.1)) k
    obtain ⟨st', _, _, _, _, _, h1, i1, h2⟩ := train_spec hS hQ hrep (fun k => (hb k).1) he (θ := fun k => (q k).1) (v := fun k => List.ofFn (q k).2)
      (fun k st hr hr' => momentumRun_spec hS (computes_grad hS (hb k).1 (hb k).2 hrep hD) hr hr' scale (lr k) (μ k) rfl) i hθ k
    obtain ⟨ts, e1, e2⟩ := fin i1 h2 fun j hj => by
      clear h1 h2
      have key : (q k).1 j = θ₀ j ∧ (q k).2 j = 0 := by
        induction k with
        | zero => exact ⟨rfl, rfl⟩
        | succ k ih =>
          have e : μ k * (q k).2 j - rateOf scale (lr k) (μ k) * gradV (infos layers) L data.name (fun T B => libNetwork F (ps M T B)) (reported a layers L)
              (batches k) (q k).1 j = 0 := by rw [hg _ (hb k).1 (hb k).2 _ j hj, ih.2]; ring
          refine ⟨?_, e⟩
          show (q k).1 j + _ = _
          exact (congrArg ((q k).1 j + ·) e).trans (by rw [add_zero, ih.1])
      exact key.1
    rw [show List.ofFn (q 0).2 = _ from hzero] at h1
    exact ⟨st', _, _, ts, h1, e1, e2⟩
  · let q : ℕ → (Fin (paramCount (infos layers) L) → ℝ) × (Fin (paramCount (infos layers) L) → ℝ) := fun k => Nat.rec (θ₀, 0) (fun k q =>
      (q.1 + (μ k • q.2 - rateOf scale (lr k) (μ k) • gradV (infos layers) L data.name (fun T B => libNetwork F (ps M T B)) (reported a layers L) (batches k) (q.1 + μ k • q.2)),
        μ k • q.2 - rateOf scale (lr k) (μ k) • gradV (infos layers) L data.name (fun T B => libNetwork F (ps M T B)) (reported a layers L) (batches k) (q.1 + μ k • q.2))) k
    obtain ⟨st', _, _, _, _, _, h1, i1, h2⟩ := train_spec hS hQ hrep (fun k => (hb k).1) he (θ := fun k => (q k).1) (v := fun k => List.ofFn (q k).2)
      (fun k st hr hr' => nesterovRun_spec hS (hb k).1 (computes_grad hS (hb k).1 (hb k).2 hrep hD) hr hr' scale (lr k) (μ k) rfl) i hθ k
    obtain ⟨ts, e1, e2⟩ := fin i1 h2 fun j hj => by
      clear h1 h2
      have key : (q k).1 j = θ₀ j ∧ (q k).2 j = 0 := by
        induction k with
        | zero => exact ⟨rfl, rfl⟩
        | succ k ih =>
          have e : μ k * (q k).2 j - rateOf scale (lr k) (μ k) * gradV (infos layers) L data.name (fun T B => libNetwork F (ps M T B)) (reported a layers L)
              (batches k) ((q k).1 + μ k • (q k).2) j = 0 := by rw [hg _ (hb k).1 (hb k).2 _ j hj, ih.2]; ring
          refine ⟨?_, e⟩
          show (q k).1 j + _ = _
          exact (congrArg ((q k).1 j + ·) e).trans (by rw [add_zero, ih.1])
      exact key.1
    rw [show List.ofFn (q 0).2 = _ from hzero] at h1
    exact ⟨st', _, _, ts, h1, e1, e2⟩

end

end Verif.Locality
