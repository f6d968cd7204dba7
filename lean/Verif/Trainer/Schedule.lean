import Verif.Trainer.Runs

/-! # C82: training with a schedule for the learning rate -/

namespace Verif.Trainer

open Verif.Architecture hiding demoArch
open Verif.Structure Verif.Layout Verif.Buffers Verif.Instantiate Verif.EndToEnd
open Verif.Memory hiding demoL
open Verif.Setup (Kwargs libEnv infos toInfo inp_some)
open Verif.Shapes (Supported)
open Verif.Session
open Verif.Determined (Same CanTrain Algorithm)
open Verif.Training (Env Hook Val Logs Crit Saved Event St)

/-! ### Proofs -/

theorem step_rates {S : Type} (Z : Setting S) (w : World S) : (Z.env.step w).lr = w.lr ∧ (Z.env.step w).momentum = w.momentum := by
  show ((Z.step w).getD _).lr = _ ∧ ((Z.step w).getD _).momentum = _
  cases hs : Z.step w with
  | none => exact ⟨rfl, rfl⟩
  | some w' =>
    simp only [Setting.step, Option.bind_eq_some_iff, Option.map_eq_some_iff] at hs
    obtain ⟨b, -, st, -, q, -, t, -, rfl⟩ := hs
    exact ⟨rfl, rfl⟩

theorem call_rates {S : Type} (Z : Setting S) (nm : Name) (e u : ℕ) (logs : Logs ℝ) (w : World S) :
    ((∀ sch, Dict.get? Z.hooks nm ≠ some (.modifyLr sch)) → (Z.env.call nm e u logs w).1.lr = w.lr) ∧
    ((∀ sch, Dict.get? Z.hooks nm ≠ some (.modifyMomentum sch)) → (Z.env.call nm e u logs w).1.momentum = w.momentum) := by
  show (_ → (Z.call nm e u logs w).1.lr = _) ∧ (_ → (Z.call nm e u logs w).1.momentum = _)
  unfold Setting.call
  cases Dict.get? Z.hooks nm with
  | none => exact ⟨fun _ => rfl, fun _ => rfl⟩
  | some x =>
    cases x with
    | monitor dt sc =>
      simp only [Setting.monitor]
      split
      · exact ⟨fun _ => rfl, fun _ => rfl⟩
      · split <;> exact ⟨fun _ => rfl, fun _ => rfl⟩
    | saveBest c path sc =>
      simp only [Training.saveBestHook]
      split
      · exact ⟨fun _ => rfl, fun _ => rfl⟩
      · split <;> exact ⟨fun _ => rfl, fun _ => rfl⟩
    | modifyLr sch =>
      refine ⟨fun h => absurd rfl (h sch), fun _ => ?_⟩
      simp only [Training.modifyHook]
      split <;> rfl
    | modifyMomentum sch =>
      refine ⟨fun _ => ?_, fun h => absurd rfl (h sch)⟩
      simp only [Training.modifyHook]
      split <;> rfl
    | watch look => exact ⟨fun _ => rfl, fun _ => rfl⟩

theorem const_run {W A : Type} {env : Env W ℝ} {hooks : List Hook} (get : W → A) (h1 : ∀ w, get (env.step w) = get w)
    (h2 : ∀ nm e u logs w, get (env.call nm e u logs w).1 = get w) {s s' : St W ℝ} {evs : List (St W ℝ × Event ℝ)}
    (h : Training.Run env hooks s evs s') : ∀ x ∈ evs, get x.1.w = get s.w := by
  have key : get s'.w = get s.w ∧ ∀ x ∈ evs, get x.1.w = get s.w := by
    refine Run.back (C := fun evs y => get y.w = get s.w ∧ ∀ x ∈ evs, get x.1.w = get s.w) ⟨rfl, by simp⟩ (fun L x h => h) ?_ h
    rintro L x ev y ⟨g1, g2⟩ hs
    refine ⟨?_, fun z hz => ?_⟩
    · cases hs with
      | batch => exact (h1 _).trans g1
      | call hk w st v logs hm hc hl =>
        have := h2 hk.name x.epoch x.update x.logs x.w
        rw [hc] at this
        exact this.trans g1
      | rolling => exact g1
    · rcases List.mem_append.1 hz with hz | hz
      · exact g2 z hz
      · rw [List.mem_singleton.1 hz]
        exact g1
  exact key.2

section
variable (kwargs : Name → Kwargs) (a : Arch) (hk : (Dict.keys a).Nodup) (ord : Orders) (ho : ord.Ok)
  (layers : Dict Name (LayerObj Kwargs)) (h : Instantiates (libEnv kwargs) ord a (.ok layers))
  (hne : ∃ n l, Dict.get? layers n = some l ∧ l.shapes.outs ≠ []) (L : Layout) (hL : createLayout (infos layers) = .ok L)
  (tr : Trainable a) (num : Numeric a kwargs)
  (sup : ∀ n l t, Dict.get? layers n = some l → HasType a n t → Supported t l.kwargs l.inShapes)
include hk ho h hne hL tr num sup

/-- **C82, learning rates.**  One `ModifyStepperAttribute` hook on the update timescale with interval `i` sets the learning rate, by a
schedule `f` of the number of updates, and no hook sets the momentum.  Then training does the same to the parameters as the loop without
hooks in which update number `k` (counted from 0) uses the learning rate `f (i * (k / i))`, and the monitors report the losses on their
data for the parameters of this loop. -/
theorem C82_schedule :
    ∃ data rest, HasType a data.name (str "Input") ∧ ∃ F : Memory.Fits (infos layers) L data rest,
      ∃ ps : Mode → ∀ T B, ∀ l ∈ rest, LibLayer (infos layers) data l T B,
      (∀ M T B l (hl : l ∈ rest) t, HasType a l.name t → Describes M t (kwargs l.name) (ps M T B l hl)) ∧
      ∀ (M M' : Mode), M.training = true ∨ (∀ n, ¬ HasType a n (str "Dropout")) →
        ∀ (alg : Algorithm) (epochs : ℕ → List Batch) (hooks : Dict Name (LibHook alg.Memory)) (order : List Hook) (fuel : ℕ)
          (s s' : St (World alg.Memory) ℝ) (fin : Bool) (n : ℕ) (θ₀ : Fin n → ℝ),
        (∀ e, epochs e ≠ [] ∧ ∀ b ∈ epochs e, b.Good data) →
        (∀ nm dt sc, Dict.get? hooks nm = some (.monitor dt sc) → ∀ e u, ∀ b ∈ dt e u, b.Good data) →
        Fresh s.w → s.trace = [] → s.update = 0 → CanTrain (infos layers) (netOf (infos layers) L) (alg.Ok n) s.w.run →
        s.w.run.st.read (str "parameters") = some (List.ofFn θ₀) →
        Training.train (trainingOf a layers L data.name (fun T B => libNetwork F (ps M T B)) (fun T B => libNetwork F (ps M' T B)) alg
          epochs hooks).env order fuel s = some (s', fin) →
        ∀ (nm : Name) (i : ℕ) (schedule : ℕ → ℕ → Option ℝ) (f : ℕ → ℝ),
        (⟨nm, false, i⟩ : Hook) ∈ order → (order.map Hook.name).Nodup → Dict.get? hooks nm = some (.modifyLr schedule) →
        (∀ nm' sch, Dict.get? hooks nm' = some (.modifyLr sch) → nm' = nm) → (∀ nm' sch, Dict.get? hooks nm' ≠ some (.modifyMomentum sch)) →
        (∀ e u x, schedule e u = some x → x = f u) →
        ∃ (r : ℕ → Constrained.Run alg.Memory) (θ : ℕ → Fin n → ℝ) (loss : ℕ → ℝ) (valid : Batch → (Fin n → ℝ) → ℝ),
          (∀ k ≤ s'.update,
            Constrained.train (netOf (infos layers) L) data.name (fun T B => libNetwork F (ps M' T B)) (reported a layers L)
              (fun k => alg.run (netOf (infos layers) L) (fun T B => libNetwork F (ps M T B)) (f (i * (k / i))) s.w.momentum) (batchNr epochs)
              (fun _ => []) s.w.run k = some (r k, (List.range k).map loss) ∧
            (r k).st.read (str "parameters") = some (List.ofFn (θ k))) ∧
          Same (infos layers) (r s'.update) s'.w.run ∧
          (∀ b : Batch, b.Good data → ∀ ϑ : Fin n → ℝ, lossOf (netOf (infos layers) L) data.name (fun T B => libNetwork F (ps M' T B))
            (reported a layers L) b (List.ofFn ϑ) = some (valid b ϑ)) ∧
          (∀ sc nm e u st v dt scorers, .call sc nm e u st v ∈ s'.trace → Dict.get? hooks nm = some (.monitor dt scorers) →
            (∀ x ∈ scorers, x.name ≠ str "total_loss") →
            Training.valuesOf (Training.leaves nm v) [nm, str "total_loss"] =
              [meanLoss ((dt e u).map fun b => (b.B, valid b (θ u)))]) := by
  have m : Made kwargs a ord layers L := ⟨hk, ho, h, hne, hL⟩
  obtain ⟨data, rest, hdt, F, ps, hps⟩ := functions m tr num sup
  refine ⟨data, rest, hdt, F, ps, hps, ?_⟩
  intro M M' hM alg epochs hooks order fuel s s' fin n θ₀ he hmon hs h0 hu hc hθ₀ htr nm i sch f hin hnd hg hlr hmu hf
  obtain rfl := Determined.Reachable.count F.laid hc.state hθ₀
  have K := known (M := M) (M' := M') m F hdt hps hM alg he hmon
  obtain ⟨evs, h1, h2, h3, -⟩ := Training.C66_schedule _ order fuel s s' fin h0 htr nm false i hin hnd (fun w => w.lr)
    (fun x w => { w with lr := x }) (fun _ _ => rfl) sch (by
      show Setting.call _ nm = _
      unfold Setting.call
      rw [show Dict.get? (trainingOf a layers L data.name (fun T B => libNetwork F (ps M T B)) (fun T B => libNetwork F (ps M' T B)) alg
        epochs hooks).hooks nm = _ from hg])
    ⟨fun w => (step_rates _ w).1, fun nm' e u logs w hn => (call_rates _ nm' e u logs w).1 fun sch' hg' => hn (hlr nm' sch' hg')⟩ f
    (fun e u x hx => by simpa using hf e u x hx) (.inl (by simp [St.count, hu]))
  have h4 := const_run (fun w : World alg.Memory => w.momentum) (fun w => (step_rates _ w).2)
    (fun nm' e u logs w => (call_rates _ nm' e u logs w).2 (hmu nm')) h1
  obtain ⟨rates, r, loss, T⟩ := run_tracks K hs hc h1
  obtain ⟨θ, hθ⟩ := T.params K
  have hN : s'.update - s.update = s'.w.nr epochs := T.here.nr
  rw [hu, Nat.sub_zero] at hN
  have hrates : ∀ k < s'.update, rates k = (f (i * (k / i)), s.w.momentum) := by
    intro k hk
    rw [hN] at hk
    obtain ⟨⟨y, ev⟩, hy, hb, hyk⟩ := T.each k hk
    cases ev with
    | call => cases hb
    | rolling => cases hb
    | batch e u =>
      have h5 : y.update = s.update + k := by rw [← hyk]; exact (T.past _ hy).1.count
      obtain ⟨pre, post, hpp⟩ := List.append_of_mem hy
      obtain ⟨s₁, -, hst, -⟩ := h1.split pre post _ hpp
      have h6 : u = y.update + 1 := step_batch hst
      have h7 := (T.batch _ hy rfl).2
      have h8 := h3 y e u hy
      have h9 := h4 _ hy
      have hyk' : y.w.nr epochs = k := hyk
      simp only [Bool.false_eq_true, if_false, show u - 1 = k by omega] at h8
      rw [← hyk', ← hyk'] at *
      exact h7.trans (Prod.ext h8 h9)
  refine ⟨r, θ, loss, lossV (infos layers) L data.name (fun T B => libNetwork F (ps M' T B)) (reported a layers L), ?_, ?_, ?_, ?_⟩
  · intro k hk
    refine ⟨?_, hθ k (hN ▸ hk)⟩
    rw [← (T.plain k (hN ▸ hk)).1]
    refine train_congr k fun j hj => ?_
    show _ = alg.run _ _ (rates j).1 (rates j).2
    rw [hrates j (by omega)]
  · rw [hN]
    exact T.here.same
  · exact fun b hb ϑ => lossV_eq K.sitedQ hb K.reportsQ ϑ
  · intro sc nm e u st v dt scorers hm hg hsc
    rw [h2] at hm
    obtain ⟨⟨y, ev⟩, hy, rfl⟩ := List.mem_map.1 hm
    have := monitor_event K h1 T hθ hy hg hsc
    rw [hu, Nat.sub_zero] at this
    exact this

end

end Verif.Trainer
