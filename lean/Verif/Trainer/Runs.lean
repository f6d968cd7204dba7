import Verif.Trainer.Props

/-! # Proofs for C82: trainings that do not raise -/

namespace Verif.Trainer

open Verif.Structure Verif.Layout Verif.Buffers Verif.Memory Verif.Session
open Verif.Determined (Same CanTrain Algorithm)
open Verif.Training (Env Hook Val Log Logs Res Crit Saved Event St Step addLog addEntries leafAt emitHooks callHook)

/-! ### Logs -/

/-- All entries are lists that are not empty. -/
def Flat (sub : Logs ℝ) : Prop := ∀ n l, Dict.get? sub n = some l → ∃ vs, vs ≠ [] ∧ l = .values vs

/-- The log of a monitor is as it should be. -/
def LogOk (logs : Logs ℝ) (nm : Name) : Prop := ∀ l, Dict.get? logs nm = some l → ∃ sub, l = .dict sub ∧ Flat sub

theorem entries_flat : ∀ (d : Dict Name ℝ) (sub : Logs ℝ), Flat sub → ∃ sub', addEntries (d.map fun x => (x.1, Val.leaf x.2)) sub = some sub' ∧ Flat sub' ∧
    ∀ n, (n ∈ Dict.keys d ∨ Dict.get? sub n ≠ none) → Dict.get? sub' n ≠ none
  | [], sub, h => ⟨sub, rfl, h, fun n hn => hn.resolve_left (by simp [Dict.keys])⟩
  | (k, v) :: d, sub, h => by
    obtain ⟨sub₁, h1, h2, h3⟩ : ∃ sub₁, addLog k (.leaf v) sub = some sub₁ ∧ Flat sub₁ ∧ ∀ n, n = k ∨ Dict.get? sub n ≠ none → Dict.get? sub₁ n ≠ none := by
      have key : ∀ vs : List ℝ, vs ≠ [] → Flat (Dict.set sub k (.values vs)) ∧ ∀ n, n = k ∨ Dict.get? sub n ≠ none →
          Dict.get? (Dict.set sub k (.values vs)) n ≠ none := by
        intro vs hvs
        refine ⟨fun n l hl => ?_, fun n hn => ?_⟩
        · rw [Dict.get?_set] at hl
          split at hl
          · cases hl
            exact ⟨vs, hvs, rfl⟩
          · exact h n l hl
        · rw [Dict.get?_set]
          split
          · simp
          · rename_i hne
            exact hn.resolve_left (Ne.symm hne)
      unfold addLog
      cases hg : Dict.get? sub k with
      | none => exact ⟨_, rfl, key [v] (by simp)⟩
      | some l =>
        obtain ⟨vs, -, rfl⟩ := h k l hg
        exact ⟨_, rfl, key (vs ++ [v]) (by simp)⟩
    obtain ⟨sub', h4, h5, h6⟩ := entries_flat d sub₁ h2
    refine ⟨sub', ?_, h5, fun n hn => h6 n ?_⟩
    · rw [List.map_cons, addEntries, h1]
      exact h4
    · rcases hn with hn | hn
      · rcases List.mem_cons.1 hn with rfl | hn
        · exact .inr (h3 _ (.inl rfl))
        · exact .inl hn
      · exact .inr (h3 n (.inr hn))

theorem addLog_dict {logs : Logs ℝ} {nm : Name} (h : LogOk logs nm) (d : Dict Name ℝ) :
    ∃ logs', addLog nm (.dict (d.map fun x => (x.1, Val.leaf x.2))) logs = some logs' ∧ LogOk logs' nm ∧
      (∀ n, n ≠ nm → Dict.get? logs' n = Dict.get? logs n) ∧
      (∀ n ∈ Dict.keys d, ∃ vs, vs ≠ [] ∧ leafAt logs' [nm, n] = some vs) ∧
      (∀ n vs, leafAt logs [nm, n] = some vs → ∃ vs', vs' ≠ [] ∧ leafAt logs' [nm, n] = some vs') := by
  have key : ∀ sub, Flat sub → (∀ n vs, leafAt logs [nm, n] = some vs → Dict.get? sub n ≠ none) →
      ∃ sub', addEntries (d.map fun x => (x.1, Val.leaf x.2)) sub = some sub' ∧ LogOk (Dict.set logs nm (.dict sub')) nm ∧
      (∀ n, n ≠ nm → Dict.get? (Dict.set logs nm (.dict sub')) n = Dict.get? logs n) ∧
      (∀ n ∈ Dict.keys d, ∃ vs, vs ≠ [] ∧ leafAt (Dict.set logs nm (.dict sub')) [nm, n] = some vs) ∧
      (∀ n vs, leafAt logs [nm, n] = some vs → ∃ vs', vs' ≠ [] ∧ leafAt (Dict.set logs nm (.dict sub')) [nm, n] = some vs') := by
    intro sub hf hl
    obtain ⟨sub', h1, h2, h3⟩ := entries_flat d sub hf
    have hleaf : ∀ n, Dict.get? sub' n ≠ none → ∃ vs, vs ≠ [] ∧ leafAt (Dict.set logs nm (.dict sub')) [nm, n] = some vs := by
      intro n hn
      cases hg : Dict.get? sub' n with
      | none => exact absurd hg hn
      | some l =>
        obtain ⟨vs, hvs, rfl⟩ := h2 n l hg
        exact ⟨vs, hvs, by simp [leafAt, Dict.get?_set_self, hg]⟩
    refine ⟨sub', h1, fun l hl => ?_, fun n hn => Dict.get?_set_ne _ _ _ _ (Ne.symm hn), fun n hn => hleaf n (h3 n (.inl hn)),
      fun n vs hv => hleaf n (h3 n (.inr (hl n vs hv)))⟩
    rw [Dict.get?_set_self] at hl
    cases hl
    exact ⟨sub', rfl, h2⟩
  unfold addLog
  cases hg : Dict.get? logs nm with
  | none =>
    obtain ⟨sub', h1, h2⟩ := key [] (fun n l hl => by simp at hl) (fun n vs hv => by simp [leafAt, hg] at hv)
    exact ⟨_, by simp [h1], h2⟩
  | some l =>
    obtain ⟨sub, rfl, hf⟩ := h l hg
    obtain ⟨sub', h1, h2⟩ := key sub hf (fun n vs hv => by
      intro hn
      simp [leafAt, hg, hn] at hv)
    exact ⟨_, by simp [h1], h2⟩

/-! ### Hooks that do not raise -/

section
variable {layers : List LayerInfo} {L : Layout} {data : LayerInfo} {rest : List LayerInfo} {P : ℕ → ℕ → List MLayer}
variable {report : ℕ → ℕ → Mem → Option ℝ} {alg : Algorithm} {Z : Setting alg.Memory} {order : List Hook}

/-- What holds during the training. -/
structure Sane (Z : Setting alg.Memory) (order : List Hook) (s x : St (World alg.Memory) ℝ) : Prop where
  run : ∃ evs, Training.Run Z.env order s evs x
  ok : ∀ nm, LogOk x.logs nm ∨ (nm ≠ str "rolling_training" ∧ ¬ Monitored Z.hooks order nm)

/-- One call. -/
theorem call_sane (K : Known layers L data rest P report alg Z) {s x : St (World alg.Memory) ℝ} (hs : Fresh s.w)
    (hc : CanTrain layers Z.net (alg.Ok (paramCount layers L)) s.w.run)
    (hh : ∀ nm ∈ order.map Hook.name, nm ≠ str "rolling_training" ∧ ∃ x, Dict.get? Z.hooks nm = some x ∧ Harmless Z.hooks order x)
    {hk : Hook} (hm : hk ∈ order) (h : Sane Z order s x) (he : x.epoch = 0 ∨ AllLogged Z.hooks order x.logs) :
    ∃ x' b, callHook Z.env hk x = some (x', b) ∧ Sane Z order s x' ∧ x'.epoch = x.epoch ∧ x'.update = x.update ∧
      (∀ mon, (Monitored Z.hooks order mon ∧ mon = hk.name) ∨ (∃ vs, vs ≠ [] ∧ leafAt x.logs [mon, str "total_loss"] = some vs) →
        ∃ vs, vs ≠ [] ∧ leafAt x'.logs [mon, str "total_loss"] = some vs) := by
  obtain ⟨evs, hr⟩ := h.run
  obtain ⟨rates, r, loss, T⟩ := run_tracks K hs hc hr
  obtain ⟨hnr, y, hy, hharm⟩ := hh hk.name (List.mem_map.2 ⟨hk, hm, rfl⟩)
  -- calls that log nothing
  have quiet : ∀ w (stop : Bool), Z.env.call hk.name x.epoch x.update x.logs x.w = (w, if stop then .stop .none else .value .none) →
      (¬ ∃ dt, Dict.get? Z.hooks hk.name = some (.monitor dt [])) → ∃ x' b, callHook Z.env hk x = some (x', b) ∧ Sane Z order s x' ∧ x'.epoch = x.epoch ∧ x'.update = x.update ∧
      (∀ mon, (Monitored Z.hooks order mon ∧ mon = hk.name) ∨ (∃ vs, vs ≠ [] ∧ leafAt x.logs [mon, str "total_loss"] = some vs) →
        ∃ vs, vs ≠ [] ∧ leafAt x'.logs [mon, str "total_loss"] = some vs) := by
    intro w stop hcall hmon
    have hst := Training.Step.call (env := Z.env) (hooks := order) x hk w stop .none x.logs hm hcall rfl
    refine ⟨_, stop, ?_, ⟨⟨_, hr.append (.cons _ _ _ _ _ hst (.nil _))⟩, h.ok⟩, rfl, rfl, ?_⟩
    · unfold callHook
      rw [hcall]
      cases stop <;> rfl
    · rintro mon (⟨⟨-, dt, hdt⟩, rfl⟩ | hv)
      · exact absurd ⟨dt, hdt⟩ hmon
      · exact hv
  have hcallx : Z.env.call hk.name = Z.call hk.name := rfl
  cases y with
  | monitor dt sc =>
    obtain ⟨hsc, hd⟩ : sc = [] ∧ ∀ e u, dt e u ≠ [] := hharm
    subst hsc
    obtain ⟨w', ls, h1, h2⟩ := monitor_runs K T.here.can x.logs (hd x.epoch x.update) (K.monitors _ _ _ hy x.epoch x.update)
    have hcall : Z.env.call hk.name x.epoch x.update x.logs x.w = (w', .value (.dict (ls.map fun x => (x.1, .leaf x.2)))) := by
      rw [hcallx, ← h1]
      unfold Setting.call
      rw [hy]
    have hMon : Monitored Z.hooks order hk.name := ⟨List.mem_map.2 ⟨hk, hm, rfl⟩, dt, hy⟩
    obtain ⟨logs', g1, g2, g3, g4, g5⟩ := addLog_dict ((h.ok hk.name).resolve_right fun hn => hn.2 hMon) ls
    have hst := Training.Step.call (env := Z.env) (hooks := order) x hk w' false _ logs' hm hcall g1
    refine ⟨_, false, ?_, ⟨⟨_, hr.append (.cons _ _ _ _ _ hst (.nil _))⟩, fun nm => ?_⟩, rfl, rfl, ?_⟩
    · unfold callHook
      rw [hcall]
      simp only [g1, Option.map_some]
    · by_cases hn : nm = hk.name
      · subst hn
        exact .inl g2
      · refine (h.ok nm).imp_left fun ho l hl => ho l ?_
        rw [← g3 nm hn]
        exact hl
    · rintro mon (⟨-, rfl⟩ | ⟨vs, hvs, hv⟩)
      · exact g4 _ (by rw [h2]; exact K.names.2)
      · by_cases hn : mon = hk.name
        · subst hn
          exact g5 _ _ hv
        · refine ⟨vs, hvs, ?_⟩
          show leafAt logs' _ = _
          rw [← hv]
          simp only [leafAt, g3 mon hn]
  | saveBest c path sc =>
    obtain ⟨mon, rfl, hMon⟩ := hharm
    have hcl : ∃ w, Z.env.call hk.name x.epoch x.update x.logs x.w = (w, .value .none) := by
      rw [hcallx]
      unfold Setting.call
      rw [hy]
      simp only [Training.saveBestHook]
      cases hl : leafAt x.logs [mon, str "total_loss"] with
      | none =>
        rcases he with he | he
        · rw [if_pos he]
          exact ⟨_, rfl⟩
        · obtain ⟨vs, -, hv⟩ := he mon hMon
          rw [hl] at hv
          cases hv
      | some l =>
        have hne : l ≠ [] := by
          rcases h.ok mon with hok | hok
          · unfold leafAt at hl
            cases hg : Dict.get? x.logs mon with
            | none => simp [hg] at hl
            | some z =>
              obtain ⟨sub, rfl, hf⟩ := hok z hg
              rw [hg] at hl
              simp only [leafAt] at hl
              cases hg' : Dict.get? sub (str "total_loss") with
              | none => simp [hg'] at hl
              | some z' =>
                obtain ⟨vs, hvs, rfl⟩ := hf _ _ hg'
                rw [hg'] at hl
                simp at hl
                exact hl ▸ hvs
          · exact absurd hMon hok.2
        cases hlast : l.getLast? with
        | none => exact absurd (List.getLast?_eq_none_iff.1 hlast) hne
        | some v =>
          simp only [hlast]
          exact ⟨_, rfl⟩
    obtain ⟨w, hw⟩ := hcl
    exact quiet w false (by simpa using hw) (by rintro ⟨dt, hdt⟩; rw [hy] at hdt; cases hdt)
  | modifyLr sch =>
    have hcl : ∃ w, Z.env.call hk.name x.epoch x.update x.logs x.w = (w, .value .none) := by
      rw [hcallx]
      unfold Setting.call
      rw [hy]
      simp only [Training.modifyHook]
      cases hz : sch x.epoch x.update with
      | none => exact absurd hz (hharm _ _)
      | some z => exact ⟨_, rfl⟩
    obtain ⟨w, hw⟩ := hcl
    exact quiet w false (by simpa using hw) (by rintro ⟨dt, hdt⟩; rw [hy] at hdt; cases hdt)
  | modifyMomentum sch =>
    have hcl : ∃ w, Z.env.call hk.name x.epoch x.update x.logs x.w = (w, .value .none) := by
      rw [hcallx]
      unfold Setting.call
      rw [hy]
      simp only [Training.modifyHook]
      cases hz : sch x.epoch x.update with
      | none => exact absurd hz (hharm _ _)
      | some z => exact ⟨_, rfl⟩
    obtain ⟨w, hw⟩ := hcl
    exact quiet w false (by simpa using hw) (by rintro ⟨dt, hdt⟩; rw [hy] at hdt; cases hdt)
  | watch look =>
    have hcl : Z.env.call hk.name x.epoch x.update x.logs x.w = (x.w, look x.epoch x.update x.logs x.w) := by
      rw [hcallx]
      unfold Setting.call
      rw [hy]
    have hno : ¬ ∃ dt, Dict.get? Z.hooks hk.name = some (.monitor dt []) := by
      rintro ⟨dt, hdt⟩
      rw [hy] at hdt
      cases hdt
    rcases hharm x.epoch x.update x.logs x.w he with hl | hl
    · exact quiet x.w false (by rw [hcl, hl]; rfl) hno
    · exact quiet x.w true (by rw [hcl, hl]; rfl) hno

/-- The hooks of one moment. -/
theorem emit_sane (K : Known layers L data rest P report alg Z) {s : St (World alg.Memory) ℝ} (hs : Fresh s.w)
    (hc : CanTrain layers Z.net (alg.Ok (paramCount layers L)) s.w.run)
    (hh : ∀ nm ∈ order.map Hook.name, nm ≠ str "rolling_training" ∧ ∃ x, Dict.get? Z.hooks nm = some x ∧ Harmless Z.hooks order x)
    (hi : ∀ h ∈ order, 0 < h.interval) (sc : Bool) : ∀ (hooks : List Hook), (∀ h ∈ hooks, h ∈ order) →
    ∀ (x : St (World alg.Memory) ℝ) (b : Bool), Sane Z order s x → (x.epoch = 0 ∨ AllLogged Z.hooks order x.logs) →
    ∃ x' b', emitHooks Z.env sc hooks x b = some (x', b') ∧ Sane Z order s x' ∧ x'.epoch = x.epoch ∧ x'.update = x.update ∧
      (∀ mon, (Monitored Z.hooks order mon ∧ ∃ h ∈ hooks, h.name = mon ∧ h.epochScale = sc ∧ x.count sc % h.interval = 0) ∨
        (∃ vs, vs ≠ [] ∧ leafAt x.logs [mon, str "total_loss"] = some vs) →
        ∃ vs, vs ≠ [] ∧ leafAt x'.logs [mon, str "total_loss"] = some vs) := by
  intro hooks
  induction hooks with
  | nil =>
    intro _ x b h _
    exact ⟨x, b, rfl, h, rfl, rfl, fun mon hm => hm.resolve_left (by rintro ⟨-, h, hm, -⟩; cases hm)⟩
  | cons hk hooks ih =>
    intro hsub x b h he
    have hsub' : ∀ h ∈ hooks, h ∈ order := fun h hm => hsub h (List.mem_cons_of_mem _ hm)
    have skip : ¬ (hk.epochScale = sc ∧ x.count sc % hk.interval = 0) → emitHooks Z.env sc (hk :: hooks) x b = emitHooks Z.env sc hooks x b := by
      intro hn
      conv_lhs => unfold emitHooks
      by_cases h1 : hk.epochScale = sc
      · rw [if_neg (by simpa using h1), if_neg (hi hk (hsub hk (List.mem_cons_self ..))).ne', if_pos fun h2 => hn ⟨h1, h2⟩]
      · rw [if_pos h1]
    by_cases hn : hk.epochScale = sc ∧ x.count sc % hk.interval = 0
    · obtain ⟨x₁, b₁, g1, g2, g3, g4, g5⟩ := call_sane K hs hc hh (hsub hk (List.mem_cons_self ..)) h he
      have he₁ : x₁.epoch = 0 ∨ AllLogged Z.hooks order x₁.logs := by
        rw [g3]
        exact he.imp_right fun ha mon hm => g5 mon (.inr (ha mon hm))
      obtain ⟨x₂, b₂, k1, k2, k3, k4, k5⟩ := ih hsub' x₁ (b || b₁) g2 he₁
      have hcount : x₁.count sc = x.count sc := by simp only [St.count, g3, g4]
      refine ⟨x₂, b₂, ?_, k2, k3.trans g3, k4.trans g4, fun mon hm => k5 mon ?_⟩
      · rw [← k1]
        conv_lhs => unfold emitHooks
        rw [if_neg (by simpa using hn.1), if_neg (hi hk (hsub hk (List.mem_cons_self ..))).ne', if_neg (by simpa using hn.2), g1]
      · rcases hm with ⟨hM, h', hm', e1, e2, e3⟩ | hv
        · rcases List.mem_cons.1 hm' with rfl | hm'
          · exact .inr (g5 mon (.inl ⟨hM, e1.symm⟩))
          · exact .inl ⟨hM, h', hm', e1, e2, by rw [hcount]; exact e3⟩
        · exact .inr (g5 mon (.inr hv))
    · obtain ⟨x₂, b₂, k1, k2, k3, k4, k5⟩ := ih hsub' x b h he
      refine ⟨x₂, b₂, (skip hn).trans k1, k2, k3, k4, fun mon hm => k5 mon ?_⟩
      rcases hm with ⟨hM, h', hm', e1, e2, e3⟩ | hv
      · rcases List.mem_cons.1 hm' with rfl | hm'
        · exact absurd ⟨e2, e3⟩ hn
        · exact .inl ⟨hM, h', hm', e1, e2, e3⟩
      · exact .inr hv

/-- The batches of an epoch. -/
theorem batches_sane (K : Known layers L data rest P report alg Z) {s : St (World alg.Memory) ℝ} (hs : Fresh s.w)
    (hc : CanTrain layers Z.net (alg.Ok (paramCount layers L)) s.w.run)
    (hh : ∀ nm ∈ order.map Hook.name, nm ≠ str "rolling_training" ∧ ∃ x, Dict.get? Z.hooks nm = some x ∧ Harmless Z.hooks order x)
    (hi : ∀ h ∈ order, 0 < h.interval) : ∀ (n : ℕ) (x : St (World alg.Memory) ℝ), Sane Z order s x → AllLogged Z.hooks order x.logs →
    ∃ x' b', Training.runBatches Z.env order n x = some (x', b') ∧ Sane Z order s x' ∧ AllLogged Z.hooks order x'.logs
  | 0, x, h, ha => ⟨x, false, rfl, h, ha⟩
  | n + 1, x, h, ha => by
    obtain ⟨evs, hr⟩ := h.run
    obtain ⟨x₁, b, g1, g2, -, -, g5⟩ := emit_sane K hs hc hh hi false order (fun _ h => h)
      ⟨Z.env.step x.w, x.logs, x.epoch, x.update + 1, x.trace ++ [.batch x.epoch (x.update + 1)]⟩ false
      ⟨⟨_, hr.append (.cons _ _ _ _ _ (.batch x) (.nil _))⟩, h.ok⟩ (.inr ha)
    have ha₁ : AllLogged Z.hooks order x₁.logs := fun mon hm => g5 mon (.inr (ha mon hm))
    cases b with
    | true =>
      refine ⟨x₁, true, ?_, g2, ha₁⟩
      unfold Training.runBatches
      simp only [g1]
    | false =>
      obtain ⟨x₂, b₂, k1, k2⟩ := batches_sane K hs hc hh hi n x₁ g2 ha₁
      refine ⟨x₂, b₂, ?_, k2⟩
      unfold Training.runBatches
      simp only [g1]
      exact k1

/-- The epochs. -/
theorem loop_sane (K : Known layers L data rest P report alg Z) {s : St (World alg.Memory) ℝ} (hs : Fresh s.w)
    (hc : CanTrain layers Z.net (alg.Ok (paramCount layers L)) s.w.run)
    (hh : ∀ nm ∈ order.map Hook.name, nm ≠ str "rolling_training" ∧ ∃ x, Dict.get? Z.hooks nm = some x ∧ Harmless Z.hooks order x)
    (hi : ∀ h ∈ order, 0 < h.interval) : ∀ (n : ℕ) (x : St (World alg.Memory) ℝ), Sane Z order s x → AllLogged Z.hooks order x.logs →
    ∃ x' b', Training.trainLoop Z.env order n x = some (x', b')
  | 0, x, h, ha => ⟨x, false, rfl⟩
  | n + 1, x, h, ha => by
    obtain ⟨evs, hr⟩ := h.run
    obtain ⟨x₁, b₁, g1, g2, g3⟩ := batches_sane K hs hc hh hi (Z.env.batches x.w) { x with epoch := x.epoch + 1 }
      ⟨⟨_, hr.append (.epoch _ _ _ (.nil _))⟩, h.ok⟩ ha
    have hno : ¬ Monitored Z.hooks order (str "rolling_training") := fun hM => (hh _ hM.1).1 rfl
    have hroll : LogOk x₁.logs (str "rolling_training") := (g2.ok _).resolve_right fun hn => hn.1 rfl
    obtain ⟨logs, l1, l2, l3, -, -⟩ := addLog_dict hroll (Z.names.map fun n => (n, average x₁.w.scores n))
    have hroll' : addLog (str "rolling_training") (Z.env.rolling x₁.w) x₁.logs = some logs := by
      rw [← l1]
      show addLog _ (Z.rolling x₁.w) _ = _
      simp only [Setting.rolling, List.map_map]
      rfl
    have ha₂ : AllLogged Z.hooks order logs := by
      intro mon hm
      obtain ⟨vs, h1, h2⟩ := g3 mon hm
      refine ⟨vs, h1, ?_⟩
      rw [← h2]
      simp only [leafAt, l3 mon fun e => hno (e ▸ hm)]
    obtain ⟨evs₁, hr₁⟩ := g2.run
    obtain ⟨x₂, b₂, k1, k2, -, -, k5⟩ := emit_sane K hs hc hh hi true order (fun _ h => h)
      ⟨x₁.w, logs, x₁.epoch, x₁.update, x₁.trace ++ [.rolling x₁.epoch (Z.env.rolling x₁.w)]⟩ b₁
      ⟨⟨_, hr₁.append (.cons _ _ _ _ _ (.rolling x₁ logs hroll') (.nil _))⟩, fun nm => by
        by_cases hn : nm = str "rolling_training"
        · subst hn
          exact .inl l2
        · refine (g2.ok nm).imp_left fun ho l hl => ho l ?_
          rw [← l3 nm hn]
          exact hl⟩ (.inr ha₂)
    have hep : Training.runEpoch Z.env order x = some (x₂, b₂) := by
      unfold Training.runEpoch
      simp only [g1, hroll']
      exact k1
    cases b₂ with
    | true => exact ⟨x₂, true, by unfold Training.trainLoop; simp only [hep]⟩
    | false =>
      obtain ⟨x₃, b₃, m1⟩ := loop_sane K hs hc hh hi n x₂ k2 fun mon hm => k5 mon (.inr (ha₂ mon hm))
      exact ⟨x₃, b₃, by unfold Training.trainLoop; simp only [hep]; exact m1⟩

/-- The training. -/
theorem train_sane (K : Known layers L data rest P report alg Z) {s : St (World alg.Memory) ℝ} (hs : Fresh s.w)
    (hc : CanTrain layers Z.net (alg.Ok (paramCount layers L)) s.w.run)
    (hh : ∀ nm ∈ order.map Hook.name, nm ≠ str "rolling_training" ∧ ∃ x, Dict.get? Z.hooks nm = some x ∧ Harmless Z.hooks order x)
    (hi : ∀ h ∈ order, 0 < h.interval) (he : s.epoch = 0) (hu : s.update = 0) (hl : s.logs = []) (n : ℕ) :
    ∃ x' b', Training.train Z.env order n s = some (x', b') := by
  obtain ⟨x₁, b₁, g1, g2, g3, g4, g5⟩ := emit_sane K hs hc hh hi false order (fun _ h => h) s false
    ⟨⟨[], .nil _⟩, fun nm => .inl fun l h => by rw [hl] at h; simp at h⟩ (.inl he)
  unfold Training.train
  simp only [g1]
  cases b₁ with
  | true => exact ⟨_, _, rfl⟩
  | false =>
    obtain ⟨x₂, b₂, k1, k2, k3, k4, k5⟩ := emit_sane K hs hc hh hi true order (fun _ h => h) x₁ false g2 (.inl (g3.trans he))
    simp only [k1]
    cases b₂ with
    | true => exact ⟨_, _, rfl⟩
    | false =>
      refine loop_sane K hs hc hh hi n x₂ k2 fun mon hm => ?_
      obtain ⟨h, hmem, hn⟩ := List.mem_map.1 hm.1
      cases hsc : h.epochScale with
      | true => exact k5 mon (.inl ⟨hm, h, hmem, hn, hsc, by simp [St.count, g3, he]⟩)
      | false => exact k5 mon (.inr (g5 mon (.inl ⟨hm, h, hmem, hn, hsc, by simp [St.count, hu]⟩)))

end

section
open Verif.Architecture hiding demoArch
open Verif.Instantiate Verif.EndToEnd
open Verif.Setup (Kwargs libEnv infos)
open Verif.Shapes (Supported)

variable (kwargs : Name → Kwargs) (a : Arch) (hk : (Dict.keys a).Nodup) (ord : Orders) (ho : ord.Ok)
  (layers : Dict Name (LayerObj Kwargs)) (h : Instantiates (libEnv kwargs) ord a (.ok layers))
  (hne : ∃ n l, Dict.get? layers n = some l ∧ l.shapes.outs ≠ []) (L : Layout) (hL : createLayout (infos layers) = .ok L)
  (tr : Trainable a) (num : Numeric a kwargs)
  (sup : ∀ n l t, Dict.get? layers n = some l → HasType a n t → Supported t l.kwargs l.inShapes)
include hk ho h hne hL tr num sup

/-- **C82, no exceptions.**  A new trainer with hooks that monitor the losses on some data, save the best network according to one of these
monitors, set the learning rate or the momentum, or only look and do not raise once the monitors have logged: `train` never raises,
neither in a batch nor in a hook nor while logging, however many epochs it runs. -/
theorem C82_runs :
    ∃ data rest, HasType a data.name (str "Input") ∧ ∃ F : Memory.Fits (infos layers) L data rest,
      ∃ ps : Mode → ∀ T B, ∀ l ∈ rest, LibLayer (infos layers) data l T B,
      (∀ M T B l (hl : l ∈ rest) t, HasType a l.name t → Describes M t (kwargs l.name) (ps M T B l hl)) ∧
      ∀ (M M' : Mode), M.training = true ∨ (∀ n, ¬ HasType a n (str "Dropout")) →
        ∀ (alg : Algorithm) (epochs : ℕ → List Batch) (hooks : Dict Name (LibHook alg.Memory)) (order : List Hook) (fuel : ℕ)
          (s : St (World alg.Memory) ℝ) (n : ℕ) (θ₀ : Fin n → ℝ),
        (∀ e, epochs e ≠ [] ∧ ∀ b ∈ epochs e, b.Good data) →
        (∀ nm dt sc, Dict.get? hooks nm = some (.monitor dt sc) → ∀ e u, ∀ b ∈ dt e u, b.Good data) →
        Fresh s.w → s.epoch = 0 → s.update = 0 → s.logs = [] → CanTrain (infos layers) (netOf (infos layers) L) (alg.Ok n) s.w.run →
        s.w.run.st.read (str "parameters") = some (List.ofFn θ₀) →
        (∀ x ∈ order, 0 < x.interval ∧ x.name ≠ str "rolling_training" ∧ ∃ y, Dict.get? hooks x.name = some y ∧ Harmless hooks order y) →
        ∃ s' fin, Training.train (trainingOf a layers L data.name (fun T B => libNetwork F (ps M T B)) (fun T B => libNetwork F (ps M' T B)) alg
          epochs hooks).env order fuel s = some (s', fin) ∧ s'.w.failed = false := by
  have m : Made kwargs a ord layers L := ⟨hk, ho, h, hne, hL⟩
  obtain ⟨data, rest, hdt, F, ps, hps⟩ := functions m tr num sup
  refine ⟨data, rest, hdt, F, ps, hps, ?_⟩
  intro M M' hM alg epochs hooks order fuel s n θ₀ he hmon hs h1 h2 h3 hc hθ₀ hh
  obtain rfl := Determined.Reachable.count F.laid hc.state hθ₀
  have K := known (M := M) (M' := M') m F hdt hps hM alg he hmon
  obtain ⟨s', fin, h4⟩ := train_sane K hs hc (by
    intro nm hm
    obtain ⟨x, hx, rfl⟩ := List.mem_map.1 hm
    exact (hh x hx).2) (fun x hx => (hh x hx).1) h1 h2 h3 fuel
  obtain ⟨evs, h5, -⟩ := Training.train_run _ _ _ _ _ _ h4
  obtain ⟨rates, r, loss, T⟩ := run_tracks K hs hc h5
  exact ⟨s', fin, h4, T.here.failed⟩

end

end Verif.Trainer
