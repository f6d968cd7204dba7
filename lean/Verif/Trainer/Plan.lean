import Verif.Training.StockRun

/-! # Proofs for C82: a hook that is called right after another one -/

namespace Verif.Trainer

open Verif.Training

variable {W V : Type}

/-- Before each call of `b` there is a call of `a` at the same counts, and only calls of other hooks are between. -/
def Follows (sc : Bool) (a b : Name) (acts : List Act) : Prop :=
  ∀ pre post sc' e u, acts = pre ++ .call sc' b e u :: post → ∃ pre' mid, pre = pre' ++ .call sc a e u :: mid ∧
    ∀ x ∈ mid, ∃ nm, nm ≠ a ∧ x = .call sc nm e u

theorem Follows.append {sc : Bool} {a b : Name} {l l' : List Act} (h : Follows sc a b l) (h' : Follows sc a b l') : Follows sc a b (l ++ l') := by
  intro pre post sc' e u he
  rcases List.append_eq_append_iff.1 he with ⟨q, h1, h2⟩ | ⟨q, h1, h2⟩
  · obtain ⟨pre', mid, h3, h4⟩ := h' q post sc' e u h2
    exact ⟨l ++ pre', mid, by rw [h1, h3, List.append_assoc], h4⟩
  · cases q with
    | nil =>
      simp only [List.append_nil, List.nil_append] at h1 h2
      obtain ⟨pre', mid, h3, -⟩ := h' [] post sc' e u h2.symm
      simp at h3
    | cons y q =>
      rw [List.cons_append, List.cons.injEq] at h2
      rw [← h2.1] at h1
      exact h pre q sc' e u h1

theorem Follows.without {sc : Bool} {a b : Name} {l : List Act} (h : ∀ sc' e u, Act.call sc' b e u ∉ l) : Follows sc a b l := by
  intro pre post sc' e u he
  exact absurd (by rw [he]; simp) (h sc' e u)

theorem due_append (A B : List Hook) (sc : Bool) (n : ℕ) : due (A ++ B) sc n = due A sc n ++ due B sc n := by
  simp [due]

theorem mem_due {A : List Hook} {sc : Bool} {n : ℕ} {nm : Name} (h : nm ∈ due A sc n) : nm ∈ A.map Hook.name := by
  unfold due at h
  obtain ⟨x, hx, rfl⟩ := List.mem_map.1 h
  exact List.mem_map.2 ⟨x, (List.mem_filter.1 hx).1, rfl⟩

section
variable {hooks A B C : List Hook} {a b : Name} {sc : Bool} {i j : ℕ}

theorem follows_block (hh : hooks = A ++ ⟨a, sc, i⟩ :: (B ++ ⟨b, sc, j⟩ :: C)) (hnd : (hooks.map Hook.name).Nodup) (hij : i ∣ j) (sc' : Bool) (e u : ℕ) :
    Follows sc a b (callsAt hooks sc' e u) := by
  subst hh
  simp only [List.map_append, List.map_cons] at hnd
  have hnd' := List.nodup_middle.1 hnd
  rw [List.nodup_cons] at hnd'
  have hb0 : b ∉ A.map Hook.name ++ a :: B.map Hook.name ∧ b ∉ C.map Hook.name := by
    have h2 : (A.map Hook.name ++ a :: (B.map Hook.name ++ b :: C.map Hook.name)) =
      (A.map Hook.name ++ a :: B.map Hook.name) ++ b :: C.map Hook.name := by simp
    rw [h2] at hnd
    have := (List.nodup_cons.1 (List.nodup_middle.1 hnd)).1
    rw [List.mem_append, not_or] at this
    exact this
  by_cases hs : sc' = sc
  swap
  · refine Follows.without fun sc'' e' u' hm => ?_
    unfold callsAt at hm
    obtain ⟨nm, hnm, he⟩ := List.mem_map.1 hm
    cases he
    rw [show A ++ (⟨a, sc, i⟩ : Hook) :: (B ++ ⟨b, sc, j⟩ :: C) = (A ++ ⟨a, sc, i⟩ :: B) ++ ([⟨b, sc, j⟩] ++ C) by simp, due_append] at hnm
    rcases List.mem_append.1 hnm with h | h
    · exact hb0.1 (by simpa using mem_due h)
    · rw [due_append] at h
      rcases List.mem_append.1 h with h | h
      · simp [due, Ne.symm hs] at h
      · exact hb0.2 (mem_due h)
  subst hs
  have hsplit : due (A ++ (⟨a, sc', i⟩ : Hook) :: (B ++ ⟨b, sc', j⟩ :: C)) sc' (if sc' then e else u) =
      due A sc' (if sc' then e else u) ++ (due [⟨a, sc', i⟩] sc' (if sc' then e else u) ++ (due B sc' (if sc' then e else u) ++
        (due [⟨b, sc', j⟩] sc' (if sc' then e else u) ++ due C sc' (if sc' then e else u)))) := by
    rw [← due_append, ← due_append, ← due_append, ← due_append]
    simp
  have hcall : ∀ pre post sc'' e' u', callsAt (A ++ (⟨a, sc', i⟩ : Hook) :: (B ++ ⟨b, sc', j⟩ :: C)) sc' e u = pre ++ Act.call sc'' b e' u' :: post →
      e' = e ∧ u' = u ∧ ∃ p q, due (A ++ (⟨a, sc', i⟩ : Hook) :: (B ++ ⟨b, sc', j⟩ :: C)) sc' (if sc' then e else u) = p ++ b :: q ∧
        pre = p.map fun nm => Act.call sc' nm e u := by
    intro pre post sc'' e' u' he
    unfold callsAt at he
    obtain ⟨p, q, h1, h2, h3⟩ := List.map_eq_append_iff.1 he
    obtain ⟨y, q', h4, h5, h6⟩ := List.map_eq_cons_iff.1 h3
    cases h5
    exact ⟨rfl, rfl, p, q', by rw [h1, h4], h2.symm⟩
  intro pre post sc'' e' u' he
  obtain ⟨rfl, rfl, p, q, h1, h2⟩ := hcall pre post sc'' e' u' he
  by_cases hj : j ∣ (if sc' then e' else u')
  swap
  · exfalso
    have hm : b ∈ p ++ b :: q := by simp
    rw [← h1, hsplit] at hm
    simp only [List.mem_append] at hm
    rcases hm with h | h | h | h | h
    · exact hb0.1 (by simp [mem_due h])
    · exact hb0.1 (by have := mem_due h; simp at this; simp [this])
    · exact hb0.1 (by simp [mem_due h])
    · simp [due, hj] at h
    · exact hb0.2 (mem_due h)
  · have hda : due [(⟨a, sc', i⟩ : Hook)] sc' (if sc' then e' else u') = [a] := by simp [due, dvd_trans hij hj]
    have hdb : due [(⟨b, sc', j⟩ : Hook)] sc' (if sc' then e' else u') = [b] := by simp [due, hj]
    rw [hsplit, hda, hdb] at h1
    have hB : ∀ nm ∈ due B sc' (if sc' then e' else u'), nm ≠ a := by
      rintro nm h rfl
      exact hnd'.1 (by simp [mem_due h])
    have hdA : b ∉ due A sc' (if sc' then e' else u') := fun h => hb0.1 (by simp [mem_due h])
    generalize due A sc' (if sc' then e' else u') = DA at h1 hdA
    have hp : DA ++ a :: due B sc' (if sc' then e' else u') = p := by
      refine ((List.append_cons_inj_of_notMem (a₁ := b) (z₁ := due C sc' (if sc' then e' else u')) (a₂ := b) (z₂ := q) ?_ ?_).1 ?_).1
      · exact fun h => hb0.1 (by
          rcases List.mem_append.1 h with h | h
          · exact absurd h hdA
          · rcases List.mem_cons.1 h with rfl | h
            · simp
            · simp [mem_due h])
      · exact fun h => hb0.2 (mem_due h)
      · rw [← h1]
        simp
    refine ⟨DA.map fun nm => Act.call sc' nm e' u', (due B sc' (if sc' then e' else u')).map fun nm => Act.call sc' nm e' u', by simp [h2, ← hp], ?_⟩
    intro x hx
    obtain ⟨nm, hnm, rfl⟩ := List.mem_map.1 hx
    exact ⟨nm, hB nm hnm, rfl⟩

theorem follows_batches (hh : hooks = A ++ ⟨a, sc, i⟩ :: (B ++ ⟨b, sc, j⟩ :: C)) (hnd : (hooks.map Hook.name).Nodup) (hij : i ∣ j) (e : ℕ) :
    ∀ k u, Follows sc a b (planBatches hooks e u k)
  | 0, _ => Follows.without (by simp [planBatches])
  | k + 1, u => by
    rw [planBatches, show ∀ (x : Act) (l : List Act), x :: l = [x] ++ l from fun _ _ => rfl]
    exact (Follows.without (by simp)).append ((follows_block hh hnd hij _ _ _).append (follows_batches hh hnd hij e k (u + 1)))

theorem follows_epochs (hh : hooks = A ++ ⟨a, sc, i⟩ :: (B ++ ⟨b, sc, j⟩ :: C)) (hnd : (hooks.map Hook.name).Nodup) (hij : i ∣ j) :
    ∀ ks e u, Follows sc a b (planEpochs hooks e u ks)
  | [], _, _ => Follows.without (by simp [planEpochs])
  | k :: ks, e, u => by
    rw [plan_split]
    exact (follows_batches hh hnd hij _ _ _).append ((Follows.without (by simp)).append
      ((follows_block hh hnd hij _ _ _).append (follows_epochs hh hnd hij ks _ _)))

theorem train_follows (hh : hooks = A ++ ⟨a, sc, i⟩ :: (B ++ ⟨b, sc, j⟩ :: C)) (hnd : (hooks.map Hook.name).Nodup) (hij : i ∣ j) {env : Env W V}
    {fuel : ℕ} {s s' : St W V} {fin : Bool} (h0 : s.trace = []) (h : train env hooks fuel s = some (s', fin)) :
    Follows sc a b (s'.trace.map Event.act) := by
  rcases C34_trace env hooks fuel s s' fin h0 h with ⟨-, h1⟩ | ⟨ks, h1, -⟩
  · rw [h1]
    exact follows_block hh hnd hij _ _ _
  · rw [h1]
    exact (follows_block hh hnd hij _ _ _).append ((follows_block hh hnd hij _ _ _).append (follows_epochs hh hnd hij _ _ _))

theorem step_call {env : Env W V} {x y : St W V} {ev : Event V} (h : Step env hooks x ev y) {sc : Bool} {nm : Name} {e u : ℕ}
    (he : ev.act = .call sc nm e u) : x.epoch = e ∧ x.update = u ∧ ∃ h ∈ hooks, h.name = nm ∧ h.epochScale = sc := by
  cases h with
  | batch => cases he
  | rolling => cases he
  | call hk _ _ _ _ hm => cases he; exact ⟨rfl, rfl, hk, hm, rfl, rfl⟩

theorem step_batch {env : Env W V} {x y : St W V} {e u : ℕ} (h : Step env hooks x (.batch e u) y) : u = x.update + 1 := by
  cases h
  rfl

theorem step_rolling {env : Env W V} {x y : St W V} {e : ℕ} {v : Val V} (h : Step env hooks x (.rolling e v) y) : v = env.rolling x.w := by
  cases h
  rfl

theorem step_result {env : Env W V} {x y : St W V} {sc : Bool} {nm : Name} {e u : ℕ} {st : Bool} {v : Val V}
    (h : Step env hooks x (.call sc nm e u st v) y) :
    e = x.epoch ∧ u = x.update ∧ ∃ w, env.call nm x.epoch x.update x.logs x.w = (w, if st then .stop v else .value v) := by
  generalize hev : Event.call sc nm e u st v = ev at h
  cases h with
  | batch => cases hev
  | rolling => cases hev
  | call hk w st' v' logs hm hc hl =>
    cases hev
    exact ⟨rfl, rfl, w, hc⟩

/-- The call of the first hook that precedes a call of the second one. -/
theorem run_follows {env : Env W V} {s s' : St W V} {evs : List (St W V × Event V)} (h : Run env hooks s evs s')
    (hf : Follows sc a b ((evs.map Prod.snd).map Event.act)) {pre post : List (St W V × Event V)} {y : St W V} {sc' : Bool} {e u : ℕ} {st : Bool} {v : Val V}
    (he : evs = pre ++ (y, .call sc' b e u st v) :: post) :
    ∃ pre' x st' v' mid, pre = pre' ++ (x, .call sc a e u st' v') :: mid ∧ x.epoch = e ∧ x.update = u ∧ y.epoch = e ∧ y.update = u ∧
      ∀ k, valuesOf ((mid.map Prod.snd).flatMap Event.leaves) (a :: k) = [] := by
  obtain ⟨pa, ma, h1, h2⟩ := hf (pre.map fun x => x.2.act) (post.map fun x => x.2.act) sc' e u (by
    rw [he]
    simp [Event.act, Function.comp_def])
  obtain ⟨pre', mid', h3, h4, h5⟩ := List.map_eq_append_iff.1 h1
  obtain ⟨x, mid, h6, h7, h8⟩ := List.map_eq_cons_iff.1 h5
  obtain ⟨x, ev⟩ := x
  have hy : y.epoch = e ∧ y.update = u := by
    obtain ⟨s₁, -, hs, -⟩ := h.split pre post _ he
    have := step_call hs (e := e) (u := u) rfl
    exact ⟨this.1, this.2.1⟩
  have hx : x.epoch = e ∧ x.update = u := by
    obtain ⟨s₁, -, hs, -⟩ := h.split pre' (mid ++ (y, .call sc' b e u st v) :: post) (x, ev) (by rw [he, h3, h6]; simp)
    have := step_call hs h7
    exact ⟨this.1, this.2.1⟩
  cases ev with
  | batch => cases h7
  | rolling => cases h7
  | call sc₁ nm₁ e₁ u₁ st' v' =>
    cases h7
    refine ⟨pre', x, st', v', mid, by rw [h3, h6], hx.1, hx.2, hy.1, hy.2, fun k => ?_⟩
    have hmid : ∀ z ∈ mid, ∃ nm, nm ≠ a ∧ z.2.act = .call sc nm e u := fun z hz => h2 _ (h8 ▸ List.mem_map.2 ⟨z, hz, rfl⟩)
    clear h8 h6 h1 h5 h3 h4
    induction mid with
    | nil => rfl
    | cons z mid ih =>
      rw [List.map_cons, List.flatMap_cons, valuesOf_append, ih fun z hz => hmid z (List.mem_cons_of_mem _ hz), List.append_nil]
      obtain ⟨nm, hn, hz⟩ := hmid z (by simp)
      obtain ⟨z, ev⟩ := z
      cases ev with
      | batch => cases hz
      | rolling => cases hz
      | call sc₂ nm₂ e₂ u₂ st₂ v₂ =>
        obtain rfl : nm₂ = nm := by cases hz; rfl
        show valuesOf (leaves nm₂ v₂) (a :: k) = []
        cases v₂ with
        | none => rfl
        | leaf v => simp [leaves, valuesOf, hn]
        | dict es => rw [leaves, valuesOf_cons_map, if_neg hn]

end

end Verif.Trainer
