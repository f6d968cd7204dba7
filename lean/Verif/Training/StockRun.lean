import Verif.Training.StockProps
import Verif.Training.Schedules

/-!
# C66: the hooks of the library in a training run — saving the best network, changing the step size
-/

namespace Verif.Training

variable {W V : Type}

/-- Following a part of the world through a run. -/
theorem Run.fold {env : Env W V} {hooks : List Hook} {A : Type} (get : W → A) (upd : A → St W V × Event V → A)
    (hs : ∀ x ev x', Step env hooks x ev x' → get x'.w = upd (get x.w) (x, ev)) {s s' : St W V} {L : List (St W V × Event V)}
    (h : Run env hooks s L s') : get s'.w = L.foldl upd (get s.w) := by
  induction h with
  | nil s => rfl
  | epoch s L s' _ ih => exact ih
  | cons s ev s₁ L s' h1 _ ih => rw [ih, hs _ _ _ h1]; rfl

/-! ## Saving the best network -/

section Save

variable [LinearOrder V] {P : Type}

/-- The moment at which `SaveBestNetwork` looks at its log, if the event is one: count, newest logged value and parameters of the
network.  `pre` are the events before. -/
def savePoint (logs : Logs V) (nm : Name) (path : List Name) (params : W → P) (pre : List (Event V)) (w : W) : Event V → List (Nat × V × P)
  | .call sc nm' e u _ _ => if nm' = nm then ((loggedBefore logs pre path).getLast?.map (fun v => ((if sc then e else u), v, params w))).toList
      else []
  | .batch _ _ => []
  | .rolling _ _ => []

/-- All these moments. -/
def savePoints (logs : Logs V) (nm : Name) (path : List Name) (params : W → P) :
    List (Event V) → List (St W V × Event V) → List (Nat × V × P)
  | _, [] => []
  | pre, (x, ev) :: L => savePoint logs nm path params pre x.w ev ++ savePoints logs nm path params (pre ++ [ev]) L

/-- What other parts of the program must not touch: the hook's own memory. -/
structure Private {A : Type} (env : Env W V) (nm : Name) (get : W → A) : Prop where
  step : ∀ w, get (env.step w) = get w
  call : ∀ nm' e u logs w, nm' ≠ nm → get (env.call nm' e u logs w).1 = get w

theorem saveBest_run (env : Env W V) (hooks : List Hook) (nm : Name) (c : Crit) (path : List Name) (sc : Bool) (get : W → Saved V P)
    (set : Saved V P → W → W) (params : W → P) (hk : env.call nm = saveBestHook c path sc get set params)
    (hgs : ∀ x w, get (set x w) = x) (hpriv : Private env nm get) (hsc : ∀ h ∈ hooks, h.name = nm → h.epochScale = sc)
    (logs : Logs V) {s s' : St W V} {L : List (St W V × Event V)} (h : Run env hooks s L s') :
    ∀ pre, (∀ path, valuesAt s.logs path = loggedBefore logs pre path) →
      get s'.w = (savePoints logs nm path params pre L).foldl (fun a x => saveBest c a x.1 x.2.1 x.2.2) (get s.w) := by
  induction h with
  | nil s => intro pre _; rfl
  | epoch s L s' _ ih => exact ih
  | cons s ev s₁ L s' h1 _ ih =>
    intro pre hpre
    have hpre' : ∀ path, valuesAt s₁.logs path = loggedBefore logs (pre ++ [ev]) path := by
      intro path
      rw [h1.logs, hpre]
      simp [loggedBefore, valuesOf]
    rw [ih _ hpre', savePoints, List.foldl_append]
    congr 1
    cases h1 with
    | batch => exact hpriv.step _
    | rolling => rfl
    | call hk' w st v logs' hm hc hl =>
      by_cases hn : hk'.name = nm
      · rw [hn, hk] at hc
        rw [hsc _ hm hn]
        simp only [savePoint, hn, if_true]
        rw [← hpre path]
        obtain ⟨l1, l2⟩ := leafAt_valuesAt path s.logs
        unfold saveBestHook at hc
        cases hle : leafAt s.logs path with
        | none =>
          rw [hle] at hc
          rw [l2 hle]
          simp only [Prod.mk.injEq] at hc
          rw [hc.1]; rfl
        | some l =>
          rw [hle] at hc
          rw [l1 l hle]
          dsimp only at hc
          cases hla : l.getLast? with
          | none =>
            rw [hla] at hc
            cases st <;> simp at hc
          | some y =>
            rw [hla] at hc
            simp only [Prod.mk.injEq] at hc
            rw [← hc.1, hgs]
            rfl
      · simp only [savePoint, if_neg hn, List.foldl_nil]
        have := hpriv.call hk'.name s.epoch s.update s.logs s.w hn
        rw [hc] at this
        exact this

/-- **C66** (`SaveBestNetwork`): after every training run the hook holds exactly what the history of the run dictates: among the moments
at which it looked at its log, the first one at which the newest entry was the best of all, with the parameters the network had then.
(`C38_best` spells out `saveBestRun`.) -/
theorem C66_save_best (env : Env W V) (hooks : List Hook) (fuel : Nat) (s s' : St W V) (fin : Bool) (h0 : s.trace = [])
    (h : train env hooks fuel s = some (s', fin)) (nm : Name) (c : Crit) (path : List Name) (sc : Bool) (get : W → Saved V P)
    (set : Saved V P → W → W) (params : W → P) (hk : env.call nm = saveBestHook c path sc get set params)
    (hgs : ∀ x w, get (set x w) = x) (hpriv : Private env nm get) (hsc : ∀ h ∈ hooks, h.name = nm → h.epochScale = sc)
    (worst : V) (hw : get s.w = ⟨worst, none, none⟩) :
    ∃ L, Run env hooks s L s' ∧ s'.trace = L.map Prod.snd ∧
      get s'.w = saveBestRun c worst (savePoints s.logs nm path params [] L) := by
  obtain ⟨L, h1, h2⟩ := train_run env hooks fuel s s' fin h
  rw [h0, List.nil_append] at h2
  refine ⟨L, h1, h2, ?_⟩
  rw [saveBest_run env hooks nm c path sc get set params hk hgs hpriv hsc s.logs h1 [] (by simp [loggedBefore, valuesOf]), hw]
  rfl

end Save

/-! ## Changing an attribute of the stepper -/

section Schedule

variable {A : Type}

/-- Following the attribute through the events. -/
def attrStep (nm : Name) (sc : Bool) (f : Nat → A) (a : A) : Act → A
  | .call _ nm' e u => if nm' = nm then f (if sc then e else u) else a
  | _ => a

theorem attr_callsAt_other (nm : Name) (sc sc' : Bool) (f : Nat → A) (hooks : List Hook) (e u : Nat)
    (hn : nm ∉ due hooks sc' (if sc' then e else u)) (a : A) : (callsAt hooks sc' e u).foldl (attrStep nm sc f) a = a := by
  unfold callsAt
  generalize due hooks sc' (if sc' then e else u) = l at hn
  clear hooks
  induction l generalizing a with
  | nil => rfl
  | cons x l ih =>
    rw [List.map_cons, List.foldl_cons]
    rw [show attrStep nm sc f a (.call sc' x e u) = a by
      simp only [attrStep]; rw [if_neg]; rintro rfl; exact hn (by simp)]
    exact ih a (fun h => hn (by simp [h]))

theorem attr_callsAt_due (nm : Name) (sc sc' : Bool) (f : Nat → A) (hooks : List Hook) (e u : Nat)
    (hn : nm ∈ due hooks sc' (if sc' then e else u)) (a : A) :
    (callsAt hooks sc' e u).foldl (attrStep nm sc f) a = f (if sc then e else u) := by
  have key : ∀ (l : List Name) (a : A), (l.map (fun n => Act.call sc' n e u)).foldl (attrStep nm sc f) a =
      if nm ∈ l then f (if sc then e else u) else a := by
    intro l
    induction l with
    | nil => intro a; simp
    | cons x l ih =>
      intro a
      rw [List.map_cons, List.foldl_cons, ih]
      by_cases hx : x = nm
      · subst hx; simp [attrStep]
      · have hx' : nm ≠ x := fun h => hx h.symm
        simp [attrStep, hx, hx']
  unfold callsAt
  rw [key, if_pos hn]

theorem mem_due (hooks : List Hook) (nm : Name) (sc : Bool) (k : Nat) (hin : (⟨nm, sc, k⟩ : Hook) ∈ hooks)
    (hnd : (hooks.map Hook.name).Nodup) (sc' : Bool) (n : Nat) : nm ∈ due hooks sc' n ↔ sc = sc' ∧ k ∣ n := by
  unfold due
  rw [List.mem_map]
  constructor
  · rintro ⟨h, hh, rfl⟩
    rw [List.mem_filter, Bool.and_eq_true, decide_eq_true_eq, decide_eq_true_eq] at hh
    obtain ⟨hm, h1, h2⟩ := hh
    have : h = ⟨h.name, sc, k⟩ := List.inj_on_of_nodup_map hnd hm hin rfl
    rw [this] at h1 h2
    exact ⟨h1, h2⟩
  · rintro ⟨rfl, h2⟩
    exact ⟨_, List.mem_filter.2 ⟨hin, by simp [h2]⟩, rfl⟩

/-- The attribute is as set at the last due count before or at `n`. -/
def Current (f : Nat → A) (k n : Nat) (a : A) : Prop := a = f (k * (n / k))

theorem Current.next {f : Nat → A} {k n : Nat} {a : A} (h : Current f k n a) (hd : ¬ k ∣ n + 1) : Current f k (n + 1) a := by
  unfold Current at *
  rw [h, Nat.succ_div_of_not_dvd hd]

theorem Current.due {f : Nat → A} {k n : Nat} (hd : k ∣ n) : Current f k n (f n) := by
  unfold Current
  rw [Nat.mul_div_cancel' hd]

theorem attr_update (nm : Name) (k : Nat) (f : Nat → A) (hooks : List Hook) (hin : (⟨nm, false, k⟩ : Hook) ∈ hooks)
    (hnd : (hooks.map Hook.name).Nodup) (e u : Nat) (a : A) (h : Current f k u a) :
    Current f k (u + 1) ((callsAt hooks false e (u + 1)).foldl (attrStep nm false f) a) := by
  by_cases hd : k ∣ u + 1
  · rw [attr_callsAt_due nm false false f hooks e (u + 1) ((mem_due hooks nm false k hin hnd false _).2 ⟨rfl, hd⟩)]
    exact Current.due hd
  · rw [attr_callsAt_other nm false false f hooks e (u + 1) (fun h' => hd ((mem_due hooks nm false k hin hnd false _).1 h').2)]
    exact h.next hd

theorem attr_epoch (nm : Name) (k : Nat) (f : Nat → A) (hooks : List Hook) (hin : (⟨nm, true, k⟩ : Hook) ∈ hooks)
    (hnd : (hooks.map Hook.name).Nodup) (e u : Nat) (a : A) (h : Current f k e a) :
    Current f k (e + 1) ((callsAt hooks true (e + 1) u).foldl (attrStep nm true f) a) := by
  by_cases hd : k ∣ e + 1
  · rw [attr_callsAt_due nm true true f hooks (e + 1) u ((mem_due hooks nm true k hin hnd true _).2 ⟨rfl, hd⟩)]
    exact Current.due hd
  · rw [attr_callsAt_other nm true true f hooks (e + 1) u (fun h' => hd ((mem_due hooks nm true k hin hnd true _).1 h').2)]
    exact h.next hd

theorem attr_wrong (nm : Name) (sc : Bool) (k : Nat) (f : Nat → A) (hooks : List Hook) (hin : (⟨nm, sc, k⟩ : Hook) ∈ hooks)
    (hnd : (hooks.map Hook.name).Nodup) (e u : Nat) (a : A) :
    (callsAt hooks (!sc) e u).foldl (attrStep nm sc f) a = a := by
  apply attr_callsAt_other
  rw [mem_due hooks nm sc k hin hnd]
  cases sc <;> simp

/-- What is true of the attribute at every batch: it is as set at the last due count before the batch. -/
def AtBatch (sc : Bool) (f : Nat → A) (k : Nat) : Act → A → Prop
  | .batch e u, a => Current f k ((if sc then e else u) - 1) a
  | _, _ => True

/-- Every act of a list meets the attribute with the given condition. -/
def Along (nm : Name) (sc : Bool) (f : Nat → A) (Q : Act → A → Prop) : A → List Act → Prop
  | _, [] => True
  | a, x :: l => Q x a ∧ Along nm sc f Q (attrStep nm sc f a x) l

theorem Along.append {nm : Name} {sc : Bool} {f : Nat → A} {Q : Act → A → Prop} : ∀ {l l' : List Act} {a : A},
    Along nm sc f Q a l → Along nm sc f Q (l.foldl (attrStep nm sc f) a) l' → Along nm sc f Q a (l ++ l') := by
  intro l
  induction l with
  | nil => intro l' a _ h; exact h
  | cons x l ih => intro l' a h h'; exact ⟨h.1, ih h.2 h'⟩

theorem Along.at {nm : Name} {sc : Bool} {f : Nat → A} {Q : Act → A → Prop} : ∀ {l l' : List Act} {x : Act} {a : A},
    Along nm sc f Q a (l ++ x :: l') → Q x (l.foldl (attrStep nm sc f) a) := by
  intro l
  induction l with
  | nil => intro l' x a h; exact h.1
  | cons y l ih => intro l' x a h; exact ih h.2

theorem along_calls (nm : Name) (sc : Bool) (f : Nat → A) (k : Nat) (hooks : List Hook) (sc' : Bool) (e u : Nat) (a : A) :
    Along nm sc f (AtBatch sc f k) a (callsAt hooks sc' e u) := by
  unfold callsAt
  generalize due hooks sc' (if sc' then e else u) = l
  induction l generalizing a with
  | nil => trivial
  | cons x l ih => exact ⟨trivial, ih _⟩

theorem along_batches (nm : Name) (sc : Bool) (f : Nat → A) (k : Nat) (hooks : List Hook) (hin : (⟨nm, sc, k⟩ : Hook) ∈ hooks)
    (hnd : (hooks.map Hook.name).Nodup) (e : Nat) : ∀ (n u : Nat) (a : A), Current f k (if sc then e else u) a →
    Along nm sc f (AtBatch sc f k) a (planBatches hooks (e + 1) u n) ∧
      Current f k (if sc then e else u + n) ((planBatches hooks (e + 1) u n).foldl (attrStep nm sc f) a) := by
  intro n
  induction n with
  | zero => intro u a h; exact ⟨trivial, h⟩
  | succ n ih =>
    intro u a h
    have hnext : Current f k (if sc then e else u + 1) ((callsAt hooks false (e + 1) (u + 1)).foldl (attrStep nm sc f) a) := by
      cases sc with
      | true =>
        have := attr_wrong nm true k f hooks hin hnd (e + 1) (u + 1) a
        rw [show (callsAt hooks false (e + 1) (u + 1)) = callsAt hooks (!true) (e + 1) (u + 1) from rfl, this]
        exact h
      | false => exact attr_update nm k f hooks hin hnd (e + 1) u a h
    obtain ⟨h1, h2⟩ := ih (u + 1) _ hnext
    refine ⟨⟨?_, (along_calls nm sc f k hooks false (e + 1) (u + 1) a).append h1⟩, ?_⟩
    · show Current f k _ a
      cases sc <;> simpa using h
    · rw [planBatches, List.foldl_cons, List.foldl_append]
      rw [show u + (n + 1) = u + 1 + n by omega]
      exact h2

theorem along_epochs (nm : Name) (sc : Bool) (f : Nat → A) (k : Nat) (hooks : List Hook) (hin : (⟨nm, sc, k⟩ : Hook) ∈ hooks)
    (hnd : (hooks.map Hook.name).Nodup) : ∀ (ks : List Nat) (e u : Nat) (a : A), Current f k (if sc then e else u) a →
    Along nm sc f (AtBatch sc f k) a (planEpochs hooks e u ks) ∧
      Current f k (if sc then e + ks.length else u + ks.sum) ((planEpochs hooks e u ks).foldl (attrStep nm sc f) a) := by
  intro ks
  induction ks with
  | nil => intro e u a h; exact ⟨trivial, by simpa [planEpochs] using h⟩
  | cons n ks ih =>
    intro e u a h
    obtain ⟨h1, h2⟩ := along_batches nm sc f k hooks hin hnd e n u a h
    set a₁ := (planBatches hooks (e + 1) u n).foldl (attrStep nm sc f) a with ha₁
    have hnext : Current f k (if sc then e + 1 else u + n) ((callsAt hooks true (e + 1) (u + n)).foldl (attrStep nm sc f) a₁) := by
      cases sc with
      | true => exact attr_epoch nm k f hooks hin hnd e (u + n) a₁ h2
      | false =>
        have := attr_wrong nm false k f hooks hin hnd (e + 1) (u + n) a₁
        rw [show (callsAt hooks true (e + 1) (u + n)) = callsAt hooks (!false) (e + 1) (u + n) from rfl, this]
        exact h2
    obtain ⟨h3, h4⟩ := ih (e + 1) (u + n) _ hnext
    refine ⟨h1.append ⟨trivial, (along_calls nm sc f k hooks true (e + 1) (u + n) a₁).append h3⟩, ?_⟩
    rw [planEpochs, List.foldl_append, List.foldl_cons, List.foldl_append]
    rw [List.length_cons, List.sum_cons, show e + (ks.length + 1) = e + 1 + ks.length by omega, ← Nat.add_assoc]
    exact h4

/-- **C66** (`ModifyStepperAttribute`): in every training run, each update is made with the value that the schedule `f` gives for the
last count before this update at which the hook was due: `interval * ((update - 1) / interval)` on the update timescale,
`interval * ((epoch - 1) / interval)` on the epoch timescale; and the next training goes on from there.  The schedule may depend on the count of its own timescale, as those of the library do
(`C66_linear`, `C66_exponential`), and nothing else may change the attribute. -/
theorem C66_schedule (env : Env W V) (hooks : List Hook) (fuel : Nat) (s s' : St W V) (fin : Bool) (h0 : s.trace = [])
    (h : train env hooks fuel s = some (s', fin)) (nm : Name) (sc : Bool) (k : Nat) (hin : (⟨nm, sc, k⟩ : Hook) ∈ hooks)
    (hnd : (hooks.map Hook.name).Nodup) (get : W → A) (set : A → W → W) (hgs : ∀ a w, get (set a w) = a)
    (sched : Nat → Nat → Option A) (hk : env.call nm = modifyHook sched set) (hpriv : Private env nm get)
    (f : Nat → A) (hf : ∀ e u a, sched e u = some a → a = f (if sc then e else u))
    (hinit : k ∣ s.count sc ∨ get s.w = f (k * (s.count sc / k))) :
    ∃ L, Run env hooks s L s' ∧ s'.trace = L.map Prod.snd ∧
      (∀ x e u, (x, .batch e u) ∈ L → get x.w = f (k * (((if sc then e else u) - 1) / k))) ∧
      (s.epoch < s'.epoch → get s'.w = f (k * (s'.count sc / k))) := by
  obtain ⟨L, h1, h2⟩ := train_run env hooks fuel s s' fin h
  rw [h0, List.nil_append] at h2
  have hstep : ∀ x ev x', Step env hooks x ev x' → get x'.w = attrStep nm sc f (get x.w) ev.act := by
    intro x ev x' hs
    cases hs with
    | batch => exact hpriv.step _
    | rolling => rfl
    | call hk' w st v logs hm hc hl =>
      show get w = if hk'.name = nm then f (if sc then x.epoch else x.update) else get x.w
      by_cases hn : hk'.name = nm
      · rw [if_pos hn]
        rw [hn, hk] at hc
        unfold modifyHook at hc
        cases hs : sched x.epoch x.update with
        | none => rw [hs] at hc; cases st <;> simp at hc
        | some a =>
          rw [hs] at hc
          simp only [Prod.mk.injEq] at hc
          rw [← hc.1, hgs]
          exact hf _ _ _ hs
      · rw [if_neg hn]
        have := hpriv.call hk'.name x.epoch x.update x.logs x.w hn
        rw [hc] at this
        exact this
  have hfold : ∀ {x y : St W V} {M : List (St W V × Event V)}, Run env hooks x M y →
      get y.w = ((M.map Prod.snd).map Event.act).foldl (attrStep nm sc f) (get x.w) := by
    intro x y M hr
    rw [hr.fold get (fun a z => attrStep nm sc f a z.2.act) (fun x ev x' hs => hstep x ev x' hs), List.foldl_map, List.foldl_map]
  have hcur : Current f k (s.count sc) ((callsAt hooks true s.epoch s.update).foldl (attrStep nm sc f)
      ((callsAt hooks false s.epoch s.update).foldl (attrStep nm sc f) (get s.w))) := by
    cases sc with
    | true =>
      have e1 := attr_wrong nm true k f hooks hin hnd s.epoch s.update (get s.w)
      rw [Bool.not_true] at e1
      rw [e1]
      rcases hinit with hd | hi
      · rw [attr_callsAt_due nm true true f hooks _ _ ((mem_due hooks nm true k hin hnd true _).2 ⟨rfl, hd⟩)]
        exact Current.due hd
      · by_cases hd : k ∣ s.count true
        · rw [attr_callsAt_due nm true true f hooks _ _ ((mem_due hooks nm true k hin hnd true _).2 ⟨rfl, hd⟩)]
          exact Current.due hd
        · rw [attr_callsAt_other nm true true f hooks _ _ (fun h' => hd ((mem_due hooks nm true k hin hnd true _).1 h').2)]
          exact hi
    | false =>
      have e1 := fun a => attr_wrong nm false k f hooks hin hnd s.epoch s.update a
      simp only [Bool.not_false] at e1
      rw [e1]
      rcases hinit with hd | hi
      · rw [attr_callsAt_due nm false false f hooks _ _ ((mem_due hooks nm false k hin hnd false _).2 ⟨rfl, hd⟩)]
        exact Current.due hd
      · by_cases hd : k ∣ s.count false
        · rw [attr_callsAt_due nm false false f hooks _ _ ((mem_due hooks nm false k hin hnd false _).2 ⟨rfl, hd⟩)]
          exact Current.due hd
        · rw [attr_callsAt_other nm false false f hooks _ _ (fun h' => hd ((mem_due hooks nm false k hin hnd false _).1 h').2)]
          exact hi
  have hal : Along nm sc f (AtBatch sc f k) (get s.w) (s'.trace.map Event.act) ∧
      (s.epoch < s'.epoch → Current f k (s'.count sc) ((s'.trace.map Event.act).foldl (attrStep nm sc f) (get s.w))) := by
    rcases C34_trace env hooks fuel s s' fin h0 h with ⟨⟨-, he, -, -⟩, h3⟩ | ⟨ks, h3, h4, h5, -⟩
    · rw [h3]
      exact ⟨along_calls nm sc f k hooks false _ _ _, fun hlt => by omega⟩
    · rw [h3]
      obtain ⟨g1, g2⟩ := along_epochs nm sc f k hooks hin hnd ks s.epoch s.update _ (by simpa [St.count] using hcur)
      refine ⟨(along_calls nm sc f k hooks false _ _ _).append ((along_calls nm sc f k hooks true _ _ _).append g1), fun _ => ?_⟩
      rw [List.foldl_append, List.foldl_append]
      have : s'.count sc = if sc then s.epoch + ks.length else s.update + ks.sum := by
        unfold St.count; rw [h4, h5]
      rw [this]
      exact g2
  refine ⟨L, h1, h2, ?_, ?_⟩
  · intro x e u hm
    obtain ⟨L1, L2, rfl⟩ := List.append_of_mem hm
    obtain ⟨s₁, g1, g2, -⟩ := h1.split L1 L2 _ rfl
    have hA := hal.1
    rw [h2, List.map_append, List.map_append, List.map_cons, List.map_cons] at hA
    have := Along.at hA
    rw [← hfold g1] at this
    exact this
  · intro hlt
    have := hal.2 hlt
    rw [h2, ← hfold h1] at this
    exact this

variable {K : Type} [Field K] [LinearOrder K] [IsStrictOrderedRing K]

/-- **C66** (a linear schedule): an update is made with the step size `initial` plus as many equal steps as the hook was called since the
start (at most `num_changes`), the last of them reaching `final`. -/
theorem C66_linear (env : Env W V) (hooks : List Hook) (fuel : Nat) (s s' : St W V) (fin : Bool) (h0 : s.trace = [])
    (hfresh : s.epoch = 0 ∧ s.update = 0)
    (h : train env hooks fuel s = some (s', fin)) (nm : Name) (sc : Bool) (k : Nat) (hk0 : 0 < k) (hin : (⟨nm, sc, k⟩ : Hook) ∈ hooks)
    (hnd : (hooks.map Hook.name).Nodup) (get : W → K) (set : K → W → W) (hgs : ∀ a w, get (set a w) = a)
    (initial final : K) (numChanges : Nat) (hn : 0 < numChanges)
    (hk : env.call nm = modifyHook (linear initial final numChanges sc k) set) (hpriv : Private env nm get) :
    ∃ (step : K) (L : List (St W V × Event V)), initial + step * numChanges = final ∧ Run env hooks s L s' ∧ s'.trace = L.map Prod.snd ∧
      ∀ x e u, (x, .batch e u) ∈ L → get x.w = initial + step * (min (((if sc then e else u) - 1) / k) numChanges : Nat) := by
  obtain ⟨step, hs, -⟩ := C39_linear initial final numChanges k 0 0 sc hn hk0
  have hne : (numChanges : K) ≠ 0 := by
    have : (0 : K) < numChanges := by exact_mod_cast hn
    exact ne_of_gt this
  obtain ⟨L, h1, h2, h3, -⟩ := C66_schedule env hooks fuel s s' fin h0 h nm sc k hin hnd get set hgs
    (linear initial final numChanges sc k) hk hpriv (fun n => initial + step * (min (n / k) numChanges : Nat))
    (by
      intro e u a ha
      obtain ⟨step', hs', hl⟩ := C39_linear initial final numChanges k e u sc hn hk0
      rw [hl] at ha
      have : step' = step := by
        have : step' * numChanges = step * numChanges := by linarith
        exact mul_right_cancel₀ hne this
      rw [this] at ha
      exact (Option.some.inj ha).symm)
    (.inl (by unfold St.count; rw [hfresh.1, hfresh.2]; simp))
  refine ⟨step, L, hs, h1, h2, fun x e u hm => ?_⟩
  rw [h3 x e u hm]
  simp only [Nat.mul_div_cancel_left _ hk0]

/-- **C66** (an exponential schedule): an update is made with the step size `initial * factor ^ n`, kept within the bounds, where `n` is
how often the hook was called since the start. -/
theorem C66_exponential (env : Env W V) (hooks : List Hook) (fuel : Nat) (s s' : St W V) (fin : Bool) (h0 : s.trace = [])
    (hfresh : s.epoch = 0 ∧ s.update = 0)
    (h : train env hooks fuel s = some (s', fin)) (nm : Name) (sc : Bool) (k : Nat) (hk0 : 0 < k) (hin : (⟨nm, sc, k⟩ : Hook) ∈ hooks)
    (hnd : (hooks.map Hook.name).Nodup) (get : W → K) (set : K → W → W) (hgs : ∀ a w, get (set a w) = a)
    (initial factor lo hi : K)
    (hk : env.call nm = modifyHook (exponential initial factor (some lo) (some hi) sc k) set) (hpriv : Private env nm get) :
    ∃ L, Run env hooks s L s' ∧ s'.trace = L.map Prod.snd ∧
      ∀ x e u, (x, .batch e u) ∈ L → get x.w = min hi (max lo (initial * factor ^ (((if sc then e else u) - 1) / k))) := by
  obtain ⟨L, h1, h2, h3, -⟩ := C66_schedule env hooks fuel s s' fin h0 h nm sc k hin hnd get set hgs
    (exponential initial factor (some lo) (some hi) sc k) hk hpriv (fun n => min hi (max lo (initial * factor ^ (n / k))))
    (by
      intro e u a ha
      unfold exponential current at ha
      rw [if_neg (by omega)] at ha
      exact (Option.some.inj ha).symm)
    (.inl (by unfold St.count; rw [hfresh.1, hfresh.2]; simp))
  refine ⟨L, h1, h2, fun x e u hm => ?_⟩
  rw [h3 x e u hm]
  simp only [Nat.mul_div_cancel_left _ hk0]

end Schedule

end Verif.Training
