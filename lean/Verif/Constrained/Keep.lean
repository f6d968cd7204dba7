import Verif.Constrained.Steps
import Verif.Session.Props
import Verif.Modifiers.Props

/-! # Proofs for C80: constraints -/

namespace Verif.Constrained

open Verif.Structure Verif.Layout Verif.Buffers Verif.Memory
open Verif.Session hiding sgdRun momentumRun nesterovRun backwardPass round train Stepper

theorem inTurn_append (call : Call) (shape : List ℕ) (p : List ℝ) : ∀ (ms ms' : List Modifier) (x : List ℝ),
    inTurn call shape p (ms ++ ms') x = (inTurn call shape p ms x).bind fun r => (inTurn call shape p ms' r.2).map fun q => (r.1 ++ q.1, q.2)
  | [], ms', x => by simp [inTurn]
  | m :: ms, ms', x => by
    simp only [List.cons_append, inTurn, inTurn_append call shape p ms ms']
    cases call shape p x m with
    | none => rfl
    | some r =>
      simp only [Option.bind_some]
      cases inTurn call shape p ms r.2 with
      | none => rfl
      | some q =>
        simp only [Option.bind_some, Option.map_some]
        cases inTurn call shape p ms' q.2 with
        | none => rfl
        | some t => rfl

/-- The last modifier has the last word. -/
theorem inTurn_last {call : Call} {shape : List ℕ} {p x x' : List ℝ} {ms out : List Modifier} {m : Modifier}
    (h : inTurn call shape p (ms ++ [m]) x = some (out, x')) :
    ∃ ms' y m', inTurn call shape p ms x = some (ms', y) ∧ call shape p y m = some (m', x') ∧ out = ms' ++ [m'] := by
  rw [inTurn_append] at h
  cases h1 : inTurn call shape p ms x with
  | none => rw [h1] at h; simp at h
  | some r =>
    rw [h1] at h
    simp only [Option.bind_some, inTurn] at h
    cases h2 : call shape p r.2 m with
    | none => rw [h2] at h; simp at h
    | some q =>
      rw [h2] at h
      simp only [Option.bind_some, Option.map_some, Option.some.injEq, Prod.mk.injEq] at h
      exact ⟨r.1, r.2, q.1, rfl, h2.trans (by rw [← h.2]), h.1.symm⟩

theorem rowsOf_flatten {r c : ℕ} (f : Fin r → Fin c → ℝ) (i : Fin r) :
    rowsOf r c (List.ofFn fun i => List.ofFn (f i)).flatten i = f i := by
  funext j
  have hc : ∀ (n : ℕ) (f : Fin n → Fin c → ℝ) (i : Fin n), (List.ofFn fun i => List.ofFn (f i)).flatten.getD (i * c + j) 0 = f i j := by
    intro n
    induction n with
    | zero => intro f i; exact i.elim0
    | succ n ih =>
      intro f i
      rw [List.ofFn_succ, List.flatten_cons, List.getD_eq_getElem?_getD]
      refine Fin.cases ?_ (fun i => ?_) i
      · rw [Fin.val_zero, Nat.zero_mul, Nat.zero_add, List.getElem?_append_left (by simp), List.getElem?_ofFn, dif_pos j.2]
        rfl
      · have e : (i.succ : ℕ) * c + j = c + (i * c + j) := by simp [Nat.succ_mul]; ring
        rw [e, List.getElem?_append_right (by simp), List.length_ofFn, Nat.add_sub_cancel_left]
        have := ih (fun i => f i.succ) i
        rwa [List.getD_eq_getElem?_getD] at this
  exact hc r f i

section
variable {layers : List LayerInfo} {L : Layout} {data : LayerInfo} {rest : List LayerInfo} {Q : ℕ → ℕ → List MLayer}
variable {report : ℕ → ℕ → Mem → Option ℝ} {S : Type}

theorem provide_reachable {net : Net} {input : Name} {b : Batch} {st st' : State ℝ} (hr : Reachable net st)
    (h : provide net input b st = some st') : Reachable net st' :=
  .step (.provide b.T b.B (b.data.map fun d : Name × List ℝ => (path input (str "outputs") d.1, d.2))) hr h

theorem callAll_reachable {net : Net} (call : Call) (l c v : Name) : ∀ (ms : List Modifier) {st st' : State ℝ} {ms' : List Modifier},
    Reachable net st → callAll call l c v ms st = some (ms', st') → Reachable net st'
  | [], st, st', ms', hr, h => by
    simp only [callAll, Option.some.injEq, Prod.mk.injEq] at h
    rw [← h.2]; exact hr
  | m :: ms, st, st', ms', hr, h => by
    simp only [callAll, Option.bind_eq_some_iff, Option.map_eq_some_iff] at h
    obtain ⟨shape, -, p, -, x, -, r, -, st₁, h1, q, h2, h3⟩ := h
    have := callAll_reachable call l c v ms (.step (.write _ _) hr h1) (ms' := q.1) (st' := q.2) h2
    rw [← (Prod.mk.inj h3).2]
    exact this

theorem applyAll_reachable {net : Net} (call : Call) (c : Name) : ∀ (mods : Mods) {st st' : State ℝ} {mods' : Mods},
    Reachable net st → applyAll call c mods st = some (mods', st') → Reachable net st'
  | [], st, st', ms', hr, h => by
    simp only [applyAll, Option.some.injEq, Prod.mk.injEq] at h
    rw [← h.2]; exact hr
  | (k, ms) :: rest, st, st', ms', hr, h => by
    simp only [applyAll, Option.bind_eq_some_iff, Option.map_eq_some_iff] at h
    obtain ⟨r, h1, q, h2, h3⟩ := h
    have := applyAll_reachable call c rest (callAll_reachable call k.1 c k.2 ms hr h1) (mods' := q.1) (st' := q.2) h2
    rw [← (Prod.mk.inj h3).2]
    exact this

theorem evaluate_reachable {net : Net} {input : Name} : ∀ (bs : List Batch) {st st' : State ℝ}, Reachable net st →
    evaluate net input Q bs st = some st' → Reachable net st'
  | [], st, st', hr, h => by
    simp only [evaluate, Option.some.injEq] at h
    rw [← h]; exact hr
  | b :: bs, st, st', hr, h => by
    simp only [evaluate, Option.bind_eq_some_iff] at h
    obtain ⟨st₁, h1, st₂, h2, h3⟩ := h
    exact evaluate_reachable bs (.forward Q b.rnd (provide_reachable hr h1) h2) h3

/-- One round: the parameters are those the stepper left, changed by the weight modifiers. -/
theorem round_kept (hL : Laid layers L) (hQ : Sited layers L data rest Q) {run : Stepper S} (hrun : Proper (netOf layers L) run)
    {b : Batch} {evals : List Batch} (he : ∀ b ∈ evals, b.Good data) {s s' : Run S} {loss : ℝ} (hs : Reachable (netOf layers L) s.st)
    (hW : s.weights.Good false layers)
    (h : round (netOf layers L) data.name Q report run b evals s = some (s', loss)) :
    Reachable (netOf layers L) s'.st ∧ s'.weights.Good false layers ∧ ∃ rnd r₀ r θ₁ θ', run rnd r₀ = some r ∧
      Reachable (netOf layers L) r.1 ∧ r.1.read (str "parameters") = some θ₁ ∧ s'.st.read (str "parameters") = some θ' ∧
      θ₁.length = paramCount layers L ∧ θ'.length = paramCount layers L ∧
      Modified weightCall layers L s.weights θ₁ θ₁ s'.weights θ' := by
  have hwl := netOf_wellLaid hL.wf hL.shaped hL.layout
  simp only [round, Option.bind_eq_some_iff, Option.map_eq_some_iff] at h
  obtain ⟨st₁, h1, r, h2, loss', -, q, h4, st₂, h5, h6⟩ := h
  have hr : Reachable (netOf layers L) r.1 := hrun _ _ _ (provide_reachable hs h1) h2
  have hq : Reachable (netOf layers L) q.2 := applyAll_reachable _ _ _ hr (mods' := q.1) (st' := q.2) h4
  obtain ⟨T, B, sz, k, vs, i⟩ := hr.inv hwl
  obtain ⟨e, hpe⟩ := params_entry (layers := layers) (L := L)
  have r1 := read_inv hL i hpe
  obtain ⟨W', st', θ', w1, i2, w3, w4, w5, w6⟩ := weights_spec hL i hW r1
  rw [h4] at w1
  obtain rfl := Option.some.inj w1
  obtain ⟨st₃, _, _, _, _, _, e1, i3, e3⟩ := evaluate_spec hQ evals he i2
  rw [h5] at e1
  obtain rfl := Option.some.inj e1
  obtain ⟨rfl, -⟩ := Prod.mk.inj h6
  have hlen : ((cells (netOf layers L) T B (str "parameters")).map (memOf r.1)).length = paramCount layers L := by
    rw [List.length_map, paramCount_eq hL]
  exact ⟨evaluate_reachable evals hq h5, w3, b.rnd, _, r, _, θ', h2, hr, r1, e3.trans w4, hlen, w5.trans hlen, w6⟩

/-- Modifiers of the same kind with the same attributes, except that `FreezeValues` may have remembered weights. -/
inductive Modifier.Later : Modifier → Modifier → Prop
  | same (m) : Later m m
  | frozen (w) : Later (.freezeValues none) (.freezeValues (some w))

theorem later_call {shape : List ℕ} {p x y : List ℝ} {m₀ m m' : Modifier} (h : m₀.Later m) (hc : weightCall shape p x m = some (m', y)) :
    m₀.Later m' := by
  have key : ∀ {m m' : Modifier}, m.value shape x = some (m', y) → m.Later m' := by
    intro m m' h
    cases m with
    | clipValues low high => simp only [Modifier.value, Option.some.injEq, Prod.mk.injEq] at h; rw [← h.1]; exact .same _
    | constrainL2Norm limit big =>
      simp only [Modifier.value] at h
      split at h
      · simp only [Option.some.injEq, Prod.mk.injEq] at h; rw [← h.1]; exact .same _
      · split at h
        · simp at h
        · simp only [Option.some.injEq, Prod.mk.injEq] at h; rw [← h.1]; exact .same _
    | maskValues mask =>
      simp only [Modifier.value] at h
      split at h
      · simp only [Option.some.injEq, Prod.mk.injEq] at h; rw [← h.1]; exact .same _
      · simp at h
    | freezeValues weights =>
      simp only [Modifier.value] at h
      split at h
      · simp only [Option.some.injEq, Prod.mk.injEq] at h
        rw [← h.1]
        cases weights with
        | none => exact .frozen _
        | some w => exact .same _
      · simp at h
    | l1Decay factor => simp [Modifier.value] at h
    | l2Decay factor => simp [Modifier.value] at h
  have h2 := key hc
  cases h with
  | same => exact h2
  | frozen w =>
    cases h2 with
    | same => exact .frozen w

/-- After each round: the last modifier of each parameter was called last. -/
theorem train_kept (hL : Laid layers L) (hQ : Sited layers L data rest Q) {run : ℕ → Stepper S}
    (hrun : ∀ k, Proper (netOf layers L) (run k)) {batches : ℕ → Batch} {evals : ℕ → List Batch} (he : ∀ k, ∀ b ∈ evals k, b.Good data)
    {s : Run S} (hs : Reachable (netOf layers L) s.st) (hW : s.weights.Good false layers) {l : LayerInfo} (hl : l ∈ layers)
    {e : Name × Struct} (hv : e ∈ l.paramShapes) {ms : List Modifier} {m : Modifier} (hm : s.weights.at l.name e.1 = ms ++ [m]) :
    ∀ (k : ℕ) (r : Run S) (log : List ℝ), train (netOf layers L) data.name Q report run batches evals s k = some (r, log) →
    Reachable (netOf layers L) r.st ∧ r.weights.Good false layers ∧
      ∃ ms' m', r.weights.at l.name e.1 = ms' ++ [m'] ∧ ms'.length = ms.length ∧ m.Later m'
  | 0, r, log, h => by
    simp only [train, Option.some.injEq, Prod.mk.injEq] at h
    obtain ⟨rfl, -⟩ := h
    exact ⟨hs, hW, ms, m, hm, rfl, .same m⟩
  | k + 1, r, log, h => by
    simp only [train, Option.bind_eq_some_iff, Option.map_eq_some_iff] at h
    obtain ⟨⟨r₀, log₀⟩, h1, ⟨r₁, loss⟩, h2, h3⟩ := h
    obtain ⟨rfl, -⟩ := Prod.mk.inj h3
    obtain ⟨q1, q2, ms', m', q3, q4, q5⟩ := train_kept hL hQ hrun he hs hW hl hv hm k r₀ log₀ h1
    obtain ⟨p1, p2, rnd, s₀, t, θ₁, θ', -, -, -, -, -, -, p4⟩ := round_kept hL hQ (hrun k) (he k) q1 q2 h2
    have p5 := p4 l hl e hv
    rw [q3] at p5
    obtain ⟨ms'', y, m'', t1, t2, t3⟩ := inTurn_last p5
    refine ⟨p1, p2, ms'', m'', t3, ?_, later_call q5 t2⟩
    rw [← q4]
    clear p5 t3 q3
    have : ∀ (ms ms' : List Modifier) (shape : List ℕ) (p x y : List ℝ), inTurn weightCall shape p ms x = some (ms', y) →
        ms'.length = ms.length := by
      intro ms
      induction ms with
      | nil =>
        intro ms' shape p x y h
        simp only [inTurn, Option.some.injEq, Prod.mk.injEq] at h
        rw [← h.1]
      | cons m ms ih =>
        intro ms' shape p x y h
        simp only [inTurn, Option.bind_eq_some_iff, Option.map_eq_some_iff] at h
        obtain ⟨r, -, q, h2, h3⟩ := h
        rw [← (Prod.mk.inj h3).1, List.length_cons, ih q.1 shape p r.2 q.2 h2, List.length_cons]
    exact this _ _ _ _ _ _ t1

/-- What is in a parameter after an update: the last modifier was called on something. -/
theorem train_last (hL : Laid layers L) (hQ : Sited layers L data rest Q) {run : ℕ → Stepper S}
    (hrun : ∀ k, Proper (netOf layers L) (run k)) {batches : ℕ → Batch} {evals : ℕ → List Batch} (he : ∀ k, ∀ b ∈ evals k, b.Good data)
    {s : Run S} (hs : Reachable (netOf layers L) s.st) (hW : s.weights.Good false layers) {l : LayerInfo} (hl : l ∈ layers)
    {e : Name × Struct} (hv : e ∈ l.paramShapes) {ms : List Modifier} {m : Modifier} (hm : s.weights.at l.name e.1 = ms ++ [m])
    {k : ℕ} {r : Run S} {log : List ℝ} (h : train (netOf layers L) data.name Q report run batches evals s (k + 1) = some (r, log)) :
    ∃ r₀ log₀ ms₀ m₀ p y x ms₁ m₁, train (netOf layers L) data.name Q report run batches evals s k = some (r₀, log₀) ∧
      r₀.weights.at l.name e.1 = ms₀ ++ [m₀] ∧ ms₀.length = ms.length ∧ m.Later m₀ ∧
      weightCall (shapeS e.2) p y m₀ = some (m₁, x) ∧
      r.weights.at l.name e.1 = ms₁ ++ [m₁] ∧ r.st.read (path l.name (str "parameters") e.1) = some x ∧
      x.length = (shapeS e.2).prod ∧
      (ms = [] → y.length = (shapeS e.2).prod ∧ ∃ rnd s₁ s₂, run k rnd s₁ = some s₂ ∧
        s₂.1.read (path l.name (str "parameters") e.1) = some y) := by
  have hwl := netOf_wellLaid hL.wf hL.shaped hL.layout
  simp only [train, Option.bind_eq_some_iff, Option.map_eq_some_iff] at h
  obtain ⟨⟨r₀, log₀⟩, h1, ⟨r₁, loss⟩, h2, h3⟩ := h
  obtain ⟨rfl, -⟩ := Prod.mk.inj h3
  obtain ⟨q1, q2, ms', m', q3, q4, q5⟩ := train_kept hL hQ hrun he hs hW hl hv hm k r₀ log₀ h1
  obtain ⟨p1, -, rnd, s₀, t, θ₁, θ', p2, p6, p7, p8, p9, p10, p4⟩ := round_kept hL hQ (hrun k) (he k) q1 q2 h2
  have p5 := p4 l hl e hv
  rw [q3] at p5
  obtain ⟨ms'', y, m'', t1, t2, t3⟩ := inTurn_last p5
  obtain ⟨T, B, sz, b, vs, i⟩ := p1.inv hwl
  obtain ⟨T', B', sz', b', vs', i'⟩ := p6.inv hwl
  refine ⟨r₀, log₀, ms', m', _, y, _, ms'', m'', h1, q3, q4, q5, t2, t3, read_part (c := .par) hL i (Or.inl rfl) hl hv p8,
    part_length hL hl hv p10, fun hms => ?_⟩
  rw [hms, List.length_nil] at q4
  rw [List.length_eq_zero_iff.1 q4, inTurn_nil, Option.some.injEq, Prod.mk.injEq] at t1
  rw [← t1.2]
  exact ⟨part_length hL hl hv p9, rnd, s₀, t, p2, read_part (c := .par) hL i' (Or.inl rfl) hl hv p7⟩

end

end Verif.Constrained
