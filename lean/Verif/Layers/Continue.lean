import Verif.Layers.Lstm

/-!
# C19: running a sequence in pieces with handed-over context

A network of layers with any wiring: `L` indexes the inputs and the layers, `RowOf l` is what layer `l` writes for one time step (outputs and internals,
all sequences of the batch).  The buffer of a run over `N` steps has rows `0 … N - 1` and the
context in row `N`; before the run it may hold anything.  `CtxOf l` is the part of a row that `get_context` saves
and `apply_context` restores.
-/

namespace Verif.Layers

noncomputable section

variable {L : Type} {RowOf CtxOf : L → Type}

/-- The rows of all inputs and layers of a network for one time step. -/
abbrev NetRow (RowOf : L → Type) := ∀ l, RowOf l

/-- A layer in a network: its forward pass, run on a buffer with `N` time steps, gives the new rows. -/
structure NetLayer (L : Type) (RowOf : L → Type) where
  name : L
  pass : ℕ → (ℕ → NetRow RowOf) → ℕ → RowOf name

open Classical in
/-- The loop over the layers in `Network.forward_pass` (network.py:429-430). -/
def netPass (N : ℕ) (layers : List (NetLayer L RowOf)) (buf : ℕ → NetRow RowOf) : ℕ → NetRow RowOf :=
  layers.foldl (fun buf l => fun t => Function.update (buf t) l.name (l.pass N buf t)) buf

/-- A layer is causal if each row depends on the rows of its sources for the same step and
on the context part of its own previous row, and it leaves the context row alone.
`shift o` says that a run that starts `o` steps later behaves the same. -/
def Causal (ctxOf : ∀ l, RowOf l → CtxOf l) (srcs : L → Prop) (shift : ℕ → Prop) (l : NetLayer L RowOf) : Prop :=
  ∃ step : ℕ → NetRow RowOf → CtxOf l.name → RowOf l.name,
    (∀ t cur cur' c, (∀ m, srcs m → cur m = cur' m) → step t cur c = step t cur' c) ∧
    (∀ o, shift o → ∀ t cur c, step (o + t) cur c = step t cur c) ∧
    ∀ N buf, (∀ t < N, l.pass N buf t = step t (buf t) (ctxOf l.name (l.pass N buf (prevRow N t)))) ∧
      l.pass N buf N = buf N l.name

/-- The layers are causal, have different names and read only from inputs and from layers before
them. -/
def Ordered (ctxOf : ∀ l, RowOf l → CtxOf l) (shift : ℕ → Prop) : List (NetLayer L RowOf) → Prop
  | [] => True
  | l :: rest => (∃ srcs, Causal ctxOf srcs shift l ∧ ∀ m, srcs m → m ≠ l.name ∧ ∀ r ∈ rest, m ≠ r.name) ∧
      (∀ r ∈ rest, r.name ≠ l.name) ∧ Ordered ctxOf shift rest

/-- The pieces of a run: for each the number of steps and the buffer before the forward pass.
Every piece has at least one step, gets its part of the inputs, and the context
`c` is what the piece before left (`getContext`, buffers.py:112-130; `applyContext`, buffers.py:132-136). -/
def RunsPieces (ctxOf : ∀ l, RowOf l → CtxOf l) (shift : ℕ → Prop) (layers : List (NetLayer L RowOf))
    (x : ℕ → NetRow RowOf) : (c : ∀ l, CtxOf l) → (o : ℕ) → List (ℕ × (ℕ → NetRow RowOf)) → Prop
  | _, _, [] => True
  | c, o, (n, buf) :: rest => 0 < n ∧ shift o ∧
      (∀ t < n, ∀ m, (∀ l ∈ layers, m ≠ l.name) → buf t m = x (o + t) m) ∧
      (∀ l ∈ layers, ctxOf l.name (buf n l.name) = c l.name) ∧
      RunsPieces ctxOf shift layers x (fun l => ctxOf l (netPass n layers buf (n - 1) l)) (o + n) rest

/-- All rows that the pieces produce, in order. -/
def piecesOut (layers : List (NetLayer L RowOf)) (pieces : List (ℕ × (ℕ → NetRow RowOf))) : List (NetRow RowOf) :=
  pieces.flatMap fun q => (List.range q.1).map (netPass q.1 layers q.2)

/-- The number of steps of all pieces. -/
def piecesLen (pieces : List (ℕ × (ℕ → NetRow RowOf))) : ℕ := (pieces.map (·.1)).sum

section lemmas
variable (ctxOf : ∀ l, RowOf l → CtxOf l) (shift : ℕ → Prop)

open Classical in
theorem netPass_cons (N : ℕ) (l : NetLayer L RowOf) (rest : List (NetLayer L RowOf)) (buf : ℕ → NetRow RowOf) :
    netPass N (l :: rest) buf = netPass N rest (fun t => Function.update (buf t) l.name (l.pass N buf t)) := rfl

open Classical in
theorem netPass_other (N : ℕ) (layers : List (NetLayer L RowOf)) (buf : ℕ → NetRow RowOf) (m : L)
    (h : ∀ l ∈ layers, m ≠ l.name) (t : ℕ) : netPass N layers buf t m = buf t m := by
  induction layers generalizing buf with
  | nil => rfl
  | cons l rest ih =>
    rw [netPass_cons, ih _ (fun r hr => h r (List.mem_cons_of_mem _ hr)), Function.update_of_ne (h l List.mem_cons_self)]

/-- One piece: if it starts from the context that the whole run has at this place, its rows are the rows of the whole
run. -/
theorem piece_eq (layers : List (NetLayer L RowOf)) (ho : Ordered ctxOf shift layers) (N n o : ℕ) (hno : o + n ≤ N)
    (hs : shift o) (B P : ℕ → NetRow RowOf)
    (hin : ∀ t < n, ∀ m, (∀ l ∈ layers, m ≠ l.name) → P t m = B (o + t) m)
    (hctx : ∀ l ∈ layers, ctxOf l.name (P n l.name) =
      ctxOf l.name (netPass N layers B (prevRow N o) l.name)) :
    ∀ t < n, netPass n layers P t = netPass N layers B (o + t) := by
  classical
  induction layers generalizing B P with
  | nil =>
    intro t ht
    funext m
    exact hin t ht m (by simp)
  | cons l rest ih =>
    obtain ⟨⟨srcs, ⟨step, hst, hsh, hpass⟩, hsrc⟩, hne, ho'⟩ := ho
    rw [netPass_cons, netPass_cons]
    set P' : ℕ → NetRow RowOf := fun t => Function.update (P t) l.name (l.pass n P t) with hP'
    set B' : ℕ → NetRow RowOf := fun t => Function.update (B t) l.name (l.pass N B t) with hB'
    have hfin : ∀ t, netPass N (l :: rest) B t l.name = l.pass N B t := by
      intro t
      rw [netPass_cons, netPass_other N rest _ l.name (fun r hr => (hne r hr).symm)]
      exact Function.update_self _ _ _
    have hrow : ∀ t < n, l.pass n P t = l.pass N B (o + t) := by
      intro t
      induction t with
      | zero =>
        intro ht
        rw [(hpass n P).1 0 ht, (hpass N B).1 (o + 0) (by omega), hsh o hs 0]
        have hc : ctxOf l.name (l.pass n P (prevRow n 0)) = ctxOf l.name (l.pass N B (prevRow N (o + 0))) := by
          rw [prevRow_zero, (hpass n P).2, hctx l List.mem_cons_self, hfin]
          rfl
        rw [hc]
        apply hst
        intro m hm
        exact hin 0 ht m (fun r hr => by
          rcases List.mem_cons.1 hr with h | h
          · rw [h]; exact (hsrc m hm).1
          · exact (hsrc m hm).2 r h)
      | succ t iht =>
        intro ht
        rw [(hpass n P).1 (t + 1) ht, (hpass N B).1 (o + (t + 1)) (by omega), hsh o hs (t + 1)]
        have hc : ctxOf l.name (l.pass n P (prevRow n (t + 1))) = ctxOf l.name (l.pass N B (prevRow N (o + (t + 1)))) := by
          rw [prevRow_succ, iht (by omega)]
          rfl
        rw [hc]
        apply hst
        intro m hm
        exact hin (t + 1) ht m (fun r hr => by
          rcases List.mem_cons.1 hr with h | h
          · rw [h]; exact (hsrc m hm).1
          · exact (hsrc m hm).2 r h)
    apply ih ho' B' P'
    · intro t ht m hm
      by_cases h : m = l.name
      · subst h
        rw [hP', hB']
        dsimp only
        rw [Function.update_self, Function.update_self, hrow t ht]
      · rw [hP', hB']
        dsimp only
        rw [Function.update_of_ne h, Function.update_of_ne h]
        apply hin t ht
        intro r hr
        rcases List.mem_cons.1 hr with h' | h'
        · rw [h']; exact h
        · exact hm r h'
    · intro r hr
      have := hctx r (List.mem_cons_of_mem _ hr)
      rw [netPass_cons] at this
      rw [← this, hP']
      dsimp only
      rw [Function.update_of_ne (hne r hr)]

end lemmas

/-- **C19 (networks).**  Running a sequence in pieces, each continuing with the context of the piece
before, gives exactly the rows of one run over the whole sequence: all outputs and internals of
all layers in all steps, and so also the same context at the end.  For every network of causal
layers, all cuts into non-empty pieces and all old contents of the buffers. -/
theorem C19_network (ctxOf : ∀ l, RowOf l → CtxOf l) (shift : ℕ → Prop) (layers : List (NetLayer L RowOf))
    (ho : Ordered ctxOf shift layers) (x : ℕ → NetRow RowOf) (c : ∀ l, CtxOf l)
    (pieces : List (ℕ × (ℕ → NetRow RowOf))) (hp : RunsPieces ctxOf shift layers x c 0 pieces)
    (whole : ℕ → NetRow RowOf)
    (hx : ∀ t < piecesLen pieces, ∀ m, (∀ l ∈ layers, m ≠ l.name) → whole t m = x t m)
    (hc : ∀ l ∈ layers, ctxOf l.name (whole (piecesLen pieces) l.name) = c l.name) :
    piecesOut layers pieces =
      (List.range (piecesLen pieces)).map (netPass (piecesLen pieces) layers whole) := by
  classical
  set N := piecesLen pieces with hN
  have passN : ∀ l ∈ layers, ctxOf l.name (netPass N layers whole N l.name) = ctxOf l.name (whole N l.name) := by
    have gen : ∀ (ls : List (NetLayer L RowOf)) (B : ℕ → NetRow RowOf), Ordered ctxOf shift ls →
        netPass N ls B N = B N := by
      intro ls
      induction ls with
      | nil => intro B _; rfl
      | cons l rest ih =>
        intro B ho
        obtain ⟨⟨srcs, ⟨step, _, _, hpass⟩, _⟩, hne, ho'⟩ := ho
        rw [netPass_cons, ih _ ho', (hpass N B).2, Function.update_eq_self]
    intro l _
    rw [gen layers whole ho]
  have gen : ∀ (ps : List (ℕ × (ℕ → NetRow RowOf))) (o : ℕ) (c' : ∀ l, CtxOf l), o + piecesLen ps = N →
      (∀ l ∈ layers, c' l.name = ctxOf l.name (netPass N layers whole (prevRow N o) l.name)) →
      RunsPieces ctxOf shift layers x c' o ps →
      piecesOut layers ps = (List.range' o (piecesLen ps)).map (netPass N layers whole) := by
    intro ps
    induction ps with
    | nil => intro o c' _ _ _; rfl
    | cons q rest ih =>
      intro o c' ho' hc' hr
      obtain ⟨n, buf⟩ := q
      obtain ⟨hn, hs, hin, hctx, hrest⟩ := hr
      have hlen : piecesLen ((n, buf) :: rest) = n + piecesLen rest := by
        unfold piecesLen; rw [List.map_cons, List.sum_cons]
      have e := piece_eq ctxOf shift layers ho N n o (by omega) hs whole buf
        (fun t ht m hm => by rw [hin t ht m hm, hx (o + t) (by omega) m hm])
        (fun l hl => by rw [hctx l hl, hc' l hl])
      have e2 := ih (o + n) _ (by omega) (by
        intro l _
        have : prevRow N (o + n) = o + (n - 1) := by
          unfold prevRow
          rw [if_neg (by omega)]
          omega
        rw [this, e (n - 1) (by omega)]) hrest
      have : piecesOut layers ((n, buf) :: rest) = (List.range n).map (netPass n layers buf) ++ piecesOut layers rest := rfl
      rw [this, e2, hlen, ← List.range'_append_1, List.map_append]
      congr 1
      rw [List.range'_eq_map_range, List.map_map]
      apply List.map_congr_left
      intro t ht
      exact e t (List.mem_range.1 ht)
  have := gen pieces 0 c (by omega) (by
    intro l hl
    rw [prevRow_zero, passN l hl, hc l hl]) hp
  rw [this, List.range_eq_range']

/-! ## The layers are causal -/

section instances
variable {β φ ψ : Type} [Fintype φ] [Fintype ψ]

/-- A Recurrent layer `l` in a network; `inp` is the row of its inputs, `row` and `unrow` identify
its rows. -/
def rnnNet (a : Act) (p : RnnParams φ ψ) (l : L) (inp : NetRow RowOf → M β φ) (row : RnnRow β ψ ≃ RowOf l) :
    NetLayer L RowOf :=
  ⟨l, fun N buf t => row (rnnForward a N (fun t => inp (buf t)) p (fun t => row.symm (buf t l)) t)⟩

/-- A Clockwork layer in a network. -/
def cwNet (a : Act) (p : RnnParams φ ψ) (timing : V ψ) (l : L) (inp : NetRow RowOf → M β φ)
    (row : RnnRow β ψ ≃ RowOf l) : NetLayer L RowOf :=
  ⟨l, fun N buf t => row (cwForward a N (fun t => inp (buf t)) p timing (fun t => row.symm (buf t l)) t)⟩

/-- An LSTM layer in a network. -/
def lstmNet (a : Act) (p : LstmParams φ ψ) (l : L) (inp : NetRow RowOf → M β φ) (row : LstmRow β ψ ≃ RowOf l) :
    NetLayer L RowOf :=
  ⟨l, fun N buf t => row (lstmForward a N (fun t => inp (buf t)) p (fun t => row.symm (buf t l)) t)⟩

/-- A ClockworkLstm layer in a network. -/
def cwLstmNet (a : Act) (p : LstmParams φ ψ) (timing : V ψ) (l : L) (inp : NetRow RowOf → M β φ)
    (row : LstmRow β ψ ≃ RowOf l) : NetLayer L RowOf :=
  ⟨l, fun N buf t => row (cwLstmForward a N (fun t => inp (buf t)) p timing (fun t => row.symm (buf t l)) t)⟩

/-- A layer without recurrence in a network: each step is computed from the same step of its sources. -/
def pointwiseNet (l : L) (f : NetRow RowOf → RowOf l) : NetLayer L RowOf :=
  ⟨l, fun N buf t => if t < N then f (buf t) else buf t l⟩

variable (ctxOf : ∀ l, RowOf l → CtxOf l)

/-- **C19 (Recurrent).**  Causal; the context is the output row. -/
theorem C19_recurrent (a : Act) (p : RnnParams φ ψ) (l : L) (inp : NetRow RowOf → M β φ) (row : RnnRow β ψ ≃ RowOf l)
    (srcs : L → Prop) (hinp : ∀ cur cur', (∀ m, srcs m → cur m = cur' m) → inp cur = inp cur')
    (out : CtxOf l → M β ψ) (hctx : ∀ r, out (ctxOf l (row r)) = r.out) (shift : ℕ → Prop) :
    Causal ctxOf srcs shift (rnnNet a p l inp row) := by
  refine ⟨fun _ cur c => row (rnnStep a p 0 ⟨addMV (dotMM (inp cur) (tr p.W) 0) p.bias 0, 0⟩ ⟨0, out c⟩), ?_, ?_, ?_⟩
  · intro t cur cur' c h
    dsimp only
    rw [hinp cur cur' h]
  · intro o _ t cur c
    rfl
  · intro N buf
    obtain ⟨s1, s2⟩ := scanFwd_spec N (rnnStep a p) (rnnPre N (fun t => inp (buf t)) p (fun t => row.symm (buf t l)))
    constructor
    · intro t ht
      show row (scanFwd _ _ _ t) = _
      rw [s1 t ht]
      show _ = row (rnnStep a p 0 _ ⟨0, out (ctxOf l (row _))⟩)
      rw [hctx]
      unfold rnnPre
      rw [if_pos ht]
      rfl
    · show row (scanFwd _ _ _ N) = _
      rw [s2 N le_rfl]
      unfold rnnPre
      rw [if_neg (lt_irrefl N)]
      exact row.apply_symm_apply _

/-- **C19 (Lstm).**  Causal; the context is the output row and the cell state. -/
theorem C19_lstm (a : Act) (p : LstmParams φ ψ) (l : L) (inp : NetRow RowOf → M β φ) (row : LstmRow β ψ ≃ RowOf l)
    (srcs : L → Prop) (hinp : ∀ cur cur', (∀ m, srcs m → cur m = cur' m) → inp cur = inp cur')
    (y Ca : CtxOf l → M β ψ) (hctx : ∀ r, y (ctxOf l (row r)) = r.y ∧ Ca (ctxOf l (row r)) = r.Ca) (shift : ℕ → Prop) :
    Causal ctxOf srcs shift (lstmNet a p l inp row) := by
  refine ⟨fun _ cur c => row (lstmStep a p ⟨dotMM (inp cur) (tr (p.W .z)) 0, 0, dotMM (inp cur) (tr (p.W .i)) 0, 0,
    dotMM (inp cur) (tr (p.W .f)) 0, 0, dotMM (inp cur) (tr (p.W .o)) 0, 0, 0, 0, 0⟩
    ⟨0, 0, 0, 0, 0, 0, 0, 0, Ca c, 0, y c⟩), ?_, ?_, ?_⟩
  · intro t cur cur' c h
    dsimp only
    rw [hinp cur cur' h]
  · intro o _ t cur c
    rfl
  · intro N buf
    obtain ⟨s1, s2⟩ := scanFwd_spec N (fun _ => lstmStep a p) (lstmPre N (fun t => inp (buf t)) p (fun t => row.symm (buf t l)))
    constructor
    · intro t ht
      show row (scanFwd _ _ _ t) = _
      rw [s1 t ht]
      show _ = row (lstmStep a p _ ⟨0, 0, 0, 0, 0, 0, 0, 0, Ca (ctxOf l (row _)), 0, y (ctxOf l (row _))⟩)
      rw [(hctx _).1, (hctx _).2]
      unfold lstmPre
      rw [if_pos ht]
      rfl
    · show row (scanFwd _ _ _ N) = _
      rw [s2 N le_rfl]
      unfold lstmPre
      rw [if_neg (lt_irrefl N)]
      exact row.apply_symm_apply _

omit [Fintype φ] [Fintype ψ] in
/-- **C19 (layers without recurrence).** -/
theorem C19_pointwise (l : L) (f : NetRow RowOf → RowOf l) (srcs : L → Prop)
    (hf : ∀ cur cur', (∀ m, srcs m → cur m = cur' m) → f cur = f cur') (shift : ℕ → Prop) :
    Causal ctxOf srcs shift (pointwiseNet l f) := by
  refine ⟨fun _ cur _ => f cur, fun t cur cur' c h => hf cur cur' h, fun o _ t cur c => rfl, fun N buf => ⟨?_, ?_⟩⟩
  · intro t ht
    exact if_pos ht
  · exact if_neg (lt_irrefl N)

omit [Fintype ψ] in
theorem cwHolds_shift (timing : V ψ) (o : ℕ) (h : ∀ j, 0 < timing j ∧ ∃ k : ℕ, (o : ℝ) = k * timing j) (t : ℕ) (j : ψ) :
    cwHolds timing (o + t) j ↔ cwHolds timing t j := by
  obtain ⟨hp, k, hk⟩ := h j
  unfold cwHolds fmod
  rw [if_neg hp.ne', if_neg hp.ne']
  have h1 : (((o + t : ℕ) : ℝ)) / timing j = t / timing j + k := by
    push_cast
    rw [hk]
    field_simp
    ring
  have h2 : (0 : ℝ) ≤ t / timing j := div_nonneg (Nat.cast_nonneg t) hp.le
  have h3 : (0 : ℝ) ≤ t / timing j + k := add_nonneg h2 (Nat.cast_nonneg k)
  rw [h1, if_pos h2, if_pos h3]
  have h4 : (⌊(t : ℝ) / timing j + k⌋ : ℝ) = ⌊(t : ℝ) / timing j⌋ + k := by
    rw [Int.floor_add_natCast]
    push_cast
    rfl
  rw [h4]
  have h5 : ((o + t : ℕ) : ℝ) - timing j * ((⌊(t : ℝ) / timing j⌋ : ℝ) + k) = t - timing j * (⌊(t : ℝ) / timing j⌋ : ℝ) := by
    push_cast
    rw [hk]
    ring
  rw [h5]

/-- The cuts after which a clockwork layer goes on as if it had not been interrupted. -/
def atTick (timing : V ψ) (o : ℕ) : Prop := ∀ j, 0 < timing j ∧ ∃ k : ℕ, (o : ℝ) = k * timing j

theorem cwHolds_tick (timing : V ψ) (o : ℕ) (h : atTick timing o) (j : ψ) : ¬ cwHolds timing o j := by
  have := (cwHolds_shift timing o h 0 j).not
  rw [Nat.add_zero] at this
  rw [this]
  unfold cwHolds fmod
  rw [if_neg (h j).1.ne']
  simp

/-- **C19 (Clockwork).**  Causal for cuts at multiples of all timings, not for other cuts, for which
the claim is false (`C19_clockwork_wrong`). -/
theorem C19_clockwork_at_ticks (a : Act) (p : RnnParams φ ψ) (timing : V ψ) (l : L) (inp : NetRow RowOf → M β φ)
    (row : RnnRow β ψ ≃ RowOf l)
    (srcs : L → Prop) (hinp : ∀ cur cur', (∀ m, srcs m → cur m = cur' m) → inp cur = inp cur')
    (out : CtxOf l → M β ψ) (hctx : ∀ r, out (ctxOf l (row r)) = r.out) :
    Causal ctxOf srcs (atTick timing) (cwNet a p timing l inp row) := by
  refine ⟨fun t cur c => row (cwStep a p timing t ⟨addMV (dotMM (inp cur) (tr p.W) 0) p.bias 0, 0⟩ ⟨0, out c⟩), ?_, ?_, ?_⟩
  · intro t cur cur' c h
    dsimp only
    rw [hinp cur cur' h]
  · intro o ho t cur c
    unfold cwStep
    dsimp only
    congr 2
    have e : cwHolds timing (o + t) = cwHolds timing t := funext fun j => propext (cwHolds_shift timing o ho t j)
    rw [e]
    by_cases ht : t > 0
    · rw [if_pos ht, if_pos (by omega)]
    · rw [if_neg ht]
      by_cases ho0 : o + t > 0
      · rw [if_pos ho0]
        have t0 : t = 0 := by omega
        subst t0
        funext b j
        unfold copyToIf
        rw [if_neg]
        have := cwHolds_tick timing o ho j
        rwa [← congrFun e j, Nat.add_zero]
      · rw [if_neg ho0]
  · intro N buf
    obtain ⟨s1, s2⟩ := scanFwd_spec N (cwStep a p timing) (rnnPre N (fun t => inp (buf t)) p (fun t => row.symm (buf t l)))
    constructor
    · intro t ht
      show row (scanFwd _ _ _ t) = _
      rw [s1 t ht]
      show _ = row (cwStep a p timing t _ ⟨0, out (ctxOf l (row _))⟩)
      rw [hctx]
      unfold rnnPre
      rw [if_pos ht]
      rfl
    · show row (scanFwd _ _ _ N) = _
      rw [s2 N le_rfl]
      unfold rnnPre
      rw [if_neg (lt_irrefl N)]
      exact row.apply_symm_apply _

/-- **C19 (ClockworkLstm).**  As for Clockwork. -/
theorem C19_clockwork_lstm_at_ticks (a : Act) (p : LstmParams φ ψ) (timing : V ψ) (l : L) (inp : NetRow RowOf → M β φ)
    (row : LstmRow β ψ ≃ RowOf l)
    (srcs : L → Prop) (hinp : ∀ cur cur', (∀ m, srcs m → cur m = cur' m) → inp cur = inp cur')
    (y Ca : CtxOf l → M β ψ) (hctx : ∀ r, y (ctxOf l (row r)) = r.y ∧ Ca (ctxOf l (row r)) = r.Ca) :
    Causal ctxOf srcs (atTick timing) (cwLstmNet a p timing l inp row) := by
  refine ⟨fun t cur c => row (cwLstmStep a p timing t ⟨dotMM (inp cur) (tr (p.W .z)) 0, 0, dotMM (inp cur) (tr (p.W .i)) 0, 0,
    dotMM (inp cur) (tr (p.W .f)) 0, 0, dotMM (inp cur) (tr (p.W .o)) 0, 0, 0, 0, 0⟩
    ⟨0, 0, 0, 0, 0, 0, 0, 0, Ca c, 0, y c⟩), ?_, ?_, ?_⟩
  · intro t cur cur' c h
    dsimp only
    rw [hinp cur cur' h]
  · intro o ho t cur c
    unfold cwLstmStep
    dsimp only
    congr 1
    have e : cwHolds timing (o + t) = cwHolds timing t := funext fun j => propext (cwHolds_shift timing o ho t j)
    rw [e]
    by_cases ht : t > 0
    · rw [if_pos ht, if_pos (by omega)]
    · rw [if_neg ht]
      by_cases ho0 : o + t > 0
      · rw [if_pos ho0]
        have t0 : t = 0 := by omega
        subst t0
        have : ∀ u v : M β ψ, copyToIf u v (cwHolds timing 0) = v := by
          intro u v
          funext b j
          unfold copyToIf
          rw [if_neg]
          have := cwHolds_tick timing o ho j
          rwa [← congrFun e j, Nat.add_zero]
        rw [this, this]
      · rw [if_neg ho0]
  · intro N buf
    obtain ⟨s1, s2⟩ := scanFwd_spec N (cwLstmStep a p timing) (lstmPre N (fun t => inp (buf t)) p (fun t => row.symm (buf t l)))
    constructor
    · intro t ht
      show row (scanFwd _ _ _ t) = _
      rw [s1 t ht]
      show _ = row (cwLstmStep a p timing t _ ⟨0, 0, 0, 0, 0, 0, 0, 0, Ca (ctxOf l (row _)), 0, y (ctxOf l (row _))⟩)
      rw [(hctx _).1, (hctx _).2]
      unfold lstmPre
      rw [if_pos ht]
      rfl
    · show row (scanFwd _ _ _ N) = _
      rw [s2 N le_rfl]
      unfold lstmPre
      rw [if_neg (lt_irrefl N)]
      exact row.apply_symm_apply _

end instances

end

end Verif.Layers
