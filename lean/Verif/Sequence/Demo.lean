import Verif.Sequence.Props

/-!
# The assumptions of C78 are met
-/

namespace Verif.Sequence

open Verif.Architecture hiding demoArch
open Verif.Structure Verif.Layout Verif.Buffers Verif.Instantiate Verif.EndToEnd
open Verif.Memory hiding demoL
open Verif.Session
open Verif.Setup (Kwargs libEnv infos toInfo inp_some)
open Verif.Shapes (Supported)

/-- Keyword arguments of a small network: an LSTM layer of size 3, then a layer of size 2. -/
def chainKwargs (n : Name) : Kwargs :=
  if n = str "Input" then [(str "out_shapes", .shapes ⟨[(str "default", [.T, .B, .n 4]), (str "targets", [.T, .B, .n 2])],
    by decide, by decide⟩)]
  else if n = str "Rnn" then [(str "size", .int 3)]
  else if n = str "Out" then [(str "size", .int 2), (str "activation", .string (str "sigmoid"))]
  else if n = str "Loss" then [(str "importance", .int 2)]
  else []

/-- Its architecture: one layer after the other. -/
def chainArch : Arch :=
  [(str "Input", ⟨.string (str "Input"), .dict [(str "default", [str "Rnn"]), (str "targets", [str "SE.targets"])]⟩),
   (str "Rnn", ⟨.string (str "Lstm"), .list [str "Out"]⟩),
   (str "Out", ⟨.string (str "FullyConnected"), .list [str "SE"]⟩),
   (str "SE", ⟨.string (str "SquaredError"), .dict [(str "loss", [str "Loss"])]⟩),
   (str "Loss", ⟨.string (str "Loss"), .list []⟩)]

def chainLayers : Dict Name (LayerObj Kwargs) :=
  match instantiateFuel 8 (libEnv chainKwargs) (demoOrders true) chainArch with
  | some (.ok ls) => ls
  | _ => []

def chainL : Layout :=
  match createLayout (infos chainLayers) with
  | .ok L => L
  | .error _ => ⟨[], []⟩

theorem chain_instantiates : Instantiates (libEnv chainKwargs) (demoOrders true) chainArch (.ok chainLayers) := by
  refine instantiates_of _ _ _ (by decide +kernel) (by decide +kernel) 8 (by decide +kernel) _ ?_
  have : (instantiateFuel 8 (libEnv chainKwargs) (demoOrders true) chainArch).any (fun r => match r with
        | .ok _ => true | .error _ => false) = true := by decide +kernel
  unfold chainLayers
  cases hr : instantiateFuel 8 (libEnv chainKwargs) (demoOrders true) chainArch with
  | none => rw [hr] at this; simp at this
  | some r => cases r with
    | error e => rw [hr] at this; simp at this
    | ok l => rfl

theorem chain_layout : createLayout (infos chainLayers) = .ok chainL := by
  have : (match createLayout (infos chainLayers) with | .ok _ => true | .error _ => false) = true := by decide +kernel
  unfold chainL
  cases hr : createLayout (infos chainLayers) with
  | ok L => rfl
  | error e => rw [hr] at this; cases this

/-- All connections of the architecture. -/
def chainConns : List Connection :=
  [⟨str "Input", str "default", str "Rnn", str "default"⟩,
   ⟨str "Input", str "targets", str "SE", str "targets"⟩, ⟨str "Rnn", str "default", str "Out", str "default"⟩,
   ⟨str "Out", str "default", str "SE", str "default"⟩, ⟨str "SE", str "loss", str "Loss", str "default"⟩]

theorem chain_conns (c : Connection) : HasConnection chainArch c ↔ c ∈ chainConns := by
  obtain ⟨cs, r, hcs, hm, -⟩ := canonicalOrder_eval chainArch (by decide +kernel)
    ((C06_validate_iff chainArch (by decide +kernel)).1 (by decide +kernel)).outgoing
  rw [← hm]
  have : (match collectAll chainArch with
    | .ok cs => (cs.all fun c => decide (c ∈ chainConns)) && chainConns.all fun c => decide (c ∈ cs)
    | .error _ => false) = true := by decide +kernel
  rw [hcs] at this
  simp only [Bool.and_eq_true, List.all_eq_true, decide_eq_true_eq] at this
  exact ⟨this.1 c, this.2 c⟩

theorem chain_types (n t : Name) : HasType chainArch n t ↔ (n, t) ∈ [(str "Input", str "Input"), (str "Rnn", str "Lstm"),
    (str "Out", str "FullyConnected"), (str "SE", str "SquaredError"), (str "Loss", str "Loss")] := by
  simp only [HasType, chainArch, List.mem_cons, Prod.mk.injEq, List.not_mem_nil, or_false]
  constructor
  · rintro ⟨d, ⟨rfl, rfl⟩ | ⟨rfl, rfl⟩ | ⟨rfl, rfl⟩ | ⟨rfl, rfl⟩ | ⟨rfl, rfl⟩, h⟩ <;> cases h <;> simp
  · rintro (⟨rfl, rfl⟩ | ⟨rfl, rfl⟩ | ⟨rfl, rfl⟩ | ⟨rfl, rfl⟩ | ⟨rfl, rfl⟩)
    · exact ⟨_, .inl ⟨rfl, rfl⟩, rfl⟩
    · exact ⟨_, .inr (.inl ⟨rfl, rfl⟩), rfl⟩
    · exact ⟨_, .inr (.inr (.inl ⟨rfl, rfl⟩)), rfl⟩
    · exact ⟨_, .inr (.inr (.inr (.inl ⟨rfl, rfl⟩))), rfl⟩
    · exact ⟨_, .inr (.inr (.inr (.inr ⟨rfl, rfl⟩))), rfl⟩

theorem chain_trainable : Trainable chainArch where
  oneInput := by
    intro n m h1 h2
    rw [chain_types] at h1 h2
    have e : ∀ x : Name × Name, x ∈ [(str "Input", str "Input"), (str "Rnn", str "Lstm"),
      (str "Out", str "FullyConnected"), (str "SE", str "SquaredError"), (str "Loss", str "Loss")] → x.2 = str "Input" → x.1 = str "Input" := by
      decide +kernel
    exact (e (n, _) h1 rfl).trans (e (m, _) h2 rfl).symm
  noBatchNorm n := by
    rw [chain_types]
    simp only [List.mem_cons, Prod.mk.injEq, List.not_mem_nil, or_false]
    rintro (⟨-, h⟩ | ⟨-, h⟩ | ⟨-, h⟩ | ⟨-, h⟩ | ⟨-, h⟩) <;> exact absurd h (by decide)
  noScaling n := by
    rw [chain_types]
    simp only [List.mem_cons, Prod.mk.injEq, List.not_mem_nil, or_false]
    rintro (⟨-, h⟩ | ⟨-, h⟩ | ⟨-, h⟩ | ⟨-, h⟩ | ⟨-, h⟩) <;> exact absurd h (by decide)
  names := by decide +kernel
  noInternals := by simp only [chain_conns]; decide +kernel
  once := by
    have : ∀ c ∈ chainConns, ∀ c' ∈ chainConns, c.startLayer = c'.startLayer → c.outputName = c'.outputName →
      c.endLayer = c'.endLayer → c.inputName = c'.inputName := by decide +kernel
    exact fun c c' h h' => this c ((chain_conns c).1 h) c' ((chain_conns c').1 h')
  data := by simp only [chain_conns, chain_types]; decide +kernel
  predictions := by simp only [chain_conns, chain_types]; decide +kernel
  losses := by simp only [chain_conns, chain_types]; decide +kernel
  parameters := by simp only [chain_conns, chain_types]; decide +kernel

theorem chain_numeric : Numeric chainArch chainKwargs where
  dropProb n h := by
    rw [chain_types] at h
    simp only [List.mem_cons, Prod.mk.injEq, List.not_mem_nil, or_false] at h
    rcases h with ⟨-, h⟩ | ⟨-, h⟩ | ⟨-, h⟩ | ⟨-, h⟩ | ⟨-, h⟩ <;> exact absurd h (by decide)
  importance n h v hv := by
    rw [chain_types] at h
    simp only [List.mem_cons, Prod.mk.injEq, List.not_mem_nil, or_false] at h
    rcases h with ⟨-, h⟩ | ⟨-, h⟩ | ⟨-, h⟩ | ⟨-, h⟩ | ⟨rfl, -⟩
    · exact absurd h (by decide)
    · exact absurd h (by decide)
    · exact absurd h (by decide)
    · exact absurd h (by decide)
    · have e : Dict.get? (chainKwargs (str "Loss")) (str "importance") = some (.int 2) := rfl
      rw [e] at hv
      cases hv
      exact .inl ⟨2, rfl⟩

theorem chain_supported (n : Name) (l : LayerObj Kwargs) (t : Name) (hl : Dict.get? chainLayers n = some l)
    (ht : HasType chainArch n t) : Supported t l.kwargs l.inShapes := by
  have hkw := (Made.mk (L := chainL) (by decide +kernel) (demoOrders_ok true) chain_instantiates
    ⟨str "Out", (Dict.get? chainLayers (str "Out")).get (by decide +kernel), by simp, by decide +kernel⟩ chain_layout).kwargs_eq hl
  rw [hkw]
  rw [chain_types] at ht
  simp only [List.mem_cons, Prod.mk.injEq, List.not_mem_nil, or_false] at ht
  refine ⟨?_, ?_, ?_⟩
  · intro v hv
    rcases ht with ⟨rfl, -⟩ | ⟨rfl, -⟩ | ⟨rfl, -⟩ | ⟨rfl, -⟩ | ⟨rfl, -⟩
    · exact absurd hv (by rw [show Dict.get? (chainKwargs (str "Input")) (str "activation") = none by decide +kernel]; simp)
    · exact absurd hv (by rw [show Dict.get? (chainKwargs (str "Rnn")) (str "activation") = none by decide +kernel]; simp)
    · refine ⟨str "sigmoid", by decide, ?_⟩
      have e : Dict.get? (chainKwargs (str "Out")) (str "activation") = some (.string (str "sigmoid")) := rfl
      rw [e] at hv
      exact (Option.some.inj hv).symm
    · exact absurd hv (by rw [show Dict.get? (chainKwargs (str "SE")) (str "activation") = none by decide +kernel]; simp)
    · exact absurd hv (by rw [show Dict.get? (chainKwargs (str "Loss")) (str "activation") = none by decide +kernel]; simp)
  · rintro rfl
    rcases ht with ⟨-, h⟩ | ⟨-, h⟩ | ⟨-, h⟩ | ⟨-, h⟩ | ⟨-, h⟩ <;> exact absurd h (by decide)
  · rintro (rfl | rfl)
    · rcases ht with ⟨-, h⟩ | ⟨-, h⟩ | ⟨-, h⟩ | ⟨-, h⟩ | ⟨-, h⟩ <;> exact absurd h (by decide)
    · rcases ht with ⟨-, h⟩ | ⟨-, h⟩ | ⟨-, h⟩ | ⟨-, h⟩ | ⟨-, h⟩ <;> exact absurd h (by decide)

theorem chain_outs : ∃ n l, Dict.get? chainLayers n = some l ∧ l.shapes.outs ≠ [] :=
  ⟨str "Out", (Dict.get? chainLayers (str "Out")).get (by decide +kernel), by simp, by decide +kernel⟩


/-! ### The network and its batches -/

/-- The layer of the external data. -/
def chainData : LayerInfo := toInfo ((Dict.get? chainLayers (str "Input")).get (by decide +kernel))

/-- The data are alone in their buffer; they are not in the network in which they share one with a recurrent layer (C18). -/
theorem chain_alone : DataAlone (infos chainLayers) chainL chainData := by
  have : ∀ x ∈ chainData.outShapes, ∀ e ∈ Dict.get? (netOf (infos chainLayers) chainL).layout (path chainData.name (str "outputs") x.1),
      ∀ h ∈ (netOf (infos chainLayers) chainL).hubs[e.hub]?, h.ctx = 0 := by decide +kernel
  exact fun x s e h hx he hh => this (x, s) hx e he h hh

example : ¬ DataAlone (infos demoLayers) EndToEnd.demoL demoData := by
  intro hA
  have : ∃ x ∈ demoData.outShapes, ∃ e, Dict.get? (netOf (infos demoLayers) EndToEnd.demoL).layout (path demoData.name (str "outputs") x.1) = some e ∧
      ∃ h, (netOf (infos demoLayers) EndToEnd.demoL).hubs[e.hub]? = some h ∧ h.ctx ≠ 0 := by
    refine ⟨(str "default", ⟨[.T, .B, .n 4], 0, false⟩), by decide +kernel, _, Option.some_get (by decide +kernel) |>.symm, _,
      Option.some_get (by decide +kernel) |>.symm, by decide +kernel⟩
  obtain ⟨x, hx, e, he, h, hh, hc⟩ := this
  exact hc (hA x.1 x.2 e h hx he hh)

theorem chain_types_not (n : Name) : ¬ HasType chainArch n (str "Clockwork") ∧ ¬ HasType chainArch n (str "ClockworkLstm") ∧
    ¬ HasType chainArch n (str "Dropout") := by
  simp only [chain_types, List.mem_cons, Prod.mk.injEq, List.not_mem_nil, or_false]
  refine ⟨?_, ?_, ?_⟩ <;> rintro (⟨-, h⟩ | ⟨-, h⟩ | ⟨-, h⟩ | ⟨-, h⟩ | ⟨-, h⟩) <;> exact absurd h (by decide)

/-- Steps `o`, ..., `o + T - 1` of an endless batch of `B` sequences. -/
noncomputable def part (f g : ℕ → ℝ) (B o T : ℕ) : Batch :=
  ⟨T, B, [(str "default", (List.range (T * B * 4)).map fun j => f (o * B * 4 + j)),
    (str "targets", (List.range (T * B * 2)).map fun j => g (o * B * 2 + j))], 0⟩

theorem part_good (f g : ℕ → ℝ) (B o T : ℕ) : (part f g B o T).Good chainData := by
  refine ⟨?_, ?_, ?_⟩
  · simp only [part, List.map]; decide +kernel
  · simp only [part, List.map]; decide +kernel
  · simp only [part, List.forall_mem_cons, List.not_mem_nil, false_imp_iff, implies_true, and_true]
    refine ⟨⟨⟨[.T, .B, .n 4], 0, false⟩, by decide +kernel, ?_⟩, ⟨⟨[.T, .B, .n 2], 0, false⟩, by decide +kernel, ?_⟩⟩ <;>
      simp [structShape, mul_assoc, Struct.bufferType, Struct.featureShape, Tok.size, typeOf]

/-- The pieces of the batch, of the given lengths. -/
noncomputable def cut (f g : ℕ → ℝ) (B : ℕ) : ℕ → List ℕ → List Batch
  | _, [] => []
  | o, T :: Ts => part f g B o T :: cut f g B (o + T) Ts

theorem cut_split (f g : ℕ → ℝ) (B : ℕ) (Ts : List ℕ) : ∀ (o : ℕ) (done : List Batch) (b : Batch) (later : List Batch),
    cut f g B o Ts = done ++ b :: later → ∃ T, b = part f g B (o + (done.map Batch.T).sum) T := by
  induction Ts with
  | nil => intro o done b later h; simp [cut] at h
  | cons T Ts ih =>
    intro o done b later h
    cases done with
    | nil => exact ⟨T, (List.cons.inj h).1.symm⟩
    | cons x done =>
      obtain ⟨rfl, h'⟩ := List.cons.inj h
      obtain ⟨T', e⟩ := ih _ _ _ _ h'
      exact ⟨T', by simpa [part, Nat.add_assoc] using e⟩

theorem cut_good (f g : ℕ → ℝ) (B : ℕ) (Ts : List ℕ) (h0 : ∀ T ∈ Ts, 0 < T) : ∀ o, ∀ b ∈ cut f g B o Ts,
    b.Good chainData ∧ b.B = B ∧ 0 < b.T := by
  induction Ts with
  | nil => simp [cut]
  | cons T Ts ih =>
    intro o b hb
    rcases List.mem_cons.1 hb with rfl | hb
    · exact ⟨part_good .., rfl, h0 T (by simp)⟩
    · exact ih (fun T hT => h0 T (by simp [hT])) _ b hb

theorem cut_sum (f g : ℕ → ℝ) (B : ℕ) (Ts : List ℕ) : ∀ o, ((cut f g B o Ts).map Batch.T).sum = Ts.sum := by
  induction Ts with
  | nil => simp [cut]
  | cons T Ts ih => intro o; simp [cut, ih, part]

theorem range_getD (h : ℕ → ℝ) {n j : ℕ} (hj : j < n) : ((List.range n).map h).getD j 0 = h j := by
  simp [List.getD_eq_getElem?_getD, List.getElem?_map, List.getElem?_range hj]

theorem cut_same (f g : ℕ → ℝ) (B o T n : ℕ) (A : Align) (h1 : A.T = n) (h2 : A.B = B) (h3 : A.T' = T) (h4 : A.B' = B) (h5 : A.b = A.b')
    (h6 : A.o = o) : SameData A chainData (part f g B 0 n) (part f g B o T) := by
  have key : ∀ (h : ℕ → ℝ) (m : ℕ) (sh : Struct), sh.bufferType = 2 → sh.featureSize = m →
      A.Same sh (fun j => ((List.range (n * B * m)).map fun j => h (0 * B * m + j)).getD j 0)
        (fun j => ((List.range (T * B * m)).map fun j => h (o * B * m + j)).getD j 0) := by
    rintro h m sh hb rfl r r' hr k hk
    obtain ⟨t, ht, rfl, rfl⟩ := (Align.rows_seq hb).1 hr
    have s1 := A.steps
    have s2 := A.steps'
    have q1 := A.seq
    have q2 := A.seq'
    rw [h1] at s1
    rw [h2] at q1
    rw [h3] at s2
    rw [h4] at q2
    have bound : ∀ N t q : ℕ, t < N → q < B → (t * B + q) * sh.featureSize + k < N * B * sh.featureSize := by
      intro N t q hN hq
      have e1 : t * B + q + 1 ≤ (t + 1) * B := by rw [Nat.add_mul]; omega
      have e2 := Nat.mul_le_mul_right B hN
      have e3 : (t * B + q + 1) * sh.featureSize ≤ N * B * sh.featureSize := Nat.mul_le_mul_right _ (e1.trans e2)
      rw [Nat.add_mul] at e3
      omega
    simp only
    rw [h2, h4, range_getD _ (bound _ _ _ (by omega) q1), range_getD _ (bound _ _ _ (by omega) q2), h6, h5]
    congr 1
    ring
  intro x sh xs xs' hx hxs hxs'
  have hd : chainData.outShapes = [(str "default", ⟨[.T, .B, .n 4], 0, false⟩), (str "targets", ⟨[.T, .B, .n 2], 0, false⟩)] := by
    decide +kernel
  rw [hd] at hx
  simp only [part, List.mem_cons, Prod.mk.injEq, List.not_mem_nil, or_false] at hx hxs hxs'
  have hne : str "default" ≠ str "targets" := by decide
  rcases hx with ⟨rfl, rfl⟩ | ⟨rfl, rfl⟩
  · obtain rfl := hxs.elim (fun g => g.2) fun g => absurd g.1 hne
    obtain rfl := hxs'.elim (fun g => g.2) fun g => absurd g.1 hne
    exact key f 4 _ rfl rfl
  · obtain rfl := hxs.elim (fun g => absurd g.1.symm hne) fun g => g.2
    obtain rfl := hxs'.elim (fun g => absurd g.1.symm hne) fun g => g.2
    exact key g 2 _ rfl rfl

/-- A new network. -/
theorem chain_new : ∃ (st : State ℝ) (θ : List ℝ), Reachable (netOf (infos chainLayers) chainL) st ∧
    st.read (str "parameters") = some θ := by
  obtain ⟨data, rest, -, F, -⟩ := C78_pieces chainKwargs chainArch (by decide +kernel) (demoOrders true) (demoOrders_ok true) chainLayers
    chain_instantiates chain_outs chainL chain_layout chain_trainable chain_numeric chain_supported
  obtain ⟨st, _, _, h1, i⟩ := create_inv (V := ℝ) (netOf_wellLaid F.laid.wf F.laid.shaped F.laid.layout)
  obtain ⟨e, he⟩ := params_entry (layers := infos chainLayers) (L := chainL)
  exact ⟨st, _, .new h1, read_inv F.laid i he⟩

/-- All assumptions are met: a batch of any size, in any pieces. -/
example (M : Mode) (f g : ℕ → ℝ) (B : ℕ) (Ts : List ℕ) (h0 : ∀ T ∈ Ts, 0 < T) :
    ∃ data rest, HasType chainArch data.name (str "Input") ∧ ∃ F : Memory.Fits (infos chainLayers) chainL data rest,
      ∃ ps : Mode → ∀ T B, ∀ l ∈ rest, LibLayer (infos chainLayers) data l T B, ∃ st st₁ st₂ sts,
          provide (netOf (infos chainLayers) chainL) data.name (part f g B 0 Ts.sum) st = some st₁ ∧
          forwardPass (netOf (infos chainLayers) chainL) (fun T B => libNetwork F (ps M T B)) 0 st₁ = some st₂ ∧
          pieces (netOf (infos chainLayers) chainL) data.name (fun T B => libNetwork F (ps M T B)) none (cut f g B 0 Ts) st = some sts ∧
          ∀ done b later, cut f g B 0 Ts = done ++ b :: later → ∀ A, Piece (part f g B 0 Ts.sum) done b A →
            ∃ stb, sts[done.length]? = some stb ∧ ∀ l ∈ rest, ¬ HasType chainArch l.name (str "Loss") → SameOutputs A l st₂ stb := by
  obtain ⟨data, rest, hdt, F, ps, -, h⟩ := C78_pieces chainKwargs chainArch (by decide +kernel) (demoOrders true) (demoOrders_ok true)
    chainLayers chain_instantiates chain_outs chainL chain_layout chain_trainable chain_numeric chain_supported
  obtain ⟨st, θ, hst, hθ⟩ := chain_new
  have hdata : data = chainData := by
    have h1 : data ∈ infos chainLayers := by rw [F.ordered.all]; simp
    have h2 : ∀ l ∈ infos chainLayers, l.name = str "Input" → l = chainData := by decide +kernel
    have h3 : ∀ x : Name × Name, x ∈ [(str "Input", str "Input"), (str "Rnn", str "Lstm"),
      (str "Out", str "FullyConnected"), (str "SE", str "SquaredError"), (str "Loss", str "Loss")] → x.2 = str "Input" → x.1 = str "Input" := by
      decide +kernel
    exact h2 data h1 (h3 (data.name, _) ((chain_types _ _).1 hdt) rfl)
  subst hdata
  obtain ⟨st₁, st₂, sts, g1, g2, g3, -, g4⟩ := h M st st (part f g B 0 Ts.sum) (cut f g B 0 Ts) θ hst hst (part_good ..)
    (cut_good f g B Ts h0 0) (by rw [cut_sum]; exact le_refl _) hθ hθ (fun _ l => (chain_types_not l).2.2)
    (fun l => ⟨(chain_types_not l).1, (chain_types_not l).2.1⟩) chain_alone
    (fun done b later e A hA => by
      obtain ⟨T, rfl⟩ := cut_split f g B Ts 0 done b later e
      rw [Nat.zero_add] at hA ⊢
      exact cut_same f g B _ T _ A hA.whole.1 hA.whole.2 hA.part.1 hA.part.2 hA.seq hA.start)
  exact ⟨_, rest, hdt, F, ps, st, st₁, st₂, sts, g1, g2, g3, g4⟩

/-- Comparisons exist: the second sequence, in the second of the pieces of 2 and 3 steps. -/
example (f g : ℕ → ℝ) : Piece (part f g 4 0 5) [part f g 4 0 2] (part f g 4 2 3)
    ⟨5, 4, 1, 3, 4, 1, 2, 3, by omega, by omega, by omega, by omega⟩ :=
  ⟨⟨rfl, rfl⟩, ⟨rfl, rfl⟩, rfl, rfl, rfl⟩

/-- The assumptions of `C78_sequence` are met by batches of other sizes, that go on with other data. -/
example (M : Mode) (f g f' g' : ℕ → ℝ) (n T T' : ℕ) (h : n ≤ T) (h' : n ≤ T') (hf : ∀ j < n * 4, f j = f' j) (hg : ∀ j < n * 2, g j = g' j) :
    ∃ data rest, HasType chainArch data.name (str "Input") ∧ ∃ F : Memory.Fits (infos chainLayers) chainL data rest,
      ∃ ps : Mode → ∀ T B, ∀ l ∈ rest, LibLayer (infos chainLayers) data l T B, ∃ st st₁ st₂ st₁' st₂',
          provide (netOf (infos chainLayers) chainL) data.name (part f g 1 0 T) st = some st₁ ∧
          forwardPass (netOf (infos chainLayers) chainL) (fun T B => libNetwork F (ps M T B)) 0 st₁ = some st₂ ∧
          provide (netOf (infos chainLayers) chainL) data.name (part f' g' 1 0 T') st = some st₁' ∧
          forwardPass (netOf (infos chainLayers) chainL) (fun T B => libNetwork F (ps M T B)) 0 st₁' = some st₂' ∧
          ∀ l ∈ rest, ¬ HasType chainArch l.name (str "Loss") →
            SameOutputs ⟨T, 1, 0, T', 1, 0, 0, n, by omega, h', by omega, by omega⟩ l st₂ st₂' := by
  obtain ⟨data, rest, hdt, F, ps, -, hs⟩ := C78_sequence chainKwargs chainArch (by decide +kernel) (demoOrders true) (demoOrders_ok true)
    chainLayers chain_instantiates chain_outs chainL chain_layout chain_trainable chain_numeric chain_supported
  obtain ⟨st, θ, hst, hθ⟩ := chain_new
  have hdata : data = chainData := by
    have h1 : data ∈ infos chainLayers := by rw [F.ordered.all]; simp
    have h2 : ∀ l ∈ infos chainLayers, l.name = str "Input" → l = chainData := by decide +kernel
    have h3 : ∀ x : Name × Name, x ∈ [(str "Input", str "Input"), (str "Rnn", str "Lstm"),
      (str "Out", str "FullyConnected"), (str "SE", str "SquaredError"), (str "Loss", str "Loss")] → x.2 = str "Input" → x.1 = str "Input" := by
      decide +kernel
    exact h2 data h1 (h3 (data.name, _) ((chain_types _ _).1 hdt) rfl)
  subst hdata
  obtain ⟨st₁, st₂, st₁', st₂', g1, g2, g3, g4, g5⟩ := hs M st st (part f g 1 0 T) (part f' g' 1 0 T') θ 0 0 n (by simp [part]) (by simp [part])
    h h' hst hst (part_good ..) (part_good ..) hθ hθ (fun _ l => (chain_types_not l).2.2)
    (fun l ts ht => (ht.elim (chain_types_not l).1 (chain_types_not l).2.1).elim) (Or.inr (Or.inr chain_alone)) (by
      have hd : chainData.outShapes = [(str "default", ⟨[.T, .B, .n 4], 0, false⟩), (str "targets", ⟨[.T, .B, .n 2], 0, false⟩)] := by
        decide +kernel
      have hne : str "default" ≠ str "targets" := by decide
      have key : ∀ (u u' : ℕ → ℝ) (m : ℕ) (sh : Struct), sh.bufferType = 2 → sh.featureSize = m → (∀ j < n * m, u j = u' j) →
          Align.Same ⟨T, 1, 0, T', 1, 0, 0, n, by omega, h', by omega, by omega⟩ sh
            (fun j => ((List.range (T * 1 * m)).map fun j => u (0 * 1 * m + j)).getD j 0)
            (fun j => ((List.range (T' * 1 * m)).map fun j => u' (0 * 1 * m + j)).getD j 0) := by
        rintro u u' m sh hb rfl hu r r' hr k hk
        obtain ⟨t, ht, rfl, rfl⟩ := (Align.rows_seq hb).1 hr
        have bound : ∀ N : ℕ, t < N → t * sh.featureSize + k < N * sh.featureSize := by
          intro N hN
          have e3 : (t + 1) * sh.featureSize ≤ N * sh.featureSize := Nat.mul_le_mul_right _ hN
          rw [Nat.add_mul] at e3
          omega
        simp only at ht ⊢
        rw [range_getD _ (by simpa using bound T (by omega)), range_getD _ (by simpa using bound T' (by omega))]
        simpa using hu (t * sh.featureSize + k) (bound n ht)
      intro x sh xs xs' hx hxs hxs'
      rw [hd] at hx
      simp only [part, List.mem_cons, Prod.mk.injEq, List.not_mem_nil, or_false] at hx hxs hxs'
      rcases hx with ⟨rfl, rfl⟩ | ⟨rfl, rfl⟩
      · obtain rfl := hxs.elim (fun g => g.2) fun g => absurd g.1 hne
        obtain rfl := hxs'.elim (fun g => g.2) fun g => absurd g.1 hne
        exact key f f' 4 _ rfl rfl hf
      · obtain rfl := hxs.elim (fun g => absurd g.1.symm hne) fun g => g.2
        obtain rfl := hxs'.elim (fun g => absurd g.1.symm hne) fun g => g.2
        exact key g g' 2 _ rfl rfl hg)
  exact ⟨_, rest, hdt, F, ps, st, st₁, st₂, st₁', st₂', g1, g2, g3, g4, g5⟩

end Verif.Sequence
