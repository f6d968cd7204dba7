import Verif.Determined.Props

/-!
# The assumptions of C81 are met
-/

namespace Verif.Determined

open Verif.Architecture hiding demoArch
open Verif.Structure Verif.Layout Verif.Buffers Verif.Instantiate Verif.EndToEnd Verif.Constrained
open Verif.Memory hiding demoL
open Verif.Setup (Kwargs libEnv infos toInfo inp_some)
open Verif.Shapes (Supported)
open Verif.Session hiding sgdRun momentumRun nesterovRun backwardPass round train Stepper

/-- Keyword arguments of a small network: a clockwork layer of size 3, then a rectified layer of size 2 with dropout. -/
def dropKwargs (n : Name) : Kwargs :=
  if n = str "Input" then [(str "out_shapes", .shapes ⟨[(str "default", [.T, .B, .n 4]), (str "targets", [.T, .B, .n 2])],
    by decide, by decide⟩)]
  else if n = str "Rnn" then [(str "size", .int 3)]
  else if n = str "Out" then [(str "size", .int 2)]
  else if n = str "Loss" then [(str "importance", .int 2)]
  else []

/-- Its architecture: one layer after the other. -/
def dropArch : Arch :=
  [(str "Input", ⟨.string (str "Input"), .dict [(str "default", [str "Rnn"]), (str "targets", [str "SE.targets"])]⟩),
   (str "Rnn", ⟨.string (str "Clockwork"), .list [str "Out"]⟩),
   (str "Out", ⟨.string (str "FullyConnected"), .list [str "Drop"]⟩),
   (str "Drop", ⟨.string (str "Dropout"), .list [str "SE"]⟩),
   (str "SE", ⟨.string (str "SquaredError"), .dict [(str "loss", [str "Loss"])]⟩),
   (str "Loss", ⟨.string (str "Loss"), .list []⟩)]

def dropLayers : Dict Name (LayerObj Kwargs) :=
  match instantiateFuel 8 (libEnv dropKwargs) (demoOrders true) dropArch with
  | some (.ok ls) => ls
  | _ => []

def dropL : Layout :=
  match createLayout (infos dropLayers) with
  | .ok L => L
  | .error _ => ⟨[], []⟩

theorem drop_instantiates : Instantiates (libEnv dropKwargs) (demoOrders true) dropArch (.ok dropLayers) := by
  refine instantiates_of _ _ _ (by decide +kernel) (by decide +kernel) 8 (by decide +kernel) _ ?_
  have : (instantiateFuel 8 (libEnv dropKwargs) (demoOrders true) dropArch).any (fun r => match r with
        | .ok _ => true | .error _ => false) = true := by decide +kernel
  unfold dropLayers
  cases hr : instantiateFuel 8 (libEnv dropKwargs) (demoOrders true) dropArch with
  | none => rw [hr] at this; simp at this
  | some r => cases r with
    | error e => rw [hr] at this; simp at this
    | ok l => rfl

theorem drop_layout : createLayout (infos dropLayers) = .ok dropL := by
  have : (match createLayout (infos dropLayers) with | .ok _ => true | .error _ => false) = true := by decide +kernel
  unfold dropL
  cases hr : createLayout (infos dropLayers) with
  | ok L => rfl
  | error e => rw [hr] at this; cases this

/-- All connections of the architecture. -/
def dropConns : List Connection :=
  [⟨str "Input", str "default", str "Rnn", str "default"⟩,
   ⟨str "Input", str "targets", str "SE", str "targets"⟩, ⟨str "Rnn", str "default", str "Out", str "default"⟩,
   ⟨str "Out", str "default", str "Drop", str "default"⟩,
   ⟨str "Drop", str "default", str "SE", str "default"⟩, ⟨str "SE", str "loss", str "Loss", str "default"⟩]

theorem drop_conns (c : Connection) : HasConnection dropArch c ↔ c ∈ dropConns := by
  obtain ⟨cs, r, hcs, hm, -⟩ := canonicalOrder_eval dropArch (by decide +kernel)
    ((C06_validate_iff dropArch (by decide +kernel)).1 (by decide +kernel)).outgoing
  rw [← hm]
  have : (match collectAll dropArch with
    | .ok cs => (cs.all fun c => decide (c ∈ dropConns)) && dropConns.all fun c => decide (c ∈ cs)
    | .error _ => false) = true := by decide +kernel
  rw [hcs] at this
  simp only [Bool.and_eq_true, List.all_eq_true, decide_eq_true_eq] at this
  exact ⟨this.1 c, this.2 c⟩

theorem drop_types (n t : Name) : HasType dropArch n t ↔ (n, t) ∈ [(str "Input", str "Input"), (str "Rnn", str "Clockwork"),
    (str "Out", str "FullyConnected"), (str "Drop", str "Dropout"), (str "SE", str "SquaredError"), (str "Loss", str "Loss")] := by
  simp only [HasType, dropArch, List.mem_cons, Prod.mk.injEq, List.not_mem_nil, or_false]
  constructor
  · rintro ⟨d, ⟨rfl, rfl⟩ | ⟨rfl, rfl⟩ | ⟨rfl, rfl⟩ | ⟨rfl, rfl⟩ | ⟨rfl, rfl⟩ | ⟨rfl, rfl⟩, h⟩ <;> cases h <;> simp
  · rintro (⟨rfl, rfl⟩ | ⟨rfl, rfl⟩ | ⟨rfl, rfl⟩ | ⟨rfl, rfl⟩ | ⟨rfl, rfl⟩ | ⟨rfl, rfl⟩)
    · exact ⟨_, .inl ⟨rfl, rfl⟩, rfl⟩
    · exact ⟨_, .inr (.inl ⟨rfl, rfl⟩), rfl⟩
    · exact ⟨_, .inr (.inr (.inl ⟨rfl, rfl⟩)), rfl⟩
    · exact ⟨_, .inr (.inr (.inr (.inl ⟨rfl, rfl⟩))), rfl⟩
    · exact ⟨_, .inr (.inr (.inr (.inr (.inl ⟨rfl, rfl⟩)))), rfl⟩
    · exact ⟨_, .inr (.inr (.inr (.inr (.inr ⟨rfl, rfl⟩)))), rfl⟩

theorem drop_trainable : Trainable dropArch where
  oneInput := by
    intro n m h1 h2
    rw [drop_types] at h1 h2
    have e : ∀ x : Name × Name, x ∈ [(str "Input", str "Input"), (str "Rnn", str "Clockwork"),
      (str "Out", str "FullyConnected"), (str "Drop", str "Dropout"), (str "SE", str "SquaredError"), (str "Loss", str "Loss")] → x.2 = str "Input" → x.1 = str "Input" := by
      decide +kernel
    exact (e (n, _) h1 rfl).trans (e (m, _) h2 rfl).symm
  noBatchNorm n := by
    rw [drop_types]
    simp only [List.mem_cons, Prod.mk.injEq, List.not_mem_nil, or_false]
    rintro (⟨-, h⟩ | ⟨-, h⟩ | ⟨-, h⟩ | ⟨-, h⟩ | ⟨-, h⟩ | ⟨-, h⟩) <;> exact absurd h (by decide)
  noScaling n := by
    rw [drop_types]
    simp only [List.mem_cons, Prod.mk.injEq, List.not_mem_nil, or_false]
    rintro (⟨-, h⟩ | ⟨-, h⟩ | ⟨-, h⟩ | ⟨-, h⟩ | ⟨-, h⟩ | ⟨-, h⟩) <;> exact absurd h (by decide)
  names := by decide +kernel
  noInternals := by simp only [drop_conns]; decide +kernel
  once := by
    have : ∀ c ∈ dropConns, ∀ c' ∈ dropConns, c.startLayer = c'.startLayer → c.outputName = c'.outputName →
      c.endLayer = c'.endLayer → c.inputName = c'.inputName := by decide +kernel
    exact fun c c' h h' => this c ((drop_conns c).1 h) c' ((drop_conns c').1 h')
  data := by simp only [drop_conns, drop_types]; decide +kernel
  predictions := by simp only [drop_conns, drop_types]; decide +kernel
  losses := by simp only [drop_conns, drop_types]; decide +kernel
  parameters := by simp only [drop_conns, drop_types]; decide +kernel

theorem drop_numeric : Numeric dropArch dropKwargs where
  dropProb n h v hv := by
    rw [drop_types] at h
    simp only [List.mem_cons, Prod.mk.injEq, List.not_mem_nil, or_false] at h
    rcases h with ⟨-, h⟩ | ⟨-, h⟩ | ⟨-, h⟩ | ⟨rfl, -⟩ | ⟨-, h⟩ | ⟨-, h⟩
    · exact absurd h (by decide)
    · exact absurd h (by decide)
    · exact absurd h (by decide)
    · exact absurd hv (by rw [show Dict.get? (dropKwargs (str "Drop")) (str "drop_prob") = none by decide +kernel]; simp)
    · exact absurd h (by decide)
    · exact absurd h (by decide)
  importance n h v hv := by
    rw [drop_types] at h
    simp only [List.mem_cons, Prod.mk.injEq, List.not_mem_nil, or_false] at h
    rcases h with ⟨-, h⟩ | ⟨-, h⟩ | ⟨-, h⟩ | ⟨-, h⟩ | ⟨-, h⟩ | ⟨rfl, -⟩
    · exact absurd h (by decide)
    · exact absurd h (by decide)
    · exact absurd h (by decide)
    · exact absurd h (by decide)
    · exact absurd h (by decide)
    · have e : Dict.get? (dropKwargs (str "Loss")) (str "importance") = some (.int 2) := rfl
      rw [e] at hv
      cases hv
      exact .inl ⟨2, rfl⟩

theorem drop_supported (n : Name) (l : LayerObj Kwargs) (t : Name) (hl : Dict.get? dropLayers n = some l)
    (ht : HasType dropArch n t) : Supported t l.kwargs l.inShapes := by
  have hkw := (Made.mk (L := dropL) (by decide +kernel) (demoOrders_ok true) drop_instantiates
    ⟨str "Out", (Dict.get? dropLayers (str "Out")).get (by decide +kernel), by simp, by decide +kernel⟩ drop_layout).kwargs_eq hl
  rw [hkw]
  rw [drop_types] at ht
  simp only [List.mem_cons, Prod.mk.injEq, List.not_mem_nil, or_false] at ht
  refine ⟨?_, ?_, ?_⟩
  · intro v hv
    rcases ht with ⟨rfl, -⟩ | ⟨rfl, -⟩ | ⟨rfl, -⟩ | ⟨rfl, -⟩ | ⟨rfl, -⟩ | ⟨rfl, -⟩
    · exact absurd hv (by rw [show Dict.get? (dropKwargs (str "Input")) (str "activation") = none by decide +kernel]; simp)
    · exact absurd hv (by rw [show Dict.get? (dropKwargs (str "Rnn")) (str "activation") = none by decide +kernel]; simp)
    · exact absurd hv (by rw [show Dict.get? (dropKwargs (str "Out")) (str "activation") = none by decide +kernel]; simp)
    · exact absurd hv (by rw [show Dict.get? (dropKwargs (str "Drop")) (str "activation") = none by decide +kernel]; simp)
    · exact absurd hv (by rw [show Dict.get? (dropKwargs (str "SE")) (str "activation") = none by decide +kernel]; simp)
    · exact absurd hv (by rw [show Dict.get? (dropKwargs (str "Loss")) (str "activation") = none by decide +kernel]; simp)
  · rintro rfl
    rcases ht with ⟨-, h⟩ | ⟨-, h⟩ | ⟨-, h⟩ | ⟨-, h⟩ | ⟨-, h⟩ | ⟨-, h⟩ <;> exact absurd h (by decide)
  · rintro (rfl | rfl)
    · rcases ht with ⟨-, h⟩ | ⟨-, h⟩ | ⟨-, h⟩ | ⟨-, h⟩ | ⟨-, h⟩ | ⟨-, h⟩ <;> exact absurd h (by decide)
    · rcases ht with ⟨-, h⟩ | ⟨-, h⟩ | ⟨-, h⟩ | ⟨-, h⟩ | ⟨-, h⟩ | ⟨-, h⟩ <;> exact absurd h (by decide)

theorem drop_outs : ∃ n l, Dict.get? dropLayers n = some l ∧ l.shapes.outs ≠ [] :=
  ⟨str "Out", (Dict.get? dropLayers (str "Out")).get (by decide +kernel), by simp, by decide +kernel⟩



/-- The network is not covered by C77 and C80. -/
example : ¬ Smooth dropArch dropKwargs := fun h =>
  absurd (h.types (str "Drop") (str "Dropout") ((drop_types _ _).2 (by decide +kernel))) (by decide)

example : actOf (dropKwargs (str "Out")) .rel = some .rel := by decide +kernel

/-- The Input layer of the network, and its batches. -/
def dropData : LayerInfo := toInfo ((Dict.get? dropLayers (str "Input")).get (by decide +kernel))

example (T B : ℕ) (rnd : ℕ → ℝ) : dropData ∈ infos dropLayers ∧ HasType dropArch dropData.name (str "Input") ∧
    (Batch.mk T B [(str "default", List.replicate (T * B * 4) 1), (str "targets", List.replicate (T * B * 2) 0)] rnd).Good dropData := by
  refine ⟨by decide +kernel, (drop_types _ _).2 (by decide +kernel), ?_, ?_, ?_⟩
  · simp only [List.map]; decide +kernel
  · simp only [List.map]; decide +kernel
  · simp only [List.forall_mem_cons, List.not_mem_nil, false_imp_iff, implies_true, and_true]
    refine ⟨⟨⟨[.T, .B, .n 4], 0, false⟩, by decide +kernel, ?_⟩, ⟨⟨[.T, .B, .n 2], 0, false⟩, by decide +kernel, ?_⟩⟩ <;>
      simp [structShape, mul_assoc, Struct.bufferType, Struct.featureShape, Tok.size, typeOf]

/-- A new network, to which any parameters are assigned, can be trained. -/
theorem drop_new (θ : Fin 35 → ℝ) : ∃ st : State ℝ, Reachable (netOf (infos dropLayers) dropL) st ∧
    st.read (str "parameters") = some (List.ofFn θ) := by
  obtain ⟨data, rest, -, F, -⟩ := C77_loss dropKwargs dropArch (by decide +kernel) (demoOrders true) (demoOrders_ok true) dropLayers
    drop_instantiates drop_outs dropL drop_layout drop_trainable drop_numeric drop_supported
  obtain ⟨st, _, _, h1, i⟩ := create_inv (V := ℝ) (netOf_wellLaid F.laid.wf F.laid.shaped F.laid.layout)
  obtain ⟨e, he⟩ := params_entry (layers := infos dropLayers) (L := dropL)
  have h35 : (cells (netOf (infos dropLayers) dropL) 0 0 (str "parameters")).length = 35 := by decide +kernel
  obtain ⟨st', h2, -, h3, -⟩ := write_inv F.laid i he (vals := List.ofFn θ) (by rw [h35, List.length_ofFn])
  exact ⟨st', .step (.write (str "parameters") (List.ofFn θ)) (.new h1) h2, h3⟩

/-- Training with Nesterov momentum, interrupted after any number of updates and continued in a new network to which the parameters were
assigned, is as if it had not been interrupted. -/
example (M M' : Mode) (hM : M.training = true) (lr μ : ℕ → ℝ) (θ₀ : Fin 35 → ℝ) :
    ∃ data rest, HasType dropArch data.name (str "Input") ∧ ∃ F : Memory.Fits (infos dropLayers) dropL data rest,
      ∃ ps : Mode → ∀ T B, ∀ l ∈ rest, LibLayer (infos dropLayers) data l T B,
      ∀ batches : ℕ → Batch, (∀ k, (batches k).Good data) → ∀ k j, ∃ (s r s' r₁ r₂ : Run (List ℝ)) (log log' : List ℝ),
        s.st.read (str "parameters") = some (List.ofFn θ₀) ∧ s'.st.read (str "parameters") = r.st.read (str "parameters") ∧
        train (netOf (infos dropLayers) dropL) data.name (fun T B => libNetwork F (ps M' T B)) (reported dropArch dropLayers dropL)
          (fun k => nesterovRun (netOf (infos dropLayers) dropL) (fun T B => libNetwork F (ps M T B)) true (lr k) (μ k)) batches
          (fun _ => []) s k = some (r, log) ∧
        train (netOf (infos dropLayers) dropL) data.name (fun T B => libNetwork F (ps M' T B)) (reported dropArch dropLayers dropL)
          (fun k => nesterovRun (netOf (infos dropLayers) dropL) (fun T B => libNetwork F (ps M T B)) true (lr k) (μ k)) batches
          (fun _ => []) s (k + j) = some (r₁, log ++ log') ∧
        train (netOf (infos dropLayers) dropL) data.name (fun T B => libNetwork F (ps M' T B)) (reported dropArch dropLayers dropL)
          (fun i => nesterovRun (netOf (infos dropLayers) dropL) (fun T B => libNetwork F (ps M T B)) true (lr (k + i)) (μ (k + i)))
          (fun i => batches (k + i)) (fun _ => []) s' j = some (r₂, log') ∧
        r₁.st.read (str "parameters") = r₂.st.read (str "parameters") := by
  obtain ⟨data, rest, hdt, F, ps, -, h⟩ := C81_resume dropKwargs dropArch (by decide +kernel) (demoOrders true) (demoOrders_ok true)
    dropLayers drop_instantiates drop_outs dropL drop_layout drop_trainable drop_numeric drop_supported
  refine ⟨data, rest, hdt, F, ps, fun batches hb k j => ?_⟩
  obtain ⟨st, hst, hθ⟩ := drop_new θ₀
  have good : ∀ g, Mods.Good [] g (infos dropLayers) := fun g => ⟨by simp [Dict.keys], by simp⟩
  have h' := h M M' M' (.inl hM) (.nesterov true) lr μ batches (fun _ => []) (fun _ => []) hb (by simp) (by simp) 35 θ₀
    ⟨st, List.replicate 35 (0 : ℝ), [], []⟩ hθ ⟨hst, List.length_replicate, good _, good _⟩ k
  obtain ⟨r, log, h1, c, h2⟩ := h'
  obtain ⟨θ, hθ'⟩ := (c.fine F.laid).params F.laid
  have e : paramCount (infos dropLayers) dropL = 35 := (Reachable.count F.laid hst hθ).symm
  obtain ⟨st', hst', hθ''⟩ := drop_new fun i => θ (i.cast e.symm)
  have hp : r.st.read (str "parameters") = st'.read (str "parameters") := by
    rw [hθ', hθ'']
    exact congrArg some (List.ofFn_congr e θ)
  obtain ⟨r₁, r₂, log', h3, h4, h5⟩ := h2 ⟨st', r.mem, r.grads, r.weights⟩ ⟨hst', c.mem, c.grads, c.weights⟩
    ⟨hp, rfl, fun _ _ _ _ => rfl, fun _ _ _ _ => rfl⟩ j
  exact ⟨⟨st, List.replicate 35 (0 : ℝ), [], []⟩, r, ⟨st', r.mem, r.grads, r.weights⟩, r₁, r₂, log, log', hθ, hp.symm, h1, h3, h4,
    h5.parameters⟩

end Verif.Determined
