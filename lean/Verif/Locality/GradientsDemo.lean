import Verif.Locality.Training
import Verif.Determined.Demo

/-!
# The assumptions of C92_gradients and C92_untrained are met

The input goes to a Recurrent layer `Out`, whose output goes to the SquaredError layer and to another Recurrent layer `Side`.  No connection starts at
`Side`.
-/

namespace Verif.Locality

open Verif.Architecture hiding demoArch
open Verif.Structure Verif.Layout Verif.Buffers Verif.Instantiate Verif.EndToEnd Verif.Constrained
open Verif.Memory hiding demoL Feeds
open Verif.Setup (Kwargs libEnv infos toInfo inp_some)
open Verif.Shapes (Supported)
open Verif.Session hiding sgdRun momentumRun nesterovRun round train Stepper

def sideKwargs (n : Name) : Kwargs :=
  if n = str "Input" then [(str "out_shapes", .shapes ⟨[(str "default", [.T, .B, .n 4]), (str "targets", [.T, .B, .n 2])],
    by decide, by decide⟩)]
  else if n = str "Out" then [(str "size", .int 2)]
  else if n = str "Side" then [(str "size", .int 3)]
  else if n = str "Loss" then [(str "importance", .int 2)]
  else []

def sideArch : Arch :=
  [(str "Input", ⟨.string (str "Input"), .dict [(str "default", [str "Out"]), (str "targets", [str "SE.targets"])]⟩),
   (str "Out", ⟨.string (str "Recurrent"), .list [str "SE", str "Side"]⟩),
   (str "Side", ⟨.string (str "Recurrent"), .list []⟩),
   (str "SE", ⟨.string (str "SquaredError"), .dict [(str "loss", [str "Loss"])]⟩),
   (str "Loss", ⟨.string (str "Loss"), .list []⟩)]

def sideLayers : Dict Name (LayerObj Kwargs) :=
  match instantiateFuel 8 (libEnv sideKwargs) (demoOrders true) sideArch with
  | some (.ok ls) => ls
  | _ => []

def sideL : Layout :=
  match createLayout (infos sideLayers) with
  | .ok L => L
  | .error _ => ⟨[], []⟩

theorem side_instantiates : Instantiates (libEnv sideKwargs) (demoOrders true) sideArch (.ok sideLayers) := by
  refine instantiates_of _ _ _ (by decide +kernel) (by decide +kernel) 8 (by decide +kernel) _ ?_
  have : (instantiateFuel 8 (libEnv sideKwargs) (demoOrders true) sideArch).any (fun r => match r with
        | .ok _ => true | .error _ => false) = true := by decide +kernel
  unfold sideLayers
  cases hr : instantiateFuel 8 (libEnv sideKwargs) (demoOrders true) sideArch with
  | none => rw [hr] at this; simp at this
  | some r => cases r with
    | error e => rw [hr] at this; simp at this
    | ok l => rfl

theorem side_layout : createLayout (infos sideLayers) = .ok sideL := by
  have : (match createLayout (infos sideLayers) with | .ok _ => true | .error _ => false) = true := by decide +kernel
  unfold sideL
  cases hr : createLayout (infos sideLayers) with
  | ok L => rfl
  | error e => rw [hr] at this; cases this

/-- All connections of the architecture. -/
def sideConns : List Connection :=
  [⟨str "Input", str "default", str "Out", str "default"⟩, ⟨str "Input", str "targets", str "SE", str "targets"⟩,
   ⟨str "Out", str "default", str "Side", str "default"⟩, ⟨str "Out", str "default", str "SE", str "default"⟩,
   ⟨str "SE", str "loss", str "Loss", str "default"⟩]

theorem side_conns (c : Connection) : HasConnection sideArch c ↔ c ∈ sideConns := by
  obtain ⟨cs, r, hcs, hm, -⟩ := canonicalOrder_eval sideArch (by decide +kernel)
    ((C06_validate_iff sideArch (by decide +kernel)).1 (by decide +kernel)).outgoing
  rw [← hm]
  have : (match collectAll sideArch with
    | .ok cs => (cs.all fun c => decide (c ∈ sideConns)) && sideConns.all fun c => decide (c ∈ cs)
    | .error _ => false) = true := by decide +kernel
  rw [hcs] at this
  simp only [Bool.and_eq_true, List.all_eq_true, decide_eq_true_eq] at this
  exact ⟨this.1 c, this.2 c⟩

theorem side_types (n t : Name) : HasType sideArch n t ↔ (n, t) ∈ [(str "Input", str "Input"), (str "Out", str "Recurrent"), (str "Side", str "Recurrent"), (str "SE", str "SquaredError"), (str "Loss", str "Loss")] := by
  simp only [HasType, sideArch, List.mem_cons, Prod.mk.injEq, List.not_mem_nil, or_false]
  constructor
  · rintro ⟨d, ⟨rfl, rfl⟩ | ⟨rfl, rfl⟩ | ⟨rfl, rfl⟩ | ⟨rfl, rfl⟩ | ⟨rfl, rfl⟩, h⟩ <;> cases h <;> simp
  · rintro (⟨rfl, rfl⟩ | ⟨rfl, rfl⟩ | ⟨rfl, rfl⟩ | ⟨rfl, rfl⟩ | ⟨rfl, rfl⟩)
    · exact ⟨_, .inl ⟨rfl, rfl⟩, rfl⟩
    · exact ⟨_, .inr (.inl ⟨rfl, rfl⟩), rfl⟩
    · exact ⟨_, .inr (.inr (.inl ⟨rfl, rfl⟩)), rfl⟩
    · exact ⟨_, .inr (.inr (.inr (.inl ⟨rfl, rfl⟩))), rfl⟩
    · exact ⟨_, .inr (.inr (.inr (.inr ⟨rfl, rfl⟩))), rfl⟩

theorem side_trainable : Trainable sideArch where
  oneInput := by
    intro n m h1 h2
    rw [side_types] at h1 h2
    have e : ∀ x : Name × Name, x ∈ [(str "Input", str "Input"), (str "Out", str "Recurrent"), (str "Side", str "Recurrent"), (str "SE", str "SquaredError"), (str "Loss", str "Loss")] → x.2 = str "Input" → x.1 = str "Input" := by
      decide +kernel
    exact (e (n, _) h1 rfl).trans (e (m, _) h2 rfl).symm
  noBatchNorm n := by
    rw [side_types]
    simp only [List.mem_cons, Prod.mk.injEq, List.not_mem_nil, or_false]
    rintro (⟨-, h⟩ | ⟨-, h⟩ | ⟨-, h⟩ | ⟨-, h⟩ | ⟨-, h⟩) <;> exact absurd h (by decide)
  noScaling n := by
    rw [side_types]
    simp only [List.mem_cons, Prod.mk.injEq, List.not_mem_nil, or_false]
    rintro (⟨-, h⟩ | ⟨-, h⟩ | ⟨-, h⟩ | ⟨-, h⟩ | ⟨-, h⟩) <;> exact absurd h (by decide)
  names := by decide +kernel
  noInternals := by simp only [side_conns]; decide +kernel
  once := by
    have : ∀ c ∈ sideConns, ∀ c' ∈ sideConns, c.startLayer = c'.startLayer → c.outputName = c'.outputName →
      c.endLayer = c'.endLayer → c.inputName = c'.inputName := by decide +kernel
    exact fun c c' h h' => this c ((side_conns c).1 h) c' ((side_conns c').1 h')
  data := by simp only [side_conns, side_types]; decide +kernel
  predictions := by simp only [side_conns, side_types]; decide +kernel
  losses := by simp only [side_conns, side_types]; decide +kernel
  parameters := by simp only [side_conns, side_types]; decide +kernel

theorem side_numeric : Numeric sideArch sideKwargs where
  dropProb n h v hv := by
    rw [side_types] at h
    simp only [List.mem_cons, Prod.mk.injEq, List.not_mem_nil, or_false] at h
    rcases h with ⟨-, h⟩ | ⟨-, h⟩ | ⟨-, h⟩ | ⟨-, h⟩ | ⟨-, h⟩ <;> exact absurd h (by decide)
  importance n h v hv := by
    rw [side_types] at h
    simp only [List.mem_cons, Prod.mk.injEq, List.not_mem_nil, or_false] at h
    rcases h with ⟨-, h⟩ | ⟨-, h⟩ | ⟨-, h⟩ | ⟨-, h⟩ | ⟨rfl, -⟩
    · exact absurd h (by decide)
    · exact absurd h (by decide)
    · exact absurd h (by decide)
    · exact absurd h (by decide)
    · have e : Dict.get? (sideKwargs (str "Loss")) (str "importance") = some (.int 2) := rfl
      rw [e] at hv
      cases hv
      exact .inl ⟨2, rfl⟩

theorem side_supported (n : Name) (l : LayerObj Kwargs) (t : Name) (hl : Dict.get? sideLayers n = some l)
    (ht : HasType sideArch n t) : Supported t l.kwargs l.inShapes := by
  have hkw := (Made.mk (L := sideL) (by decide +kernel) (demoOrders_ok true) side_instantiates
    ⟨str "Out", (Dict.get? sideLayers (str "Out")).get (by decide +kernel), by simp, by decide +kernel⟩ side_layout).kwargs_eq hl
  rw [hkw]
  rw [side_types] at ht
  simp only [List.mem_cons, Prod.mk.injEq, List.not_mem_nil, or_false] at ht
  refine ⟨?_, ?_, ?_⟩
  · intro v hv
    rcases ht with ⟨rfl, -⟩ | ⟨rfl, -⟩ | ⟨rfl, -⟩ | ⟨rfl, -⟩ | ⟨rfl, -⟩
    · exact absurd hv (by rw [show Dict.get? (sideKwargs (str "Input")) (str "activation") = none by decide +kernel]; simp)
    · exact absurd hv (by rw [show Dict.get? (sideKwargs (str "Out")) (str "activation") = none by decide +kernel]; simp)
    · exact absurd hv (by rw [show Dict.get? (sideKwargs (str "Side")) (str "activation") = none by decide +kernel]; simp)
    · exact absurd hv (by rw [show Dict.get? (sideKwargs (str "SE")) (str "activation") = none by decide +kernel]; simp)
    · exact absurd hv (by rw [show Dict.get? (sideKwargs (str "Loss")) (str "activation") = none by decide +kernel]; simp)
  · rintro rfl
    rcases ht with ⟨-, h⟩ | ⟨-, h⟩ | ⟨-, h⟩ | ⟨-, h⟩ | ⟨-, h⟩ <;> exact absurd h (by decide)
  · rintro (rfl | rfl)
    · rcases ht with ⟨-, h⟩ | ⟨-, h⟩ | ⟨-, h⟩ | ⟨-, h⟩ | ⟨-, h⟩ <;> exact absurd h (by decide)
    · rcases ht with ⟨-, h⟩ | ⟨-, h⟩ | ⟨-, h⟩ | ⟨-, h⟩ | ⟨-, h⟩ <;> exact absurd h (by decide)

theorem side_outs : ∃ n l, Dict.get? sideLayers n = some l ∧ l.shapes.outs ≠ [] :=
  ⟨str "Out", (Dict.get? sideLayers (str "Out")).get (by decide +kernel), by simp, by decide +kernel⟩

theorem side_smooth : Smooth sideArch sideKwargs where
  types n t h := by
    rw [side_types] at h
    simp only [List.mem_cons, Prod.mk.injEq, List.not_mem_nil, or_false] at h
    rcases h with ⟨-, rfl⟩ | ⟨-, rfl⟩ | ⟨-, rfl⟩ | ⟨-, rfl⟩ | ⟨-, rfl⟩ <;> decide
  given n h := by
    simp only [side_types, List.mem_cons, Prod.mk.injEq, List.not_mem_nil, or_false] at h
    rcases h with (⟨-, h⟩ | ⟨-, h⟩ | ⟨-, h⟩ | ⟨-, h⟩ | ⟨-, h⟩) | (⟨-, h⟩ | ⟨-, h⟩ | ⟨-, h⟩ | ⟨-, h⟩ | ⟨-, h⟩) <;> exact absurd h (by decide)
  notRel n h := by
    have e : ∀ n ∈ [str "Out", str "Side"], actOf (sideKwargs n) .tanh ≠ some .rel := by decide +kernel
    refine e n ?_
    simp only [side_types] at h
    have e' : ∀ x : Name × Name, x ∈ [(str "Input", str "Input"), (str "Out", str "Recurrent"), (str "Side", str "Recurrent"),
      (str "SE", str "SquaredError"), (str "Loss", str "Loss")] → (x.2 = str "Recurrent" ∨ x.2 = str "Clockwork" ∨ x.2 = str "Convolution2D") →
        x.1 ∈ [str "Out", str "Side"] := by decide +kernel
    rcases h with h | h | h
    · exact e' (n, _) h (.inl rfl)
    · exact e' (n, _) h (.inr (.inl rfl))
    · exact e' (n, _) h (.inr (.inr rfl))
  average n h := by
    simp only [side_types, List.mem_cons, Prod.mk.injEq, List.not_mem_nil, or_false] at h
    rcases h with ⟨-, h⟩ | ⟨-, h⟩ | ⟨-, h⟩ | ⟨-, h⟩ | ⟨-, h⟩ <;> exact absurd h (by decide)

theorem side_noClockwork (n : Name) : ¬ HasType sideArch n (str "Clockwork") := by
  intro h
  simp only [side_types, List.mem_cons, Prod.mk.injEq, List.not_mem_nil, or_false] at h
  rcases h with ⟨-, h⟩ | ⟨-, h⟩ | ⟨-, h⟩ | ⟨-, h⟩ | ⟨-, h⟩ <;> exact absurd h (by decide)

theorem side_name : (toInfo ((Dict.get? sideLayers (str "Side")).get (by decide +kernel))).name = str "Side" := by decide +kernel

/-- No chain of connections leads from `Side` to a Loss layer. -/
theorem side_dead (n : Name) (hn : HasType sideArch n (str "Loss")) : ¬ Upstream sideArch (str "Side") n := by
  intro hup
  rcases Relation.ReflTransGen.cases_head hup with rfl | ⟨k, ⟨c, hc, h1, -⟩, -⟩
  · rw [side_types] at hn
    exact absurd hn (by decide +kernel)
  · have : ∀ c ∈ sideConns, c.startLayer ≠ str "Side" := by decide +kernel
    exact this c ((side_conns c).1 hc) h1

/-- Whatever the batch, the gradients of the 18 parameters of `Side` are zero. -/
example (st : State ℝ) (hst : Reachable (netOf (infos sideLayers) sideL) st) (M : Mode) :
    ∃ data rest, HasType sideArch data.name (str "Input") ∧ ∃ F : Memory.Fits (infos sideLayers) sideL data rest,
      ∃ ps : Mode → ∀ T B, ∀ l ∈ rest, LibLayer (infos sideLayers) data l T B, ∀ b : Batch, b.Good data → 0 < b.T → ∃ st₁ st₂ st₃ xs ys zs,
        provide (netOf (infos sideLayers) sideL) data.name b st = some st₁ ∧
        forwardPass (netOf (infos sideLayers) sideL) (fun T B => libNetwork F (ps M T B)) b.rnd st₁ = some st₂ ∧
        backwardPass (netOf (infos sideLayers) sideL) (fun T B => libNetwork F (ps M T B)) b.rnd st₂ = some st₃ ∧
        st₃.read (str "Side.gradients.W") = some xs ∧ st₃.read (str "Side.gradients.R") = some ys ∧
        st₃.read (str "Side.gradients.bias") = some zs ∧ ∀ v, v ∈ xs ∨ v ∈ ys ∨ v ∈ zs → v = 0 := by
  obtain ⟨data, rest, hdt, F, ps, -, h⟩ := C92_gradients sideKwargs sideArch (by decide +kernel) (demoOrders true) (demoOrders_ok true)
    sideLayers side_instantiates side_outs sideL side_layout side_trainable side_numeric side_supported side_smooth
    side_noClockwork
  refine ⟨data, rest, hdt, F, ps, fun b hb hT => ?_⟩
  obtain ⟨st₁, st₂, st₃, h1, h2, h3, e⟩ := h M st b hst hb hT
  have h0 := e (toInfo ((Dict.get? sideLayers (str "Side")).get (by decide +kernel))) (by decide +kernel) (by rw [side_name]; exact side_dead)
  rw [side_name] at h0
  obtain ⟨xs, hx, hx'⟩ := h0 (str "W") ⟨[.n 3, .n 2], 0, false⟩ (by decide +kernel)
  obtain ⟨ys, hy, hy'⟩ := h0 (str "R") ⟨[.n 3, .n 3], 0, false⟩ (by decide +kernel)
  obtain ⟨zs, hz, hz'⟩ := h0 (str "bias") ⟨[.n 3], 0, false⟩ (by decide +kernel)
  refine ⟨st₁, st₂, st₃, xs, ys, zs, h1, h2, h3, hx, hy, hz, ?_⟩
  rintro v (hv | hv | hv)
  · exact hx' v hv
  · exact hy' v hv
  · exact hz' v hv

/-- Training with Nesterov momentum does not change the weights of `Side`. -/
example (st : State ℝ) (hst : Reachable (netOf (infos sideLayers) sideL) st) (n : ℕ) (θ₀ : Fin n → ℝ)
    (hθ : st.read (str "parameters") = some (List.ofFn θ₀)) (M : Mode) :
    ∃ data rest, HasType sideArch data.name (str "Input") ∧ ∃ F : Memory.Fits (infos sideLayers) sideL data rest,
      ∃ ps : Mode → ∀ T B, ∀ l ∈ rest, LibLayer (infos sideLayers) data l T B,
      ∀ batches : ℕ → Batch, (∀ k, (batches k).Good data ∧ 0 < (batches k).T) → ∀ k, ∃ st' v log ts,
        Session.train (netOf (infos sideLayers) sideL) data.name (fun T B => libNetwork F (ps M T B)) (reported sideArch sideLayers sideL)
          (fun k => Session.nesterovRun (netOf (infos sideLayers) sideL) (fun T B => libNetwork F (ps M T B)) false (1 / (k + 1)) 0.9)
          batches (fun _ => []) (st, List.replicate n 0) k = some ((st', v), log) ∧
        st.read (str "Side.parameters.W") = some ts ∧ st'.read (str "Side.parameters.W") = some ts := by
  obtain ⟨data, rest, hdt, F, ps, -, h⟩ := C92_untrained sideKwargs sideArch (by decide +kernel) (demoOrders true) (demoOrders_ok true)
    sideLayers side_instantiates side_outs sideL side_layout side_trainable side_numeric side_supported side_smooth side_noClockwork
  refine ⟨data, rest, hdt, F, ps, fun batches hb k => ?_⟩
  have := (h M M n st θ₀ hst hθ batches (fun _ => []) hb (by simp) (fun k => 1 / (k + 1)) (fun _ => 0.9) false k
    (toInfo ((Dict.get? sideLayers (str "Side")).get (by decide +kernel))) (by decide +kernel) (by rw [side_name]; exact side_dead)
    (str "W") ⟨[.n 3, .n 2], 0, false⟩ (by decide +kernel)).2.2
  rw [side_name] at this
  exact this

end Verif.Locality
