import Verif.Reload.Outputs
import Verif.Determined.Props
import Verif.Trainer.Props

/-!
# C83: a network that is saved and loaded again behaves as the original
-/

namespace Verif.Reload

open Verif.Architecture hiding demoArch
open Verif.Structure Verif.Layout Verif.Buffers Verif.Instantiate Verif.EndToEnd
open Verif.Memory hiding demoL
open Verif.Setup (Kwargs libEnv infos toInfo inp_some)
open Verif.Shapes (Supported)
open Verif.Session hiding sgdRun momentumRun nesterovRun round train Stepper
open Verif.Determined (Algorithm CanTrain Same SameMods SameOutcome after_forward)

/-! ### Proofs -/

section
variable {layers : List LayerInfo} {L : Layout}

theorem setHandler_reachable {net : Net} {st st' : State ℝ} (h : Reachable net st) (hs : setHandler net st = some st') :
    Reachable net st' := .step .handler h hs

theorem writeAll_reachable {net : Net} : ∀ {l : List (Name × List ℝ)} {st st' : State ℝ}, Reachable net st → writeAll st l = some st' →
    Reachable net st'
  | [], _, _, h, hw => by cases hw; exact h
  | (n, d) :: l, st, st', h, hw => by
    simp only [writeAll] at hw
    cases h1 : st.write n d with
    | none => simp [h1] at hw
    | some st₁ =>
      rw [h1] at hw
      exact writeAll_reachable (.step (.write n d) h h1) hw

theorem setHandler_some {net : Net} (hwl : WellLaid net) {st : State ℝ} (h : Reachable net st) : ∃ st', setHandler net st = some st' := by
  obtain ⟨T, B, sz, k, vs, i⟩ := h.inv hwl
  obtain ⟨st', k', vs', h1, -⟩ := setHandler_inv hwl i
  exact ⟨st', h1⟩

/-- Loading succeeds. -/
theorem fromHdf5_some (hL : Laid layers L) {initial : List (Name × List ℝ)} (hi : Initial layers initial) {θ : List ℝ}
    (hθ : θ.length = paramCount layers L) : ∃ st, fromHdf5 (netOf layers L) initial θ = some st ∧ Reachable (netOf layers L) st ∧
      st.read (str "parameters") = some θ := by
  have hwl := netOf_wellLaid hL.wf hL.shaped hL.layout
  obtain ⟨st₀, k₀, vs₀, h0, -⟩ := create_inv (V := ℝ) hwl
  obtain ⟨st₁, h1⟩ := setHandler_some hwl (.new h0)
  have r1 := setHandler_reachable (.new h0) h1
  obtain ⟨st₂, h2⟩ := setHandler_some hwl r1
  have r2 := setHandler_reachable r1 h2
  obtain ⟨T, B, sz, k, vs, i⟩ := r2.inv hwl
  obtain ⟨st₃, h3⟩ := writeAll_some i (l := initial) (by
    intro d hd
    obtain ⟨l, hl, x, s, hx, he, hlen⟩ := hi d hd
    obtain ⟨e, hent, -⟩ := Constrained.entry_of (T := T) (B := B) hL (Or.inl rfl) hl hx (c := .par)
    obtain ⟨v, hv⟩ := cells_view hL i hent
    refine ⟨v, by rw [he]; exact hv, ?_⟩
    rw [← view_cells i hv, (Constrained.cells_part hL (Or.inl rfl) hl hx T B (c := .par)).1, hlen, List.length_take, List.length_drop]
    have := (Constrained.cells_part hL (Or.inl rfl) hl hx T B (c := .par)).2
    omega)
  have r3 := writeAll_reachable r2 h3
  obtain ⟨T, B, sz, k, vs, i⟩ := r3.inv hwl
  obtain ⟨e, he⟩ := params_entry (layers := layers) (L := L)
  obtain ⟨st₄, h4, -, h5, -⟩ := write_inv hL i he (vals := θ) (by rw [hθ, paramCount_eq hL])
  exact ⟨st₄, by simp [fromHdf5, h0, h1, h2, h3, h4], .step (.write _ _) r3 h4, h5⟩

/-- Networks with the same parameters have the same parameters in all layers. -/
theorem sameParameters (hL : Laid layers L) {st st' : State ℝ} (h : Reachable (netOf layers L) st) (h' : Reachable (netOf layers L) st')
    {θ : List ℝ} (hθ : st.read (str "parameters") = some θ) (hθ' : st'.read (str "parameters") = some θ) : SameParameters layers st st' := by
  have hwl := netOf_wellLaid hL.wf hL.shaped hL.layout
  obtain ⟨T, B, _, _, _, i⟩ := h.inv hwl
  obtain ⟨T', B', _, _, _, i'⟩ := h'.inv hwl
  exact ⟨⟨θ, hθ, hθ'⟩, fun l hl x s hx => ⟨_, Constrained.read_part hL i (c := .par) (Or.inl rfl) hl hx hθ,
    Constrained.read_part hL i' (c := .par) (Or.inl rfl) hl hx hθ'⟩⟩

theorem param_length (hL : Laid layers L) {st : State ℝ} (h : Reachable (netOf layers L) st) {θ : List ℝ}
    (hθ : st.read (str "parameters") = some θ) : θ.length = paramCount layers L := by
  have e : List.ofFn (fun i : Fin θ.length => θ[i]) = θ := List.ofFn_getElem
  exact Determined.Reachable.count hL h (n := θ.length) (θ := fun i => θ[i]) (by rw [hθ]; exact congrArg some e.symm)

end

/-! ### The property

The network is as in C81: any network of library layers for which C81 is stated.  `b` is the architecture found in the file, `ord'` the orders in
which it happens to be enumerated when it is loaded. -/

section
variable (kwargs : Name → Kwargs) (a : Arch) (hk : (Dict.keys a).Nodup) (ord : Orders) (ho : ord.Ok)
  (layers : Dict Name (LayerObj Kwargs)) (h : Instantiates (libEnv kwargs) ord a (.ok layers))
  (hne : ∃ n l, Dict.get? layers n = some l ∧ l.shapes.outs ≠ []) (L : Layout) (hL : createLayout (infos layers) = .ok L)
include hk ho h

/-- **C83, layers.**  The architecture read from the file, which may list layers and connections in another order, gives the layers of the
saved network, and no others. -/
theorem C83_layers (b : Arch) (hab : SameArch a b) (ord' : Orders) (ho' : ord'.Ok) (r : Except Instantiate.Err (Dict Name (LayerObj Kwargs))) :
    Instantiates (libEnv kwargs) ord' b r ↔ r = .ok layers := by
  have h' := C59_deterministic (libEnv kwargs) (Setup.libEnv_valid kwargs) a b hk hab ord ord' ho ho' layers h
  constructor
  · intro hr
    exact hr.unique h'
  · rintro rfl
    exact h'

variable (tr : Trainable a) (num : Numeric a kwargs)
  (sup : ∀ n l t, Dict.get? layers n = some l → HasType a n t → Supported t l.kwargs l.inShapes)
include hne hL tr num sup

/-- **C83.**  A network is saved, whatever was done with it before, and loaded again.  Loading succeeds, whatever `initialize` assigns, and the
loaded network has the parameters of the original.  When both process the same batch (with the same random numbers, if there are Dropout layers
in training mode), all outputs of all layers and the reported losses are the same. -/
theorem C83_outputs :
    ∃ data rest, HasType a data.name (str "Input") ∧ ∃ F : Memory.Fits (infos layers) L data rest,
      ∃ ps : Mode → ∀ T B, ∀ l ∈ rest, LibLayer (infos layers) data l T B,
      (∀ M T B l (hl : l ∈ rest) t, HasType a l.name t → Describes M t (kwargs l.name) (ps M T B l hl)) ∧
      ∀ (st : State ℝ) (initial : List (Name × List ℝ)), Reachable (netOf (infos layers) L) st → Initial (infos layers) initial →
        ∃ θ st', saved st = some θ ∧ fromHdf5 (netOf (infos layers) L) initial θ = some st' ∧ Reachable (netOf (infos layers) L) st' ∧
          SameParameters (infos layers) st st' ∧
          ∀ (M : Mode) (b : Batch), b.Good data → ∃ st₁ st₂ st₁' st₂' total,
            provide (netOf (infos layers) L) data.name b st = some st₁ ∧
            forwardPass (netOf (infos layers) L) (fun T B => libNetwork F (ps M T B)) b.rnd st₁ = some st₂ ∧
            provide (netOf (infos layers) L) data.name b st' = some st₁' ∧
            forwardPass (netOf (infos layers) L) (fun T B => libNetwork F (ps M T B)) b.rnd st₁' = some st₂' ∧
            SameOutputs (infos layers) st₂ st₂' ∧
            reported a layers L b.T b.B (memOf st₂) = some total ∧ reported a layers L b.T b.B (memOf st₂') = some total := by
  have m : Made kwargs a ord layers L := ⟨hk, ho, h, hne, hL⟩
  obtain ⟨data, rest, hdt, F, ps, hps⟩ := functions m tr num sup
  refine ⟨data, rest, hdt, F, ps, hps, fun st initial hst hini => ?_⟩
  have hwl := netOf_wellLaid F.laid.wf F.laid.shaped F.laid.layout
  obtain ⟨T, B, sz, k, vs, i⟩ := hst.inv hwl
  obtain ⟨e, he⟩ := params_entry (layers := infos layers) (L := L)
  obtain ⟨θ, hθ⟩ : ∃ θ, st.read (str "parameters") = some θ := ⟨_, read_inv F.laid i he⟩
  have hlen := param_length F.laid hst hθ
  obtain ⟨st', h1, h2, h3⟩ := fromHdf5_some F.laid hini hlen
  refine ⟨θ, st', hθ, h1, h2, sameParameters F.laid hst h2 hθ h3, fun M b hb => ?_⟩
  obtain ⟨T', B', sz', k', vs', i'⟩ := h2.inv hwl
  have hS := sited m F (ps M)
  have hrep := reports m F (ps M) hdt (hps M)
  obtain ⟨st₁, p1, hr, r1⟩ := provide_ready hS.laid hS.data_mem i hb
  obtain ⟨st₁', p1', hr', r1'⟩ := provide_ready hS.laid hS.data_mem i' hb
  obtain ⟨_, _, _, j, -⟩ := id hr
  obtain ⟨_, _, _, j', -⟩ := id hr'
  obtain ⟨st₂, p2, i2, m2⟩ := forwardPass_inv j (fun T B => libNetwork F (ps M T B)) b.rnd
  obtain ⟨st₂', p2', i2', m2'⟩ := forwardPass_inv j' (fun T B => libNetwork F (ps M T B)) b.rnd
  have l1 := before_loaded hS.laid hS.data_mem hb hr (r1.trans hθ)
  have l1' := before_loaded hS.laid hS.data_mem hb hr' (r1'.trans h3)
  refine ⟨st₁, st₂, st₁', st₂', totalLoss (libNetwork F (ps M b.T b.B)) (memOf st₂), p1, p2, p1', p2', ?_, hrep _ _ _, ?_⟩
  · intro l hl x s hx
    obtain ⟨e, he⟩ := out_entry F.laid hl hx
    refine ⟨_, read_inv F.laid i2 he, ?_⟩
    rw [read_inv F.laid i2' he]
    congr 1
    refine List.map_congr_left fun c hc => ?_
    have hlt := cells_lt hc
    rw [m2 c hlt, m2' c hlt]
    exact (outputs_determined F hb (m.short _) (ps M b.T b.B) l1 l1' hl hx hc).symm
  · rw [hrep]
    congr 1
    have hsite := network_site F (fun l hl => (ps M b.T b.B l hl).placed)
    refine (totalLoss_congr hsite fun n hn c hc => ?_).symm
    obtain ⟨l, hl, hln⟩ := forall₂_right hsite hn
    obtain ⟨x, s, hx, -⟩ := hln.outs c hc
    have hlt := cells_lt hx.2
    rw [m2 c hlt, m2' c hlt]
    exact outputs_determined F hb (m.short _) (ps M b.T b.B) l1 l1' (F.ordered.mem hl) hx.1 hx.2

/-- **C83, training.**  The loaded network trains as the original: with a stepper of the library that is started anew (or goes on with what it
remembers), the modifiers of the file, the same batches and the same random numbers, the losses are the same, and so are the parameters in the
end. -/
theorem C83_training :
    ∃ data rest, HasType a data.name (str "Input") ∧ ∃ F : Memory.Fits (infos layers) L data rest,
      ∃ ps : Mode → ∀ T B, ∀ l ∈ rest, LibLayer (infos layers) data l T B,
      (∀ M T B l (hl : l ∈ rest) t, HasType a l.name t → Describes M t (kwargs l.name) (ps M T B l hl)) ∧
      ∀ (M M₁ M₂ : Mode), M.training = true ∨ (∀ n, ¬ HasType a n (str "Dropout")) →
        ∀ (alg : Algorithm) (lr μ : ℕ → ℝ) (batches : ℕ → Batch) (evals₁ evals₂ : ℕ → List Batch), (∀ k, (batches k).Good data) →
        (∀ k, ∀ b ∈ evals₁ k, b.Good data) → (∀ k, ∀ b ∈ evals₂ k, b.Good data) →
        ∀ (n : ℕ) (θ : Fin n → ℝ) (s : Constrained.Run alg.Memory) (initial : List (Name × List ℝ)), saved s.st = some (List.ofFn θ) →
        CanTrain (infos layers) (netOf (infos layers) L) (alg.Ok n) s → Initial (infos layers) initial →
        ∃ st', fromHdf5 (netOf (infos layers) L) initial (List.ofFn θ) = some st' ∧
          ∀ gm wm, gm.Good true (infos layers) → wm.Good false (infos layers) → SameMods (infos layers) s.grads gm →
            SameMods (infos layers) s.weights wm → ∀ k, SameOutcome (infos layers)
          (Constrained.train (netOf (infos layers) L) data.name (fun T B => libNetwork F (ps M₁ T B)) (reported a layers L)
            (fun k => alg.run (netOf (infos layers) L) (fun T B => libNetwork F (ps M T B)) (lr k) (μ k)) batches evals₁ s k)
          (Constrained.train (netOf (infos layers) L) data.name (fun T B => libNetwork F (ps M₂ T B)) (reported a layers L)
            (fun k => alg.run (netOf (infos layers) L) (fun T B => libNetwork F (ps M T B)) (lr k) (μ k)) batches evals₂
            ⟨st', s.mem, gm, wm⟩ k) := by
  obtain ⟨data, rest, hdt, F, ps, hps, H⟩ := Determined.C81_history kwargs a hk ord ho layers h hne L hL tr num sup
  refine ⟨data, rest, hdt, F, ps, hps, fun M M₁ M₂ hM alg lr μ batches evals₁ evals₂ hb he₁ he₂ n θ s initial hθ hc hini => ?_⟩
  have hlen := param_length F.laid hc.state hθ
  obtain ⟨st', h1, h2, h3⟩ := fromHdf5_some F.laid hini hlen
  refine ⟨st', h1, fun gm wm hgm hwm sg sw k => ?_⟩
  exact H M M₁ M₂ hM alg lr μ batches evals₁ evals₂ hb he₁ he₂ n θ s ⟨st', s.mem, gm, wm⟩ hθ hc ⟨h2, hc.mem, hgm, hwm⟩
    ⟨hθ.trans h3.symm, rfl, sg, sw⟩ k

/-- **C83, the best network.**  A training with a monitor for the loss on some data and `SaveBestNetwork` for this loss, as in C82.  If
afterwards a network is loaded that has the parameters which `SaveBestNetwork` stored, and evaluated on the data that the monitor used, then the
loss is exactly the best value that was remembered. -/
theorem C83_best :
    ∃ data rest, HasType a data.name (str "Input") ∧ ∃ F : Memory.Fits (infos layers) L data rest,
      ∃ ps : Mode → ∀ T B, ∀ l ∈ rest, LibLayer (infos layers) data l T B,
      (∀ M T B l (hl : l ∈ rest) t, HasType a l.name t → Describes M t (kwargs l.name) (ps M T B l hl)) ∧
      ∀ (M M' : Mode), M.training = true ∨ (∀ n, ¬ HasType a n (str "Dropout")) →
        ∀ (alg : Algorithm) (epochs : ℕ → List Batch) (hooks : Dict Name (Trainer.LibHook alg.Memory)) (order : List Training.Hook) (fuel : ℕ)
          (s s' : Training.St (Trainer.World alg.Memory) ℝ) (fin : Bool) (n : ℕ) (θ₀ : Fin n → ℝ),
        (∀ e, epochs e ≠ [] ∧ ∀ b ∈ epochs e, b.Good data) →
        (∀ nm dt sc, Dict.get? hooks nm = some (.monitor dt sc) → ∀ e u, ∀ b ∈ dt e u, b.Good data) →
        Trainer.Fresh s.w → s.trace = [] → CanTrain (infos layers) (netOf (infos layers) L) (alg.Ok n) s.w.run →
        s.w.run.st.read (str "parameters") = some (List.ofFn θ₀) →
        Training.train (Trainer.trainingOf a layers L data.name (fun T B => libNetwork F (ps M T B)) (fun T B => libNetwork F (ps M' T B)) alg
          epochs hooks).env order fuel s = some (s', fin) →
        ∀ (mon save : Name) (sc : Bool) (i j : ℕ) (A B C : List Training.Hook) (dt : ℕ → ℕ → List Batch) (scorers : List Trainer.Scoring)
          (c : Training.Crit) (worst : ℝ),
        order = A ++ ⟨mon, sc, i⟩ :: (B ++ ⟨save, sc, j⟩ :: C) → (order.map Training.Hook.name).Nodup → i ∣ j →
        Dict.get? hooks mon = some (.monitor dt scorers) → (∀ x ∈ scorers, x.name ≠ str "total_loss") →
        Dict.get? hooks save = some (.saveBest c [mon, str "total_loss"] sc) → s.w.saved save = ⟨worst, none, none⟩ →
        ∀ (best : ℝ) (t : Option ℕ) (ϑ : List ℝ), s'.w.saved save = ⟨best, t, some ϑ⟩ →
        ∃ x ∈ Trainer.checks save s'.trace, t = some (if sc then x.1 else x.2) ∧
          ∀ initial, Initial (infos layers) initial → ∃ st', fromHdf5 (netOf (infos layers) L) initial ϑ = some st' ∧
            Evaluate.evaluateLoss (netOf (infos layers) L) data.name (fun T B => libNetwork F (ps M' T B)) (reported a layers L) (dt x.1 x.2) st' =
              some best := by
  have m : Made kwargs a ord layers L := ⟨hk, ho, h, hne, hL⟩
  obtain ⟨data, rest, hdt, F, ps, hps, H⟩ := Trainer.C82_best kwargs a hk ord ho layers h hne L hL tr num sup
  refine ⟨data, rest, hdt, F, ps, hps, ?_⟩
  intro M M' hM alg epochs hooks order fuel s s' fin n θ₀ he hmon hs h0 hc hθ₀ htr mon save sc i j A B C dt scorers c worst ho' hnd hij hgm hsc hgs hw
    best t ϑ hsv
  obtain ⟨rates, r, θ, loss, value, h1, h2, h3, h4⟩ := H M M' hM alg epochs hooks order fuel s s' fin n θ₀ he hmon hs h0 hc hθ₀ htr mon save sc i j A B C
    dt scorers c worst ho' hnd hij hgm hsc hgs hw
  obtain rfl := Determined.Reachable.count F.laid hc.state hθ₀
  have hbet : ∃ x ∈ Trainer.checks save s'.trace, c.better (value x) worst = true := by
    by_contra hno
    push Not at hno
    have := h4 fun x hx => by simpa using hno x hx
    rw [hsv] at this
    cases this
  obtain ⟨q, x, hq, -, hx⟩ := h3 hbet
  rw [hsv, Training.Saved.mk.injEq, Option.some.injEq] at hx
  obtain ⟨rfl, rfl, rfl⟩ := hx
  refine ⟨x, List.mem_of_getElem? hq, rfl, fun initial hini => ?_⟩
  obtain ⟨st', g1, g2, g3⟩ := fromHdf5_some F.laid hini (θ := List.ofFn (θ (x.2 - s.update))) List.length_ofFn
  refine ⟨st', g1, ?_⟩
  obtain ⟨_, _, _, _, _, i'⟩ := g2.inv (netOf_wellLaid F.laid.wf F.laid.shaped F.laid.layout)
  have hS := sited m F (ps M')
  have hrep := reports m F (ps M') hdt (hps M')
  rw [Trainer.evaluateLoss_eq hS hrep (fun b hb => hmon _ _ _ hgm x.1 x.2 b hb) i' g3]
  obtain ⟨valid, v1, v2⟩ := h2 x.1 x.2
  rw [show value x = _ from v2]
  congr 2
  refine List.map_congr_left fun b hb => ?_
  have e1 := v1 b hb
  rw [lossV_eq hS (hmon _ _ _ hgm x.1 x.2 b hb) hrep, Option.some.injEq] at e1
  rw [e1]

end

end Verif.Reload
