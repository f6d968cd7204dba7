import Verif.Locality.Predictions
import Verif.Locality.Spec
import Verif.Reload.Props

/-!
# C92: the outputs of a layer depend on what lies before it, and on nothing else
-/

namespace Verif.Locality

open Verif.Architecture hiding demoArch
open Verif.Structure Verif.Layout Verif.Buffers Verif.Instantiate Verif.EndToEnd
open Verif.Memory hiding demoL Feeds
open Verif.Setup (Kwargs libEnv infos toInfo inp_some toOutgoing)
open Verif.Shapes (Supported)
open Verif.Session hiding sgdRun momentumRun nesterovRun round train Stepper

/-! ### Proofs -/

theorem output_of {c : Connection} (h : (toOutgoing c).kind = .outputs) : (toOutgoing c).buffer = c.outputName := by
  unfold toOutgoing at h ⊢
  split
  · next rest e =>
    rw [e] at h
    simp only at h
    split_ifs at h
  · rfl

section
variable {kwargs : Name → Kwargs} {a : Arch} {ord : Orders} {layers : Dict Name (LayerObj Kwargs)} {L : Layout}

/-- The connections of the layers are those of the architecture. -/
theorem connection (m : Made kwargs a ord layers L) {k : LayerInfo} (hk : k ∈ infos layers) {o : Outgoing} (ho : o ∈ k.outgoing) :
    ∃ c, HasConnection a c ∧ c.startLayer = k.name ∧ c.endLayer = o.endLayer ∧ c.inputName = o.endInput ∧
      (o.kind = .outputs → o.buffer = c.outputName) := by
  obtain ⟨n, l, hl, rfl⟩ := (Setup.mem_infos m.inst).1 hk
  obtain ⟨c, hc, rfl⟩ := List.mem_map.1 ho
  obtain ⟨h1, h2⟩ := (m.outgoing hl c).1 hc
  exact ⟨c, h1, by rw [h2]; exact (m.inst.name n l hl).symm, (Setup.toOutgoing_end c).1.symm, (Setup.toOutgoing_end c).2.symm, output_of⟩

theorem before_upstream (m : Made kwargs a ord layers L) (n : Name) : Before (infos layers) fun k => Upstream a k.name n := by
  intro l _ hSl k hk o ho he
  obtain ⟨c, h1, h2, h3, -⟩ := connection m hk ho
  exact .head ⟨c, h1, h2, h3.trans he⟩ hSl

variable {b : Batch} {d : List (Name × List ℝ)} {θ θ' : List ℝ} {s s' : Mem} {data : LayerInfo} {rest : List LayerInfo}

/-- Data with the same names and values are the same in the memory. -/
theorem same_data (F : Memory.Fits (infos layers) L data rest) (hb : b.Good data) {o : Outgoing} (ho : o ∈ data.outgoing)
    (hkind : o.kind = .outputs) (hd : ∀ xs, (o.buffer, xs) ∈ b.data ↔ (o.buffer, xs) ∈ d)
    (h : Loaded (netOf (infos layers) L) data.name b θ s) (h' : Loaded (netOf (infos layers) L) data.name (withData b d) θ' s') {c : ℕ}
    (hma : Main (infos layers) L b.T b.B data .out o.buffer c) : s c = s' c := by
  have hdm : data ∈ infos layers := by rw [F.ordered.all]; simp
  have hsh := F.laid.wf.starts data hdm o ho
  rw [hkind] at hsh
  obtain ⟨e, he, heq⟩ := List.mem_map.1 hsh
  obtain ⟨xs, hxs, hx⟩ := List.mem_map.1 (hb.complete e he)
  have h5 : xs.1 = o.buffer := hx.trans heq
  have h6 : (o.buffer, xs.2) ∈ b.data := by rw [← h5]; exact hxs
  exact loaded_data F.laid h h' h6 ((hd xs.2).1 h6) hma

/-- Parameters that are read the same are the same in the memory. -/
theorem agree (F : Memory.Fits (infos layers) L data rest) {S : LayerInfo → Prop} {st st' : State ℝ}
    (hst : Reachable (netOf (infos layers) L) st) (hst' : Reachable (netOf (infos layers) L) st')
    (hs : ∀ k ∈ infos layers, S k → ∀ x s, (x, s) ∈ k.paramShapes →
      st.read (path k.name (str "parameters") x) = st'.read (path k.name (str "parameters") x)) (hθ : st.read (str "parameters") = some θ)
    (hθ' : st'.read (str "parameters") = some θ') (h : Loaded (netOf (infos layers) L) data.name b θ s)
    (h' : Loaded (netOf (infos layers) L) data.name (withData b d) θ' s') :
    Agree (infos layers) L b.T b.B S s s' := by
  intro k hk hSk y t c hc
  have hwl := netOf_wellLaid F.laid.wf F.laid.shaped F.laid.layout
  obtain ⟨T, B, _, _, _, i⟩ := hst.inv hwl
  obtain ⟨T', B', _, _, _, i'⟩ := hst'.inv hwl
  have e1 := hs k hk hSk y t hc.1
  have r1 := Constrained.read_part F.laid i (c := .par) (Or.inl rfl) hk hc.1 hθ
  have r2 := Constrained.read_part F.laid i' (c := .par) (Or.inl rfl) hk hc.1 hθ'
  have e2 : Constrained.part L k.name y t θ = Constrained.part L k.name y t θ' := Option.some.inj (r1.symm.trans (e1.trans r2))
  have e3 := (Constrained.cells_part F.laid (c := .par) (Or.inl rfl) hk hc.1 b.T b.B).1
  have e4 : (cells (netOf (infos layers) L) b.T b.B (path k.name (str "parameters") y)).map s =
      (cells (netOf (infos layers) L) b.T b.B (path k.name (str "parameters") y)).map s' := by
    have p1 : (cells (netOf (infos layers) L) b.T b.B (str "parameters")).map s = θ := h.params
    have p2 : (cells (netOf (infos layers) L) b.T b.B (str "parameters")).map s' = θ' := h'.params
    rw [show path k.name (str "parameters") y = path k.name Src.par.str y from rfl, e3]
    simp only [List.map_take, List.map_drop]
    rw [show Src.par.str = str "parameters" from rfl, p1, p2]
    exact e2
  exact List.map_inj_left.1 e4 c hc.2

end

/-! ### The property

The network is as in C81: any network of library layers for which C81 is stated. -/

section
variable (kwargs : Name → Kwargs) (a : Arch) (hk : (Dict.keys a).Nodup) (ord : Orders) (ho : ord.Ok)
  (layers : Dict Name (LayerObj Kwargs)) (h : Instantiates (libEnv kwargs) ord a (.ok layers))
  (hne : ∃ n l, Dict.get? layers n = some l ∧ l.shapes.outs ≠ []) (L : Layout) (hL : createLayout (infos layers) = .ok L)
  (tr : Trainable a) (num : Numeric a kwargs)
  (sup : ∀ n l t, Dict.get? layers n = some l → HasType a n t → Supported t l.kwargs l.inShapes)
include hk ho h hne hL tr num sup

/-- **C92.**  Two networks of the same architecture, whatever was done with them before, process two batches of the same size (with the same random
numbers, if there are Dropout layers in training mode).  Let `l` be a layer other than the Input layer.  If the layers from which a chain of
connections leads to `l`, and `l` itself, have the same parameters in both networks, and if the batches have the same data under the names that
are connected to these layers, then all outputs of `l` are the same, whatever the other parameters and data are. -/
theorem C92_locality :
    ∃ data rest, HasType a data.name (str "Input") ∧ ∃ F : Memory.Fits (infos layers) L data rest,
      ∃ ps : Mode → ∀ T B, ∀ l ∈ rest, LibLayer (infos layers) data l T B,
      (∀ M T B l (hl : l ∈ rest) t, HasType a l.name t → Describes M t (kwargs l.name) (ps M T B l hl)) ∧
      ∀ (st st' : State ℝ), Reachable (netOf (infos layers) L) st → Reachable (netOf (infos layers) L) st' →
        ∀ (M : Mode) (b b' : Batch), b.Good data → b'.Good data → b'.T = b.T → b'.B = b.B → b'.rnd = b.rnd → ∃ st₁ st₂ st₁' st₂',
            provide (netOf (infos layers) L) data.name b st = some st₁ ∧
            forwardPass (netOf (infos layers) L) (fun T B => libNetwork F (ps M T B)) b.rnd st₁ = some st₂ ∧
            provide (netOf (infos layers) L) data.name b' st' = some st₁' ∧
            forwardPass (netOf (infos layers) L) (fun T B => libNetwork F (ps M T B)) b'.rnd st₁' = some st₂' ∧
            ∀ l ∈ infos layers, l.name ≠ data.name → SameBefore a (infos layers) l.name st st' → SameData a data.name l.name b.data b'.data →
              ∀ x s, (x, s) ∈ l.outShapes → ∃ xs, st₂.read (path l.name (str "outputs") x) = some xs ∧
                st₂'.read (path l.name (str "outputs") x) = some xs := by
  have m : Made kwargs a ord layers L := ⟨hk, ho, h, hne, hL⟩
  obtain ⟨data, rest, hdt, F, ps, hps⟩ := functions m tr num sup
  refine ⟨data, rest, hdt, F, ps, hps, ?_⟩
  rintro st st' hst hst' M b ⟨_, _, d, _⟩ hb hb' rfl rfl rfl
  have hwl := netOf_wellLaid F.laid.wf F.laid.shaped F.laid.layout
  obtain ⟨e, he⟩ := params_entry (layers := infos layers) (L := L)
  obtain ⟨T, B, sz, k, vs, i⟩ := hst.inv hwl
  obtain ⟨T', B', sz', k', vs', i'⟩ := hst'.inv hwl
  obtain ⟨θ, hθ⟩ : ∃ θ, st.read (str "parameters") = some θ := ⟨_, read_inv F.laid i he⟩
  obtain ⟨θ', hθ'⟩ : ∃ θ, st'.read (str "parameters") = some θ := ⟨_, read_inv F.laid i' he⟩
  have hS := sited m F (ps M)
  obtain ⟨st₁, p1, hr, r1⟩ := provide_ready hS.laid hS.data_mem i hb
  obtain ⟨st₁', p1', hr', r1'⟩ := provide_ready hS.laid hS.data_mem i' hb'
  obtain ⟨_, _, _, j, -⟩ := id hr
  obtain ⟨_, _, _, j', -⟩ := id hr'
  obtain ⟨st₂, p2, i2, m2⟩ := forwardPass_inv j (fun T B => libNetwork F (ps M T B)) b.rnd
  obtain ⟨st₂', p2', i2', m2'⟩ := forwardPass_inv j' (fun T B => libNetwork F (ps M T B)) b.rnd
  have l1 := before_loaded hS.laid hS.data_mem hb hr (r1.trans hθ)
  have l1' : Loaded (netOf (infos layers) L) data.name (withData b d) θ' _ := before_loaded hS.laid hS.data_mem hb' hr' (r1'.trans hθ')
  refine ⟨st₁, st₂, st₁', st₂', p1, p2, p1', p2', fun l hl hne hsp hsd x s hx => ?_⟩
  have hl' : l ∈ rest := by
    have h1 := hl
    rw [F.ordered.all] at h1
    rcases List.mem_cons.1 h1 with rfl | h1
    · exact absurd rfl hne
    · exact h1
  obtain ⟨e, he⟩ := out_entry F.laid hl hx
  refine ⟨_, read_inv F.laid i2 he, ?_⟩
  rw [read_inv F.laid i2' he]
  congr 1
  refine List.map_congr_left fun c hc => ?_
  have hlt := cells_lt hc
  rw [m2 c hlt, m2' c hlt]
  have hdm : data ∈ infos layers := hS.data_mem
  refine (local_determined F (m.short _) (ps M b.T b.B) l1 l1' (before_upstream m l.name) (agree F hst hst' hsp hθ hθ' l1 l1')
    (fun k _ hSk o hok hkind hend c hma => ?_) hl' .refl hx hc).symm
  obtain ⟨e, h1, h2, h3, -, h4⟩ := connection m hdm hok
  refine same_data F hb hok hkind ?_ l1 l1' hma
  rw [h4 hkind]
  exact hsd e h1 h2 (by rw [h3, hend]; exact hSk)

/-- **C92, predictions.**  As C92, for the output `predictions` of a SquaredError, SigmoidCE or SoftmaxCE layer: it depends on the parameters of the
layers before the input `default`, and on the data connected to them and to this input.  In particular it does not depend on the targets. -/
theorem C92_predictions :
    ∃ data rest, HasType a data.name (str "Input") ∧ ∃ F : Memory.Fits (infos layers) L data rest,
      ∃ ps : Mode → ∀ T B, ∀ l ∈ rest, LibLayer (infos layers) data l T B,
      (∀ M T B l (hl : l ∈ rest) t, HasType a l.name t → Describes M t (kwargs l.name) (ps M T B l hl)) ∧
      ∀ (st st' : State ℝ), Reachable (netOf (infos layers) L) st → Reachable (netOf (infos layers) L) st' →
        ∀ (M : Mode) (b b' : Batch), b.Good data → b'.Good data → b'.T = b.T → b'.B = b.B → b'.rnd = b.rnd → ∃ st₁ st₂ st₁' st₂',
            provide (netOf (infos layers) L) data.name b st = some st₁ ∧
            forwardPass (netOf (infos layers) L) (fun T B => libNetwork F (ps M T B)) b.rnd st₁ = some st₂ ∧
            provide (netOf (infos layers) L) data.name b' st' = some st₁' ∧
            forwardPass (netOf (infos layers) L) (fun T B => libNetwork F (ps M T B)) b'.rnd st₁' = some st₂' ∧
            ∀ l ∈ infos layers, l.name ≠ data.name → SameBeforeInput a (infos layers) l.name (str "default") st st' →
              SameDataInput a data.name l.name (str "default") b.data b'.data → str "predictions" ∈ Dict.keys l.outShapes →
              ∃ xs, st₂.read (path l.name (str "outputs") (str "predictions")) = some xs ∧
                st₂'.read (path l.name (str "outputs") (str "predictions")) = some xs := by
  have m : Made kwargs a ord layers L := ⟨hk, ho, h, hne, hL⟩
  obtain ⟨data, rest, hdt, F, ps, hps⟩ := functions m tr num sup
  refine ⟨data, rest, hdt, F, ps, hps, ?_⟩
  rintro st st' hst hst' M b ⟨_, _, d, _⟩ hb hb' rfl rfl rfl
  have hwl := netOf_wellLaid F.laid.wf F.laid.shaped F.laid.layout
  obtain ⟨e, he⟩ := params_entry (layers := infos layers) (L := L)
  obtain ⟨T, B, sz, k, vs, i⟩ := hst.inv hwl
  obtain ⟨T', B', sz', k', vs', i'⟩ := hst'.inv hwl
  obtain ⟨θ, hθ⟩ : ∃ θ, st.read (str "parameters") = some θ := ⟨_, read_inv F.laid i he⟩
  obtain ⟨θ', hθ'⟩ : ∃ θ, st'.read (str "parameters") = some θ := ⟨_, read_inv F.laid i' he⟩
  have hS := sited m F (ps M)
  obtain ⟨st₁, p1, hr, r1⟩ := provide_ready hS.laid hS.data_mem i hb
  obtain ⟨st₁', p1', hr', r1'⟩ := provide_ready hS.laid hS.data_mem i' hb'
  obtain ⟨_, _, _, j, -⟩ := id hr
  obtain ⟨_, _, _, j', -⟩ := id hr'
  obtain ⟨st₂, p2, i2, m2⟩ := forwardPass_inv j (fun T B => libNetwork F (ps M T B)) b.rnd
  obtain ⟨st₂', p2', i2', m2'⟩ := forwardPass_inv j' (fun T B => libNetwork F (ps M T B)) b.rnd
  have l1 := before_loaded hS.laid hS.data_mem hb hr (r1.trans hθ)
  have l1' : Loaded (netOf (infos layers) L) data.name (withData b d) θ' _ := before_loaded hS.laid hS.data_mem hb' hr' (r1'.trans hθ')
  refine ⟨st₁, st₂, st₁', st₂', p1, p2, p1', p2', fun l hl hne hsp hsd hx => ?_⟩
  obtain ⟨⟨_, s⟩, hx, rfl⟩ := List.mem_map.1 hx
  have hl' : l ∈ rest := by
    have h1 := hl
    rw [F.ordered.all] at h1
    rcases List.mem_cons.1 h1 with rfl | h1
    · exact absurd rfl hne
    · exact h1
  obtain ⟨e, he⟩ := out_entry F.laid hl hx
  refine ⟨_, read_inv F.laid i2 he, ?_⟩
  rw [read_inv F.laid i2' he]
  congr 1
  refine List.map_congr_left fun c hc => ?_
  have hlt := cells_lt hc
  rw [m2 c hlt, m2' c hlt]
  have hdm : data ∈ infos layers := hS.data_mem
  refine (predictions_determined F (m.short _) (ps M b.T b.B) l1 l1' (S := fun k => LeadsTo a k.name l.name (str "default")) ?_
    (agree F hst hst' hsp hθ hθ' l1 l1') ?_ hl' ?_ ?_ hx hc).symm
  · rintro l' _ ⟨e, h1, h2, h3⟩ k hk o hok hend
    obtain ⟨e', h1', h2', h3', -⟩ := connection m hk hok
    exact ⟨e, h1, .head ⟨e', h1', h2', h3'.trans hend⟩ h2, h3⟩
  · intro k _ hSk o hok hkind hend c hma
    obtain ⟨e, h1, h2, h3, -, h4⟩ := connection m hdm hok
    refine same_data F hb hok hkind ?_ l1 l1' hma
    rw [h4 hkind]
    exact hsd e h1 h2 (Or.inr (by rw [h3, hend]; exact hSk))
  · intro k hk o hok hend hin
    obtain ⟨e, h1, h2, h3, h4, -⟩ := connection m hk hok
    exact ⟨e, h1, by rw [h2]; exact .refl, h3.trans hend, h4.trans hin⟩
  · intro o hok hkind hend hin c hma
    obtain ⟨e, h1, h2, h3, h3', h4⟩ := connection m hdm hok
    refine same_data F hb hok hkind ?_ l1 l1' hma
    rw [h4 hkind]
    exact hsd e h1 h2 (Or.inl ⟨h3.trans hend, h3'.trans hin⟩)

end

end Verif.Locality
