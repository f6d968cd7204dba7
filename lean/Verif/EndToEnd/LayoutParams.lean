import Verif.EndToEnd.Layout
import Verif.Layout.WithParamsProps

/-!
# Property C10: which architectures with connections from parameters can be laid out
-/

namespace Verif.EndToEnd

open Verif.Structure Verif.Layout Verif.Buffers Verif.Instantiate Verif.Architecture Verif.Shapes
open Verif.Setup (Kwargs libEnv infos toInfo toOutgoing inp_some library Inst)

section
variable {kwargs : Name → Kwargs} {a : Arch} {ord : Orders} {layers : Dict Name (LayerObj Kwargs)}
  (hk : (Dict.keys a).Nodup) (ho : ord.Ok) (h : Instantiates (libEnv kwargs) ord a (.ok layers))
include hk ho h

/-- The connections of the architecture, as the layout sees them. -/
theorem made_fedBy (k : Verif.Layout.Kind) (p : Name × Name) (e y : Name) :
    FedBy (infos layers) k p e y ↔ ∃ c, HasConnection a c ∧ c.startLayer = p.1 ∧ c.endLayer = e ∧ c.inputName = y ∧
      toOutgoing c = ⟨k, p.2, e, y⟩ ∧ c.outputName = Setup.refName ⟨k, p.2, e, y⟩ := by
  have hI := Setup.inst_of (libEnv kwargs) (fun _ _ _ _ _ _ h1 h2 => Setup.libEnv_good h1 h2) a hk ord ho layers h
  obtain ⟨order, h1, h2, h3⟩ := C59_layers (libEnv kwargs) (Setup.libEnv_plain kwargs) a hk ord ho layers h
  have hog : ∀ {n l}, Dict.get? layers n = some l → ∀ c, c ∈ l.outgoing ↔ HasConnection a c ∧ c.startLayer = n :=
    fun {n l} hl => (h3 n l hl).2.2.2.2.1
  constructor
  · rintro ⟨i, hi, o, hmem, rfl, e1, e2, rfl, rfl⟩
    obtain ⟨n, l, hl, rfl⟩ := (Setup.mem_infos hI).1 hi
    obtain ⟨c, hc, rfl⟩ := List.mem_map.1 hmem
    obtain ⟨t, ht⟩ := hI.source hl hc
    obtain ⟨-, href⟩ := Setup.offers_has (hI.good _ l hl) ht
    obtain ⟨hc1, hc2⟩ := (hog hl c).1 hc
    have e1' : l.name = p.1 := e1
    rw [hI.name n l hl, ← hc2] at e1'
    refine ⟨c, hc1, e1', (Setup.toOutgoing_end c).1.symm, (Setup.toOutgoing_end c).2.symm, by rw [← e2], by rw [← e2]; exact href⟩
  · rintro ⟨c, hc, e1, rfl, rfl, e4, -⟩
    obtain ⟨l, hl⟩ : ∃ l, Dict.get? layers p.1 = some l := by
      refine Option.isSome_iff_exists.1 ((Dict.mem_keys_iff _ _).1 ?_)
      rw [h2]
      obtain ⟨d, hd, -⟩ := hc
      exact (C04_perm a hk order h1).mem_iff.2 (List.mem_map.2 ⟨_, e1 ▸ hd, rfl⟩)
    refine ⟨toInfo l, (Setup.mem_infos hI).2 ⟨_, l, hl, rfl⟩, toOutgoing c,
      List.mem_map.2 ⟨_, (hog hl _).2 ⟨hc, e1⟩, rfl⟩, ?_, hI.name _ l hl, ?_, ?_, ?_⟩ <;> rw [e4]

/-- Where a connection starts. -/
theorem made_source {c : Connection} (hc : HasConnection a c) : ∃ k p e y, FedBy (infos layers) k p e y ∧
    c.endLayer = e ∧ c.inputName = y ∧ c.outputName = Setup.refName ⟨k, p.2, e, y⟩ := by
  have hI := Setup.inst_of (libEnv kwargs) (fun _ _ _ _ _ _ h1 h2 => Setup.libEnv_good h1 h2) a hk ord ho layers h
  obtain ⟨order, h1, h2, h3⟩ := C59_layers (libEnv kwargs) (Setup.libEnv_plain kwargs) a hk ord ho layers h
  obtain ⟨l, hl⟩ : ∃ l, Dict.get? layers c.startLayer = some l := by
    refine Option.isSome_iff_exists.1 ((Dict.mem_keys_iff _ _).1 ?_)
    rw [h2]
    obtain ⟨d, hd, -⟩ := hc
    exact (C04_perm a hk order h1).mem_iff.2 (List.mem_map.2 ⟨_, hd, rfl⟩)
  have hm : c ∈ l.outgoing := ((h3 _ l hl).2.2.2.2.1 c).2 ⟨hc, rfl⟩
  obtain ⟨t, ht⟩ := hI.source hl hm
  obtain ⟨-, href⟩ := Setup.offers_has (hI.good _ l hl) ht
  refine ⟨(toOutgoing c).kind, (c.startLayer, (toOutgoing c).buffer), _, _, ⟨toInfo l, (Setup.mem_infos hI).2 ⟨_, l, hl, rfl⟩,
    toOutgoing c, List.mem_map_of_mem hm, rfl, hI.name _ l hl, rfl, rfl, rfl⟩, (Setup.toOutgoing_end c).1.symm,
    (Setup.toOutgoing_end c).2.symm, href⟩

theorem made_noInternals (hint : ∀ c, HasConnection a c → ¬ str "..internals." <+: c.outputName) :
    ∀ l ∈ infos layers, ∀ o ∈ l.outgoing, o.kind ≠ .internals := by
  intro l hl o hmem hkind
  obtain ⟨c, hc, -, -, -, -, h6⟩ := (made_fedBy hk ho h o.kind (l.name, o.buffer) o.endLayer o.endInput).1
    ⟨l, hl, o, hmem, rfl, rfl, rfl, rfl, rfl⟩
  exact hint c hc ((prefix_iff o c h6).2.1 hkind)

/-- Connections from outputs. -/
theorem made_output {p : Name × Name} (hp : p ∈ outputsOf (infos layers)) (e y : Name) :
    FedBy (infos layers) .outputs p e y ↔ HasConnection a ⟨p.1, p.2, e, y⟩ := by
  have hI := Setup.inst_of (libEnv kwargs) (fun _ _ _ _ _ _ h1 h2 => Setup.libEnv_good h1 h2) a hk ord ho layers h
  rw [made_fedBy hk ho h]
  constructor
  · rintro ⟨c, hc, e1, e2, e3, -, e5⟩
    have : c = ⟨p.1, p.2, e, y⟩ := by
      cases c
      simp only at e1 e2 e3 e5
      simp only [e1, e2, e3, e5, Setup.refName]
    rw [← this]
    exact hc
  · intro hc
    refine ⟨_, hc, rfl, rfl, rfl, ?_, rfl⟩
    obtain ⟨i, hi, -, h2⟩ := mem_outputsOf.1 hp
    obtain ⟨n, l, hl, rfl⟩ := (Setup.mem_infos hI).1 hi
    obtain ⟨x, hx, hx'⟩ := List.mem_map.1 h2
    have hpl := (hI.good n l hl).plain _ (.inl rfl) _ hx
    rw [hx'] at hpl
    unfold toOutgoing
    split
    · rename_i rest hr
      have hr' : p.2 = '.' :: '.' :: rest := hr
      rw [hr'] at hpl
      exact absurd hpl (by simp)
    · rfl

/-- Connections from parameters. -/
theorem made_param (p : Name × Name) (e y : Name) :
    FedBy (infos layers) .parameters p e y ↔ HasConnection a ⟨p.1, str "..parameters." ++ p.2, e, y⟩ := by
  rw [made_fedBy hk ho h]
  constructor
  · rintro ⟨c, hc, e1, e2, e3, -, e5⟩
    have : c = ⟨p.1, str "..parameters." ++ p.2, e, y⟩ := by
      cases c
      simp only at e1 e2 e3 e5
      simp only [e1, e2, e3, e5, Setup.refName]
    rw [← this]
    exact hc
  · intro hc
    refine ⟨_, hc, rfl, rfl, rfl, ?_, rfl⟩
    rfl

end

/-- **C10** (architectures with connections from parameters).  Take an architecture of library layers that can be instantiated and in
which nothing but outputs and parameters is connected.  A layout is found for its layers exactly if

* the outputs can be put into one order in which those that are connected to an input stand next to each other,
* the layers can be put into one order in which the parameters that are connected to an input stand next to each other, and
* no input is fed by outputs as well as by parameters. -/
theorem C10_arch_parameters (kwargs : Name → Kwargs) (a : Arch) (hk : (Dict.keys a).Nodup) (ord : Orders) (ho : ord.Ok)
    (layers : Dict Name (LayerObj Kwargs)) (h : Instantiates (libEnv kwargs) ord a (.ok layers))
    (hne : ∃ n l, Dict.get? layers n = some l ∧ l.shapes.outs ≠ [])
    (hint : ∀ c, HasConnection a c → ¬ str "..internals." <+: c.outputName) :
    (∃ L, createLayout (infos layers) = .ok L) ↔
      (∃ order : List (Name × Name), order.Perm (outputsOf (infos layers)) ∧
        ∀ n i, Consecutive (fun p => HasConnection a ⟨p.1, p.2, n, i⟩) order) ∧
      (∃ order : List LayerInfo, order.Perm (infos layers) ∧
        ∀ n i, Consecutive (fun p => HasConnection a ⟨p.1, str "..parameters." ++ p.2, n, i⟩) (order.flatMap paramsOf)) ∧
      ∀ c c', HasConnection a c → HasConnection a c' → c.endLayer = c'.endLayer → c.inputName = c'.inputName →
        str "..parameters." <+: c.outputName → str "..parameters." <+: c'.outputName := by
  have hI := Setup.inst_of (libEnv kwargs) (fun _ _ _ _ _ _ h1 h2 => Setup.libEnv_good h1 h2) a hk ord ho layers h
  rw [C10_parameters (infos layers) hI.wellFormed (hI.shaped hne) ?_ (made_noInternals hk ho h hint)]
  · constructor
    · intro hp
      refine ⟨?_, ?_, ?_⟩
      · obtain ⟨order, h1, h2⟩ := hp.outputs
        exact ⟨order, h1, fun n i => (Consecutive.congr fun p hp => made_output hk ho h (h1.subset hp) n i).1 (h2 n i)⟩
      · obtain ⟨order, h1, h2⟩ := hp.params
        exact ⟨order, h1, fun n i => (Consecutive.congr fun p hp => made_param hk ho h p n i).1 (h2 n i)⟩
      · intro c c' hc hc' e1 e2 hpar
        obtain ⟨k', p', e', y', hf', h6'⟩ := made_source hk ho h hc'
        cases k' with
        | parameters => exact (prefix_iff ⟨.parameters, p'.2, e', y'⟩ c' h6'.2.2).1 rfl
        | internals => exact absurd ((prefix_iff ⟨.internals, p'.2, e', y'⟩ c' h6'.2.2).2.1 rfl) (hint c' hc')
        | outputs =>
          obtain ⟨b, hb⟩ := hpar
          have hc2 : HasConnection a ⟨c.startLayer, str "..parameters." ++ b, c.endLayer, c.inputName⟩ := by
            rw [hb]; exact hc
          have hf := (made_param hk ho h (c.startLayer, b) c.endLayer c.inputName).2 hc2
          rw [← h6'.1, ← h6'.2.1, ← e1, ← e2] at hf'
          exact absurd hf (hp.apart _ _ _ _ hf')
    · rintro ⟨⟨order, h1, h2⟩, ⟨order', h1', h2'⟩, h3⟩
      refine ⟨⟨order, h1, fun n i => (Consecutive.congr fun p hp => made_output hk ho h (h1.subset hp) n i).2 (h2 n i)⟩,
        ⟨order', h1', fun n i => (Consecutive.congr fun p hp => made_param hk ho h p n i).2 (h2' n i)⟩, ?_⟩
      intro p q e y hp hq
      have hc := (made_param hk ho h q e y).1 hq
      have hpo := (Par.fedBy_ends hI.wellFormed hp).1 rfl
      have hc' := (made_output hk ho h hpo e y).1 hp
      obtain ⟨i, hi, -, hb⟩ := mem_outputsOf.1 hpo
      obtain ⟨n, l, hl, rfl⟩ := (Setup.mem_infos hI).1 hi
      obtain ⟨x, hx, hx'⟩ := List.mem_map.1 hb
      have hpl := (hI.good n l hl).plain _ (.inl rfl) _ hx
      obtain ⟨r, hr⟩ := h3 _ _ hc hc' rfl rfl ⟨q.2, rfl⟩
      have hr' : str "..parameters." ++ r = p.2 := hr
      rw [hx', ← hr'] at hpl
      exact hpl.2.1 (List.mem_append_left _ (by decide))
  · intro i hi e he
    obtain ⟨n, l, hl, rfl⟩ := (Setup.mem_infos hI).1 hi
    obtain ⟨c1, c2⟩ := made_clean hk ho h hl
    rcases List.mem_append.1 he with he | he
    · exact c1 e he
    · exact c2 e he

/-- **C10** (architectures, single sources).  If every input is fed by one output or one parameter, a layout is found. -/
theorem C10_arch_single (kwargs : Name → Kwargs) (a : Arch) (hk : (Dict.keys a).Nodup) (ord : Orders) (ho : ord.Ok)
    (layers : Dict Name (LayerObj Kwargs)) (h : Instantiates (libEnv kwargs) ord a (.ok layers))
    (hne : ∃ n l, Dict.get? layers n = some l ∧ l.shapes.outs ≠ [])
    (hint : ∀ c, HasConnection a c → ¬ str "..internals." <+: c.outputName)
    (hone : ∀ c c', HasConnection a c → HasConnection a c' → c.endLayer = c'.endLayer → c.inputName = c'.inputName → c = c') :
    ∃ L, createLayout (infos layers) = .ok L := by
  have hI := Setup.inst_of (libEnv kwargs) (fun _ _ _ _ _ _ h1 h2 => Setup.libEnv_good h1 h2) a hk ord ho layers h
  refine C10_single_parameters (infos layers) hI.wellFormed (hI.shaped hne) ?_ (made_noInternals hk ho h hint) ?_
  · intro i hi e he
    obtain ⟨n, l, hl, rfl⟩ := (Setup.mem_infos hI).1 hi
    obtain ⟨c1, c2⟩ := made_clean hk ho h hl
    rcases List.mem_append.1 he with he | he
    · exact c1 e he
    · exact c2 e he
  · intro k k' p q e y hp hq
    obtain ⟨c, hc, e1, e2, e3, e4, -⟩ := (made_fedBy hk ho h k p e y).1 hp
    obtain ⟨c', hc', e1', e2', e3', e4', -⟩ := (made_fedBy hk ho h k' q e y).1 hq
    obtain rfl := hone c c' hc hc' (e2.trans e2'.symm) (e3.trans e3'.symm)
    have := e4.symm.trans e4'
    simp only [Outgoing.mk.injEq] at this
    exact ⟨this.1, Prod.ext (e1.symm.trans e1') this.2.1⟩

/-! ### Non-vacuity -/

/-- A fully connected layer whose weights are added to the loss. -/
def parArch : Arch :=
  [(str "Input", ⟨.string (str "Input"), .dict [(str "default", [str "Out"]), (str "targets", [str "SE.targets"])]⟩),
   (str "Out", ⟨.string (str "FullyConnected"), .dict [(str "default", [str "SE"]), (str "..parameters.W", [str "Sum"])]⟩),
   (str "SE", ⟨.string (str "SquaredError"), .dict [(str "loss", [str "Loss"])]⟩),
   (str "Sum", ⟨.string (str "Loss"), .list []⟩),
   (str "Loss", ⟨.string (str "Loss"), .list []⟩)]

/-- All connections of the architecture. -/
def parConns : List Connection :=
  [⟨str "Input", str "default", str "Out", str "default"⟩, ⟨str "Input", str "targets", str "SE", str "targets"⟩,
   ⟨str "Out", str "default", str "SE", str "default"⟩, ⟨str "Out", str "..parameters.W", str "Sum", str "default"⟩,
   ⟨str "SE", str "loss", str "Loss", str "default"⟩]

theorem par_conns (c : Connection) : HasConnection parArch c ↔ c ∈ parConns := by
  obtain ⟨cs, r, hcs, hm, -⟩ := canonicalOrder_eval parArch (by decide +kernel)
    ((C06_validate_iff parArch (by decide +kernel)).1 (by decide +kernel)).outgoing
  rw [← hm]
  have : (match collectAll parArch with
    | .ok cs => (cs.all fun c => decide (c ∈ parConns)) && parConns.all fun c => decide (c ∈ cs)
    | .error _ => false) = true := by decide +kernel
  rw [hcs] at this
  simp only [Bool.and_eq_true, List.all_eq_true, decide_eq_true_eq] at this
  exact ⟨this.1 c, this.2 c⟩

def parLayers : Dict Name (LayerObj Kwargs) :=
  match instantiateFuel 8 (libEnv demoKwargs) (demoOrders true) parArch with
  | some (.ok ls) => ls
  | _ => []

theorem par_instantiates : Instantiates (libEnv demoKwargs) (demoOrders true) parArch (.ok parLayers) := by
  refine instantiates_of _ _ _ (by decide +kernel) (by decide +kernel) 8 (by decide +kernel) _ ?_
  have : (instantiateFuel 8 (libEnv demoKwargs) (demoOrders true) parArch).any (fun r => match r with
        | .ok _ => true | .error _ => false) = true := by decide +kernel
  unfold parLayers
  cases hr : instantiateFuel 8 (libEnv demoKwargs) (demoOrders true) parArch with
  | none => rw [hr] at this; simp at this
  | some r => cases r with
    | error e => rw [hr] at this; simp at this
    | ok l => rfl

theorem par_outs : ∃ n l, Dict.get? parLayers n = some l ∧ l.shapes.outs ≠ [] := by
  have : ((Dict.get? parLayers (str "Input")).any fun l => decide (l.shapes.outs ≠ [])) = true := by decide +kernel
  cases hr : Dict.get? parLayers (str "Input") with
  | none => rw [hr] at this; simp at this
  | some l => rw [hr] at this; exact ⟨_, l, hr, by simpa using this⟩

example : ∃ L, createLayout (infos parLayers) = .ok L :=
  C10_arch_single demoKwargs parArch (by decide +kernel) (demoOrders true) (demoOrders_ok true) parLayers par_instantiates par_outs
    (by simp only [par_conns]; decide +kernel)
    (by
      have : ∀ c ∈ parConns, ∀ c' ∈ parConns, c.endLayer = c'.endLayer → c.inputName = c'.inputName → c = c' := by decide +kernel
      exact fun c c' h h' => this c ((par_conns c).1 h) c' ((par_conns c').1 h'))

end Verif.EndToEnd
