import Verif.EndToEnd.Props
import Verif.Layout.ExistsProps

/-!
# Property C10: which architectures can be laid out
-/

namespace Verif.EndToEnd

open Verif.Structure Verif.Layout Verif.Buffers Verif.Instantiate Verif.Architecture Verif.Shapes
open Verif.Setup (Kwargs libEnv infos toInfo toOutgoing inp_some library Inst)

section
variable {kwargs : Name → Kwargs} {a : Arch} {ord : Orders} {layers : Dict Name (LayerObj Kwargs)}
  (hk : (Dict.keys a).Nodup) (ho : ord.Ok) (h : Instantiates (libEnv kwargs) ord a (.ok layers))
include hk ho h

theorem made_clean {n : Name} {l : LayerObj Kwargs} (hl : Dict.get? layers n = some l) :
    (∀ e ∈ l.shapes.outs, e.2.backwardOnly = false) ∧ ∀ e ∈ l.shapes.params, e.2.backwardOnly = false := by
  have hI := Setup.inst_of (libEnv kwargs) (fun _ _ _ _ _ _ h1 h2 => Setup.libEnv_good h1 h2) a hk ord ho layers h
  obtain ⟨d, t, cls, hd, ht, hcls, hacc, hset⟩ := C59_acceptable (libEnv kwargs) a hk ord layers h n l hl
  obtain ⟨c, hc, hf, hset'⟩ := network_fed hk ho h hl hd ht
  obtain ⟨d', hd', hb⟩ : ∃ d, c.decl n l.kwargs l.inShapes = some d ∧ d.build = some l.shapes := by
    simpa [Setup.DeclClass.toClass, Option.bind_eq_some_iff] using hset'
  refine built_clean (library_clean hc (fun k s hks => ?_) hd') hb
  obtain ⟨srcs, -, -, -, h⟩ := hI.srcs n l hl k s (inp_some hks).1
  exact combine_clean h

/-- Connections from outputs, as the layout sees them. -/
theorem made_conn (hout : ∀ c, HasConnection a c → ¬ str ".." <+: c.outputName) :
    (∀ l ∈ infos layers, ∀ o ∈ l.outgoing, o.kind = .outputs) ∧
    ∀ p e y, ConnectedTo (infos layers) p e y ↔ HasConnection a ⟨p.1, p.2, e, y⟩ := by
  have hI := Setup.inst_of (libEnv kwargs) (fun _ _ _ _ _ _ h1 h2 => Setup.libEnv_good h1 h2) a hk ord ho layers h
  obtain ⟨order, h1, h2, h3⟩ := C59_layers (libEnv kwargs) (Setup.libEnv_plain kwargs) a hk ord ho layers h
  have hog : ∀ {n l}, Dict.get? layers n = some l → ∀ c, c ∈ l.outgoing ↔ HasConnection a c ∧ c.startLayer = n :=
    fun {n l} hl => (h3 n l hl).2.2.2.2.1
  have hkind : ∀ c, HasConnection a c → toOutgoing c = ⟨.outputs, c.outputName, c.endLayer, c.inputName⟩ := by
    intro c hc
    unfold toOutgoing
    split
    · rename_i rest hr
      exact absurd ⟨rest, by rw [hr]; rfl⟩ (hout c hc)
    · rfl
  refine ⟨?_, ?_⟩
  · intro i hi o hmem
    obtain ⟨n, l, hl, rfl⟩ := (Setup.mem_infos hI).1 hi
    obtain ⟨c, hc, rfl⟩ := List.mem_map.1 hmem
    rw [hkind c ((hog hl c).1 hc).1]
  · intro p e y
    constructor
    · rintro ⟨i, hi, o, hmem, e1, e2, e3, e4⟩
      obtain ⟨n, l, hl, rfl⟩ := (Setup.mem_infos hI).1 hi
      obtain ⟨c, hc, rfl⟩ := List.mem_map.1 hmem
      obtain ⟨hc1, hc2⟩ := (hog hl c).1 hc
      rw [hkind c hc1] at e2 e3 e4
      have e1' : l.name = p.1 := e1
      rw [hI.name n l hl, ← hc2] at e1'
      rw [← e1', ← e2, ← e3, ← e4]
      exact hc1
    · intro hc
      obtain ⟨l, hl⟩ : ∃ l, Dict.get? layers p.1 = some l := by
        refine Option.isSome_iff_exists.1 ((Dict.mem_keys_iff _ _).1 ?_)
        rw [h2]
        obtain ⟨d, hd, -⟩ := hc
        exact (C04_perm a hk order h1).mem_iff.2 (List.mem_map.2 ⟨_, hd, rfl⟩)
      refine ⟨toInfo l, (Setup.mem_infos hI).2 ⟨_, l, hl, rfl⟩, toOutgoing ⟨p.1, p.2, e, y⟩,
        List.mem_map.2 ⟨_, (hog hl _).2 ⟨hc, rfl⟩, rfl⟩, hI.name _ l hl, ?_⟩
      rw [hkind _ hc]
      exact ⟨rfl, rfl, rfl⟩

end

/-- **C10** (architectures).  Take an architecture of library layers that can be instantiated and in which nothing but outputs is
connected.  A layout is found for its layers exactly if their outputs can be put into one order in which, for every input of every
layer, the outputs that are connected to it stand next to each other. -/
theorem C10_architecture (kwargs : Name → Kwargs) (a : Arch) (hk : (Dict.keys a).Nodup) (ord : Orders) (ho : ord.Ok)
    (layers : Dict Name (LayerObj Kwargs)) (h : Instantiates (libEnv kwargs) ord a (.ok layers))
    (hne : ∃ n l, Dict.get? layers n = some l ∧ l.shapes.outs ≠ [])
    (hout : ∀ c, HasConnection a c → ¬ str ".." <+: c.outputName) :
    (∃ L, createLayout (infos layers) = .ok L) ↔
      ∃ order : List (Name × Name), order.Perm (outputsOf (infos layers)) ∧
        ∀ n i, Consecutive (fun p => HasConnection a ⟨p.1, p.2, n, i⟩) order := by
  have hI := Setup.inst_of (libEnv kwargs) (fun _ _ _ _ _ _ h1 h2 => Setup.libEnv_good h1 h2) a hk ord ho layers h
  obtain ⟨h1, h2⟩ := made_conn hk ho h hout
  rw [C10_network (infos layers) hI.wellFormed (hI.shaped hne) ?_ h1]
  · simp only [Orderable, h2]
  · intro i hi e he
    obtain ⟨n, l, hl, rfl⟩ := (Setup.mem_infos hI).1 hi
    obtain ⟨c1, c2⟩ := made_clean hk ho h hl
    rcases List.mem_append.1 he with he | he
    · exact c1 e he
    · exact c2 e he

/-- **C10** (architectures, single sources).  If every input is fed by one output, a layout is found. -/
theorem C10_chain (kwargs : Name → Kwargs) (a : Arch) (hk : (Dict.keys a).Nodup) (ord : Orders) (ho : ord.Ok)
    (layers : Dict Name (LayerObj Kwargs)) (h : Instantiates (libEnv kwargs) ord a (.ok layers))
    (hne : ∃ n l, Dict.get? layers n = some l ∧ l.shapes.outs ≠ [])
    (hout : ∀ c, HasConnection a c → ¬ str ".." <+: c.outputName)
    (hone : ∀ c c', HasConnection a c → HasConnection a c' → c.endLayer = c'.endLayer → c.inputName = c'.inputName → c = c') :
    ∃ L, createLayout (infos layers) = .ok L := by
  have hI := Setup.inst_of (libEnv kwargs) (fun _ _ _ _ _ _ h1 h2 => Setup.libEnv_good h1 h2) a hk ord ho layers h
  obtain ⟨h1, h2⟩ := made_conn hk ho h hout
  refine C10_single (infos layers) hI.wellFormed (hI.shaped hne) ?_ h1 ?_
  · intro i hi e he
    obtain ⟨n, l, hl, rfl⟩ := (Setup.mem_infos hI).1 hi
    obtain ⟨c1, c2⟩ := made_clean hk ho h hl
    rcases List.mem_append.1 he with he | he
    · exact c1 e he
    · exact c2 e he
  · intro p q e y hp hq
    have := hone _ _ ((h2 p e y).1 hp) ((h2 q e y).1 hq) rfl rfl
    exact Prod.ext (congrArg Connection.startLayer this) (congrArg Connection.outputName this)

/-! ### Non-vacuity -/

/-- The network in which the recurrent layer and the external input are fed side by side to the output layer. -/
example : (∃ L, createLayout (infos demoLayers) = .ok L) ↔
    ∃ order : List (Name × Name), order.Perm (outputsOf (infos demoLayers)) ∧
      ∀ n i, Consecutive (fun p => HasConnection demoArch ⟨p.1, p.2, n, i⟩) order :=
  C10_architecture demoKwargs demoArch (by decide +kernel) (demoOrders true) (demoOrders_ok true) demoLayers demo_instantiates demo_outs
    (fun c hc => by
      rw [demo_conns] at hc
      revert c
      decide +kernel)

end Verif.EndToEnd
