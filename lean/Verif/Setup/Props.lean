import Verif.Setup.Ready
import Verif.Buffers.NetworkProps

/-!
# Property C63: every network of library layers is ready for layout and buffers
-/

namespace Verif.Setup

open Verif.Structure Verif.Instantiate Verif.Architecture Verif.Layout Verif.Buffers

/-- **C63 (declarations).** Whatever its name, keyword arguments and input shapes, a layer of a library type that can be set
up declares only legal structures; outputs, parameters and internal buffers have distinct names without dots or `@`;
parameters scale neither with time nor with the batch size; and an internal buffer `dX` next to an internal buffer `X` has
the same shape, as the backward pass requires. -/
theorem C63_declares (kwargs : Name → Kwargs) (type : Name) (cls : LayerClass Kwargs)
    (hc : (libEnv kwargs).classOf type = some cls) (name : Name) (kw : Kwargs) (ins : Dict Name Struct) (sh : Shapes)
    (h : cls.setup name kw ins = some sh) :
    (∀ d, d = sh.outs ∨ d = sh.params ∨ d = sh.internals →
      (d.map Prod.fst).Nodup ∧ ∀ e ∈ d, e.2.validate = .ok () ∧ e.1 ≠ [] ∧ '.' ∉ e.1 ∧ '@' ∉ e.1) ∧
    (∀ e ∈ sh.params, .T ∉ e.2.shape ∧ .B ∉ e.2.shape) ∧
    (∀ b s s', (b, s) ∈ sh.internals → ('d' :: b, s') ∈ sh.internals → s'.shape = s.shape) := by
  have hg := libEnv_good hc h
  refine ⟨?_, ?_, hg.partner⟩
  · intro d hd
    refine ⟨?_, fun e he => ⟨hg.valid d hd e he, hg.plain d hd e he⟩⟩
    rcases hd with rfl | rfl | rfl
    · exact hg.outNodup
    · exact hg.paramNodup
    · exact hg.internalNodup
  · intro e he
    have := hg.params e he
    unfold Struct.bufferType typeOf at this
    split_ifs at this with h1 h2
    exact ⟨h1, h2⟩

/-- **C63 (ready for layout).** The layers instantiated from any architecture of library types meet all the assumptions of the
theorems about layouts and buffers. -/
theorem C63_ready (kwargs : Name → Kwargs) (a : Arch) (hk : (Dict.keys a).Nodup) (ord : Orders) (ho : ord.Ok)
    (layers : Dict Name (LayerObj Kwargs)) (h : Instantiates (libEnv kwargs) ord a (.ok layers)) :
    WellFormedLayers (infos layers) ∧
    ((∃ n l, Dict.get? layers n = some l ∧ l.shapes.outs ≠ []) → Shaped (infos layers)) := by
  have hI := inst_of (libEnv kwargs) (fun _ _ _ _ _ _ h1 h2 => libEnv_good h1 h2) a hk ord ho layers h
  exact ⟨hI.wellFormed, hI.shaped⟩

/-- The buffers of a layer by category, as the layer sees them in its passes. -/
inductive HasBuffer {K : Type} (l : LayerObj K) : Name → Name → Struct → Prop
  | inputs {b s} : Dict.get? l.inShapes b = some s → HasBuffer l (str "inputs") b s
  | inputDeltas {b s} : Dict.get? l.inShapes b = some s → HasBuffer l (str "input_deltas") b s
  | outputs {b s} : Dict.get? l.shapes.outs b = some s → HasBuffer l (str "outputs") b s
  | outputDeltas {b s} : Dict.get? l.shapes.outs b = some s → HasBuffer l (str "output_deltas") b s
  | parameters {b s} : Dict.get? l.shapes.params b = some s → HasBuffer l (str "parameters") b s
  | gradients {b s} : Dict.get? l.shapes.params b = some s → HasBuffer l (str "gradients") b s
  | internals {b s} : Dict.get? l.shapes.internals b = some s → HasBuffer l (str "internals") b s

/-- **C63 (from architecture to memory).** For every architecture of library layers that can be instantiated and laid out: the
buffer manager can be created, and for all numbers of time steps and sequences, every buffer of every layer is an array of
distinct memory cells whose shape is the one the layer declared for it in `setup` (an input: the combined shape of its
sources; deltas and gradients: the shape of the input, output or parameter they belong to), with one more row per context step. -/
theorem C63_memory (V : Type) [Zero V] (kwargs : Name → Kwargs) (a : Arch) (hk : (Dict.keys a).Nodup) (ord : Orders)
    (ho : ord.Ok) (layers : Dict Name (LayerObj Kwargs)) (h : Instantiates (libEnv kwargs) ord a (.ok layers))
    (_hroot : NoRootNames (infos layers)) (hne : ∃ n l, Dict.get? layers n = some l ∧ l.shapes.outs ≠ [])
    (L : Layout) (hL : createLayout (infos layers) = .ok L) :
    (∃ st : State V, create (netOf (infos layers) L) = some st) ∧
    ∀ (T B : Nat) (n : Name) (l : LayerObj Kwargs), Dict.get? layers n = some l → ∀ cat b s, HasBuffer l cat b s →
      ∃ e v, Dict.get? (netOf (infos layers) L).layout (path n cat b) = some e ∧
        viewOf (netOf (infos layers) L).hubs T B e = some v ∧ v.shape = structShape s T B ∧
        v.cells.length = (structShape s T B).prod ∧ v.cells.Nodup := by
  have hI := inst_of (libEnv kwargs) (fun _ _ _ _ _ _ h1 h2 => libEnv_good h1 h2) a hk ord ho layers h
  have hw := netOf_wellLaid hI.wellFormed (hI.shaped hne) hL
  refine ⟨?_, ?_⟩
  · obtain ⟨st, -, -, h1, -⟩ := create_inv (V := V) hw
    exact ⟨st, h1⟩
  · intro T B n l hl cat b s hb
    have harr : ∃ s', Dict.get? (networkArrays (infos layers)) (path n cat b) = some s' ∧
        structShape s' T B = structShape s T B := by
      cases hb with
      | inputs hb => exact ⟨_, get_array hI hl (back := false) (by simp [layerCats, toInfo]) hb, rfl⟩
      | outputs hb => exact ⟨_, get_array hI hl (back := false) (by simp [layerCats, toInfo]) hb, rfl⟩
      | parameters hb => exact ⟨_, get_array hI hl (back := false) (by simp [layerCats, toInfo]) hb, rfl⟩
      | internals hb => exact ⟨_, get_array hI hl (back := false) (by simp [layerCats, toInfo]) hb, rfl⟩
      | inputDeltas hb => exact ⟨_, get_array hI hl (back := true) (by simp [layerCats, toInfo]) hb, rfl⟩
      | outputDeltas hb => exact ⟨_, get_array hI hl (back := true) (by simp [layerCats, toInfo]) hb, rfl⟩
      | gradients hb => exact ⟨_, get_array hI hl (back := true) (by simp [layerCats, toInfo]) hb, rfl⟩
    obtain ⟨s', hs', hsh⟩ := harr
    have hm : entryOf L (path n cat b, s') ∈ (netOf (infos layers) L).layout := by
      unfold netOf
      exact List.mem_cons_of_mem _ (List.mem_cons_of_mem _ (List.mem_map.2 ⟨_, Dict.mem_of_get? hs', rfl⟩))
    obtain ⟨v, hv, hvs, -⟩ := viewOf_fits (hw.fits _ hm) T B
    refine ⟨_, v, Dict.get?_of_mem hw.nodup hm, hv, ?_, ?_, viewOf_nodup hv⟩
    · rw [hvs]; exact hsh
    · obtain ⟨-, -, -, -, -, -, hlen⟩ := viewOf_cells hv
      rw [hlen, hvs]
      exact congrArg List.prod hsh

/-! ### The assumptions are met -/

/-- The keyword arguments of a small classifier for sequences. -/
def demoKwargs (n : Name) : Kwargs :=
  if n = str "Input" then [(str "out_shapes", .shapes ⟨[(str "default", [.T, .B, .n 4]), (str "targets", [.T, .B, .n 1])],
    by decide, by decide⟩)]
  else if n = str "Rnn" then [(str "size", .int 3)]
  else if n = str "Out" then [(str "size", .int 2)]
  else []

/-- Its architecture: the recurrent layer and the external input are fed side by side to the output layer. -/
def demoArch : Arch :=
  [(str "Input", ⟨.string (str "Input"), .dict [(str "default", [str "Rnn", str "Out"]), (str "targets", [str "CE.targets"])]⟩),
   (str "Rnn", ⟨.string (str "Recurrent"), .list [str "Out"]⟩),
   (str "Out", ⟨.string (str "FullyConnected"), .list [str "CE"]⟩),
   (str "CE", ⟨.string (str "SoftmaxCE"), .dict [(str "loss", [str "Loss"])]⟩),
   (str "Loss", ⟨.string (str "Loss"), .list []⟩)]

/-- Input and parameter shapes of the layers. -/
def demoSummary (r : Option (Except Err (Dict Name (LayerObj Kwargs)))) : List (Name × Dict Name Struct × Dict Name Struct) :=
  match r with
  | some (.ok ls) => ls.map (fun e => (e.1, e.2.inShapes, e.2.shapes.params))
  | _ => []

/-- It is instantiated: `Out` gets 4 + 3 features. -/
example : demoSummary (instantiateFuel 8 (libEnv demoKwargs) (demoOrders true) demoArch) =
    [(str "Input", [], []),
     (str "Rnn", [(str "default", ⟨[.T, .B, .n 4], 0, false⟩)],
       [(str "W", ⟨[.n 3, .n 4], 0, false⟩), (str "R", ⟨[.n 3, .n 3], 0, false⟩), (str "bias", ⟨[.n 3], 0, false⟩)]),
     (str "Out", [(str "default", ⟨[.T, .B, .n 7], 0, false⟩)],
       [(str "W", ⟨[.n 2, .n 7], 0, false⟩), (str "bias", ⟨[.n 2], 0, false⟩)]),
     (str "CE", [(str "default", ⟨[.T, .B, .n 2], 0, false⟩), (str "targets", ⟨[.T, .B, .n 1], 0, false⟩)], []),
     (str "Loss", [(str "default", ⟨[.T, .B, .n 1], 0, false⟩)], [])] := by
  decide +kernel

/-- Whether the network can be laid out. -/
def demoLaidOut : Bool :=
  match instantiateFuel 8 (libEnv demoKwargs) (demoOrders true) demoArch with
  | some (.ok ls) => match createLayout (infos ls) with
    | .ok _ => true
    | .error _ => false
  | _ => false

/-- It is laid out. -/
example : demoLaidOut = true := by decide +kernel

/-- None of its layers is called like the arrays at the root. -/
example : ∀ n ∈ Dict.keys demoArch, n ≠ str "parameters" ∧ n ≠ str "gradients" := by decide +kernel

end Verif.Setup
