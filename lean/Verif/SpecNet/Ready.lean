import Verif.NetSpec.Works
import Verif.EndToEnd.Layout
import Verif.Descent.Props

/-!
# Networks from a spec line meet the conditions of the theorems about training
-/

namespace Verif.SpecNet

open Verif.Architecture hiding demoArch
open Verif.Structure Verif.Layout Verif.Instantiate Verif.EndToEnd Verif.Construction
open Verif.NetSpec (Opts Doc Item Script stack stack_works flow headNames expectedConnections numConns mem_numConns numConns_uniq
  expected_named insOf row row_cases row_next row_zero outClass netFromSpec st two one LettersApart isSpace)
open Verif.Setup (Kwargs KVal libEnv infos toInfo)
open Verif.Shapes (Supported)
open Verif.Descent (FreePeriods IsPeriod)

/-! ### Names -/

/-- The name of a layer starts like the name it was given. -/
theorem name_head {ops : List Op} {i : Nat} {n b : Name} (hb : (created ops)[i]? = some b) (h : HasName (run ops) i n) :
    b <+: n := by
  have hinv := inv_run ops
  have hi : i < (run ops).count := by
    rw [hinv.count]; exact (List.getElem?_eq_some_iff.1 hb).1
  have hbase : (run ops).base i = b := by rw [hinv.base, List.getD_eq_getElem?_getD, hb]; rfl
  rcases hinv.hasName hi with ⟨-, h'⟩ | ⟨k, -, -, h', -⟩
  · rw [hasName_unique h h', hbase]
  · rw [hasName_unique h h', hbase]
    exact List.prefix_append _ _

/-- A name that starts with a capital letter. -/
def Capital (n : Name) : Prop := ∃ c ∈ n.head?, c ≠ 'p' ∧ c ≠ 'g'

theorem Capital.ne {b n : Name} (h : Capital b) (hp : b <+: n) : n ≠ str "parameters" ∧ n ≠ str "gradients" := by
  obtain ⟨c, hc, h1, h2⟩ := h
  obtain ⟨t, rfl⟩ := hp
  cases b with
  | nil => simp at hc
  | cons x b =>
    simp only [List.head?_cons, Option.mem_def, Option.some.injEq] at hc
    subst hc
    constructor
    · intro e
      exact h1 (by simpa [str] using congrArg List.head? e)
    · intro e
      exact h2 (by simpa [str] using congrArg List.head? e)

/-! ### The layers -/

/-- What the layer with number `i` is. -/
inductive Kind (o : Opts) (docs : List Doc) : Nat → NetSpec.Made → Prop
  | projection (m : NetSpec.Made) (h : o.projection = some m) : Kind o docs 0 m
  | cost (cls : Name) (h : outClass o.task = some cls) : Kind o docs 1 ⟨cls, some o.outName, []⟩
  | input : Kind o docs 2 ⟨str "InputLayerImpl", none, [(str "out_shapes", .shapes o.inputs)]⟩
  | loss : Kind o docs (o.parts - 1) ⟨str "LossLayerImpl", none, [(str "importance", .num 1)]⟩
  | mask (h : o.maskName ≠ none) : Kind o docs 3 ⟨str "MaskLayerImpl", none, []⟩
  | hidden (k : Nat) (d : Doc) (h : docs[k]? = some d) : Kind o docs (o.parts + k) d.made

theorem projection_cases {o : Opts} {m : NetSpec.Made} (h : o.projection = some m) :
    (∃ n, m = ⟨str "FullyConnectedLayerImpl", n, [(str "size", .ints o.outShape), (str "activation", .string (str "linear"))]⟩) ∨
    ∃ f n, m = NetSpec.mkConvolution f (1, 1) (1, 1) 0 (str "linear") n := by
  unfold Opts.projection at h
  split at h
  · cases h; exact .inl ⟨_, rfl⟩
  · split at h
    · split at h
      · cases h; exact .inr ⟨_, _, rfl⟩
      · cases h
    · cases h

theorem outClass_cases {task cls : Name} (h : outClass task = some cls) :
    (task = str "classification" ∧ cls = str "SoftmaxCELayerImpl") ∨ cls = str "SigmoidCELayerImpl" ∨ cls = str "SquaredErrorLayerImpl" := by
  unfold outClass at h
  split at h
  · cases h; exact .inl ⟨‹_›, rfl⟩
  · split at h
    · cases h; exact .inr (.inl rfl)
    · split at h
      · cases h; exact .inr (.inr rfl)
      · cases h

/-- The types of the layers. -/
theorem Kind.types {o : Opts} {docs : List Doc} {i : Nat} {m : NetSpec.Made} (h : Kind o docs i m) :
    (m.typeName = str "Input" → i = 2) ∧ (m.typeName = str "Loss" → i = o.parts - 1) ∧
    (Doc.batchNorm ∉ docs → m.typeName ≠ str "BatchNorm") ∧
    (m.typeName ≠ str "DeltasScaling" ∧ m.typeName ≠ str "Clockwork" ∧ m.typeName ≠ str "ClockworkLstm" ∧
      m.typeName ≠ str "Merge" ∧ m.typeName ≠ str "BinomialCrossEntropy") ∧
    (m.typeName = str "SoftmaxCE" → i = 1 ∧ o.task = str "classification") ∧
    (m.typeName = str "Dropout" → ∃ p, .dropout p ∈ docs ∧ m = (Doc.dropout p).made) := by
  cases h with
  | projection _ h =>
    rcases projection_cases h with ⟨n, rfl⟩ | ⟨f, n, rfl⟩
    · have e : (⟨str "FullyConnectedLayerImpl", n, [(str "size", .ints o.outShape), (str "activation", .string (str "linear"))]⟩ :
          NetSpec.Made).typeName = str "FullyConnected" := rfl
      rw [e]
      refine ⟨fun h => absurd h (by decide +kernel), fun h => absurd h (by decide +kernel), fun _ => by decide +kernel,
        by decide +kernel, fun h => absurd h (by decide +kernel), fun h => absurd h (by decide +kernel)⟩
    · have e : (NetSpec.mkConvolution f (1, 1) (1, 1) 0 (str "linear") n).typeName = str "Convolution2D" := rfl
      rw [e]
      refine ⟨fun h => absurd h (by decide +kernel), fun h => absurd h (by decide +kernel), fun _ => by decide +kernel,
        by decide +kernel, fun h => absurd h (by decide +kernel), fun h => absurd h (by decide +kernel)⟩
  | cost cls h =>
    rcases outClass_cases h with ⟨ht, rfl⟩ | rfl | rfl
    · have e : (⟨str "SoftmaxCELayerImpl", some o.outName, []⟩ : NetSpec.Made).typeName = str "SoftmaxCE" := rfl
      rw [e]
      refine ⟨fun h => absurd h (by decide +kernel), fun h => absurd h (by decide +kernel), fun _ => by decide +kernel,
        by decide +kernel, fun _ => ⟨rfl, ht⟩, fun h => absurd h (by decide +kernel)⟩
    · have e : (⟨str "SigmoidCELayerImpl", some o.outName, []⟩ : NetSpec.Made).typeName = str "SigmoidCE" := rfl
      rw [e]
      refine ⟨fun h => absurd h (by decide +kernel), fun h => absurd h (by decide +kernel), fun _ => by decide +kernel,
        by decide +kernel, fun h => absurd h (by decide +kernel), fun h => absurd h (by decide +kernel)⟩
    · have e : (⟨str "SquaredErrorLayerImpl", some o.outName, []⟩ : NetSpec.Made).typeName = str "SquaredError" := rfl
      rw [e]
      refine ⟨fun h => absurd h (by decide +kernel), fun h => absurd h (by decide +kernel), fun _ => by decide +kernel,
        by decide +kernel, fun h => absurd h (by decide +kernel), fun h => absurd h (by decide +kernel)⟩
  | input =>
    have e : (⟨str "InputLayerImpl", none, [(str "out_shapes", .shapes o.inputs)]⟩ : NetSpec.Made).typeName = str "Input" := rfl
    rw [e]
    refine ⟨fun _ => rfl, fun h => absurd h (by decide +kernel), fun _ => by decide +kernel,
      by decide +kernel, fun h => absurd h (by decide +kernel), fun h => absurd h (by decide +kernel)⟩
  | loss =>
    have e : (⟨str "LossLayerImpl", none, [(str "importance", .num 1)]⟩ : NetSpec.Made).typeName = str "Loss" := rfl
    rw [e]
    refine ⟨fun h => absurd h (by decide +kernel), fun _ => rfl, fun _ => by decide +kernel,
      by decide +kernel, fun h => absurd h (by decide +kernel), fun h => absurd h (by decide +kernel)⟩
  | mask h =>
    have e : (⟨str "MaskLayerImpl", none, []⟩ : NetSpec.Made).typeName = str "Mask" := rfl
    rw [e]
    refine ⟨fun h => absurd h (by decide +kernel), fun h => absurd h (by decide +kernel), fun _ => by decide +kernel,
      by decide +kernel, fun h => absurd h (by decide +kernel), fun h => absurd h (by decide +kernel)⟩
  | hidden k d h =>
    have hd : d ∈ docs := List.mem_of_getElem? h
    rw [(NetSpec.doc_baseName d).2]
    cases d <;> simp only [Doc.typeName]
    case batchNorm =>
      refine ⟨fun h => absurd h (by decide +kernel), fun h => absurd h (by decide +kernel), fun h => absurd hd h,
        by decide +kernel, fun h => absurd h (by decide +kernel), fun h => absurd h (by decide +kernel)⟩
    case dropout p =>
      refine ⟨fun h => absurd h (by decide +kernel), fun h => absurd h (by decide +kernel), fun _ => by decide +kernel,
        by decide +kernel, fun h => absurd h (by decide +kernel), fun _ => ⟨p, hd, rfl⟩⟩
    all_goals
      refine ⟨fun h => absurd h (by decide +kernel), fun h => absurd h (by decide +kernel), fun _ => by decide +kernel,
        by decide +kernel, fun h => absurd h (by decide +kernel), fun h => absurd h (by decide +kernel)⟩

/-- Their names start with capital letters. -/
theorem Kind.capital {o : Opts} (h1 : o.projectionName = none) (h2 : o.outlayerName = none) {docs : List Doc} {i : Nat}
    {m : NetSpec.Made} (h : Kind o docs i m) : Capital m.baseName := by
  have hon : o.outName = str "Output" := by simp only [Opts.outName, h2, NetSpec.orElse]
  have hpn : o.projName = str "Output_projection" := by
    simp only [Opts.projName, Opts.outName, h1, h2, NetSpec.orElse]
    rfl
  cases h with
  | projection _ h =>
    have : m.name = some o.projName := by
      unfold Opts.projection at h
      split at h
      · cases h; rfl
      · split at h
        · split at h
          · cases h; rfl
          · cases h
        · cases h
    rw [NetSpec.Made.baseName, this, hpn]
    exact ⟨'O', rfl, by decide, by decide⟩
  | cost cls h => rw [NetSpec.Made.baseName, hon]; exact ⟨'O', rfl, by decide, by decide⟩
  | input => exact ⟨'I', rfl, by decide, by decide⟩
  | loss => exact ⟨'L', rfl, by decide, by decide⟩
  | mask h => exact ⟨'M', rfl, by decide, by decide⟩
  | hidden k d h =>
    rw [(NetSpec.doc_baseName d).1]
    cases d
    · exact ⟨'F', rfl, by decide, by decide⟩
    · exact ⟨'R', rfl, by decide, by decide⟩
    · exact ⟨'L', rfl, by decide, by decide⟩
    · exact ⟨'B', rfl, by decide, by decide⟩
    · exact ⟨'D', rfl, by decide, by decide⟩
    · exact ⟨'C', rfl, by decide, by decide⟩
    · exact ⟨'P', rfl, by decide, by decide⟩

/-- Their activation functions exist. -/
theorem Kind.activation {o : Opts} {docs : List Doc} {i : Nat} {m : NetSpec.Made} (h : Kind o docs i m) (v : KVal)
    (hv : Dict.get? m.kw (str "activation") = some v) :
    ∃ a ∈ [str "sigmoid", str "tanh", str "rel", str "el", str "linear"], v = .string a := by
  have hact : ∀ x : NetSpec.Act, x.name ∈ [str "sigmoid", str "tanh", str "rel", str "el", str "linear"] := by
    intro x; cases x <;> decide +kernel
  cases h with
  | projection _ h =>
    rcases projection_cases h with ⟨n, rfl⟩ | ⟨f, n, rfl⟩
    · have e : v = .string (str "linear") := (Option.some.inj hv).symm
      exact ⟨_, by decide +kernel, e⟩
    · have e : v = .string (str "linear") := (Option.some.inj hv).symm
      exact ⟨_, by decide +kernel, e⟩
  | cost cls h => cases hv
  | input => cases hv
  | loss => cases hv
  | mask h => cases hv
  | hidden k d h =>
    cases d
    · exact ⟨_, hact _, (Option.some.inj hv).symm⟩
    · exact ⟨_, hact _, (Option.some.inj hv).symm⟩
    · exact ⟨_, hact _, (Option.some.inj hv).symm⟩
    · cases hv
    · cases hv
    · exact ⟨_, hact _, (Option.some.inj hv).symm⟩
    · cases hv

theorem Kind.dropProb {p : Option Rat} {v : KVal} (hv : Dict.get? (Doc.dropout p).made.kw (str "drop_prob") = some v) : ∃ q, v = .num q :=
  ⟨_, (Option.some.inj hv).symm⟩

theorem Kind.importance {v : KVal} (hv : Dict.get? (⟨str "LossLayerImpl", none, [(str "importance", .num 1)]⟩ : NetSpec.Made).kw
    (str "importance") = some v) : ∃ q, v = .num q :=
  ⟨_, (Option.some.inj hv).symm⟩

end Verif.SpecNet
