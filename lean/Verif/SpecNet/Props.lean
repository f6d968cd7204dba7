import Verif.SpecNet.Trainable
import Verif.NetSpec.DataName

/-!
# Property C88: a network from a spec line can be trained, and its gradients are right
-/

namespace Verif.SpecNet

open Verif.Architecture hiding demoArch
open Verif.Structure Verif.Layout Verif.Buffers Verif.Instantiate Verif.EndToEnd Verif.Construction
open Verif.Memory hiding demoL
open Verif.NetSpec (Opts Doc Script flow headNames expectedConnections netFromSpec LettersApart isSpace stack)
open Verif.Setup (Kwargs libEnv infos toInfo)
open Verif.Shapes (passes viewsOf)
open Verif.Session Verif.Determined Verif.Descent

section
variable (pre : List Op) (o : Opts) (h1 : o.projectionName = none) (h2 : o.outlayerName = none) (hn : o.NamesOk)
  (hi : o.inShape ≠ []) (ho : o.outShape ≠ []) (hw : o.task = str "classification" → o.outShape.getLast? ≠ some 0)
  (lead : List Char) (hlead : lead.all isSpace = true) (items : List NetSpec.Item) (docs : List Doc)
  (hwr : List.Forall₂ NetSpec.Item.Writes items docs) (hap : LettersApart items) (g : List Nat)
  (hflow : flow o.inShape docs = some g) (hproj : o.Projects g) (s : Script)
  (hs : netFromSpec (created pre).length o (lead ++ items.flatMap NetSpec.Item.text) = some s)
  (enum : List Nat → List Nat) (henum : ∀ l, (enum l).Perm l)
include h1 h2 hn hi ho hw hlead hwr hap hflow hproj hs henum

omit h1 h2 hn hi ho hw hflow hproj henum in
theorem stack_of_spec : stack (created pre).length o (docs.map Doc.made) = some s := by
  rw [netFromSpec, NetSpec.C68_layers lead hlead items docs hwr hap] at hs
  exact hs

/-- **C88, layout.**  Take any text that writes down hidden layers, through which data of the given shape can flow to the wanted result
(as in `C68_works`).  The network that `create_net_from_spec` makes of it can be instantiated, its memory can be laid out, and neither pass
of any of its layers fails because of the shape of an array, whatever numbers of time steps and sequences. -/
theorem C88_layout :
    ∃ (a : Arch) (nm : Nat → Name), Generates (run (pre ++ s.ops)) enum (created pre).length a ∧
      (List.range o.parts).map nm = headNames o ∧ s.made.drop o.parts = docs.map Doc.made ∧
      (∀ c, HasConnection a c ↔ c ∈ expectedConnections o docs.length nm) ∧
      ∀ (kwargs : Name → Kwargs), (∀ i m, s.made[i]? = some m → kwargs (nm i) = m.kw) → ∀ (ord : Orders), ord.Ok →
      ∃ layers L, Instantiates (libEnv kwargs) ord a (.ok layers) ∧ createLayout (infos layers) = .ok L ∧
        ∀ n l t T B, Dict.get? layers n = some l → HasType a n t → ∃ p, Dict.get? passes (t ++ str "LayerImpl") = some p ∧
          (∀ training, p.forward ⟨l.kwargs, l.inShapes⟩ (viewsOf l.inShapes l.shapes T B) training = some ()) ∧
          p.backward ⟨l.kwargs, l.inShapes⟩ (viewsOf l.inShapes l.shapes T B) = some () := by
  obtain ⟨a, nm, q1, q2, q3, q4, -, -, q7⟩ := ready pre o h1 h2 hn hi ho docs g hflow hproj s
    (stack_of_spec pre o lead hlead items docs hwr hap s hs) enum henum
  refine ⟨a, nm, q1, q2, q3, q4, fun kwargs hkw ord hord => ?_⟩
  obtain ⟨layers, L, m, -, sup, -, -⟩ := q7 kwargs hkw ord hord
  refine ⟨layers, L, m.made, m.layout, fun n l t T B hl ht => ?_⟩
  have hsup := sup hw n l t hl ht
  obtain ⟨d, hd, ht'⟩ := ht
  exact Shapes.C64_passes_partial kwargs a m.keys ord hord layers m.made n l hl d (Dict.get?_of_mem m.keys hd) t ht' hsup T B

/-- **C88, derivative.**  If none of the layers is a batch normalization, the gradients that both passes compute are the derivative of the
reported loss by all parameters, at all parameters at which all layers are differentiable.  With dropout, the network must be in training
mode (otherwise, C84 says nothing). -/
theorem C88_derivative (hbn : Doc.batchNorm ∉ docs) :
    ∃ (a : Arch) (nm : Nat → Name), Generates (run (pre ++ s.ops)) enum (created pre).length a ∧
      (List.range o.parts).map nm = headNames o ∧ s.made.drop o.parts = docs.map Doc.made ∧
      (∀ c, HasConnection a c ↔ c ∈ expectedConnections o docs.length nm) ∧
      ∀ (kwargs : Name → Kwargs), (∀ i m, s.made[i]? = some m → kwargs (nm i) = m.kw) → ∀ (ord : Orders), ord.Ok →
      ∃ layers L, Instantiates (libEnv kwargs) ord a (.ok layers) ∧ createLayout (infos layers) = .ok L ∧
      ∃ data rest, HasType a data.name (str "Input") ∧ ∃ F : Memory.Fits (infos layers) L data rest,
        ∃ ps : Mode → ∀ T B, ∀ l ∈ rest, LibLayer (infos layers) data l T B,
        (∀ M T B l (hl : l ∈ rest) t, HasType a l.name t → Describes M t (kwargs l.name) (ps M T B l hl)) ∧
        ∀ (M : Mode), M.training = true ∨ (∀ p, Doc.dropout p ∉ docs) →
          ∀ (n : ℕ) (st : State ℝ) (b : Batch) (θ : Fin n → ℝ), Reachable (netOf (infos layers) L) st → b.Good data →
          st.read (str "parameters") = some (List.ofFn θ) →
          ∃ (loss : (Fin n → ℝ) → ℝ) (st₁ st₂ st₃ : State ℝ) (grad : Fin n → ℝ),
            (∀ θ', lossOf (netOf (infos layers) L) data.name (fun T B => libNetwork F (ps M T B)) (reported a layers L) b
              (List.ofFn θ') = some (loss θ')) ∧
            provide (netOf (infos layers) L) data.name b st = some st₁ ∧
            forwardPass (netOf (infos layers) L) (fun T B => libNetwork F (ps M T B)) b.rnd st₁ = some st₂ ∧
            Session.backwardPass (netOf (infos layers) L) (fun T B => libNetwork F (ps M T B)) b.rnd st₂ = some st₃ ∧
            st₃.read (str "gradients") = some (List.ofFn grad) ∧
            ((∀ l (hl : l ∈ rest), (ps M b.T b.B l hl).Regular (valueOut (netOf (infos layers) L) b.T b.B l.name
                (seen (netOf (infos layers) L) b.T b.B b.rnd (memOf st₂)))) →
              HasFDerivAt loss (∑ i, grad i • ContinuousLinearMap.proj (R := ℝ) (φ := fun _ : Fin n => ℝ) i) θ) := by
  obtain ⟨a, nm, q1, q2, q3, q4, tr, hdrop, q7⟩ := ready pre o h1 h2 hn hi ho docs g hflow hproj s
    (stack_of_spec pre o lead hlead items docs hwr hap s hs) enum henum
  refine ⟨a, nm, q1, q2, q3, q4, fun kwargs hkw ord hord => ?_⟩
  obtain ⟨layers, L, m, num, sup, -, hno⟩ := q7 kwargs hkw ord hord
  refine ⟨layers, L, m.made, m.layout, ?_⟩
  obtain ⟨data, rest, hdt, F, ps, hps, key⟩ := C84_derivative kwargs a m.keys ord hord layers m.made m.outs L m.layout (tr hbn) num (sup hw)
  refine ⟨data, rest, hdt, F, ps, hps, fun M hM n st b θ hst hb hθ => ?_⟩
  obtain ⟨loss, st₁, st₂, st₃, grad, e1, e2, e3, e4, e5, e6⟩ := key M (hM.imp_right hdrop) n st b θ hst hb hθ
  exact ⟨loss, st₁, st₂, st₃, grad, e1, e2, e3, e4, e5, fun hR => (e6 hR).2 fun i => hno i⟩

/-- **C88, descent.**  In the same situation, one update by `SgdStepper` with a sufficiently small learning rate decreases the loss of the
batch. -/
theorem C88_descent (hbn : Doc.batchNorm ∉ docs) :
    ∃ (a : Arch) (nm : Nat → Name), Generates (run (pre ++ s.ops)) enum (created pre).length a ∧
      (List.range o.parts).map nm = headNames o ∧ s.made.drop o.parts = docs.map Doc.made ∧
      (∀ c, HasConnection a c ↔ c ∈ expectedConnections o docs.length nm) ∧
      ∀ (kwargs : Name → Kwargs), (∀ i m, s.made[i]? = some m → kwargs (nm i) = m.kw) → ∀ (ord : Orders), ord.Ok →
      ∃ layers L, Instantiates (libEnv kwargs) ord a (.ok layers) ∧ createLayout (infos layers) = .ok L ∧
      ∃ data rest, HasType a data.name (str "Input") ∧ ∃ F : Memory.Fits (infos layers) L data rest,
        ∃ ps : Mode → ∀ T B, ∀ l ∈ rest, LibLayer (infos layers) data l T B,
        (∀ M T B l (hl : l ∈ rest) t, HasType a l.name t → Describes M t (kwargs l.name) (ps M T B l hl)) ∧
        ∀ (M : Mode), M.training = true ∨ (∀ p, Doc.dropout p ∉ docs) →
          ∀ (n : ℕ) (st : State ℝ) (b : Batch) (θ : Fin n → ℝ), Reachable (netOf (infos layers) L) st → b.Good data →
          st.read (str "parameters") = some (List.ofFn θ) →
          ∃ (loss : (Fin n → ℝ) → ℝ) (st₁ st₂ st₃ : State ℝ) (grad : Fin n → ℝ),
            (∀ θ', lossOf (netOf (infos layers) L) data.name (fun T B => libNetwork F (ps M T B)) (reported a layers L) b
              (List.ofFn θ') = some (loss θ')) ∧
            provide (netOf (infos layers) L) data.name b st = some st₁ ∧
            forwardPass (netOf (infos layers) L) (fun T B => libNetwork F (ps M T B)) b.rnd st₁ = some st₂ ∧
            Session.backwardPass (netOf (infos layers) L) (fun T B => libNetwork F (ps M T B)) b.rnd st₂ = some st₃ ∧
            st₃.read (str "gradients") = some (List.ofFn grad) ∧
            ((∀ l (hl : l ∈ rest), (ps M b.T b.B l hl).Regular (valueOut (netOf (infos layers) L) b.T b.B l.name
                (seen (netOf (infos layers) L) b.T b.B b.rnd (memOf st₂)))) →
              ∃ ε > 0, ∀ lr, 0 < lr → lr < ε → ∃ (st' : State ℝ) (θ' : Fin n → ℝ) (recorded : ℝ),
                Session.round (netOf (infos layers) L) data.name (fun T B => libNetwork F (ps M T B)) (reported a layers L)
                  (Session.sgdRun (netOf (infos layers) L) (fun T B => libNetwork F (ps M T B)) lr) b [] (st, ()) =
                    some ((st', ()), recorded) ∧
                st'.read (str "parameters") = some (List.ofFn θ') ∧
                loss θ' ≤ recorded - lr / 2 * ∑ i, grad i ^ 2) := by
  obtain ⟨a, nm, q1, q2, q3, q4, tr, hdrop, q7⟩ := ready pre o h1 h2 hn hi ho docs g hflow hproj s
    (stack_of_spec pre o lead hlead items docs hwr hap s hs) enum henum
  refine ⟨a, nm, q1, q2, q3, q4, fun kwargs hkw ord hord => ?_⟩
  obtain ⟨layers, L, m, num, sup, hfree, -⟩ := q7 kwargs hkw ord hord
  refine ⟨layers, L, m.made, m.layout, ?_⟩
  obtain ⟨data, rest, hdt, F, ps, hps, key⟩ := C84_descent kwargs a m.keys ord hord layers m.made m.outs L m.layout (tr hbn) num (sup hw) hfree
  exact ⟨data, rest, hdt, F, ps, hps, fun M hM => key M (hM.imp_right hdrop)⟩

end

/-! ### Non-vacuity -/

/-- Classification of the steps of sequences, with a mask, by the layers `R4 Ft3`. -/
def seqOpts : Opts := ⟨str "classification", [2], [3], str "default", str "targets", none, none, some (str "mask"), none⟩
def seqItems : List NetSpec.Item :=
  [⟨'R', [], [⟨.int ['4'], [' '], none, []⟩]⟩, ⟨'F', [], [⟨.letter 't', [], none, []⟩, ⟨.int ['3'], [], none, []⟩]⟩]
def seqDocs : List Doc := [.recurrent none 4, .fullyConnected (some .tanh) 3]

example : seqItems.flatMap NetSpec.Item.text = str "R4 Ft3" ∧ (netFromSpec 0 seqOpts (str "R4 Ft3")).isSome = true := by decide +kernel

example : List.Forall₂ NetSpec.Item.Writes seqItems seqDocs ∧ LettersApart seqItems ∧ flow seqOpts.inShape seqDocs = some [3] ∧
    seqOpts.Projects [3] ∧ seqOpts.NamesOk ∧ (seqOpts.task = str "classification" → seqOpts.outShape.getLast? ≠ some 0) ∧
    Doc.batchNorm ∉ seqDocs ∧ ∀ p, Doc.dropout p ∉ seqDocs := by
  refine ⟨.cons ⟨rfl, rfl, rfl, ?_, trivial⟩ (.cons ⟨rfl, rfl, rfl, ?_, ?_⟩ .nil), ⟨by simp, trivial⟩, by decide +kernel, .inl (.inl rfl),
    ⟨rfl, ⟨⟨by decide, by decide, by decide⟩, by decide +kernel⟩, ?_⟩, fun _ => by decide, by simp [seqDocs], by simp [seqDocs]⟩
  · intro a ha
    simp only [List.mem_cons, List.not_mem_nil, or_false] at ha
    subst ha
    exact ⟨⟨rfl, by simp⟩, rfl, by simp, rfl⟩
  · intro a ha
    simp only [List.mem_cons, List.not_mem_nil, or_false] at ha
    rcases ha with rfl | rfl
    · exact ⟨rfl, rfl, by simp, rfl⟩
    · exact ⟨⟨rfl, by simp⟩, rfl, by simp, rfl⟩
  · exact ⟨by simp [NetSpec.Word.IsNumber], trivial⟩
  · intro m hm
    cases hm
    exact ⟨⟨by decide, by decide, by decide⟩, by decide +kernel, by decide +kernel⟩

end Verif.SpecNet
