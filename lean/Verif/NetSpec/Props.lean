import Verif.NetSpec.RoundTrip
import Verif.NetSpec.StackProps

/-!
# Property C68: networks from a spec line
-/

namespace Verif.NetSpec

open Verif.Construction Verif.Architecture

/-! ## What a line means -/

/-- **C68 (numbers).** Digits denote the number they are the decimal digits of. -/
theorem C68_numbers (n : Nat) : digitsVal (Nat.toDigits 10 n) = n := by
  have := @Nat.ofDigitChars_toDigits 10 n (by omega) (by omega)
  rw [Nat.ofDigitChars_eq_foldl] at this
  exact this

theorem mapM_items (items : List Item) (docs : List Doc) (h : List.Forall₂ Item.Writes items docs) :
    (items.map Item.read).mapM (fun e => createLayer e.1 e.2) = some (docs.map Doc.made) := by
  induction h with
  | nil => rfl
  | @cons i d is ds h1 _ ih =>
    have : createLayer i.read.1 i.read.2 = some d.made := by
      show createLayer [i.letter] (i.args.map (fun a => a.word.val)) = _
      rw [h1.1, h1.2.1, createLayer_doc]
    rw [List.map_cons, List.mapM_cons, this, ih]
    rfl

theorem Item.Writes.ok {i : Item} {d : Doc} (h : i.Writes d) : i.Ok :=
  ⟨by rw [h.1]; cases d <;> rfl, h.2.2.1, h.2.2.2.1, h.2.2.2.2⟩

/-- **C68 (the layers).** A line in which the layers of the documentation are written one after another, with any white space
and separators, gives exactly these layers, in this order, with the size, activation function, probability, kernel, padding
and stride that are written, and the documented values for what is left out; as long as no two capital letters and no two
numbers touch. -/
theorem C68_layers (lead : List Char) (hlead : lead.all isSpace = true) (items : List Item) (docs : List Doc)
    (hw : List.Forall₂ Item.Writes items docs) (hap : LettersApart items) :
    specLayers (lead ++ items.flatMap Item.text) = some (docs.map Doc.made) := by
  have hok : ∀ i ∈ items, i.Ok := by
    intro i hi
    obtain ⟨k, hk, rfl⟩ := List.getElem_of_mem hi
    exact ((List.forall₂_iff_get.1 hw).2 k hk ((List.forall₂_iff_get.1 hw).1 ▸ hk)).ok
  rw [specLayers, readSpec_written items hok hap lead hlead]
  exact mapM_items items docs hw

/-! ## The network -/

theorem doc_creatable (d : Doc) : d.made.Creatable := by
  have h : ∀ c : Name, (match checkCreate c none with | .ok _ => true | .error _ => false) = true →
      ∃ p, checkCreate c none = .ok p := by
    intro c hc
    cases hcc : checkCreate c none with
    | ok p => exact ⟨p, rfl⟩
    | error e => rw [hcc] at hc; cases hc
  cases d <;> exact h _ rfl

theorem head_creatable {n : Nat} {o : Opts} {s : Script} (hs : getInOut n o = some s) (hn : isValidLayerName o.outName = true)
    (hp : isValidLayerName o.projName = true) : ∀ m ∈ s.made, m.Creatable := by
  have hname : ∀ (c t nm : Name) (kw : Dict Name Arg), stripLayerImpl c = some t → isValidLayerName t = true →
      isValidLayerName nm = true → (⟨c, some nm, kw⟩ : Made).Creatable := by
    intro c t nm kw h1 h2 h3
    exact ⟨(nm, t), by simp only [checkCreate, h1, h2, h3, if_true]⟩
  have hnone : ∀ (c t : Name) (kw : Dict Name Arg), stripLayerImpl c = some t → isValidLayerName t = true →
      (⟨c, none, kw⟩ : Made).Creatable := by
    intro c t kw h1 h2
    exact ⟨(t, t), by simp only [checkCreate, h1, h2, if_true]⟩
  have hproj : ∀ m, o.projection = some m → m.Creatable := by
    intro m hm
    unfold Opts.projection at hm
    split at hm
    · cases hm
      exact hname _ (str "FullyConnected") _ _ (by decide +kernel) (by decide +kernel) hp
    · split at hm
      · split at hm
        · cases hm
          exact hname _ (str "Convolution2D") _ _ (by decide +kernel) (by decide +kernel) hp
        · cases hm
      · cases hm
  have hout : ∀ c, outClass o.task = some c → (⟨c, some o.outName, []⟩ : Made).Creatable := by
    intro c hc
    unfold outClass at hc
    split at hc
    · cases hc; exact hname _ (str "SoftmaxCE") _ _ (by decide +kernel) (by decide +kernel) hn
    · split at hc
      · cases hc; exact hname _ (str "SigmoidCE") _ _ (by decide +kernel) (by decide +kernel) hn
      · split at hc
        · cases hc; exact hname _ (str "SquaredError") _ _ (by decide +kernel) (by decide +kernel) hn
        · cases hc
  have hin : ∀ kw, (⟨str "InputLayerImpl", none, kw⟩ : Made).Creatable :=
    fun kw => hnone _ (str "Input") kw (by decide +kernel) (by decide +kernel)
  have hloss : ∀ kw, (⟨str "LossLayerImpl", none, kw⟩ : Made).Creatable :=
    fun kw => hnone _ (str "Loss") kw (by decide +kernel) (by decide +kernel)
  have hmask : ∀ kw, (⟨str "MaskLayerImpl", none, kw⟩ : Made).Creatable :=
    fun kw => hnone _ (str "Mask") kw (by decide +kernel) (by decide +kernel)
  unfold getInOut at hs
  cases h1 : o.projection with
  | none => rw [h1] at hs; simp at hs
  | some proj =>
    cases h2 : outClass o.task with
    | none => rw [h1, h2] at hs; simp at hs
    | some cls =>
      rw [h1, h2] at hs
      cases h3 : o.maskName with
      | none =>
        simp only [h3, Option.some.injEq] at hs
        subst hs
        simp only [List.mem_cons, List.not_mem_nil, or_false]
        rintro m (rfl | rfl | rfl | rfl)
        exacts [hproj _ h1, hout _ h2, hin _, hloss _]
      | some mk =>
        simp only [h3, Option.some.injEq] at hs
        subst hs
        simp only [List.mem_cons, List.not_mem_nil, or_false]
        rintro m (rfl | rfl | rfl | rfl | rfl)
        exacts [hproj _ h1, hout _ h2, hin _, hmask _, hloss _]

/-- The class a layer of the documentation has. -/
def Doc.typeName : Doc → Name
  | .fullyConnected .. => str "FullyConnected" | .recurrent .. => str "Recurrent" | .lstm .. => str "Lstm"
  | .batchNorm => str "BatchNorm" | .dropout .. => str "Dropout" | .convolution .. => str "Convolution2D"
  | .pooling .. => str "Pooling2D"

theorem doc_baseName (d : Doc) : d.made.baseName = d.typeName ∧ d.made.typeName = d.typeName := by
  cases d <;> exact ⟨rfl, rfl⟩

theorem doc_typeName_ne (d : Doc) : d.typeName ≠ str "Output_projection" ∧ d.typeName ≠ str "Output" ∧
    d.typeName ≠ str "Input" ∧ d.typeName ≠ str "Mask" ∧ d.typeName ≠ str "Loss" := by
  cases d <;> (simp only [Doc.typeName]; decide +kernel)

/-- The names of the layers that are not hidden layers. -/
def headNames (o : Opts) : List Name :=
  [str "Output_projection", str "Output", str "Input"] ++
    (if o.maskName = none then [str "Loss"] else [str "Mask", str "Loss"])

theorem head_names {n : Nat} {o : Opts} {s : Script} (hs : getInOut n o = some s) (h1 : o.projectionName = none)
    (h2 : o.outlayerName = none) : s.made.map Made.baseName = headNames o := by
  have hpn : o.projName = str "Output_projection" := by
    simp only [Opts.projName, Opts.outName, h1, h2, orElse]
    rfl
  have hon : o.outName = str "Output" := by simp only [Opts.outName, h2, orElse]
  have hproj : ∀ m, o.projection = some m → m.baseName = str "Output_projection" := by
    intro m hm
    unfold Opts.projection at hm
    split at hm
    · cases hm; exact hpn
    · split at hm
      · split at hm
        · cases hm; exact hpn
        · cases hm
      · cases hm
  unfold getInOut at hs
  cases h1 : o.projection with
  | none => rw [h1] at hs; simp at hs
  | some proj =>
    cases h2 : outClass o.task with
    | none => rw [h1, h2] at hs; simp at hs
    | some cls =>
      rw [h1, h2] at hs
      cases h3 : o.maskName with
      | none =>
        simp only [h3, Option.some.injEq] at hs
        subst hs
        simp only [List.map_cons, List.map_nil, hproj _ h1, headNames, h3, if_true]
        rw [hon]
        rfl
      | some mk =>
        simp only [h3, Option.some.injEq] at hs
        subst hs
        simp only [List.map_cons, List.map_nil, hproj _ h1, headNames, h3]
        rw [hon]
        rfl

theorem stack_network (pre : List Op) (o : Opts) (h1 : o.projectionName = none) (h2 : o.outlayerName = none)
    (docs : List Doc) (s : Script) (hs : stack (created pre).length o (docs.map Doc.made) = some s)
    (enum : List Nat → List Nat) (henum : ∀ l, (enum l).Perm l) :
    ∃ (a : Arch) (nm : Nat → Name), Generates (run (pre ++ s.ops)) enum (created pre).length a ∧
      (Dict.keys a).Perm ((List.range (o.parts + docs.length)).map nm) ∧ (Dict.keys a).Nodup ∧
      (List.range o.parts).map nm = headNames o ∧
      s.made.drop o.parts = docs.map Doc.made ∧ (∃ s0, getInOut (created pre).length o = some s0 ∧
        s.made = s0.made ++ docs.map Doc.made ∧ s0.made.length = o.parts) ∧
      (∀ i m, s.made[i]? = some m → HasName (run (pre ++ s.ops)) ((created pre).length + i) (nm i) ∧
        ∃ e, Dict.get? a (nm i) = some e ∧ e.type = .string m.typeName) ∧
      ∀ c, HasConnection a c ↔ c ∈ expectedConnections o docs.length nm := by
  obtain ⟨s0, hs0, rfl⟩ := Option.map_eq_some_iff.1 hs
  have hcr0 := head_creatable hs0 (by simp only [Opts.outName, h2, orElse]; decide +kernel)
    (by simp only [Opts.projName, Opts.outName, h1, h2, orElse]; decide +kernel)
  have hnames := head_names hs0 h1 h2
  have hlen0 : s0.made.length = o.parts := by
    have := congrArg List.length hnames
    rw [List.length_map] at this
    rw [this, headNames, Opts.parts]
    split <;> rfl
  have hcr : ∀ m ∈ s0.made ++ docs.map Doc.made, m.Creatable := by
    intro m hm
    rcases List.mem_append.1 hm with hm | hm
    · exact hcr0 m hm
    · obtain ⟨d, -, rfl⟩ := List.mem_map.1 hm
      exact doc_creatable d
  obtain ⟨a, nm, q1, q2, q3, q4, q5⟩ := C67_network pre o _ _ hs hcr enum henum
  simp only at q1 q2 q4
  simp only [List.length_append, hlen0, List.length_map] at q2 q5
  have hbase : (s0.made ++ docs.map Doc.made).map Made.baseName = headNames o ++ docs.map Doc.typeName := by
    rw [List.map_append, hnames, List.map_map]
    congr 1
    exact List.map_congr_left (fun d _ => (doc_baseName d).1)
  have hb : ∀ (i : Nat) (m : Made), (s0.made ++ docs.map Doc.made)[i]? = some m → (headNames o ++ docs.map Doc.typeName)[i]? = some m.baseName := by
    intro i m hm
    rw [← hbase, List.getElem?_map, hm]
    rfl
  have hhl : (headNames o).length = o.parts := by rw [← hnames, List.length_map, hlen0]
  have hhn : (headNames o).Nodup := by
    unfold headNames
    split <;> decide +kernel
  have hdoc : ∀ x ∈ headNames o, ∀ d : Doc, d.typeName ≠ x := by
    intro x hx d
    have := doc_typeName_ne d
    unfold headNames at hx
    split at hx <;> simp only [List.cons_append, List.nil_append, List.mem_cons, List.not_mem_nil, or_false] at hx
    · rcases hx with rfl | rfl | rfl | rfl
      exacts [this.1, this.2.1, this.2.2.1, this.2.2.2.2]
    · rcases hx with rfl | rfl | rfl | rfl | rfl
      exacts [this.1, this.2.1, this.2.2.1, this.2.2.2.1, this.2.2.2.2]
  refine ⟨a, nm, q1, q2, q3, ?_, by simp [← hlen0], ⟨s0, hs0, rfl, hlen0⟩, fun i m hm => ⟨(q4 i m hm).1, (q4 i m hm).2.1⟩, q5⟩
  · refine List.ext_getElem? ?_
    intro i
    by_cases hi : i < o.parts
    · rw [List.getElem?_map, List.getElem?_range hi]
      obtain ⟨m, hm⟩ : ∃ m, (s0.made ++ docs.map Doc.made)[i]? = some m := by
        rw [List.getElem?_append_left (by omega)]
        exact ⟨_, List.getElem?_eq_getElem (by omega)⟩
      have hmi := hb i m hm
      rw [List.getElem?_append_left (by omega)] at hmi
      rw [hmi]
      show some (nm i) = _
      rw [(q4 i m hm).2.2 ?_]
      intro j m' hj hm' he
      have hmj := hb j m' hm'
      rw [he] at hmj
      by_cases hjl : j < o.parts
      · rw [List.getElem?_append_left (by omega)] at hmj
        exact hj ((List.getElem?_inj (by omega) hhn).1 (hmi.trans hmj.symm) |>.symm)
      · rw [List.getElem?_append_right (by omega), List.getElem?_map] at hmj
        obtain ⟨d, -, hd⟩ := Option.map_eq_some_iff.1 hmj
        exact hdoc _ (List.mem_of_getElem? hmi) d hd
    · rw [List.getElem?_eq_none (by simp; omega), List.getElem?_eq_none (by omega)]

/-- **C68 (the network).** `create_net_from_spec` builds, from a line in which layers of the documentation are written, the
network that has these layers in a row behind the input layer, then the projection layer and the output layer; its layers
besides the hidden ones are called `Input`, `Output_projection`, `Output`, `Loss` and, if there is a mask, `Mask`. -/
theorem C68_network (pre : List Op) (o : Opts) (h1 : o.projectionName = none) (h2 : o.outlayerName = none)
    (lead : List Char) (hlead : lead.all isSpace = true) (items : List Item) (docs : List Doc)
    (hw : List.Forall₂ Item.Writes items docs) (hap : LettersApart items) (s : Script)
    (hs : netFromSpec (created pre).length o (lead ++ items.flatMap Item.text) = some s)
    (enum : List Nat → List Nat) (henum : ∀ l, (enum l).Perm l) :
    ∃ (a : Arch) (nm : Nat → Name), Generates (run (pre ++ s.ops)) enum (created pre).length a ∧
      (Dict.keys a).Perm ((List.range (o.parts + docs.length)).map nm) ∧ (Dict.keys a).Nodup ∧
      (List.range o.parts).map nm = headNames o ∧
      s.made.drop o.parts = docs.map Doc.made ∧
      (∀ k d, docs[k]? = some d → HasName (run (pre ++ s.ops)) ((created pre).length + (o.parts + k)) (nm (o.parts + k)) ∧
        ∃ e, Dict.get? a (nm (o.parts + k)) = some e ∧ e.type = .string d.typeName) ∧
      ∀ c, HasConnection a c ↔ c ∈ expectedConnections o docs.length nm := by
  rw [netFromSpec, C68_layers lead hlead items docs hw hap, Option.bind_some] at hs
  obtain ⟨a, nm, q1, q2, q3, q4, q5, -, q6, q7⟩ := stack_network pre o h1 h2 docs s hs enum henum
  refine ⟨a, nm, q1, q2, q3, q4, q5, ?_, q7⟩
  intro k d hk
  have hm : s.made[o.parts + k]? = some d.made := by
    rw [← List.getElem?_drop, q5, List.getElem?_map, hk]
    rfl
  have := q6 _ _ hm
  rw [(doc_baseName d).2] at this
  exact this

/-- **C67/C68 (when it fails).** Input and output layers can be built exactly for the three tasks and for outputs that have one
dimension, or three, or a projection chosen by `use_conv`. -/
theorem C67_supported (n : Nat) (o : Opts) : (getInOut n o).isSome ↔
    (o.task = str "classification" ∨ o.task = str "multi-label" ∨ o.task = str "regression") ∧
    (o.outShape.length = 1 ∨ o.useConv = some false ∨ o.outShape.length = 3 ∨ (o.useConv = some true ∧ o.outShape ≠ [])) := by
  have hp : o.projection.isSome ↔
      (o.outShape.length = 1 ∨ o.useConv = some false ∨ o.outShape.length = 3 ∨ (o.useConv = some true ∧ o.outShape ≠ [])) := by
    unfold Opts.projection
    split
    · rename_i h; simp; tauto
    · rename_i h
      push Not at h
      split
      · rename_i h'
        cases hl : o.outShape.getLast? with
        | none =>
          rw [List.getLast?_eq_none_iff] at hl
          simp [hl, h.2]
        | some f =>
          have : o.outShape ≠ [] := by intro e; rw [e] at hl; simp at hl
          simp only [Option.isSome_some, true_iff]
          tauto
      · rename_i h'
        push Not at h'
        simp only [Option.isSome_none, Bool.false_eq_true, false_iff]
        tauto
  have hc : (outClass o.task).isSome ↔
      (o.task = str "classification" ∨ o.task = str "multi-label" ∨ o.task = str "regression") := by
    unfold outClass
    split
    · rename_i h; simp [h]
    · split
      · rename_i h; simp [h]
      · split
        · rename_i h; simp [h]
        · rename_i h1 h2 h3; simp [h1, h2, h3]
  rw [← hp, ← hc]
  unfold getInOut
  cases o.projection with
  | none => simp
  | some p =>
    cases outClass o.task with
    | none => simp
    | some c => cases o.maskName <;> simp

end Verif.NetSpec
