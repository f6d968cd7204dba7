import Verif.EndToEnd.Props
import Verif.Memory.FormulasProps
import Verif.Setup.LossNames

/-!
# Property C76 for architectures: what a network computes, and of what the gradients are derivatives
-/

namespace Verif.EndToEnd

open Verif.Structure Verif.Layout Verif.Architecture Verif.Layers Verif.Memory Verif.Shapes Verif.Instantiate
open Verif.Buffers (netOf totalSizeSlicesShapes)
open Verif.Setup (Kwargs libEnv infos getLossValues)

/-! ### Specification -/

/-- What `get_loss_values()['total_loss']` reports when the buffer holds the numbers `m`. -/
noncomputable def reported (a : Arch) (layers : Dict Name (LayerObj Kwargs)) (L : Layout) (T B : ℕ) (m : Mem) : Option ℝ :=
  Dict.get? (getLossValues a layers fun n => entry (netOf (infos layers) L) T B n m "outputs" "loss" 0) (str "total_loss")

/-- The array `p`, with structure `s`, is connected to the input `x` of the layer `n` in the architecture. -/
def Connected (a : Arch) (layers : Dict Name (LayerObj Kwargs)) (n x p : Name) (s : Struct) : Prop :=
  ∃ c l, HasConnection a c ∧ c.endLayer = n ∧ c.inputName = x ∧ Dict.get? layers c.startLayer = some l ∧
    ((Dict.get? l.shapes.outs c.outputName = some s ∧ p = path c.startLayer (str "outputs") c.outputName) ∨
      ∃ b, c.outputName = str "..parameters." ++ b ∧ Dict.get? l.shapes.params b = some s ∧
        p = path c.startLayer (str "parameters") b)

/-! ### Proofs -/

theorem sum_filter {α : Type} (P : α → Prop) [DecidablePred P] (v : α → ℝ) (l : List α) :
    (l.map fun x => if P x then v x else 0).sum = ((l.filter fun x => decide (P x)).map v).sum := by
  induction l with
  | nil => rfl
  | cons x l ih =>
    by_cases h : P x <;> simp [h, ih]

theorem get?_last {V : Type} (l : List (Name × V)) (k : Name) (v : V) (h : k ∉ l.map Prod.fst) :
    Dict.get? (l ++ [(k, v)]) k = some v := by
  induction l with
  | nil => simp [Dict.get?]
  | cons e l ih =>
    rw [List.map_cons, List.mem_cons, not_or] at h
    obtain ⟨k', v'⟩ := e
    rw [List.cons_append, Dict.get?_cons, if_neg (fun e => h.1 e.symm)]
    exact ih h.2

theorem lossOf_eq {layers : List LayerInfo} {data l : LayerInfo} {T B : ℕ} {M : Mode} {t : Name} {kw : Kwargs}
    (q : LibLayer layers data l T B) (h : Describes M t kw q) (e : String → String → ℕ → ℝ) :
    q.lossOf e = if t = str "Loss" then e "outputs" "loss" 0 else 0 := by
  cases q with
  | loss importance x has loose => rw [if_pos h.1]; rfl
  | noOp | highway | squaredDifference | squaredError | sigmoidCE | binomialCE | l1Decay | l2Decay =>
    rw [if_neg]; · rfl
    rw [show t = _ from h]; decide
  | _ =>
    rw [if_neg]; · rfl
    rw [h.1]; decide

theorem reported_eq (kwargs : Name → Kwargs) (a : Arch) (hk : (Dict.keys a).Nodup) (ord : Orders) (ho : ord.Ok)
    (layers : Dict Name (LayerObj Kwargs)) (h : Instantiates (libEnv kwargs) ord a (.ok layers))
    (hne : ∃ n l, Dict.get? layers n = some l ∧ l.shapes.outs ≠ []) (L : Layout) (hL : createLayout (infos layers) = .ok L)
    {data : LayerInfo} {rest : List LayerInfo} (hdt : HasType a data.name (str "Input"))
    (F : Memory.Fits (infos layers) L data rest) {T B : ℕ} {M : Mode} (ps : ∀ l ∈ rest, LibLayer (infos layers) data l T B)
    (hps : ∀ l (hl : l ∈ rest) t, HasType a l.name t → Describes M t (kwargs l.name) (ps l hl)) (m : Mem) :
    reported a layers L T B m = some (totalLoss (libNetwork F ps) m) := by
  classical
  have md : Made kwargs a ord layers L := ⟨hk, ho, h, hne, hL⟩
  set value : Name → ℝ := fun n => entry (netOf (infos layers) L) T B n m "outputs" "loss" 0 with hv
  obtain ⟨names, hnd, hmem, hno, hval⟩ := Setup.C23_network (K := ℝ) kwargs a hk ord ho layers h value
  have e1 : reported a layers L T B m = some (names.map value).sum := by
    unfold reported
    rw [hval]
    split
    · simp [Dict.get?]
    · exact get?_last _ _ _ (by simpa using hno)
  rw [e1, C76_total_loss]
  congr 1
  have e2 : (rest.attach.map fun l => (ps l.1 l.2).lossOf (entry (netOf (infos layers) L) T B l.1.name m)) =
      rest.map fun l => if HasType a l.name (str "Loss") then value l.name else 0 := by
    conv_rhs => rw [← List.attach_map_subtype_val rest, List.map_map]
    refine List.map_congr_left fun l _ => ?_
    obtain ⟨lo, hlo, -⟩ := md.mem_infos (F.ordered.mem l.2)
    obtain ⟨t, -, ht, -⟩ := md.cls hlo
    rw [lossOf_eq _ (hps l.1 l.2 t ht)]
    have : t = str "Loss" ↔ HasType a l.1.name (str "Loss") := ⟨fun e => e ▸ ht, fun h' => md.type_unique ht h'⟩
    simp only [Function.comp, this]
    rfl
  rw [e2, sum_filter (fun l : LayerInfo => HasType a l.name (str "Loss")) (fun l => value l.name)]
  have hp : names.Perm ((rest.filter fun l => decide (HasType a l.name (str "Loss"))).map LayerInfo.name) := by
    refine (List.perm_ext_iff_of_nodup hnd ?_).2 fun n => ?_
    · have : ((data :: rest).map LayerInfo.name).Nodup := by rw [← F.ordered.all]; exact F.laid.wf.names
      rw [List.map_cons, List.nodup_cons] at this
      exact (List.filter_sublist.map _).nodup this.2
    · rw [hmem, List.mem_map]
      constructor
      · intro hn
        have hn' : HasType a n (str "Loss") := hn
        have hka : n ∈ Dict.keys a := by
          obtain ⟨d, hd, -⟩ := hn'
          exact List.mem_map.2 ⟨_, hd, rfl⟩
        rw [← md.mem_keys, ← md.names, F.ordered.all, List.mem_map] at hka
        obtain ⟨l, hl, rfl⟩ := hka
        rcases List.mem_cons.1 hl with rfl | hl
        · exact absurd (md.type_unique hn' hdt) (by decide)
        · exact ⟨l, List.mem_filter.2 ⟨hl, by simpa using hn'⟩, rfl⟩
      · rintro ⟨l, hl, rfl⟩
        have : HasType a l.name (str "Loss") := by simpa using (List.mem_filter.1 hl).2
        exact this
  rw [(hp.map value).sum_eq, List.map_map]
  rfl

theorem Made.feeds {kwargs : Name → Kwargs} {a : Arch} {ord : Orders} {layers : Dict Name (LayerObj Kwargs)} {L : Layout}
    (md : Made kwargs a ord layers L) (i : LayerInfo) (x p : Name) (s : Struct) :
    Feeds (infos layers) i x p s ↔ Connected a layers i.name x p s := by
  constructor
  · rintro ⟨k, hk, o, ho, e1, e2, h⟩
    obtain ⟨c, hc⟩ := md.conn hk ho
    obtain ⟨l, hl, ek⟩ := md.mem_infos hk
    refine ⟨c, l, hc.conn, hc.stop.symm.trans e1, hc.input.symm.trans e2, by rw [hc.start]; exact hl, ?_⟩
    have hg := md.inst.good _ l hl
    rw [hc.start, hc.ref]
    rcases h with ⟨hkind, hs, rfl⟩ | ⟨hkind, hs, rfl⟩
    · left
      rw [ek] at hs
      unfold Setup.refName
      rw [hkind]
      exact ⟨Dict.get?_of_mem hg.outNodup hs, rfl⟩
    · right
      rw [ek] at hs
      unfold Setup.refName
      rw [hkind]
      exact ⟨o.buffer, rfl, Dict.get?_of_mem hg.paramNodup hs, rfl⟩
  · rintro ⟨c, l, hc, e1, e2, hl, h⟩
    have hg := md.inst.good _ l hl
    have hnm := md.inst.name _ l hl
    refine ⟨Setup.toInfo l, (Setup.mem_infos md.inst).2 ⟨_, l, hl, rfl⟩, Setup.toOutgoing c,
      List.mem_map.2 ⟨c, (md.outgoing hl c).2 ⟨hc, rfl⟩, rfl⟩, (Setup.toOutgoing_end c).1.trans e1,
      (Setup.toOutgoing_end c).2.trans e2, ?_⟩
    show _ ∨ _
    rcases h with ⟨h1, rfl⟩ | ⟨b, h0, h1, rfl⟩
    · left
      have hpl := hg.plain _ (.inl rfl) _ (Dict.mem_of_get? h1)
      have : Setup.toOutgoing c = ⟨.outputs, c.outputName, c.endLayer, c.inputName⟩ := by
        unfold Setup.toOutgoing
        split
        · rename_i r hr
          exact absurd (by rw [hr]; simp) hpl.2.1
        · rfl
      rw [this]
      exact ⟨rfl, Dict.mem_of_get? h1, by rw [← hnm]; rfl⟩
    · right
      have : Setup.toOutgoing c = ⟨.parameters, b, c.endLayer, c.inputName⟩ := by
        unfold Setup.toOutgoing
        have e : str "..parameters." ++ b = '.' :: '.' :: (str "parameters" ++ '.' :: b) := rfl
        rw [h0, e]
        simp only [partitionDot_append _ _ (show '.' ∉ str "parameters" by decide), if_true]
      rw [this]
      exact ⟨rfl, Dict.mem_of_get? h1, by rw [← hnm]; rfl⟩

/-! ### Theorems -/

/-- **C76, what the layers of an accepted architecture compute.**  For every trainable architecture of library layers, for all
numbers of time steps and sequences and whatever was in the memory before, after the forward pass the arrays of every layer
but the Input layer fit together by the formula (`LibLayer.Computes`) of a layer of its type with its keyword arguments. -/
theorem C76_network (kwargs : Name → Kwargs) (a : Arch) (hk : (Dict.keys a).Nodup) (ord : Orders) (ho : ord.Ok)
    (layers : Dict Name (LayerObj Kwargs)) (h : Instantiates (libEnv kwargs) ord a (.ok layers))
    (hne : ∃ n l, Dict.get? layers n = some l ∧ l.shapes.outs ≠ []) (L : Layout) (hL : createLayout (infos layers) = .ok L)
    (tr : Trainable a) (num : Numeric a kwargs)
    (sup : ∀ n l t, Dict.get? layers n = some l → HasType a n t → Supported t l.kwargs l.inShapes) :
    ∃ data rest, infos layers = data :: rest ∧ HasType a data.name (str "Input") ∧
      ∃ F : Memory.Fits (infos layers) L data rest, ∀ (T B : ℕ) (M : Mode),
        ∃ ps : ∀ l ∈ rest, LibLayer (infos layers) data l T B, ∀ s : Mem,
          let m := forward (libNetwork F ps) s
          ∀ l (hl : l ∈ rest) t, HasType a l.name t → Describes M t (kwargs l.name) (ps l hl) ∧
            (ps l hl).Computes (entry (netOf (infos layers) L) T B l.name m)
              (fun j => m ((totalSizeSlicesShapes (netOf (infos layers) L).hubs T B).1 + j)) := by
  obtain ⟨data, rest, hdt, F, hF⟩ := C75_network kwargs a hk ord ho layers h hne L hL tr num sup
  refine ⟨data, rest, F.ordered.all, hdt, F, fun T B M => ?_⟩
  obtain ⟨ps, hps⟩ := hF T B M
  exact ⟨ps, fun s l hl t ht => ⟨hps l hl t ht, C76_formulas F ps s l hl⟩⟩

/-- **C76, inputs.**  In every trainable architecture an input of a layer is the outputs and parameters that are connected to
it in the architecture, side by side: `off` says at which column each begins, every column belongs to exactly one of them,
and the numbers are the same because they are the same addresses, for all numbers of time steps and sequences. -/
theorem C76_connections (kwargs : Name → Kwargs) (a : Arch) (hk : (Dict.keys a).Nodup) (ord : Orders) (ho : ord.Ok)
    (layers : Dict Name (LayerObj Kwargs)) (h : Instantiates (libEnv kwargs) ord a (.ok layers))
    (hne : ∃ n l, Dict.get? layers n = some l ∧ l.shapes.outs ≠ []) (L : Layout) (hL : createLayout (infos layers) = .ok L)
    (tr : Trainable a) (n : Name) (l : LayerObj Kwargs) (hl : Dict.get? layers n = some l) (hin : ¬ HasType a n (str "Input"))
    (x : Name) (sx : Struct) (hx : Dict.get? l.inShapes x = some sx) :
    ∃ off : Name → ℕ,
      (∀ p s, Connected a layers n x p s → ∀ j < s.featureSize, off p + j < sx.featureSize ∧
        ∀ T B r, r < rows sx T B → ∃ c,
          (cells (netOf (infos layers) L) T B (path n (str "inputs") x))[r * sx.featureSize + (off p + j)]? = some c ∧
          (cells (netOf (infos layers) L) T B p)[r * s.featureSize + j]? = some c) ∧
      ∀ c < sx.featureSize, ∃ p s, Connected a layers n x p s ∧ off p ≤ c ∧ c < off p + s.featureSize ∧
        ∀ p' s', Connected a layers n x p' s' → off p' ≤ c → c < off p' + s'.featureSize → p' = p := by
  have md : Made kwargs a ord layers L := ⟨hk, ho, h, hne, hL⟩
  obtain ⟨data, rest, e, hdt, -⟩ := md.first tr
  have F := md.fits tr e
  have hnm := md.inst.name _ l hl
  have hi : Setup.toInfo l ∈ infos layers := (Setup.mem_infos md.inst).2 ⟨_, l, hl, rfl⟩
  have hr : Setup.toInfo l ∈ rest := by
    rw [e] at hi
    rcases List.mem_cons.1 hi with h' | h'
    · refine absurd ?_ hin
      rw [← h'] at hdt
      rw [← hnm]; exact hdt
    · exact h'
  obtain ⟨off, h1, h2⟩ := C76_inputs F _ hr x sx (Dict.mem_of_get? hx)
  have hn : (Setup.toInfo l).name = n := hnm
  simp only [md.feeds, hn] at h1 h2
  exact ⟨off, h1, h2⟩

/-- **C76, of what the gradients are derivatives.**  In every trainable architecture the forward pass followed by the backward
pass leaves in the gradient array the derivatives of the number that `get_loss_values` reports as `total_loss` after the
forward pass. -/
theorem C76_gradients (kwargs : Name → Kwargs) (a : Arch) (hk : (Dict.keys a).Nodup) (ord : Orders) (ho : ord.Ok)
    (layers : Dict Name (LayerObj Kwargs)) (h : Instantiates (libEnv kwargs) ord a (.ok layers))
    (hne : ∃ n l, Dict.get? layers n = some l ∧ l.shapes.outs ≠ []) (L : Layout) (hL : createLayout (infos layers) = .ok L)
    (tr : Trainable a) (num : Numeric a kwargs)
    (sup : ∀ n l t, Dict.get? layers n = some l → HasType a n t → Supported t l.kwargs l.inShapes) (T B : ℕ) (M : Mode) :
    ∃ data rest, ∃ F : Memory.Fits (infos layers) L data rest, ∃ ps : ∀ l ∈ rest, LibLayer (infos layers) data l T B,
      (∀ l (hl : l ∈ rest) t, HasType a l.name t → Describes M t (kwargs l.name) (ps l hl)) ∧
      ∀ s : Mem, AllRegular F ps s → ∀ i p g : ℕ, (cells (netOf (infos layers) L) T B (str "parameters"))[i]? = some p →
        (cells (netOf (infos layers) L) T B (str "gradients"))[i]? = some g →
        (∀ n ∈ Dict.keys a, p ∉ cells (netOf (infos layers) L) T B (path n (str "parameters") (str "timing"))) →
        ∃ loss : ℝ → ℝ,
          (∀ x, reported a layers L T B (forward (libNetwork F ps) (Function.update s p x)) = some (loss x)) ∧
          HasDerivAt loss
            (backward (backCells (netOf (infos layers) L) T B) (libNetwork F ps) (forward (libNetwork F ps) s) g) (s p) := by
  obtain ⟨data, rest, hdt, F, hF⟩ := C75_network kwargs a hk ord ho layers h hne L hL tr num sup
  obtain ⟨ps, hps⟩ := hF T B M
  have md : Made kwargs a ord layers L := ⟨hk, ho, h, hne, hL⟩
  refine ⟨data, rest, F, ps, hps, fun s hR i p g hp hg ht => ⟨_, fun x =>
    reported_eq kwargs a hk ord ho layers h hne L hL hdt F ps hps _, C74_gradients F ps s hR i p g hp hg fun l hl => ?_⟩⟩
  obtain ⟨lo, hlo, -⟩ := md.mem_infos hl
  exact ht _ ((md.mem_keys _).1 ((Dict.mem_keys_iff _ _).2 (by rw [hlo]; rfl)))

/-! ### The assumptions are met -/

/-- The network of `EndToEnd/Props`. -/
example : ∃ data rest, infos demoLayers = data :: rest ∧ HasType demoArch data.name (str "Input") ∧
      ∃ F : Memory.Fits (infos demoLayers) demoL data rest, ∀ (T B : ℕ) (M : Mode),
        ∃ ps : ∀ l ∈ rest, LibLayer (infos demoLayers) data l T B, ∀ s : Mem,
          let m := forward (libNetwork F ps) s
          ∀ l (hl : l ∈ rest) t, HasType demoArch l.name t → Describes M t (demoKwargs l.name) (ps l hl) ∧
            (ps l hl).Computes (entry (netOf (infos demoLayers) demoL) T B l.name m)
              (fun j => m ((totalSizeSlicesShapes (netOf (infos demoLayers) demoL).hubs T B).1 + j)) :=
  C76_network demoKwargs demoArch (by decide +kernel) (demoOrders true) (demoOrders_ok true) demoLayers demo_instantiates demo_outs
    demoL demo_layout demo_trainable demo_numeric demo_supported

/-- Two arrays are connected to the input of its layer `Out`. -/
example : Connected demoArch demoLayers (str "Out") (str "default") (str "Input.outputs.default") ⟨[.T, .B, .n 4], 0, false⟩ ∧
    Connected demoArch demoLayers (str "Out") (str "default") (str "Rnn.outputs.default") ⟨[.T, .B, .n 3], 1, false⟩ := by
  constructor
  · exact ⟨⟨str "Input", str "default", str "Out", str "default"⟩, (Dict.get? demoLayers (str "Input")).get (by decide +kernel),
      (demo_conns _).2 (by decide +kernel), rfl, rfl, by simp, .inl ⟨by decide +kernel, by decide +kernel⟩⟩
  · exact ⟨⟨str "Rnn", str "default", str "Out", str "default"⟩, (Dict.get? demoLayers (str "Rnn")).get (by decide +kernel),
      (demo_conns _).2 (by decide +kernel), rfl, rfl, by simp, .inl ⟨by decide +kernel, by decide +kernel⟩⟩

end Verif.EndToEnd
