import Verif.EndToEnd.Spec

/-! # Lemmas: layers that were set up have the arrays that `LibLayer` asks for -/

namespace Verif.EndToEnd

open Verif.Structure Verif.Layout Verif.Layers Verif.Memory Verif.Shapes
open Verif.Setup (Kwargs KVal inp intSize pairArg intArg poolIsMax mk? tb? mk?_some inp_some declare Decl)

/-- The layer has the arrays that `setup` declared. -/
structure IsLayer (l : LayerInfo) (ins : Dict Name Struct) (sh : Instantiate.Shapes) : Prop where
  ins : l.inShapes = ins
  outs : l.outShapes = sh.outs
  params : l.paramShapes = sh.params
  internals : l.internalShapes = sh.internals

/-- All inputs have the shape `('T', 'B', ...)`. -/
def Tb (ins : Dict Name Struct) : Prop := ∀ k s, inp ins k = some s → ∃ f fs, s = tbS (f :: fs)

theorem seq_tb (fs : List ℕ) (b : Bool) : Seq (tbS fs 0 b) := ⟨typeOf_tb _, rfl⟩

theorem inp_mem {ins : Dict Name Struct} {k : Name} {s : Struct} (h : inp ins k = some s) : (k, s) ∈ ins :=
  Dict.mem_of_get? (inp_of h)

section
variable {layers : List LayerInfo} {data l : LayerInfo} {T B : ℕ} {M : Mode}
variable {n : Name} {kw : Kwargs} {ins : Dict Name Struct} {d : Decl} {sh : Instantiate.Shapes}

theorem lib_fullyConnected (hl : IsLayer l ins sh) (hin : Tb ins) {a : Act} (ha : actOf kw .rel = some a) (own : OwnParams l)
    (hd : Setup.fullyConnected.decl n kw ins = some d) (hb : d.build = some sh) :
    ∃ q : LibLayer layers data l T B, Describes M (str "FullyConnected") kw q := by
  open_decl hd
  obtain ⟨x, hx, sz, hsz, o, ho, rfl⟩ := hd
  obtain ⟨f, fs, rfl⟩ := hin _ _ hx
  obtain ⟨rfl, -⟩ := mk?_some ho
  obtain ⟨h1, h2, h3⟩ := build_some hb
  simp only [declare, mk?_one, mk?_two, Option.map_some, Option.some.injEq] at h1 h2 h3
  refine ⟨.fullyConnected a _ _ ⟨?_, hl.outs.trans h1.symm, ?_, by simp⟩ (seq_tb (f :: fs) false) ⟨?_, rfl⟩ own, rfl, ha⟩
  · simp only [List.mem_singleton, forall_eq]
    rw [hl.ins]; exact inp_mem hx
  · rw [hl.params, ← h2]
    exact fun e he => he
  · exact typeOf_tb _

theorem lib_elementwise (hl : IsLayer l ins sh) (hin : Tb ins) {a : Act} (ha : actOf kw .rel = some a)
    (hd : Setup.elementwise.decl n kw ins = some d) (hb : d.build = some sh) :
    ∃ q : LibLayer layers data l T B, Describes M (str "Elementwise") kw q := by
  open_decl hd
  obtain ⟨x, hx, rfl⟩ := hd
  obtain ⟨f, fs, rfl⟩ := hin _ _ hx
  obtain ⟨h1, h2, h3⟩ := build_some hb
  simp only [declare, Option.map_some, Option.some.injEq] at h1 h2 h3
  refine ⟨.elementwise a _ ⟨?_, hl.outs.trans h1.symm, by simp, by simp⟩ (seq_tb (f :: fs) false), rfl, ha⟩
  simp only [List.mem_singleton, forall_eq]
  rw [hl.ins]; exact inp_mem hx

theorem lib_noOp (hl : IsLayer l ins sh) (hin : Tb ins)
    (hd : Setup.noOp.decl n kw ins = some d) (hb : d.build = some sh) :
    ∃ q : LibLayer layers data l T B, Describes M (str "NoOp") kw q := by
  open_decl hd
  obtain ⟨x, hx, rfl⟩ := hd
  obtain ⟨f, fs, rfl⟩ := hin _ _ hx
  obtain ⟨h1, h2, h3⟩ := build_some hb
  simp only [declare, Option.map_some, Option.some.injEq] at h1 h2 h3
  refine ⟨.noOp _ ⟨?_, hl.outs.trans h1.symm, by simp, by simp⟩ (seq_tb (f :: fs) false), rfl⟩
  simp only [List.mem_singleton, forall_eq]
  rw [hl.ins]; exact inp_mem hx

theorem lib_dropout (hl : IsLayer l ins sh) (hin : Tb ins) {q : ℝ} (hq : numArg kw (str "drop_prob") 0.5 = some q)
    (hd : Setup.dropout.decl n kw ins = some d) (hb : d.build = some sh) :
    ∃ q : LibLayer layers data l T B, Describes M (str "Dropout") kw q := by
  open_decl hd
  obtain ⟨x, hx, rfl⟩ := hd
  obtain ⟨f, fs, rfl⟩ := hin _ _ hx
  obtain ⟨h1, h2, h3⟩ := build_some hb
  simp only [declare, Option.map_some, Option.some.injEq] at h1 h2 h3
  refine ⟨.dropout M.training q (M.random l.name) _ ⟨?_, hl.outs.trans h1.symm, by simp, ?_⟩ (seq_tb (f :: fs) false) rfl, rfl, rfl, hq, rfl⟩
  · simp only [List.mem_singleton, forall_eq]
    rw [hl.ins]; exact inp_mem hx
  · rw [hl.internals, ← h3]; exact fun e he => he

theorem tb_inj {f g : ℕ} {fs gs : List ℕ} (h : (tbS (f :: fs)).shape = (tbS (g :: gs)).shape) : f :: fs = g :: gs := by
  simp only [List.cons.injEq, true_and] at h
  exact map_n_inj h

theorem lib_highway (hl : IsLayer l ins sh) (hin : Tb ins)
    (hd : Setup.highway.decl n kw ins = some d) (hb : d.build = some sh) :
    ∃ q : LibLayer layers data l T B, Describes M (str "Highway") kw q := by
  open_decl hd
  obtain ⟨h, hh, t, ht, x, hx, e1, e2, rfl⟩ := hd
  obtain ⟨f, fs, rfl⟩ := hin _ _ hx
  obtain ⟨f', fs', rfl⟩ := hin _ _ hh
  obtain ⟨f'', fs'', rfl⟩ := hin _ _ ht
  have q1 := tb_inj (not_not.1 e1)
  have q2 := tb_inj (not_not.1 e2)
  rw [← q1] at ht
  rw [q2] at ht hh
  obtain ⟨h1, h2, h3⟩ := build_some hb
  simp only [declare, featureShape_tb, tb?_nums (List.cons_ne_nil f fs), Option.map_some, Option.some.injEq] at h1 h2 h3
  refine ⟨.highway _ _ _ _ ⟨?_, hl.outs.trans h1.symm, by simp, by simp⟩ (seq_tb (f :: fs) false) (seq_tb (f :: fs) false)
    (seq_tb (f :: fs) false) (seq_tb _ _) rfl rfl rfl, rfl⟩
  rw [hl.ins]
  simp only [List.mem_cons, List.not_mem_nil, or_false]
  rintro e (rfl | rfl | rfl)
  · exact inp_mem hh
  · exact inp_mem ht
  · exact inp_mem hx

theorem lib_squaredDifference (hl : IsLayer l ins sh) (hin : Tb ins)
    (hd : Setup.squaredDifference.decl n kw ins = some d) (hb : d.build = some sh) :
    ∃ q : LibLayer layers data l T B, Describes M (str "SquaredDifference") kw q := by
  open_decl hd
  obtain ⟨x, hx, y, hy, e, rfl⟩ := hd
  obtain ⟨f, fs, rfl⟩ := hin _ _ hx
  obtain ⟨g, gs, rfl⟩ := hin _ _ hy
  have q := not_not.1 e
  rw [featureShape_tb, featureShape_tb] at q
  rw [← map_n_inj q] at hy
  obtain ⟨h1, h2, h3⟩ := build_some hb
  simp only [declare, featureShape_tb, tb?_nums (List.cons_ne_nil f fs), Option.map_some, Option.some.injEq] at h1 h2 h3
  refine ⟨.squaredDifference _ _ _ (tbS (f :: fs)) ⟨?_, hl.outs.trans h1.symm, by simp, ?_⟩ (seq_tb (f :: fs) false) (seq_tb (f :: fs) false)
    (seq_tb _ _) (seq_tb _ _) rfl rfl rfl rfl, rfl⟩
  · rw [hl.ins]
    simp only [List.mem_cons, List.not_mem_nil, or_false]
    rintro e (rfl | rfl)
    · exact inp_mem hx
    · exact inp_mem hy
  · rw [hl.internals, ← h3]; exact fun e he => he

theorem lib_squaredError (hl : IsLayer l ins sh) (hin : Tb ins) (ho : OnlyData layers data l (str "targets"))
    (hp : Loose l "predictions")
    (hd : Setup.squaredError.decl n kw ins = some d) (hb : d.build = some sh) :
    ∃ q : LibLayer layers data l T B, Describes M (str "SquaredError") kw q := by
  open_decl hd
  obtain ⟨x, hx, y, hy, e, rfl⟩ := hd
  obtain ⟨f, fs, rfl⟩ := hin _ _ hx
  obtain ⟨g, gs, rfl⟩ := hin _ _ hy
  have q := not_not.1 e
  rw [featureShape_tb, featureShape_tb] at q
  rw [← map_n_inj q] at hy
  obtain ⟨h1, h2, h3⟩ := build_some hb
  simp only [declare, featureShape_tb, tb?_nums (List.cons_ne_nil f fs), Option.map_some, Option.some.injEq] at h1 h2 h3
  refine ⟨.squaredError _ _ _ _ (tbS (f :: fs)) ⟨?_, hl.outs.trans h1.symm, by simp, ?_⟩ (seq_tb (f :: fs) false) (seq_tb (f :: fs) false)
    (seq_tb _ _) (seq_tb _ _) (seq_tb _ _) rfl rfl rfl rfl rfl ho hp, rfl⟩
  · rw [hl.ins]
    simp only [List.mem_cons, List.not_mem_nil, or_false]
    rintro e (rfl | rfl)
    · exact inp_mem hx
    · exact inp_mem hy
  · rw [hl.internals, ← h3]; exact fun e he => he

theorem lib_sigmoidCE (hl : IsLayer l ins sh) (hin : Tb ins) (ho : OnlyData layers data l (str "targets"))
    (hp : Loose l "predictions")
    (hd : Setup.sigmoidCE.decl n kw ins = some d) (hb : d.build = some sh) :
    ∃ q : LibLayer layers data l T B, Describes M (str "SigmoidCE") kw q := by
  open_decl hd
  obtain ⟨x, hx, y, hy, e, rfl⟩ := hd
  obtain ⟨f, fs, rfl⟩ := hin _ _ hx
  obtain ⟨g, gs, rfl⟩ := hin _ _ hy
  have q := not_not.1 e
  rw [featureShape_tb, featureShape_tb] at q
  rw [map_n_inj q] at hy
  obtain ⟨h1, h2, h3⟩ := build_some hb
  simp only [declare, featureShape_tb, tb?_nums (List.cons_ne_nil f fs), Option.map_some, Option.some.injEq] at h1 h2 h3
  refine ⟨.sigmoidCE _ _ _ _ ⟨?_, hl.outs.trans h1.symm, by simp, by simp⟩ (seq_tb (f :: fs) false) (seq_tb (f :: fs) false)
    (seq_tb _ _) (seq_tb _ _) rfl rfl rfl ho hp, rfl⟩
  rw [hl.ins]
  simp only [List.mem_cons, List.not_mem_nil, or_false]
  rintro e (rfl | rfl)
  · exact inp_mem hx
  · exact inp_mem hy

theorem lib_binomialCE (hl : IsLayer l ins sh) (hin : Tb ins) (ho : OnlyData layers data l (str "targets"))
    (hd : Setup.binomialCE.decl n kw ins = some d) (hb : d.build = some sh) :
    ∃ q : LibLayer layers data l T B, Describes M (str "BinomialCrossEntropy") kw q := by
  open_decl hd
  obtain ⟨x, hx, y, hy, e, rfl⟩ := hd
  obtain ⟨f, fs, rfl⟩ := hin _ _ hx
  obtain ⟨g, gs, rfl⟩ := hin _ _ hy
  rw [← tb_inj (not_not.1 e)] at hy
  obtain ⟨h1, h2, h3⟩ := build_some hb
  simp only [declare, featureShape_tb, tb?_nums (List.cons_ne_nil f fs), tb?_one, Option.map_some, Option.some.injEq] at h1 h2 h3
  refine ⟨.binomialCE _ _ _ (tbS (f :: fs)) ⟨?_, hl.outs.trans h1.symm, by simp, ?_⟩ (seq_tb (f :: fs) false) (seq_tb (f :: fs) false)
    (seq_tb _ _) (seq_tb _ _) rfl rfl rfl rfl ho, rfl⟩
  · rw [hl.ins]
    simp only [List.mem_cons, List.not_mem_nil, or_false]
    rintro e (rfl | rfl)
    · exact inp_mem hx
    · exact inp_mem hy
  · rw [hl.internals, ← h3]; simp

theorem lib_l1Decay (hl : IsLayer l ins sh) (hin : Tb ins)
    (hd : Setup.l1Decay.decl n kw ins = some d) (hb : d.build = some sh) :
    ∃ q : LibLayer layers data l T B, Describes M (str "L1Decay") kw q := by
  open_decl hd
  obtain ⟨x, hx, rfl⟩ := hd
  obtain ⟨f, fs, rfl⟩ := hin _ _ hx
  obtain ⟨h1, h2, h3⟩ := build_some hb
  simp only [declare, tb?_one, Option.map_some, Option.some.injEq] at h1 h2 h3
  refine ⟨.l1Decay _ _ ⟨?_, hl.outs.trans h1.symm, by simp, ?_⟩ (seq_tb (f :: fs) false) (seq_tb _ _) rfl rfl, rfl⟩
  · simp only [List.mem_singleton, forall_eq]
    rw [hl.ins]; exact inp_mem hx
  · rw [hl.internals, ← h3]; exact fun e he => he

theorem lib_l2Decay (hl : IsLayer l ins sh) (hin : Tb ins)
    (hd : Setup.l2Decay.decl n kw ins = some d) (hb : d.build = some sh) :
    ∃ q : LibLayer layers data l T B, Describes M (str "L2Decay") kw q := by
  open_decl hd
  obtain ⟨x, hx, rfl⟩ := hd
  obtain ⟨f, fs, rfl⟩ := hin _ _ hx
  obtain ⟨h1, h2, h3⟩ := build_some hb
  simp only [declare, tb?_one, Option.map_some, Option.some.injEq] at h1 h2
  obtain ⟨i, hi⟩ : ∃ i, sh.internals = (str "tmp", tbS (f :: fs)) :: i := by
    cases hm : mk? (tbS (f :: fs)).shape 0 true with
    | none => rw [hm] at h3; cases h3
    | some s => rw [hm] at h3; exact ⟨_, (Option.some.inj h3).symm⟩
  refine ⟨.l2Decay _ _ ⟨?_, hl.outs.trans h1.symm, by simp, ?_⟩ (seq_tb (f :: fs) false) (seq_tb _ _) rfl rfl, rfl⟩
  · simp only [List.mem_singleton, forall_eq]
    rw [hl.ins]; exact inp_mem hx
  · rw [hl.internals, hi]; simp

theorem lib_loss (hl : IsLayer l ins sh) {w : ℝ} (hw : numArg kw (str "importance") 1 = some w) (loose : Loose l "loss")
    (hd : Setup.loss.decl n kw ins = some d) (hb : d.build = some sh) :
    ∃ q : LibLayer layers data l T B, Describes M (str "Loss") kw q := by
  open_decl hd
  obtain ⟨x, hx, -, rfl⟩ := hd
  obtain ⟨h1, h2, h3⟩ := build_some hb
  simp only [declare, mk?_one, Option.map_some, Option.some.injEq] at h1 h2 h3
  refine ⟨.loss w x ⟨?_, hl.outs.trans h1.symm, by simp, by simp⟩ loose, rfl, hw⟩
  simp only [List.mem_singleton, forall_eq]
  rw [hl.ins]; exact inp_mem hx

theorem lib_recurrent (hl : IsLayer l ins sh) (hin : Tb ins) {a : Act} (ha : actOf kw .tanh = some a)
    (hd : Setup.recurrent.decl n kw ins = some d) (hb : d.build = some sh) :
    ∃ q : LibLayer layers data l T B, Describes M (str "Recurrent") kw q := by
  open_decl hd
  obtain ⟨x, hx, m, -, rfl⟩ := hd
  obtain ⟨f, fs, rfl⟩ := hin _ _ hx
  obtain ⟨h1, h2, h3⟩ := build_some hb
  simp only [declare, mk?_one, mk?_two, tb?_one, Option.map_some, Option.some.injEq] at h1 h2 h3
  refine ⟨.recurrent a m _ ⟨?_, hl.outs.trans h1.symm, ?_, ?_⟩ (seq_tb (f :: fs) false), rfl, ha⟩
  · simp only [List.mem_singleton, forall_eq]
    rw [hl.ins]; exact inp_mem hx
  · rw [hl.params, ← h2]; exact fun e he => he
  · rw [hl.internals, ← h3]; intro e he; exact List.mem_cons.2 (.inl (List.mem_singleton.1 he))

theorem lib_clockwork (hl : IsLayer l ins sh) (hin : Tb ins) {a : Act} (ha : actOf kw .tanh = some a)
    (hd : Setup.clockwork.decl n kw ins = some d) (hb : d.build = some sh) :
    ∃ q : LibLayer layers data l T B, Describes M (str "Clockwork") kw q := by
  open_decl hd
  obtain ⟨x, hx, m, -, rfl⟩ := hd
  obtain ⟨f, fs, rfl⟩ := hin _ _ hx
  obtain ⟨h1, h2, h3⟩ := build_some hb
  simp only [declare, mk?_one, mk?_two, tb?_one, Option.map_some, Option.some.injEq] at h1 h2 h3
  refine ⟨.clockwork a m _ ⟨?_, hl.outs.trans h1.symm, ?_, ?_⟩ (seq_tb (f :: fs) false), rfl, ha⟩
  · simp only [List.mem_singleton, forall_eq]
    rw [hl.ins]; exact inp_mem hx
  · rw [hl.params, ← h2]; exact fun e he => he
  · rw [hl.internals, ← h3]; intro e he; exact List.mem_cons.2 (.inl (List.mem_singleton.1 he))

theorem lstmInts_sub (m : ℕ) : ∀ e ∈ lstmInts m, e ∈ [(str "Za", tbS [m] 1), (str "Zb", tbS [m] 1), (str "Ia", tbS [m] 1),
    (str "Ib", tbS [m] 1), (str "Fa", tbS [m] 1), (str "Fb", tbS [m] 1), (str "Oa", tbS [m] 1), (str "Ob", tbS [m] 1),
    (str "Ca", tbS [m] 1), (str "Cb", tbS [m] 1),
    (str "dZa", tbS [m] 1 true), (str "dZb", tbS [m] 1 true), (str "dIa", tbS [m] 1 true), (str "dIb", tbS [m] 1 true),
    (str "dFa", tbS [m] 1 true), (str "dFb", tbS [m] 1 true), (str "dOa", tbS [m] 1 true), (str "dOb", tbS [m] 1 true),
    (str "dCa", tbS [m] 1 true), (str "dCb", tbS [m] 1 true)] := by
  intro e he
  have h : e ∈ lstmInts m ++ [(str "dZa", tbS [m] 1 true), (str "dZb", tbS [m] 1 true), (str "dIa", tbS [m] 1 true),
    (str "dIb", tbS [m] 1 true), (str "dFa", tbS [m] 1 true), (str "dFb", tbS [m] 1 true), (str "dOa", tbS [m] 1 true),
    (str "dOb", tbS [m] 1 true), (str "dCa", tbS [m] 1 true), (str "dCb", tbS [m] 1 true)] := List.mem_append_left _ he
  exact h

theorem lib_lstm (hl : IsLayer l ins sh) (hin : Tb ins) {a : Act} (ha : actOf kw .tanh = some a)
    (hd : Setup.lstm.decl n kw ins = some d) (hb : d.build = some sh) :
    ∃ q : LibLayer layers data l T B, Describes M (str "Lstm") kw q := by
  open_decl hd
  obtain ⟨x, hx, m, -, rfl⟩ := hd
  obtain ⟨f, fs, rfl⟩ := hin _ _ hx
  obtain ⟨h1, h2, h3⟩ := build_some hb
  simp only [Setup.lstmParams, Setup.lstmInternals, declare, mk?_one, mk?_two, tb?_one, Option.map_some, Option.some.injEq] at h1 h2 h3
  refine ⟨.lstm a m _ ⟨?_, hl.outs.trans h1.symm, ?_, ?_⟩ (seq_tb (f :: fs) false), rfl, ha⟩
  · simp only [List.mem_singleton, forall_eq]
    rw [hl.ins]; exact inp_mem hx
  · rw [hl.params, ← h2]; exact fun e he => he
  · rw [hl.internals, ← h3]; exact lstmInts_sub m

theorem lib_clockworkLstm (hl : IsLayer l ins sh) (hin : Tb ins) {a : Act} (ha : actOf kw .tanh = some a)
    (hd : Setup.clockworkLstm.decl n kw ins = some d) (hb : d.build = some sh) :
    ∃ q : LibLayer layers data l T B, Describes M (str "ClockworkLstm") kw q := by
  open_decl hd
  obtain ⟨x, hx, m, -, rfl⟩ := hd
  obtain ⟨f, fs, rfl⟩ := hin _ _ hx
  obtain ⟨h1, h2, h3⟩ := build_some hb
  simp only [Setup.lstmParams, Setup.lstmInternals, List.cons_append, List.nil_append, declare, mk?_one, mk?_two, tb?_one, Option.map_some, Option.some.injEq] at h1 h2 h3
  refine ⟨.clockworkLstm a m _ ⟨?_, hl.outs.trans h1.symm, ?_, ?_⟩ (seq_tb (f :: fs) false), rfl, ha⟩
  · simp only [List.mem_singleton, forall_eq]
    rw [hl.ins]; exact inp_mem hx
  · rw [hl.params, ← h2]; exact fun e he => he
  · rw [hl.internals, ← h3]; exact lstmInts_sub m

theorem size_tb (fs : List ℕ) (b : Bool) (T B : ℕ) : size (tbS fs 0 b) T B = T * B * fs.prod := by
  rw [(seq_tb fs b).size, featureSize_tb]

theorem lib_mask (hl : IsLayer l ins sh) (hin : Tb ins) (ho : OnlyData layers data l (str "mask"))
    (hd : Setup.mask.decl n kw ins = some d) (hb : d.build = some sh) :
    ∃ q : LibLayer layers data l T B, Describes M (str "Mask") kw q := by
  open_decl hd
  obtain ⟨x, hx, m, hm, e, rfl⟩ := hd
  obtain ⟨f, fs, rfl⟩ := hin _ _ hx
  obtain ⟨g, gs, rfl⟩ := hin _ _ hm
  obtain ⟨h1, h2, h3⟩ := build_some hb
  simp only [declare, Option.map_some, Option.some.injEq] at h1 h2 h3
  have has : Has l [(str "default", tbS (f :: fs)), (str "mask", tbS (g :: gs))] [(str "default", tbS (f :: fs))] [] [] := by
    refine ⟨?_, hl.outs.trans h1.symm, by simp, by simp⟩
    rw [hl.ins]
    simp only [List.mem_cons, List.not_mem_nil, or_false]
    rintro e (rfl | rfl)
    · exact inp_mem hx
    · exact inp_mem hm
  rcases e with e | e | e
  · refine ⟨.mask (T * B) (tbS (f :: fs)).featureSize _ _ has (seq_tb (f :: fs) false) ((seq_tb (f :: fs) false).size T B) ?_ ho,
      rfl, seq_tb (g :: gs) false, .inl ⟨e, rfl⟩⟩
    rw [featureShape_tb] at e
    have hg : g :: gs = [1] := map_n_inj e
    rw [size_tb, hg]; simp
  · obtain ⟨r, k, hk⟩ := split_last f fs
    refine ⟨.mask (T * B * r.prod) k _ _ has (seq_tb (f :: fs) false) ?_ ?_ ho, rfl, seq_tb (g :: gs) false, .inr ⟨e, ?_⟩⟩
    · rw [size_tb, hk]; simp [Nat.mul_assoc]
    · rw [featureShape_tb, featureShape_tb, hk, ← List.map_dropLast, List.dropLast_concat] at e
      have hg : g :: gs = r ++ [1] := map_n_inj (by rw [e]; simp)
      rw [size_tb, hg]; simp
    · rw [featureShape_tb, hk]; simp
  · refine ⟨.maskFull _ _ has (seq_tb (f :: fs) false) (seq_tb (g :: gs) false) ?_ ho, rfl, e⟩
    rw [Struct.featureSize, Struct.featureSize, e]

theorem size_shapeOf (p : Scaling) (fs : List ℕ) (b : Bool) (T B : ℕ) :
    size ⟨shapeOf p fs, 0, b⟩ T B = (lead p T B).prod * fs.prod := by
  rw [size, structShape_shapeOf, List.prod_append]

theorem lib_merge (hl : IsLayer l ins sh) (hv : ∀ k s, inp ins k = some s → s.validate = .ok ())
    (hc : ∀ k s, inp ins k = some s → s.contextSize = 0)
    (hd : Setup.merge.decl n kw ins = some d) (hb : d.build = some sh) :
    ∃ q : LibLayer layers data l T B, Describes M (str "Merge") kw q := by
  open_decl hd
  obtain ⟨x, hx, y, hy, e, rfl⟩ := hd
  obtain ⟨p, r, k, b, rfl⟩ := snoc_of (hv _ _ hx) (hc _ _ hx)
  obtain ⟨q, m, j, c, rfl⟩ := snoc_of (hv _ _ hy) (hc _ _ hy)
  have e' := not_not.1 e
  simp only [shapeOf_snoc, List.dropLast_concat] at e'
  obtain ⟨rfl, rfl⟩ := shapeOf_inj e'
  obtain ⟨h1, h2, h3⟩ := build_some hb
  have hmk : mk? (shapeOf p r ++ [.n (k + j)]) = some ⟨shapeOf p (r ++ [k + j]), 0, false⟩ := by
    rw [← shapeOf_snoc]
    unfold mk?
    rw [(C13_structures _).2 ⟨p, r ++ [k + j], by simp, rfl, fun h => absurd rfl h⟩]
  simp only [shapeOf_snoc p r, List.dropLast_concat, List.getLastD_concat, Tok.size, hmk, declare, Option.map_some,
    Option.some.injEq] at h1 h2 h3
  rw [← shapeOf_snoc] at h1
  refine ⟨.merge ((lead p T B).prod * r.prod) k j ⟨shapeOf p (r ++ [k]), 0, b⟩ ⟨shapeOf p (r ++ [j]), 0, c⟩ _
    ⟨?_, hl.outs.trans h1.symm, by simp, by simp⟩ ?_ ?_ ?_ rfl, rfl,
    (shape_bufferType rfl).trans (shape_bufferType rfl).symm, (shape_bufferType rfl).trans (shape_bufferType rfl).symm, r.map .n,
    (shape_featureShape rfl).1.trans (List.map_append ..), (shape_featureShape rfl).1.trans (List.map_append ..),
    (shape_featureShape rfl).1.trans (List.map_append ..)⟩
  · rw [hl.ins]
    simp only [List.mem_cons, List.not_mem_nil, or_false]
    rintro e (rfl | rfl)
    · exact inp_mem hx
    · exact inp_mem hy
  · rw [size_shapeOf]; simp [Nat.mul_assoc]
  · rw [size_shapeOf]; simp [Nat.mul_assoc]
  · rw [size_shapeOf]; simp [Nat.mul_assoc]

theorem dec_exists {k : ℕ} (hk : k ≠ 0) : ∃ dec : ℝ → Fin k, (∀ j : Fin k, dec (j : ℕ) = j) ∧
    ∀ r : ℝ, (∀ j : Fin k, r ≠ (j : ℕ)) → (dec r : ℕ) = 0 := by
  classical
  refine ⟨fun x => if h : ∃ j : Fin k, x = (j : ℕ) then h.choose else ⟨0, Nat.pos_of_ne_zero hk⟩, fun j => ?_, fun r hr => ?_⟩
  swap
  · have h : ¬ ∃ i : Fin k, r = (i : ℕ) := fun ⟨j, hj⟩ => hr j hj
    exact congrArg Fin.val (dif_neg h)
  have h : ∃ i : Fin k, (((j : ℕ) : ℝ)) = (i : ℕ) := ⟨j, rfl⟩
  refine (dif_pos h).trans ?_
  exact Fin.ext (Nat.cast_injective (R := ℝ) h.choose_spec.symm)

theorem lib_softmaxCE (hl : IsLayer l ins sh) (hin : Tb ins) (h0 : ∀ k s, inp ins k = some s → s.shape.getLast? ≠ some (.n 0))
    (ho : OnlyData layers data l (str "targets")) (hp : Loose l "predictions")
    (hd : Setup.softmaxCE.decl n kw ins = some d) (hb : d.build = some sh) :
    ∃ q : LibLayer layers data l T B, Describes M (str "SoftmaxCE") kw q := by
  open_decl hd
  obtain ⟨x, hx, t, ht, e1, e2, e3, rfl⟩ := hd
  obtain ⟨f, fs, rfl⟩ := hin _ _ hx
  obtain ⟨g, gs, rfl⟩ := hin _ _ ht
  obtain ⟨r, k, e⟩ := split_last f fs
  obtain ⟨m, j, e'⟩ := split_last g gs
  rw [e] at hx hb e1 e2
  rw [e'] at ht hb e1 e2 e3
  simp only [featureShape_tb, not_not, ← List.map_dropLast, List.dropLast_concat] at e2 e3
  have hml := map_n_inj e2
  subst hml
  have hj : j = 1 := by simpa using e3
  subst hj
  have hk : k ≠ 0 := by
    have := h0 _ _ hx
    simpa [← List.map_append, List.getLast?_cons] using this
  obtain ⟨dec, hdec⟩ := dec_exists hk
  obtain ⟨h1, h2, h3⟩ := build_some hb
  simp only [featureShape_tb, tb?_nums (show m ++ [k] ≠ [] by simp), tb?_nums (show m ++ [1] ≠ [] by simp), declare,
    Option.map_some, Option.some.injEq] at h1 h2 h3
  refine ⟨.softmaxCE (T * B * m.prod) k dec _ _ _ _ ⟨?_, hl.outs.trans h1.symm, by simp, by simp⟩
    (seq_tb (m ++ [k]) false) (seq_tb (m ++ [1]) false) (seq_tb _ _) (seq_tb _ _) ?_ ?_ ?_ ?_ ho hp, rfl, ?_, hdec⟩
  · rw [hl.ins]
    simp only [List.mem_cons, List.not_mem_nil, or_false]
    rintro e (rfl | rfl)
    · exact inp_mem hx
    · exact inp_mem ht
  · rw [size_tb]; simp [Nat.mul_assoc]
  · rw [size_tb]; simp
  · rw [size_tb]; simp [Nat.mul_assoc]
  · rw [size_tb]; simp
  · rw [featureShape_tb]; simp

theorem windowCount_some {s p k st o : ℕ} (h : Setup.windowCount s p k st = some o) :
    st ≠ 0 ∧ o = (Int.fdiv ((s : ℤ) + p + p - k) st + 1).toNat := by
  unfold Setup.windowCount at h
  split_ifs at h with h1
  simp only at h
  split_ifs at h with h2
  cases h
  refine ⟨h1, ?_⟩
  congr 3
  ring

theorem lib_convolution2D (hl : IsLayer l ins sh) (hin : Tb ins) {a : Act} (ha : actOf kw .tanh = some a) (own : OwnParams l)
    (hd : Setup.convolution2D.decl n kw ins = some d) (hb : d.build = some sh) :
    ∃ q : LibLayer layers data l T B, Describes M (str "Convolution2D") kw q := by
  simp only [Setup.convolution2D, Option.bind_eq_bind, Option.bind_eq_some_iff] at hd
  obtain ⟨x, hx, nf, hnf, ks, hks, st, hst, pd, hpd, hd⟩ := hd
  obtain ⟨f, fs, rfl⟩ := hin _ _ hx
  split at hd
  · rename_i h w c hf
    rw [featureShape_tb] at hf
    have hf' : f :: fs = [h, w, c] := map_n_inj hf
    rw [hf'] at hx
    simp only [Option.bind_eq_some_iff, Option.pure_def, Option.some.injEq] at hd
    obtain ⟨oh, hoh, ow, how, rfl⟩ := hd
    obtain ⟨h1, h2, h3⟩ := build_some hb
    simp only [tb?_three, mk?_four, mk?_one, declare, Option.map_some, Option.some.injEq] at h1 h2 h3
    obtain ⟨q1, q1'⟩ := windowCount_some hoh
    obtain ⟨q2, q2'⟩ := windowCount_some how
    refine ⟨.convolution2D a ⟨h, w, c, ks.1, ks.2, pd, pd, pd, pd, st.1, st.2⟩ ⟨q1, q2⟩ nf _ _
      ⟨[.n nf, .n ks.1, .n ks.2, .n c], 0, false⟩ ⟨?_, hl.outs.trans h1.symm, ?_, by simp⟩
      (seq_tb [h, w, c] false) (seq_tb _ _) ?_ ?_ ?_ own, rfl, ha, ?_⟩
    · simp only [List.mem_singleton, forall_eq]
      rw [hl.ins]; exact inp_mem hx
    · rw [hl.params, ← h2]; exact fun e he => he
    · rw [featureSize_tb]; simp [Nat.mul_assoc]
    · rw [featureSize_tb, Conv.Geom.hc, Conv.Geom.wc]
      simp only [List.prod_cons, List.prod_nil, Nat.mul_one, ← q1', ← q2', Nat.mul_assoc]
    · have : size ⟨[.n nf, .n ks.1, .n ks.2, .n c], 0, false⟩ T B = [nf, ks.1, ks.2, c].prod :=
        congrArg List.prod (structShape_nums [nf, ks.1, ks.2, c] false T B)
      rw [this, Conv.Geom.kp]; simp [Nat.mul_assoc]
    · exact ⟨featureShape_tb [h, w, c] 0 false, hnf, hks, hst, hpd, hpd, hpd, hpd⟩
  · cases hd

theorem lib_pooling2D (hl : IsLayer l ins sh) (hin : Tb ins)
    (hd : Setup.pooling2D.decl n kw ins = some d) (hb : d.build = some sh) :
    ∃ q : LibLayer layers data l T B, Describes M (str "Pooling2D") kw q := by
  simp only [Setup.pooling2D, Option.bind_eq_bind, Option.bind_eq_some_iff] at hd
  obtain ⟨x, hx, ks, hks, mx, hmx, pd, hpd, st, hst, hd⟩ := hd
  obtain ⟨f, fs, rfl⟩ := hin _ _ hx
  split at hd
  · rename_i h w c hf
    rw [featureShape_tb] at hf
    have hf' : f :: fs = [h, w, c] := map_n_inj hf
    rw [hf'] at hx
    simp only [Option.bind_eq_some_iff, Option.pure_def, Option.some.injEq, Option.ite_none_left_eq_some] at hd
    obtain ⟨oh, hoh, ow, how, -, rfl⟩ := hd
    obtain ⟨h1, h2, h3⟩ := build_some hb
    cases mx
    · simp only [tb?_three, declare, Option.map_some, Option.some.injEq, Bool.false_eq_true, if_false] at h1 h2 h3
      refine ⟨.avgPooling2D ⟨h, w, c, 0, ks.1, ks.2, pd, st.1, st.2, oh, ow⟩ _ _ ⟨?_, hl.outs.trans h1.symm, by simp, by simp⟩
        (seq_tb [h, w, c] false) (seq_tb _ _) ?_ ?_, rfl,
        ⟨featureShape_tb [h, w, c] 0 false, featureShape_tb [oh, ow, c] 0 false, hmx, hks, hst, hpd⟩⟩
      · simp only [List.mem_singleton, forall_eq]
        rw [hl.ins]; exact inp_mem hx
      · rw [featureSize_tb]; simp [Nat.mul_assoc]
      · rw [featureSize_tb]; simp [Nat.mul_assoc]
    · simp only [tb?_three, declare, Option.map_some, Option.some.injEq, if_true] at h1 h2 h3
      refine ⟨.maxPooling2D ⟨h, w, c, 0, ks.1, ks.2, pd, st.1, st.2, oh, ow⟩ M.lo M.store M.load _ _ (tbS [oh, ow, c])
        ⟨?_, hl.outs.trans h1.symm, by simp, ?_⟩
        (seq_tb [h, w, c] false) (seq_tb _ _) (seq_tb _ _) ?_ ?_ ?_ rfl, rfl,
        ⟨featureShape_tb [h, w, c] 0 false, featureShape_tb [oh, ow, c] 0 false, hmx, hks, hst, hpd⟩, rfl, rfl, rfl⟩
      · simp only [List.mem_singleton, forall_eq]
        rw [hl.ins]; exact inp_mem hx
      · rw [hl.internals, ← h3]; exact fun e he => he
      · rw [featureSize_tb]; simp [Nat.mul_assoc]
      · rw [featureSize_tb]; simp [Nat.mul_assoc]
      · rw [featureSize_tb]; simp [Nat.mul_assoc]
  · cases hd

end

end Verif.EndToEnd
