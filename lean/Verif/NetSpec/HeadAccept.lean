import Verif.NetSpec.Single

/-!
# The input, projection, output, mask and loss layers accept their shapes
-/

namespace Verif.NetSpec

open Verif.Structure Verif.Setup Verif.Instantiate Verif.Architecture Verif.Construction

/-! ## Specification -/

/-- The projection layer turns data of shape `g` into data of the wanted shape: it is fully connected, or it is a convolution
and the data have the wanted height and width. -/
def Opts.Projects (o : Opts) (g : List Nat) : Prop :=
  (o.outShape.length = 1 ∨ o.useConv = some false) ∨
  ∃ h w c f, 1 ≤ h ∧ 1 ≤ w ∧ g = [h, w, c] ∧ o.outShape = [h, w, f]

/-- A name under which data can be given: not empty and without dot and at sign. -/
def DataName (n : Name) : Prop := n ≠ [] ∧ '.' ∉ n ∧ '@' ∉ n

/-- The names of data, targets and mask are different and legal, and the data are called `default`. -/
structure Opts.NamesOk (o : Opts) : Prop where
  data : o.dataName = str "default"
  targets : DataName o.targetsName ∧ o.targetsName ≠ str "default"
  mask : ∀ m, o.maskName = some m → DataName m ∧ m ≠ str "default" ∧ m ≠ o.targetsName

/-! ## Lemmas -/

theorem featureShape_st' (f : List Nat) : (st f).featureShape = f.map Tok.n := featureShape_st f 0 false

theorem tb?_feature (f : List Nat) (hf : f ≠ []) (b : Bool) : tb? (st f).featureShape 0 b = some ⟨tb f, 0, b⟩ := by
  rw [featureShape_st', tb?_ok f hf]

theorem proj_accepts (kwargs : Name → Kwargs) {o : Opts} {m : Made} (hm : o.projection = some m) {g : List Nat} (hg : g ≠ [])
    (ho : o.outShape ≠ []) (hp : o.Projects g) (n : Name) :
    ∃ sh, Accepts kwargs m.typeName n m.kw (one g) sh ∧ Dict.get? sh.outs (str "default") = some (st o.outShape) := by
  have hx := inp_one g hg
  unfold Opts.projection at hm
  by_cases hc : o.outShape.length = 1 ∨ o.useConv = some false
  · rw [if_pos hc] at hm
    cases hm
    refine ⟨_, accepts_of (c := fullyConnected) rfl
      (by exact (by decide +kernel : ∀ x ∈ [str "size", str "activation"], x ∈ fullyConnected.expectedKwargs)) rfl
      (one_matches g hg rfl) (d := ⟨[(str "default", some (st o.outShape))],
      [(str "W", some ⟨[.n (st o.outShape).featureSize, .n (st g).featureSize], 0, false⟩),
        (str "bias", some ⟨[.n (st o.outShape).featureSize], 0, false⟩)], []⟩) ?_ (build_some (declare_cons rfl)
        (declare_cons (declare_cons rfl)) rfl), rfl⟩
    have hs : fcShape (⟨str "FullyConnectedLayerImpl", some o.projName,
      [(str "size", .ints o.outShape), (str "activation", .string (str "linear"))]⟩ : Made).kw (st g) = some (o.outShape.map Tok.n) := rfl
    have ht : tb? (o.outShape.map Tok.n) = some (st o.outShape) := tb?_ok _ ho 0 false
    simp only [fullyConnected, hx, Option.bind_eq_bind, Option.bind_some, hs, ht, mk?_two, mk?_one]
    rfl
  · rcases hp with hp | ⟨h, w, c, f, hh, hw, rfl, hos⟩
    · exact absurd hp hc
    rw [if_neg hc, if_pos (by rw [hos]; exact .inl rfl), hos] at hm
    have hm' : m = mkConvolution f (1, 1) (1, 1) 0 (str "linear") (some o.projName) := by
      simpa using hm.symm
    subst hm'
    rw [hos]
    have e1 : intArg (mkConvolution f (1, 1) (1, 1) 0 (str "linear") (some o.projName)).kw (str "num_filters") none = some f := rfl
    have e2 : pairArg (mkConvolution f (1, 1) (1, 1) 0 (str "linear") (some o.projName)).kw (str "kernel_size") none = some (1, 1) := rfl
    have e3 : pairArg (mkConvolution f (1, 1) (1, 1) 0 (str "linear") (some o.projName)).kw (str "stride") (some (1, 1)) = some (1, 1) := rfl
    have e4 : intArg (mkConvolution f (1, 1) (1, 1) 0 (str "linear") (some o.projName)).kw (str "padding") (some 0) = some 0 := rfl
    have e5 : (st [h, w, c]).featureShape = [.n h, .n w, .n c] := featureShape_st _ _ _
    have w1 : windowCount h 0 1 1 = some h := by
      rw [windowCount_ok (by omega) (by omega)]; simp only [windows]; congr 1; omega
    have w2 : windowCount w 0 1 1 = some w := by
      rw [windowCount_ok (by omega) (by omega)]; simp only [windows]; congr 1; omega
    refine ⟨_, accepts_of (c := convolution2D) rfl
      (by exact (by decide +kernel : ∀ x ∈ [str "num_filters", str "kernel_size", str "stride", str "padding", str "activation"],
        x ∈ convolution2D.expectedKwargs)) rfl (one_matches _ hg rfl) (by
        simp only [convolution2D, hx, Option.bind_eq_bind, Option.bind_some, e1, e2, e3, e4, e5, w1, w2, tb?_three, mk?_four, mk?_one]
        rfl)
        (build_some (declare_cons rfl) (declare_cons (declare_cons rfl)) rfl), rfl⟩

/-- The inputs of the output layer. -/
def two (f g : List Nat) (k : Name) : Dict Name Struct := [(str "default", st f), (k, st g)]

theorem two_matches (f g : List Nat) (hf : f ≠ []) (hg : g ≠ []) (k : Name) (hk : k ≠ str "default") {e : Dict Name Template}
    (he : e = [(str "default", anyTB), (k, anyTB)]) :
    ∀ i s tm, (i, s) ∈ two f g k → Dict.get? e i = some tm → tm.matches s = true := by
  intro i s tm hm ht
  subst he
  have : tm = anyTB := by
    by_cases h1 : str "default" = i
    · simp only [Dict.get?, h1, if_true, Option.some.injEq] at ht; exact ht.symm
    · by_cases h2 : k = i
      · simp only [Dict.get?, h1, h2, if_true, if_false, Option.some.injEq] at ht; exact ht.symm
      · simp [Dict.get?, h1, h2] at ht
  subst this
  simp only [two, List.mem_cons, List.not_mem_nil, or_false] at hm
  rcases hm with hm | hm <;> cases hm
  · exact matches_st f hf
  · exact matches_st g hg

theorem out_accepts (kwargs : Name → Kwargs) {o : Opts} {cls : Name} (hc : outClass o.task = some cls) (ho : o.outShape ≠ [])
    (nn : Option Name) (n : Name) :
    ∃ sh, Accepts kwargs (⟨cls, nn, []⟩ : Made).typeName n (⟨cls, nn, []⟩ : Made).kw (two o.outShape o.targetShape (str "targets")) sh ∧
      Dict.get? sh.outs (str "predictions") = some (st o.outShape) ∧ Dict.get? sh.outs (str "loss") = some (st o.targetShape) := by
  have hx : inp (two o.outShape o.targetShape (str "targets")) (str "default") = some (st o.outShape) := inp_st ho rfl
  have ht0 : o.targetShape ≠ [] := by
    unfold Opts.targetShape
    split
    · simp
    · exact ho
  have hy : inp (two o.outShape o.targetShape (str "targets")) (str "targets") = some (st o.targetShape) := inp_st ht0 rfl
  have hmt := two_matches o.outShape o.targetShape ho ht0 (str "targets") (by decide +kernel) rfl
  have hne : o.outShape.length ≠ 0 := by simpa using ho
  unfold outClass at hc
  by_cases h1 : o.task = str "classification"
  · rw [if_pos h1] at hc
    cases hc
    have hts : o.targetShape = o.outShape.dropLast ++ [1] := by rw [Opts.targetShape, if_pos h1]
    have c1 : ¬ ((st o.targetShape).featureShape.length ≠ (st o.outShape).featureShape.length) := by
      rw [featureShape_st', featureShape_st', hts]; simp; omega
    have c2 : ¬ ((st o.targetShape).featureShape.dropLast ≠ (st o.outShape).featureShape.dropLast) := by
      rw [featureShape_st', featureShape_st', hts]; simp [List.map_dropLast]
    have c3 : ¬ ((st o.targetShape).featureShape.getLastD (.n 0) ≠ .n 1) := by
      rw [featureShape_st', hts]; simp
    exact ⟨_, accepts_of (c := softmaxCE) rfl (fun k hk => absurd hk (List.not_mem_nil)) rfl hmt (by
        simp only [softmaxCE, hx, hy, Option.bind_eq_bind, Option.bind_some, if_neg c1, if_neg c2, if_neg c3,
          tb?_feature _ ho, tb?_feature _ ht0]; rfl)
        (build_some (declare_cons (declare_cons rfl)) rfl (declare_cons rfl)), rfl, rfl⟩
  · have hts : o.targetShape = o.outShape := by rw [Opts.targetShape, if_neg h1]
    rw [hts] at hx hy hmt ⊢
    rw [if_neg h1] at hc
    by_cases h2 : o.task = str "multi-label"
    · rw [if_pos h2] at hc
      cases hc
      exact ⟨_, accepts_of (c := sigmoidCE) rfl (fun k hk => absurd hk (List.not_mem_nil)) rfl hmt (by
        simp only [sigmoidCE, hx, hy, Option.bind_eq_bind, Option.bind_some, ne_eq, not_true, if_false,
          tb?_feature _ ho]; rfl)
        (build_some (declare_cons (declare_cons rfl)) rfl (declare_cons rfl)), rfl, rfl⟩
    · rw [if_neg h2] at hc
      by_cases h3 : o.task = str "regression"
      · rw [if_pos h3] at hc
        cases hc
        exact ⟨_, accepts_of (c := squaredError) rfl (fun k hk => absurd hk (List.not_mem_nil)) rfl hmt (by
          simp only [squaredError, hx, hy, Option.bind_eq_bind, Option.bind_some, ne_eq, not_true, if_false,
            tb?_feature _ ho]; rfl)
          (build_some (declare_cons (declare_cons rfl)) rfl (declare_cons rfl)), rfl, rfl⟩
      · rw [if_neg h3] at hc
        cases hc

theorem targetShape_ne {o : Opts} (ho : o.outShape ≠ []) : o.targetShape ≠ [] := by
  unfold Opts.targetShape
  split
  · simp
  · exact ho

theorem mask_accepts (kwargs : Name → Kwargs) (t : List Nat) (ht : t ≠ []) (n : Name) :
    ∃ sh, Accepts kwargs (⟨str "MaskLayerImpl", none, []⟩ : Made).typeName n (⟨str "MaskLayerImpl", none, []⟩ : Made).kw
      (two t [1] (str "mask")) sh ∧ Dict.get? sh.outs (str "default") = some (st t) := by
  have hx : inp (two t [1] (str "mask")) (str "default") = some (st t) := inp_st ht rfl
  have hy : inp (two t [1] (str "mask")) (str "mask") = some (st [1]) := inp_st (by simp) rfl
  have c : (st [1]).featureShape = [.n 1] := featureShape_st' [1]
  exact ⟨_, accepts_of (c := mask) rfl (fun k hk => absurd hk (List.not_mem_nil)) rfl
    (two_matches t [1] ht (by simp) (str "mask") (by decide +kernel) rfl) (by
      simp only [mask, hx, hy, Option.bind_eq_bind, Option.bind_some, c, true_or, if_true]; rfl)
    (build_some (declare_cons rfl) rfl rfl), rfl⟩

theorem loss_accepts (kwargs : Name → Kwargs) (t : List Nat) (ht : t ≠ []) (n : Name) (hn : n ≠ str "total_loss") :
    ∃ sh, Accepts kwargs (⟨str "LossLayerImpl", none, [(str "importance", .num 1)]⟩ : Made).typeName n
      (⟨str "LossLayerImpl", none, [(str "importance", .num 1)]⟩ : Made).kw (one t) sh := by
  have hx := inp_one t ht
  exact ⟨_, accepts_of (c := loss) rfl
    (by exact (by decide +kernel : ∀ x ∈ [str "importance"], x ∈ loss.expectedKwargs)) rfl
    (by
      intro i s tm hm h2
      simp only [one, List.mem_singleton] at hm
      cases hm
      cases h2
      exact anything_matches t) (by
      simp only [loss, hx, Option.bind_eq_bind, Option.bind_some, if_neg hn, mk?_one]; rfl)
    (build_some (declare_cons rfl) rfl rfl)⟩

theorem inputs_eq {o : Opts} (h : o.NamesOk) : o.inputs = (str "default", tb o.inShape) :: (o.targetsName, tb o.targetShape) ::
    (match o.maskName with | none => [] | some m => [(m, tb [1])]) := by
  have h1 : str "default" ≠ o.targetsName := fun e => h.targets.2 e.symm
  unfold Opts.inputs
  cases hm : o.maskName with
  | none => simp [Dict.set, h.data, h1]
  | some m =>
    obtain ⟨-, h2, h3⟩ := h.mask m hm
    have h2' : str "default" ≠ m := fun e => h2 e.symm
    have h3' : o.targetsName ≠ m := fun e => h3 e.symm
    simp [Dict.set, h.data, h1, h2', h3']

theorem input_accepts (kwargs : Name → Kwargs) {o : Opts} (h : o.NamesOk) (hi : o.inShape ≠ []) (ho : o.outShape ≠ []) (n : Name) :
    ∃ sh, Accepts kwargs (⟨str "InputLayerImpl", none, [(str "out_shapes", .shapes o.inputs)]⟩ : Made).typeName n
      (⟨str "InputLayerImpl", none, [(str "out_shapes", .shapes o.inputs)]⟩ : Made).kw [] sh ∧
      Dict.get? sh.outs (str "default") = some (st o.inShape) ∧ Dict.get? sh.outs o.targetsName = some (st o.targetShape) ∧
      ∀ m, o.maskName = some m → Dict.get? sh.outs m = some (st [1]) := by
  have ht := targetShape_ne ho
  have hd : DataName (str "default") := ⟨by decide, by decide, by decide⟩
  have hok : (o.inputs.map Prod.fst).Nodup ∧ ∀ e ∈ o.inputs, e.1 ≠ [] ∧ '.' ∉ e.1 ∧ '@' ∉ e.1 := by
    rw [inputs_eq h]
    cases hm : o.maskName with
    | none =>
      refine ⟨by simpa using fun e => h.targets.2 e.symm, ?_⟩
      intro e he
      simp only [List.mem_cons, List.not_mem_nil, or_false] at he
      rcases he with rfl | rfl
      · exact hd
      · exact h.targets.1
    | some m =>
      obtain ⟨h1, h2, h3⟩ := h.mask m hm
      refine ⟨by simpa using ⟨⟨fun e => h.targets.2 e.symm, fun e => h2 e.symm⟩, fun e => h3 e.symm⟩, ?_⟩
      intro e he
      simp only [List.mem_cons, List.not_mem_nil, or_false] at he
      rcases he with rfl | rfl | rfl
      · exact hd
      · exact h.targets.1
      · exact h1
  have hkw : (⟨str "InputLayerImpl", none, [(str "out_shapes", .shapes o.inputs)]⟩ : Made).kw =
      [(str "out_shapes", .shapes ⟨o.inputs, hok.1, hok.2⟩)] := by
    simp only [Made.kw, List.map_cons, List.map_nil, toK, dif_pos hok]
  have hmk : ∀ f : List Nat, f ≠ [] → mk? (tb f) = some (st f) := by
    intro f hf
    rw [mk?]
    have := validate_tb f hf 0 false
    simp only [this]
    rfl
  rw [hkw]
  have hne1 : str "default" ≠ o.targetsName := fun e => h.targets.2 e.symm
  generalize hkk : ([(str "out_shapes", .shapes ⟨o.inputs, hok.1, hok.2⟩)] : Kwargs) = kk
  have hkeys : Dict.keys kk = [str "out_shapes"] := by rw [← hkk]; rfl
  have hdecl : Verif.Setup.input.decl n kk [] = some ⟨o.inputs.map (fun e => (e.1, mk? e.2)), [], []⟩ := by rw [← hkk]; rfl
  rw [inputs_eq h] at hdecl
  cases hm : o.maskName with
  | none =>
    simp only [hm, List.map_cons, List.map_nil, hmk _ hi, hmk _ ht] at hdecl
    refine ⟨_, accepts_of (c := Verif.Setup.input) rfl
      (by rw [hkeys]; decide +kernel) rfl
      (fun i s tm hm => absurd hm List.not_mem_nil) (hdecl) (build_some (declare_cons (declare_cons rfl)) rfl rfl), rfl, ?_, ?_⟩
    · simp [Dict.get?, hne1]
    · intro m hm'; cases hm'
  | some m =>
    obtain ⟨h1, h2, h3⟩ := h.mask m hm
    have h2' : str "default" ≠ m := fun e => h2 e.symm
    have h3' : o.targetsName ≠ m := fun e => h3 e.symm
    simp only [hm, List.map_cons, List.map_nil, hmk _ hi, hmk _ ht, hmk [1] (by simp)] at hdecl
    refine ⟨_, accepts_of (c := Verif.Setup.input) rfl
      (by rw [hkeys]; decide +kernel) rfl
      (fun i s tm hm => absurd hm List.not_mem_nil) (hdecl)
      (build_some (declare_cons (declare_cons (declare_cons rfl))) rfl rfl), rfl, ?_, ?_⟩
    · simp [Dict.get?, hne1]
    · intro m' hm'
      cases hm'
      simp [Dict.get?, h2', h3']

end Verif.NetSpec
