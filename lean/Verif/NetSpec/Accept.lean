import Verif.NetSpec.Flow

/-!
# The layers of a spec line accept their shapes
-/

namespace Verif.NetSpec

open Verif.Structure Verif.Setup Verif.Instantiate Verif.Architecture Verif.Construction

/-- A layer of type `t` can be set up with these keyword arguments and inputs, and declares `sh`. -/
def Accepts (kwargs : Name → Kwargs) (t n : Name) (kw : Kwargs) (ins : Dict Name Struct) (sh : Shapes) : Prop :=
  ∃ cls, (libEnv kwargs).classOf (t ++ str "LayerImpl") = some cls ∧ Acceptable cls Dict.keys kw ins ∧
    cls.setup n kw ins = some sh

theorem accepts_of {kwargs : Name → Kwargs} {t n : Name} {kw : Kwargs} {ins : Dict Name Struct} {sh : Shapes}
    {c : DeclClass} (h1 : Dict.get? library (t ++ str "LayerImpl") = some c)
    (h2 : ∀ k ∈ Dict.keys kw, k ∈ c.expectedKwargs) (h3 : Dict.keys ins = Dict.keys c.expectedInputs)
    (h4 : ∀ i s tm, (i, s) ∈ ins → Dict.get? c.expectedInputs i = some tm → tm.matches s = true) {d : Decl}
    (h5 : c.decl n kw ins = some d) (h6 : d.build = some sh) : Accepts kwargs t n kw ins sh := by
  refine ⟨c.toClass, ?_, ⟨h2, ?_, h4⟩, ?_⟩
  · show (Dict.get? library _).map DeclClass.toClass = _
    rw [h1]; rfl
  · intro i
    rw [h3]; rfl
  · show (c.decl n kw ins).bind Decl.build = _
    rw [h5]; exact h6

theorem keys_kw (m : Made) : Dict.keys m.kw = Dict.keys m.kwargs := by
  simp [Dict.keys, Made.kw, List.map_map, Function.comp_def]

theorem toK_int (n : Nat) : toK (.int (n : Int)) = .int n := by simp [toK]

theorem toK_pair (a b : Nat) : toK (.pair (a : Int) (b : Int)) = .ints [a, b] := by simp [toK]

/-- The one input of a hidden layer. -/
def one (f : List Nat) : Dict Name Struct := [(str "default", st f)]

theorem inp_one (f : List Nat) (hf : f ≠ []) : inp (one f) (str "default") = some (st f) := inp_st hf rfl

theorem one_matches (f : List Nat) (hf : f ≠ []) {e : Dict Name Template} (he : e = [(str "default", anyTB)]) :
    ∀ i s tm, (i, s) ∈ one f → Dict.get? e i = some tm → tm.matches s = true := by
  intro i s tm hm ht
  simp only [one, List.mem_singleton] at hm
  cases hm
  subst he
  cases ht
  exact matches_st f hf

theorem windowCount_ok {n p k s : Nat} (hs : s ≠ 0) (hk : k ≤ n + 2 * p) : windowCount n p k s = some (windows n k p s) := by
  unfold windowCount windows
  rw [if_neg hs]
  simp only
  have h1 : ((n : Int) + 2 * p - k) = ((n + 2 * p - k : Nat) : Int) := by omega
  have h2 : Int.fdiv ((n : Int) + 2 * p - k) s = (((n + 2 * p - k) / s : Nat) : Int) := by
    rw [h1, Int.fdiv_eq_ediv_of_nonneg _ (by omega)]
    rfl
  rw [h2]
  have h3 : (0 : Int) ≤ (((n + 2 * p - k) / s : Nat) : Int) := Int.natCast_nonneg _
  generalize (n + 2 * p - k) / s = q at *
  rw [if_neg (by omega)]
  congr 1

theorem build_some {o p i : List (Name × Option Struct)} {o' p' i' : Dict Name Struct} (h1 : declare o = some o')
    (h2 : declare p = some p') (h3 : declare i = some i') : (⟨o, p, i⟩ : Decl).build = some ⟨o', p', i'⟩ := by
  simp only [Decl.build, h1, h2, h3]

theorem declare_cons {k : Name} {s : Struct} {l : List (Name × Option Struct)} {d : Dict Name Struct}
    (h : declare l = some d) : declare ((k, some s) :: l) = some ((k, s) :: d) := by
  simp only [declare, h, Option.map_some]

theorem tb?_one (n : Nat) (c : Nat) (b : Bool) : tb? [.n n] c b = some ⟨tb [n], c, b⟩ := tb?_ok [n] (by simp) c b
theorem tb?_three (a b c : Nat) : tb? [.n a, .n b, .n c] = some (st [a, b, c]) := tb?_ok [a, b, c] (by simp) 0 false
theorem mk?_one (n : Nat) : mk? [.n n] = some ⟨[.n n], 0, false⟩ := mk?_ok [n] (by simp) false
theorem mk?_two (a b : Nat) : mk? [.n a, .n b] = some ⟨[.n a, .n b], 0, false⟩ := mk?_ok [a, b] (by simp) false
theorem mk?_four (a b c d : Nat) : mk? [.n a, .n b, .n c, .n d] = some ⟨[.n a, .n b, .n c, .n d], 0, false⟩ :=
  mk?_ok [a, b, c, d] (by simp) false

theorem doc_accepts (kwargs : Name → Kwargs) (d : Doc) (f f' : List Nat) (hf : f ≠ []) (h : d.outShape f = some f')
    (n : Name) : ∃ sh c, Accepts kwargs d.typeName n d.made.kw (one f) sh ∧
      Dict.get? sh.outs (str "default") = some ⟨tb f', c, false⟩ ∧ f' ≠ [] := by
  have hx := inp_one f hf
  cases d with
  | fullyConnected a m =>
    simp only [Doc.outShape, Option.some.injEq] at h
    subst h
    refine ⟨_, 0, accepts_of (c := fullyConnected) rfl ?_ rfl (one_matches f hf rfl) (d := ⟨[(str "default", some (st [m]))],
      [(str "W", some ⟨[.n (st [m]).featureSize, .n (st f).featureSize], 0, false⟩),
        (str "bias", some ⟨[.n (st [m]).featureSize], 0, false⟩)], []⟩) ?_ (build_some (declare_cons rfl)
        (declare_cons (declare_cons rfl)) rfl), rfl, by simp⟩
    · exact (by decide +kernel : ∀ x ∈ [str "size", str "activation"], x ∈ Verif.Setup.fullyConnected.expectedKwargs)
    · have hs : fcShape (Doc.fullyConnected a m).made.kw (st f) = some [.n m] := rfl
      simp only [fullyConnected, hx, Option.bind_eq_bind, Option.bind_some, hs, tb?_one, mk?_two, mk?_one]
      rfl
  | recurrent a m =>
    simp only [Doc.outShape, Option.some.injEq] at h
    subst h
    have hs : ∀ x, intSize (Doc.recurrent a m).made.kw x = some m := fun x => rfl
    refine ⟨_, 1, accepts_of (c := recurrent) rfl ?_ rfl (one_matches f hf rfl) (by
        simp only [recurrent, hx, Option.bind_eq_bind, Option.bind_some, hs, tb?_one, mk?_two, mk?_one]; rfl)
        (build_some (declare_cons rfl) (declare_cons (declare_cons (declare_cons rfl)))
          (declare_cons (declare_cons (declare_cons rfl)))), rfl, by simp⟩
    exact (by decide +kernel : ∀ x ∈ [str "size", str "activation"], x ∈ Verif.Setup.recurrent.expectedKwargs)
  | lstm a m =>
    simp only [Doc.outShape, Option.some.injEq] at h
    subst h
    have hs : ∀ x, intSize (Doc.lstm a m).made.kw x = some m := fun x => rfl
    refine ⟨_, 1, accepts_of (c := lstm) rfl ?_ rfl (one_matches f hf rfl) (by
        simp only [lstm, hx, Option.bind_eq_bind, Option.bind_some, hs, tb?_one, mk?_two, mk?_one, lstmParams, lstmInternals]
        rfl)
        (build_some (by repeat' first | exact rfl | apply declare_cons) (by repeat' first | exact rfl | apply declare_cons)
          (by repeat' first | exact rfl | apply declare_cons)), rfl, by simp⟩
    exact (by decide +kernel : ∀ x ∈ [str "size", str "activation"], x ∈ Verif.Setup.lstm.expectedKwargs)
  | batchNorm =>
    simp only [Doc.outShape, Option.some.injEq] at h
    subst h
    obtain ⟨z, hz⟩ : ∃ z, (st f).featureShape.getLastD (.n 0) = .n z := by
      rw [st, featureShape_st, List.getLastD_eq_getLast?, List.getLast?_map]
      cases f.getLast? with
      | none => exact ⟨0, rfl⟩
      | some z => exact ⟨z, rfl⟩
    have hd : decayOk Doc.batchNorm.made.kw = true := by decide +kernel
    refine ⟨_, 0, accepts_of (c := batchNorm) rfl ?_ rfl (one_matches f hf rfl) (by
        simp only [batchNorm, hx, Option.bind_eq_bind, Option.bind_some, hd, hz, mk?_one, if_true]; rfl)
        (build_some (declare_cons rfl) (declare_cons (declare_cons (declare_cons (declare_cons rfl))))
          (declare_cons (declare_cons (declare_cons rfl)))), rfl, hf⟩
    exact (by decide +kernel : ∀ x ∈ [str "decay", str "epsilon"], x ∈ Verif.Setup.batchNorm.expectedKwargs)
  | dropout p =>
    simp only [Doc.outShape, Option.some.injEq] at h
    subst h
    refine ⟨_, 0, accepts_of (c := dropout) rfl ?_ rfl (one_matches f hf rfl) (by
        simp only [dropout, hx, Option.bind_eq_bind, Option.bind_some]; rfl)
        (build_some (declare_cons rfl) rfl (declare_cons rfl)), rfl, hf⟩
    exact (by decide +kernel : ∀ x ∈ [str "drop_prob"], x ∈ Verif.Setup.dropout.expectedKwargs)
  | convolution a F k l =>
    match f, hf, hx, h with
    | [hh, w, c], hf, hx, h =>
      simp only [Doc.outShape] at h
      split_ifs at h with hc
      cases h
      obtain ⟨hs, hk1, hk2⟩ := hc
      have e1 : intArg (Doc.convolution a F k l).made.kw (str "num_filters") none = some F := rfl
      have e2 : pairArg (Doc.convolution a F k l).made.kw (str "kernel_size") none = some (k, k) := rfl
      have e3 : pairArg (Doc.convolution a F k l).made.kw (str "stride") (some (1, 1)) = some (strideOf l, strideOf l) := rfl
      have e4 : intArg (Doc.convolution a F k l).made.kw (str "padding") (some 0) = some (paddingOf l) := rfl
      have e5 : (st [hh, w, c]).featureShape = [.n hh, .n w, .n c] := featureShape_st _ _ _
      refine ⟨_, 0, accepts_of (c := convolution2D) rfl ?_ rfl (one_matches _ hf rfl) (by
          simp only [convolution2D, hx, Option.bind_eq_bind, Option.bind_some, e1, e2, e3, e4, e5,
            windowCount_ok hs hk1, windowCount_ok hs hk2, tb?_three, mk?_four, mk?_one]
          rfl)
          (build_some (declare_cons rfl) (declare_cons (declare_cons rfl)) rfl), rfl, by simp⟩
      exact (by decide +kernel : ∀ x ∈ [str "num_filters", str "kernel_size", str "stride", str "padding", str "activation"], x ∈ Verif.Setup.convolution2D.expectedKwargs)
  | pooling t k l =>
    match f, hf, hx, h with
    | [hh, w, c], hf, hx, h =>
      simp only [Doc.outShape] at h
      split_ifs at h with hc
      cases h
      obtain ⟨hs, hk1, hk2⟩ := hc
      have e2 : pairArg (Doc.pooling t k l).made.kw (str "kernel_size") none = some (k, k) := rfl
      have e3 : pairArg (Doc.pooling t k l).made.kw (str "stride") (some (1, 1)) = some (strideOf l, strideOf l) := rfl
      have e4 : intArg (Doc.pooling t k l).made.kw (str "padding") (some 0) = some (paddingOf l) := rfl
      have e5 : (st [hh, w, c]).featureShape = [.n hh, .n w, .n c] := featureShape_st _ _ _
      have e6 : ¬ (windows hh k (paddingOf l) (strideOf l) = 0 ∨ windows w k (paddingOf l) (strideOf l) = 0) := by
        simp [windows]
      obtain ⟨b, e7⟩ : ∃ b, poolIsMax (Doc.pooling t k l).made.kw = some b := by
        cases t with
        | none => exact ⟨true, rfl⟩
        | some t => cases t with
          | max => exact ⟨true, rfl⟩
          | avg => exact ⟨false, rfl⟩
      cases b with
      | true =>
        refine ⟨_, 0, accepts_of (c := pooling2D) rfl ?_ rfl (one_matches _ hf rfl) (by
            simp only [pooling2D, hx, Option.bind_eq_bind, Option.bind_some, e2, e3, e4, e5, e7,
              windowCount_ok hs hk1, windowCount_ok hs hk2, tb?_three, if_neg e6, if_true]
            rfl)
            (build_some (declare_cons rfl) rfl (declare_cons rfl)), rfl, by simp⟩
        exact (by decide +kernel : ∀ x ∈ [str "kernel_size", str "type", str "stride", str "padding"], x ∈ Verif.Setup.pooling2D.expectedKwargs)
      | false =>
        refine ⟨_, 0, accepts_of (c := pooling2D) rfl ?_ rfl (one_matches _ hf rfl) (by
            simp only [pooling2D, hx, Option.bind_eq_bind, Option.bind_some, e2, e3, e4, e5, e7,
              windowCount_ok hs hk1, windowCount_ok hs hk2, tb?_three, if_neg e6]
            rfl)
            (build_some (declare_cons rfl) rfl rfl), rfl, by simp⟩
        exact (by decide +kernel : ∀ x ∈ [str "kernel_size", str "type", str "stride", str "padding"], x ∈ Verif.Setup.pooling2D.expectedKwargs)

end Verif.NetSpec
