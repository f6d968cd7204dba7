import Verif.Shapes.Layers

/-! # Lemmas: the passes of every layer type succeed, continued -/

namespace Verif.Shapes

open Verif.Structure Verif.Instantiate
open Verif.Setup (Kwargs KVal inp intSize pairArg intArg poolIsMax mk? tb? mk?_some inp_some declare Decl)

attribute [local congr] bind_congr_left do_congr_left

/-- The leading dimensions of an array. -/
def lead (p : Scaling) (T B : Nat) : List Nat :=
  match p with
  | .none => []
  | .batch => [B]
  | .time => [T, B]

theorem structShape_shapeOf (p : Scaling) (fs : List Nat) (b : Bool) (T B : Nat) :
    Buffers.structShape ⟨shapeOf p fs, 0, b⟩ T B = lead p T B ++ fs := by
  simp only [Buffers.structShape, Struct.featureShape, Struct.bufferType]
  cases p <;> simp [shapeOf, Scaling.marks, typeOf, lead, Function.comp_def, Tok.size]

theorem rows_ok (l : List Nat) {k : Nat} (h : k ≠ 0) : rows (l ++ [k]) = some (l.prod, k) := by
  rw [rows, List.getLast?_concat, List.dropLast_concat]
  simp [h]

theorem split_last (f : Nat) (fs : List Nat) : ∃ l k, f :: fs = l ++ [k] :=
  ⟨(f :: fs).dropLast, (f :: fs).getLast (by simp), (List.dropLast_append_getLast _).symm⟩

theorem shapeOf_snoc (p : Scaling) (l : List Nat) (k : Nat) : shapeOf p (l ++ [k]) = shapeOf p l ++ [.n k] := by
  simp [shapeOf]

theorem shapeOf_inj {p q : Scaling} {l m : List Nat} (h : shapeOf p l = shapeOf q m) : p = q ∧ l = m := by
  have hT : ∀ (r : Scaling) (a : List Nat), Tok.T ∈ shapeOf r a ↔ r = .time := by
    intro r a; cases r <;> simp [shapeOf, Scaling.marks]
  have hB : ∀ (r : Scaling) (a : List Nat), Tok.B ∈ shapeOf r a ↔ r ≠ .none := by
    intro r a; cases r <;> simp [shapeOf, Scaling.marks]
  have h1 := (hT p l).symm.trans ((by rw [h] : Tok.T ∈ shapeOf p l ↔ Tok.T ∈ shapeOf q m).trans (hT q m))
  have h2 := (hB p l).symm.trans ((by rw [h] : Tok.B ∈ shapeOf p l ↔ Tok.B ∈ shapeOf q m).trans (hB q m))
  have hpq : p = q := by cases p <;> cases q <;> simp_all
  subst hpq
  exact ⟨rfl, map_n_inj (List.append_cancel_left h)⟩

/-- A legal structure without context. -/
theorem snoc_of {s : Struct} (hv : s.validate = .ok ()) (hc : s.contextSize = 0) :
    ∃ p l k b, s = ⟨shapeOf p (l ++ [k]), 0, b⟩ := by
  obtain ⟨p, fs, hne, hs, -⟩ := (C13_structures s).1 hv
  obtain ⟨sh, c, b⟩ := s
  simp only at hs hc
  subst hs hc
  obtain ⟨f, fs, rfl⟩ := List.exists_cons_of_ne_nil hne
  obtain ⟨l, k, e⟩ := split_last f fs
  exact ⟨p, l, k, b, by rw [e]⟩

section
variable {n : Name} {kw : Kwargs} {ins : Dict Name Struct} {d : Decl} {sh : Instantiate.Shapes} (T B : Nat)

theorem runs_merge (hv : ∀ k s, inp ins k = some s → s.validate = .ok ()) (hc : ∀ k s, inp ins k = some s → s.contextSize = 0)
    (h0 : ∀ k s, inp ins k = some s → s.shape.getLast? ≠ some (.n 0))
    (hd : Setup.merge.decl n kw ins = some d) (hb : d.build = some sh) : Runs merge kw ins sh T B := by
  open_setup hd
  obtain ⟨x, hx, y, hy, e, rfl⟩ := hd
  obtain ⟨p, l, k, b, rfl⟩ := snoc_of (hv _ _ hx) (hc _ _ hx)
  obtain ⟨q, m, j, c, rfl⟩ := snoc_of (hv _ _ hy) (hc _ _ hy)
  have hk : k ≠ 0 := by
    have := h0 _ _ hx
    rw [shapeOf_snoc] at this
    simpa using this
  have hj : j ≠ 0 := by
    have := h0 _ _ hy
    rw [shapeOf_snoc] at this
    simpa using this
  have e' := not_not.1 e
  simp only [shapeOf_snoc, List.dropLast_concat] at e'
  obtain ⟨rfl, rfl⟩ := shapeOf_inj e'
  obtain ⟨h1, h2, h3⟩ := build_some hb
  have hmk : mk? (shapeOf p l ++ [.n (k + j)]) = some ⟨shapeOf p (l ++ [k + j]), 0, false⟩ := by
    rw [← shapeOf_snoc]
    unfold mk?
    rw [(C13_structures _).2 ⟨p, l ++ [k + j], by simp, rfl, fun h => absurd rfl h⟩]
  simp only [shapeOf_snoc p l, List.dropLast_concat, List.getLastD_concat, Tok.size, hmk, declare, Option.map_some,
    Option.some.injEq] at h1 h2 h3
  rw [← shapeOf_snoc] at h1
  obtain ⟨os, ps, is⟩ := sh
  simp only at h1 h2 h3
  subst h1 h2 h3
  have hx' : at? (shapesOf ins T B) "inputs_1" = some (lead p T B ++ l ++ [k]) := by
    rw [at?, get?_shapesOf, inp_of hx, Option.map_some, structShape_shapeOf, List.append_assoc]
  have hy' : at? (shapesOf ins T B) "inputs_2" = some (lead p T B ++ l ++ [j]) := by
    rw [at?, get?_shapesOf, inp_of hy, Option.map_some, structShape_shapeOf, List.append_assoc]
  have ho : at? (shapesOf [(str "default", ⟨shapeOf p (l ++ [k + j]), 0, false⟩)] T B) "default" =
      some (lead p T B ++ l ++ [k + j]) := by
    rw [at?, get?_shapesOf]
    have : Dict.get? [(str "default", (⟨shapeOf p (l ++ [k + j]), 0, false⟩ : Struct))] (str "default") =
      some ⟨shapeOf p (l ++ [k + j]), 0, false⟩ := rfl
    rw [this, Option.map_some, structShape_shapeOf, List.append_assoc]
  have r1 := rows_ok (lead p T B ++ l) hk
  have r2 := rows_ok (lead p T B ++ l) hj
  have r3 := rows_ok (lead p T B ++ l) (k := k + j) (by omega)
  refine ⟨fun tr => ?_, ?_⟩
  · simp only [merge, viewsOf, hx', hy', ho, Option.bind_eq_bind, Option.bind_some, mergeTT, r1, r2, r3]
    exact check_ok (by simp)
  · simp only [merge, viewsOf, hx', hy', ho, Option.bind_eq_bind, Option.bind_some, splitAddTT, r1, r2, r3]
    exact check_ok (by simp)

theorem runs_input (ins : Dict Name Struct) : Runs input kw ins sh T B := ⟨fun _ => rfl, rfl⟩

theorem bnMean_ok (m k : Nat) : bnMean [m, k] [k] [k] = some () := by
  simp only [bnMean, sum_rows, same2_ok, Option.bind_eq_bind, Option.bind_some]

theorem bnSigma_ok (m k : Nat) : bnSigma [m, k] [m, k] [k] [k] = some () := by
  simp only [bnSigma, sum_rows, same2_ok, same3_ok, Option.bind_eq_bind, Option.bind_some]

theorem runs_batchNorm (hin : AllTB ins) (hd : Setup.batchNorm.decl n kw ins = some d)
    (hb : d.build = some sh) : Runs batchNorm kw ins sh T B := by
  open_setup hd
  obtain ⟨x, hx, -, rfl⟩ := hd
  obtain ⟨f, fs, b, rfl⟩ := hin _ _ hx
  obtain ⟨l, k, e⟩ := split_last f fs
  rw [e] at hx hb
  have hx' := at_in0 T B (inp_of hx)
  obtain ⟨h1, h2, h3⟩ := build_some hb
  have hl : (tbS (l ++ [k]) 0 b).featureShape.getLastD (.n 0) = .n k := by rw [featureShape_tb]; simp
  simp only [hl, declare, mk?_one, Option.map_some, Option.some.injEq] at h1 h2 h3
  obtain ⟨os, ps, is⟩ := sh
  simp only at h1 h2 h3
  subst h1 h2 h3
  have hy : at? (shapesOf [(str "default", tbS (l ++ [k]) 0 b)] T B) "default" = some (T :: B :: (l ++ [k])) := at_in0 T B rfl
  have hi : unpack3 (values (shapesOf [(str "sigma_b", ⟨[.n k], 0, false⟩), (str "centered", tbS (l ++ [k]) 0 b),
      (str "x_hat", tbS (l ++ [k]) 0 b)] T B)) = some ([k], T :: B :: (l ++ [k]), T :: B :: (l ++ [k])) := by
    have e1 : Buffers.structShape ⟨[.n k], 0, false⟩ T B = [k] := rfl
    simp only [shapesOf, values, List.map_cons, List.map_nil, structShape_tb, unpack3, e1, Nat.add_zero]
  have hp : unpack4 (values (shapesOf [(str "gamma", ⟨[.n k], 0, false⟩), (str "beta", ⟨[.n k], 0, false⟩),
      (str "mu", ⟨[.n k], 0, false⟩), (str "sigma", ⟨[.n k], 0, false⟩)] T B)) = some ([k], [k], [k], [k]) := rfl
  unfold Runs
  generalize hvdef : viewsOf ins _ T B = v
  have hx2 : at? v.inputs "default" = some (T :: B :: (l ++ [k])) := by rw [← hvdef]; exact hx'
  have hdx : at? v.inputDeltas "default" = some (T :: B :: (l ++ [k])) := by rw [← hvdef]; exact hx'
  have hy2 : at? v.outputs "default" = some (T :: B :: (l ++ [k])) := by rw [← hvdef]; exact hy
  have hdy : at? v.outputDeltas "default" = some (T :: B :: (l ++ [k])) := by rw [← hvdef]; exact hy
  have hi2 : unpack3 (values v.internals) = some ([k], T :: B :: (l ++ [k]), T :: B :: (l ++ [k])) := by
    rw [← hvdef]; exact hi
  have hp2 : unpack4 (values v.parameters) = some ([k], [k], [k], [k]) := by rw [← hvdef]; exact hp
  have hg : at? v.parameters "gamma" = some [k] := by rw [← hvdef]; rfl
  have hdg : at? v.gradients "gamma" = some [k] := by rw [← hvdef]; rfl
  have hdb : at? v.gradients "beta" = some [k] := by rw [← hvdef]; rfl
  clear hvdef
  refine ⟨fun tr => ?_, ?_⟩
  · cases tr
    · unfold batchNorm
      dsimp only
      rw [hi2, hp2, hx2, hy2]
      simp only [Option.bind_eq_bind, Option.bind_some, Bool.false_eq_true, if_false]
      simp only [flattenLast_ok, row_ok, opMV_row, multMV_row, Option.bind_some, List.prod_singleton]
    · unfold batchNorm
      dsimp only
      rw [hi2, hp2, hx2, hy2]
      simp only [Option.bind_eq_bind, Option.bind_some, if_true]
      simp only [flattenLast_ok, row_ok, opMV_row, multMV_row, bnMean_ok, bnSigma_ok, Option.bind_some, List.prod_singleton]
  · simp only [batchNorm, hdx, hdy, hi2, hg, hdg, hdb, flattenLast_ok, row_ok, opMV_row, multMV_row, sum_rows, same2_ok,
      same3_ok, Option.bind_eq_bind, Option.bind_some, List.prod_singleton]

theorem runs_sigmoidCE (hin : AllTB ins) (hd : Setup.sigmoidCE.decl n kw ins = some d)
    (hb : d.build = some sh) : Runs sigmoidCE kw ins sh T B := by
  open_setup hd
  obtain ⟨x, hx, t, ht, e, rfl⟩ := hd
  obtain ⟨f, fs, b, rfl⟩ := hin _ _ hx
  obtain ⟨g, gs, c, rfl⟩ := hin _ _ ht
  have e' := not_not.1 e
  rw [featureShape_tb, featureShape_tb] at e'
  rw [map_n_inj e'] at ht
  have hx' := at_in0 T B (inp_of hx)
  have ht' := at_in0 T B (inp_of ht)
  obtain ⟨h1, h2, h3⟩ := build_some hb
  simp only [featureShape_tb, tb?_nums (List.cons_ne_nil f fs), declare, Option.map_some, Option.some.injEq] at h1 h2 h3
  obtain ⟨os, ps, is⟩ := sh
  simp only at h1 h2 h3
  subst h1 h2 h3
  have hp : at? (shapesOf [(str "predictions", tbS (f :: fs)), (str "loss", tbS (f :: fs))] T B) "predictions" =
    some (T :: B :: f :: fs) := at_in0 T B rfl
  have hl : at? (shapesOf [(str "predictions", tbS (f :: fs)), (str "loss", tbS (f :: fs))] T B) "loss" =
    some (T :: B :: f :: fs) := at_in0 T B rfl
  have hi : at? (shapesOf [(str "dcee", tbS (f :: fs) 0 true)] T B) "dcee" = some (T :: B :: f :: fs) := at_in0 T B rfl
  refine ⟨fun tr => ?_, ?_⟩
  · simp [sigmoidCE, viewsOf, hx', ht', hp, hl, flattenTF_ok, same2_ok, same3_ok]
  · simp [sigmoidCE, viewsOf, hx', ht', hp, hl, hi, flattenTF_ok, multMV_all, same3_ok]

theorem runs_softmaxCE (hin : AllTB ins) (h0 : ∀ k s, inp ins k = some s → s.shape.getLast? ≠ some (.n 0))
    (hd : Setup.softmaxCE.decl n kw ins = some d)
    (hb : d.build = some sh) : Runs softmaxCE kw ins sh T B := by
  open_setup hd
  obtain ⟨x, hx, t, ht, e1, e2, e3, rfl⟩ := hd
  obtain ⟨f, fs, b, rfl⟩ := hin _ _ hx
  obtain ⟨g, gs, c, rfl⟩ := hin _ _ ht
  obtain ⟨l, k, e⟩ := split_last f fs
  obtain ⟨m, j, e'⟩ := split_last g gs
  rw [e] at hx hb e1 e2
  rw [e'] at ht hb e1 e2 e3
  simp only [featureShape_tb, not_not, ← List.map_dropLast, List.dropLast_concat] at e2 e3
  have hml := map_n_inj e2
  subst hml
  have hj : j = 1 := by simpa using e3
  subst hj
  have hk : k ≠ 0 := by
    have := h0 _ _ hx
    simpa [← List.map_append, List.getLast?_cons] using this
  have hx' := at_in0 T B (inp_of hx)
  have ht' := at_in0 T B (inp_of ht)
  obtain ⟨h1, h2, h3⟩ := build_some hb
  simp only [featureShape_tb, tb?_nums (show m ++ [k] ≠ [] by simp), tb?_nums (show m ++ [1] ≠ [] by simp), declare,
    Option.map_some, Option.some.injEq] at h1 h2 h3
  obtain ⟨os, ps, is⟩ := sh
  simp only at h1 h2 h3
  subst h1 h2 h3
  have hp : at? (shapesOf [(str "predictions", tbS (m ++ [k])), (str "loss", tbS (m ++ [1]))] T B) "predictions" =
    some (T :: B :: (m ++ [k])) := at_in0 T B rfl
  have hl : at? (shapesOf [(str "predictions", tbS (m ++ [k])), (str "loss", tbS (m ++ [1]))] T B) "loss" =
    some (T :: B :: (m ++ [1])) := at_in0 T B rfl
  have hi : at? (shapesOf [(str "t_bin", tbS (m ++ [k]) 0 true)] T B) "t_bin" = some (T :: B :: (m ++ [k])) := at_in0 T B rfl
  refine ⟨fun tr => ?_, ?_⟩
  · simp [softmaxCE, viewsOf, hx', ht', hp, hl, flattenLast_ok, same2_ok, softmaxM, indexMByV, check, hk]
  · simp [softmaxCE, viewsOf, hx', ht', hp, hl, hi, flattenLast_ok, same2_ok, same3_ok, binarizeV, check, multMV_col]

theorem runs_squaredDifference (hin : AllTB ins) (hd : Setup.squaredDifference.decl n kw ins = some d)
    (hb : d.build = some sh) : Runs squaredDifference kw ins sh T B := by
  open_setup hd
  obtain ⟨x, hx, t, ht, e, rfl⟩ := hd
  obtain ⟨f, fs, b, rfl⟩ := hin _ _ hx
  obtain ⟨g, gs, c, rfl⟩ := hin _ _ ht
  have e' := not_not.1 e
  rw [featureShape_tb, featureShape_tb] at e'
  rw [← map_n_inj e'] at ht
  have hx' := at_in0 T B (inp_of hx)
  have ht' := at_in0 T B (inp_of ht)
  obtain ⟨h1, h2, h3⟩ := build_some hb
  simp only [featureShape_tb, tb?_nums (List.cons_ne_nil f fs), declare, Option.map_some, Option.some.injEq] at h1 h2 h3
  obtain ⟨os, ps, is⟩ := sh
  simp only at h1 h2 h3
  subst h1 h2 h3
  have hy : at? (shapesOf [(str "default", tbS (f :: fs))] T B) "default" = some (T :: B :: f :: fs) := at_in0 T B rfl
  have hi : at? (shapesOf [(str "diff", tbS (f :: fs))] T B) "diff" = some (T :: B :: f :: fs) := at_in0 T B rfl
  refine ⟨fun tr => ?_, ?_⟩
  · simp [squaredDifference, viewsOf, hx', ht', hy, hi, flattenTF_ok, same3_ok]
  · simp [squaredDifference, viewsOf, hx', ht', hy, hi, flattenTF_ok, same2_ok, same3_ok]

theorem runs_squaredError (hin : AllTB ins) (hd : Setup.squaredError.decl n kw ins = some d)
    (hb : d.build = some sh) : Runs squaredError kw ins sh T B := by
  open_setup hd
  obtain ⟨x, hx, t, ht, e, rfl⟩ := hd
  obtain ⟨f, fs, b, rfl⟩ := hin _ _ hx
  obtain ⟨g, gs, c, rfl⟩ := hin _ _ ht
  have e' := not_not.1 e
  rw [featureShape_tb, featureShape_tb] at e'
  rw [← map_n_inj e'] at ht
  have hx' := at_in0 T B (inp_of hx)
  have ht' := at_in0 T B (inp_of ht)
  obtain ⟨h1, h2, h3⟩ := build_some hb
  simp only [featureShape_tb, tb?_nums (List.cons_ne_nil f fs), declare, Option.map_some, Option.some.injEq] at h1 h2 h3
  obtain ⟨os, ps, is⟩ := sh
  simp only at h1 h2 h3
  subst h1 h2 h3
  have hp : at? (shapesOf [(str "predictions", tbS (f :: fs)), (str "loss", tbS (f :: fs))] T B) "predictions" =
    some (T :: B :: f :: fs) := at_in0 T B rfl
  have hl : at? (shapesOf [(str "predictions", tbS (f :: fs)), (str "loss", tbS (f :: fs))] T B) "loss" =
    some (T :: B :: f :: fs) := at_in0 T B rfl
  have hi : at? (shapesOf [(str "diff", tbS (f :: fs))] T B) "diff" = some (T :: B :: f :: fs) := at_in0 T B rfl
  refine ⟨fun tr => ?_, ?_⟩
  · simp [squaredError, viewsOf, hx', ht', hp, hl, hi, flattenTF_ok, same2_ok, same3_ok]
  · simp [squaredError, viewsOf, hx', hl, hi, flattenTF_ok, same3_ok]

/-- The declarations of the binomial cross entropy, for the passes. -/
theorem binomial_views (hin : AllTB ins) (hd : Setup.binomialCE.decl n kw ins = some d) (hb : d.build = some sh) :
    ∃ f fs b c, inp ins (str "default") = some (tbS (f :: fs) 0 b) ∧ inp ins (str "targets") = some (tbS (f :: fs) 0 c) ∧
      sh = ⟨[(str "default", tbS [1])], [], [(str "cee", tbS (f :: fs)), (str "ceed", tbS (f :: fs) 0 true)]⟩ := by
  open_setup hd
  obtain ⟨x, hx, t, ht, e, rfl⟩ := hd
  obtain ⟨f, fs, b, rfl⟩ := hin _ _ hx
  obtain ⟨g, gs, c, rfl⟩ := hin _ _ ht
  have e' := not_not.1 e
  simp only [List.cons.injEq, true_and] at e'
  rw [← map_n_inj e'] at ht
  refine ⟨f, fs, b, c, hx, ht, ?_⟩
  obtain ⟨h1, h2, h3⟩ := build_some hb
  simp only [featureShape_tb, tb?_nums (List.cons_ne_nil f fs), tb?_one, declare, Option.map_some, Option.some.injEq] at h1 h2 h3
  obtain ⟨os, ps, is⟩ := sh
  simp only at h1 h2 h3
  subst h1 h2 h3
  rfl

theorem runs_binomialCE (hin : AllTB ins)
    (h1 : ∀ s, inp ins (str "default") = some s → s.featureShape.length = 1)
    (hd : Setup.binomialCE.decl n kw ins = some d) (hb : d.build = some sh) : Runs binomialCE kw ins sh T B := by
  obtain ⟨f, fs, b, c, hx, ht, rfl⟩ := binomial_views hin hd hb
  have h1' := h1 _ hx
  rw [featureShape_tb] at h1'
  have hfs : fs = [] := by simpa using h1'
  subst hfs
  have hx' := at_in0 T B (inp_of hx)
  have ht' := at_in0 T B (inp_of ht)
  have hy : at? (shapesOf [(str "default", tbS [1])] T B) "default" = some [T, B, 1] := at_in0 T B rfl
  have hi : at? (shapesOf [(str "cee", tbS [f]), (str "ceed", tbS [f] 0 true)] T B) "cee" = some [T, B, f] := at_in0 T B rfl
  have hj : at? (shapesOf [(str "cee", tbS [f]), (str "ceed", tbS [f] 0 true)] T B) "ceed" = some [T, B, f] := at_in0 T B rfl
  refine ⟨fun tr => ?_, ?_⟩
  · simp [binomialCE, viewsOf, hx', ht', hy, hi, flattenTF_ok, flattenTime_ok, same2_ok, same3_ok, sum_cols_keep]
  · simp [binomialCE, viewsOf, hx', ht', hy, hj, same2_ok, same3_ok, broadcastT, check]

theorem windowCount_positions {h p k s o : Nat} (e : Setup.windowCount h p k s = some o) :
    (o : Int) = positions h p k s := by
  unfold Setup.windowCount at e
  split_ifs at e with h1
  simp only at e
  split_ifs at e with h2
  cases e
  rw [Int.toNat_of_nonneg (by omega)]
  unfold positions
  congr 2
  omega

theorem conv_fwd {t h w c f kh kw' oh ow p : Nat} {st : Nat × Nat} (q1 : (oh : Int) = positions h p kh st.1)
    (q2 : (ow : Int) = positions w p kw' st.2) :
    convForward [t, h, w, c] [f, kh, kw', c] [f] [t, oh, ow, f] p st = some () :=
  check_ok ⟨rfl, rfl, rfl, by simp, q1, q2⟩

theorem conv_bwd {t h w c f kh kw' oh ow p : Nat} {st : Nat × Nat} (q1 : (oh : Int) = positions h p kh st.1)
    (q2 : (ow : Int) = positions w p kw' st.2) :
    convBackward [t, h, w, c] [f, kh, kw', c] p st [t, h, w, c] [t, oh, ow, f] [f, kh, kw', c] [f] = some () :=
  check_ok ⟨rfl, rfl, rfl, rfl, rfl, rfl, q1, q2⟩

theorem pool_fwd {t h w c oh ow p : Nat} {ks st : Nat × Nat} (q1 : (oh : Int) = positions h p ks.1 st.1)
    (q2 : (ow : Int) = positions w p ks.2 st.2) : poolForward [t, h, w, c] ks [t, oh, ow, c] p st = some () :=
  check_ok ⟨rfl, rfl, q1, q2⟩

theorem pool_bwd {t h w c oh ow p : Nat} {ks st : Nat × Nat} (q1 : (oh : Int) = positions h p ks.1 st.1)
    (q2 : (ow : Int) = positions w p ks.2 st.2) :
    poolBackward [t, h, w, c] ks [t, oh, ow, c] p st [t, h, w, c] [t, oh, ow, c] = some () := by
  simp only [poolBackward, same2_ok, pool_fwd q1 q2, Option.bind_eq_bind, Option.bind_some]

theorem runs_convolution2D (hk : Known kw) (hin : AllTB ins) (hd : Setup.convolution2D.decl n kw ins = some d)
    (hb : d.build = some sh) : Runs convolution2D kw ins sh T B := by
  simp only [Setup.convolution2D, Option.bind_eq_bind, Option.bind_eq_some_iff] at hd
  obtain ⟨x, hx, nf, hnf, ks, hks, st, hst, pd, hpd, hd⟩ := hd
  obtain ⟨f, fs, b, rfl⟩ := hin _ _ hx
  split at hd
  · rename_i h w c hf
    rw [featureShape_tb] at hf
    have hf' : f :: fs = [h, w, c] := map_n_inj hf
    rw [hf'] at hx
    simp only [Option.bind_eq_some_iff, Option.pure_def, Option.some.injEq] at hd
    obtain ⟨oh, hoh, ow, how, rfl⟩ := hd
    have hx' := at_in0 T B (inp_of hx)
    obtain ⟨h1, h2, h3⟩ := build_some hb
    simp only [tb?_three, mk?_four, mk?_one, declare, Option.map_some, Option.some.injEq] at h1 h2 h3
    obtain ⟨os, ps, is⟩ := sh
    simp only at h1 h2 h3
    subst h1 h2 h3
    have hact := known_ok hk (dflt := str "tanh") (by decide)
    have hy : at? (shapesOf [(str "default", tbS [oh, ow, nf])] T B) "default" = some [T, B, oh, ow, nf] := at_in0 T B rfl
    have hp : unpack2 (values (shapesOf [(str "W", ⟨[.n nf, .n ks.1, .n ks.2, .n c], 0, false⟩),
      (str "bias", ⟨[.n nf], 0, false⟩)] T B)) = some ([nf, ks.1, ks.2, c], [nf]) := rfl
    have q1 := windowCount_positions hoh
    have q2 := windowCount_positions how
    refine ⟨fun tr => ?_, ?_⟩
    · simp only [convolution2D, viewsOf, hst, hpd, hx', hy, hp, flattenTime_ok, conv_fwd q1 q2, Option.bind_eq_bind,
        Option.bind_some, inplaceAct_ok hact]
    · simp only [convolution2D, viewsOf, hst, hpd, hx', hy, hp, flattenTime_ok, conv_bwd q1 q2, Option.bind_eq_bind,
        Option.bind_some, inplaceActDeriv_ok hact]
  · cases hd

theorem runs_pooling2D (hin : AllTB ins) (hd : Setup.pooling2D.decl n kw ins = some d)
    (hb : d.build = some sh) : Runs pooling2D kw ins sh T B := by
  simp only [Setup.pooling2D, Option.bind_eq_bind, Option.bind_eq_some_iff] at hd
  obtain ⟨x, hx, ks, hks, mx, hmx, pd, hpd, st, hst, hd⟩ := hd
  obtain ⟨f, fs, b, rfl⟩ := hin _ _ hx
  split at hd
  · rename_i h w c hf
    rw [featureShape_tb] at hf
    have hf' : f :: fs = [h, w, c] := map_n_inj hf
    rw [hf'] at hx
    simp only [Option.bind_eq_some_iff, Option.pure_def, Option.some.injEq, Option.ite_none_left_eq_some] at hd
    obtain ⟨oh, hoh, ow, how, -, rfl⟩ := hd
    have hx' := at_in0 T B (inp_of hx)
    obtain ⟨h1, h2, h3⟩ := build_some hb
    have q1 := windowCount_positions hoh
    have q2 := windowCount_positions how
    have hy : at? (shapesOf [(str "default", tbS [oh, ow, c])] T B) "default" = some [T, B, oh, ow, c] := at_in0 T B rfl
    have hm : at? (shapesOf [(str "argmax", tbS [oh, ow, c])] T B) "argmax" = some [T, B, oh, ow, c] := at_in0 T B rfl
    cases mx
    · simp only [tb?_three, declare, Option.map_some, Option.some.injEq, Bool.false_eq_true, if_false] at h1 h2 h3
      obtain ⟨os, ps, is⟩ := sh
      simp only at h1 h2 h3
      subst h1 h2 h3
      refine ⟨fun tr => ?_, ?_⟩
      · unfold pooling2D
        dsimp only
        rw [hks, hmx, hst, hpd]
        simp only [viewsOf, hx', hy, flattenTime_ok, pool_fwd q1 q2, Option.bind_eq_bind,
          Option.bind_some, Bool.false_eq_true, if_false]
      · unfold pooling2D
        dsimp only
        rw [hks, hmx, hst, hpd]
        simp only [viewsOf, hx', hy, flattenTime_ok, pool_bwd q1 q2,
          Option.bind_eq_bind, Option.bind_some, Bool.false_eq_true, if_false, same2_ok]
    · simp only [tb?_three, declare, Option.map_some, Option.some.injEq, if_true] at h1 h2 h3
      obtain ⟨os, ps, is⟩ := sh
      simp only at h1 h2 h3
      subst h1 h2 h3
      refine ⟨fun tr => ?_, ?_⟩
      · unfold pooling2D
        dsimp only
        rw [hks, hmx, hst, hpd]
        simp only [viewsOf, hx', hy, hm, flattenTime_ok, pool_fwd q1 q2, Option.bind_eq_bind,
          Option.bind_some, if_true, same2_ok]
      · unfold pooling2D
        dsimp only
        rw [hks, hmx, hst, hpd]
        simp only [viewsOf, hx', hy, hm, flattenTime_ok, pool_bwd q1 q2,
          Option.bind_eq_bind, Option.bind_some, if_true, same2_ok]
  · cases hd

end

end Verif.Shapes
