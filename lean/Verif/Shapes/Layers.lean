import Verif.Shapes.Lemmas

/-! # Lemmas: the passes of every layer type succeed -/

namespace Verif.Shapes

open Verif.Structure Verif.Instantiate
open Verif.Setup (Kwargs KVal inp intSize pairArg intArg poolIsMax mk? tb? mk?_some inp_some declare Decl)

attribute [local congr] bind_congr_left do_congr_left

/-- Both passes of a layer succeed. -/
def Runs (p : Passes) (kw : Kwargs) (ins : Dict Name Struct) (sh : Instantiate.Shapes) (T B : Nat) : Prop :=
  (∀ training, p.forward ⟨kw, ins⟩ (viewsOf ins sh T B) training = some ()) ∧
    p.backward ⟨kw, ins⟩ (viewsOf ins sh T B) = some ()

/-- All inputs have the shape `('T', 'B', ...)` and no context. -/
def AllTB (ins : Dict Name Struct) : Prop := ∀ k s, inp ins k = some s → ∃ f fs b, s = tbS (f :: fs) 0 b

macro "open_setup" h:ident : tactic => `(tactic| (
  simp only [Setup.fullyConnected, Setup.elementwise, Setup.noOp, Setup.deltasScaling, Setup.sameShape, Setup.highway,
    Setup.dropout, Setup.mask, Setup.merge, Setup.loss, Setup.l1Decay, Setup.l2Decay, Setup.recurrent, Setup.clockwork,
    Setup.lstm, Setup.clockworkLstm, Setup.batchNorm, Setup.sigmoidCE, Setup.softmaxCE, Setup.squaredDifference,
    Setup.squaredError, Setup.binomialCE, Setup.convolution2D, Setup.pooling2D, Option.bind_eq_bind,
    Option.bind_eq_some_iff, Option.pure_def, Option.some.injEq, Option.ite_none_left_eq_some,
    Option.ite_none_right_eq_some] at $h:ident))

section
variable {n : Name} {kw : Kwargs} {ins : Dict Name Struct} {d : Decl} {sh : Instantiate.Shapes} (T B : Nat)

theorem runs_fullyConnected (hk : Known kw) (hin : AllTB ins)
    (hd : Setup.fullyConnected.decl n kw ins = some d) (hb : d.build = some sh) : Runs fullyConnected kw ins sh T B := by
  open_setup hd
  obtain ⟨x, hx, sz, hsz, o, ho, rfl⟩ := hd
  obtain ⟨f, fs, b, rfl⟩ := hin _ _ hx
  have hx' := at_in0 T B (inp_of hx)
  obtain ⟨gs, hgs, hg⟩ : ∃ gs : List Nat, gs ≠ [] ∧ o = tbS gs := by
    obtain ⟨rfl, hv⟩ := mk?_some ho
    obtain ⟨gs, hne, e⟩ := Setup.feature_nums hv
    refine ⟨gs, hne, ?_⟩
    simp only [Struct.featureShape, Struct.bufferType, typeOf_tb, List.drop_succ_cons, List.drop_zero] at e
    rw [e]
  subst hg
  obtain ⟨g, gs, rfl⟩ := List.exists_cons_of_ne_nil hgs
  obtain ⟨h1, h2, h3⟩ := build_some hb
  simp only [declare, featureSize_cons, mk?_one, mk?_two, Option.map_some, Option.some.injEq] at h1 h2 h3
  have hact := known_ok hk (dflt := str "rel") (by decide)
  obtain ⟨os, ps, is⟩ := sh
  simp only at h1 h2 h3
  subst h1 h2 h3
  have hy : at? (shapesOf [(str "default", tbS (g :: gs))] T B) "default" = some (T :: B :: g :: gs) := at_in0 T B rfl
  have hp : unpack2 (values (shapesOf [(str "W", ⟨[.n (g * gs.prod), .n (f * fs.prod)], 0, false⟩),
      (str "bias", ⟨[.n (g * gs.prod)], 0, false⟩)] T B)) = some ([g * gs.prod, f * fs.prod], [g * gs.prod]) := rfl
  refine ⟨fun tr => ?_, ?_⟩
  · simp [fullyConnected, viewsOf, hx', hy, hp, flattenTF_ok, dot_nt, dim, row_ok, opMV_row, inplaceAct_ok hact]
  · simp [fullyConnected, viewsOf, hx', hy, hp, flattenTF_ok, dot_nn, dot_tn, sum_rows, inplaceActDeriv_ok hact]

theorem runs_sameShape {p : Passes} (hin : AllTB ins) (hd : Setup.sameShape ins = some d) (hb : d.build = some sh)
    (hp : ∀ v : Views, ∀ s : Sh, at? v.inputs "default" = some s → at? v.outputs "default" = some s →
      at? v.inputDeltas "default" = some s → at? v.outputDeltas "default" = some s →
      (∀ tr, p.forward ⟨kw, ins⟩ v tr = some ()) ∧ p.backward ⟨kw, ins⟩ v = some ()) : Runs p kw ins sh T B := by
  open_setup hd
  obtain ⟨x, hx, rfl⟩ := hd
  obtain ⟨f, fs, b, rfl⟩ := hin _ _ hx
  have hx' := at_in0 T B (inp_of hx)
  obtain ⟨h1, h2, h3⟩ := build_some hb
  simp only [declare, Option.map_some, Option.some.injEq] at h1 h2 h3
  obtain ⟨os, ps, is⟩ := sh
  simp only at h1 h2 h3
  subst h1 h2 h3
  have hy : at? (shapesOf [(str "default", tbS (f :: fs) 0 b)] T B) "default" = some (T :: B :: f :: fs) := at_in0 T B rfl
  exact hp _ _ hx' hy hx' hy

theorem runs_elementwise (hk : Known kw) (hin : AllTB ins) (hd : Setup.elementwise.decl n kw ins = some d)
    (hb : d.build = some sh) : Runs elementwise kw ins sh T B := by
  have hact := known_ok hk (dflt := str "rel") (by decide)
  refine runs_sameShape T B hin hd hb fun v s h1 h2 h3 h4 => ⟨fun tr => ?_, ?_⟩
  · simp [elementwise, h1, h2, act_ok hact]
  · simp [elementwise, h1, h2, h3, h4, actDeriv_ok hact, same3_ok]

theorem runs_noOp (hin : AllTB ins) (hd : Setup.noOp.decl n kw ins = some d)
    (hb : d.build = some sh) : Runs noOp kw ins sh T B := by
  refine runs_sameShape T B hin hd hb fun v s h1 h2 h3 h4 => ⟨fun tr => ?_, ?_⟩
  · simp [noOp, h1, h2, same2_ok]
  · simp [noOp, h3, h4, same3_ok]

theorem runs_deltasScaling (hin : AllTB ins) (hd : Setup.deltasScaling.decl n kw ins = some d)
    (hb : d.build = some sh) : Runs deltasScaling kw ins sh T B := by
  simp only [Setup.deltasScaling, Option.ite_none_right_eq_some] at hd
  refine runs_sameShape T B hin hd.2 hb fun v s h1 h2 h3 h4 => ⟨fun tr => ?_, ?_⟩
  · simp [deltasScaling, h1, h2, same2_ok]
  · simp [deltasScaling, h3, h4, same2_ok]

theorem runs_highway (hin : AllTB ins) (hd : Setup.highway.decl n kw ins = some d)
    (hb : d.build = some sh) : Runs highway kw ins sh T B := by
  open_setup hd
  obtain ⟨h, hh, t, ht, x, hx, e1, e2, rfl⟩ := hd
  obtain ⟨f, fs, b, rfl⟩ := hin _ _ hx
  obtain ⟨f', fs', b', rfl⟩ := hin _ _ hh
  obtain ⟨f'', fs'', b'', rfl⟩ := hin _ _ ht
  have q1 : f' :: fs' = f'' :: fs'' := by
    have := not_not.1 e1
    simp only [List.cons.injEq, true_and] at this
    exact (List.map_injective_iff.2 (fun a b h => by cases h; rfl)) this
  have q2 : f' :: fs' = f :: fs := by
    have := not_not.1 e2
    simp only [List.cons.injEq, true_and] at this
    exact (List.map_injective_iff.2 (fun a b h => by cases h; rfl)) this
  rw [← q1] at ht
  rw [q2] at ht hh
  have hx' := at_in0 T B (inp_of hx)
  have hh' := at_in0 T B (inp_of hh)
  have ht' := at_in0 T B (inp_of ht)
  obtain ⟨h1, h2, h3⟩ := build_some hb
  rw [featureShape_tb, tb?_nums (by simp)] at h1
  simp only [declare, Option.map_some, Option.some.injEq] at h1 h2 h3
  obtain ⟨os, ps, is⟩ := sh
  simp only at h1 h2 h3
  subst h1 h2 h3
  have hy : at? (shapesOf [(str "default", tbS (f :: fs))] T B) "default" = some (T :: B :: f :: fs) := at_in0 T B rfl
  refine ⟨fun tr => ?_, ?_⟩
  · simp [highway, viewsOf, hx', hh', ht', hy, same3_ok]
  · simp [highway, viewsOf, hx', hh', ht', hy, same3_ok]

theorem runs_dropout (hin : AllTB ins) (hd : Setup.dropout.decl n kw ins = some d)
    (hb : d.build = some sh) : Runs dropout kw ins sh T B := by
  open_setup hd
  obtain ⟨x, hx, rfl⟩ := hd
  obtain ⟨f, fs, b, rfl⟩ := hin _ _ hx
  have hx' := at_in0 T B (inp_of hx)
  obtain ⟨h1, h2, h3⟩ := build_some hb
  simp only [declare, Option.map_some, Option.some.injEq] at h1 h2 h3
  obtain ⟨os, ps, is⟩ := sh
  simp only at h1 h2 h3
  subst h1 h2 h3
  have hy : at? (shapesOf [(str "default", tbS (f :: fs) 0 b)] T B) "default" = some (T :: B :: f :: fs) := at_in0 T B rfl
  have hm : at? (shapesOf [(str "mask", tbS (f :: fs) 0 b)] T B) "mask" = some (T :: B :: f :: fs) := at_in0 T B rfl
  refine ⟨fun tr => ?_, ?_⟩
  · cases tr <;> simp [dropout, viewsOf, hx', hy, hm, same3_ok, same2_ok]
  · simp [dropout, viewsOf, hx', hy, hm, same3_ok]

theorem map_n_inj {a b : List Nat} (h : a.map Tok.n = b.map Tok.n) : a = b :=
  (List.map_injective_iff.2 (fun a b h => by cases h; rfl)) h

theorem runs_mask (hin : AllTB ins) (hd : Setup.mask.decl n kw ins = some d)
    (hb : d.build = some sh) : Runs mask kw ins sh T B := by
  open_setup hd
  obtain ⟨x, hx, m, hm, e, rfl⟩ := hd
  obtain ⟨f, fs, b, rfl⟩ := hin _ _ hx
  obtain ⟨g, gs, b', rfl⟩ := hin _ _ hm
  have hx' := at_in0 T B (inp_of hx)
  have hm' := at_in0 T B (inp_of hm)
  obtain ⟨h1, h2, h3⟩ := build_some hb
  simp only [declare, Option.map_some, Option.some.injEq] at h1 h2 h3
  obtain ⟨os, ps, is⟩ := sh
  simp only at h1 h2 h3
  subst h1 h2 h3
  have hy : at? (shapesOf [(str "default", tbS (f :: fs) 0 b)] T B) "default" = some (T :: B :: f :: fs) := at_in0 T B rfl
  simp only [featureShape_tb] at e
  obtain ⟨dim, r, c, v, hdim, hfx, hfm, hmul⟩ : ∃ dim r c v, Self.flattenDim ⟨kw, ins⟩ = some dim ∧
      flattenAt dim (T :: B :: f :: fs) = some [r, c] ∧ flattenAt dim (T :: B :: g :: gs) = some v ∧
      multMV [r, c] v [r, c] = some () := by
    have hdim : Self.flattenDim ⟨kw, ins⟩ = some (if (g :: gs).map Tok.n = [Tok.n 1] then 2 else (f :: fs).length + 1) := by
      simp [Self.flattenDim, hx, hm, featureShape_tb]
    by_cases hone : (g :: gs).map Tok.n = [Tok.n 1]
    · rw [if_pos hone] at hdim
      have hg : g :: gs = [1] := map_n_inj hone
      rw [hg]
      refine ⟨2, T * B, f * fs.prod, [T * B, 1], hdim, ?_, ?_, multMV_col _ _⟩ <;>
        simp [flattenAt, reshape, Nat.mul_assoc]
    · rw [if_neg hone] at hdim
      obtain ⟨lead, k, hlk⟩ : ∃ lead k, f :: fs = lead ++ [k] :=
        ⟨(f :: fs).dropLast, (f :: fs).getLast (by simp), (List.dropLast_append_getLast _).symm⟩
      have hlen : (f :: fs).length + 1 = lead.length + 2 := by rw [hlk]; simp
      rw [hlen] at hdim
      have hflat : ∀ k', flattenAt (lead.length + 2) (T :: B :: (lead ++ [k'])) = some [T * (B * lead.prod), k'] := by
        intro k'
        simp [flattenAt, reshape, Nat.mul_assoc]
      rw [hlk] at e ⊢
      rcases e with e | e | e
      · exact absurd e hone
      · rw [← List.map_dropLast, List.dropLast_concat] at e
        have hg : g :: gs = lead ++ [1] := map_n_inj (by rw [e]; simp)
        rw [hg]
        exact ⟨_, _, _, _, hdim, hflat k, hflat 1, multMV_col _ _⟩
      · rw [map_n_inj e]
        exact ⟨_, _, _, _, hdim, hflat k, hflat k, multMV_all _ _⟩
  refine ⟨fun tr => ?_, ?_⟩
  · simp [mask, viewsOf, hx', hm', hy, hdim, hfx, hfm, hmul]
  · simp [mask, viewsOf, hx', hm', hy, hdim, hfx, hfm, hmul, same3_ok]

theorem runs_l1Decay (hin : AllTB ins) (hd : Setup.l1Decay.decl n kw ins = some d)
    (hb : d.build = some sh) : Runs l1Decay kw ins sh T B := by
  open_setup hd
  obtain ⟨x, hx, rfl⟩ := hd
  obtain ⟨f, fs, b, rfl⟩ := hin _ _ hx
  have hx' := at_in0 T B (inp_of hx)
  obtain ⟨h1, h2, h3⟩ := build_some hb
  simp only [declare, tb?_one, Option.map_some, Option.some.injEq] at h1 h2 h3
  obtain ⟨os, ps, is⟩ := sh
  simp only at h1 h2 h3
  subst h1 h2 h3
  have hy : at? (shapesOf [(str "loss", tbS [1])] T B) "loss" = some [T, B, 1] := at_in0 T B rfl
  have hm : at? (shapesOf [(str "tmp", tbS (f :: fs) 0 b)] T B) "tmp" = some (T :: B :: f :: fs) := at_in0 T B rfl
  refine ⟨fun tr => ?_, ?_⟩
  · simp [l1Decay, viewsOf, hx', hy, hm, flattenTF_ok, flattenTime_ok, same2_ok, sum_cols_keep]
  · simp [l1Decay, viewsOf, hx', hy, hm, flattenTF_ok, flattenTime_ok, same2_ok, same3_ok, multMV_col]

theorem runs_l2Decay (hin : AllTB ins) (hd : Setup.l2Decay.decl n kw ins = some d)
    (hb : d.build = some sh) : Runs l2Decay kw ins sh T B := by
  open_setup hd
  obtain ⟨x, hx, rfl⟩ := hd
  obtain ⟨f, fs, b, rfl⟩ := hin _ _ hx
  have hx' := at_in0 T B (inp_of hx)
  obtain ⟨h1, h2, h3⟩ := build_some hb
  have hdq : mk? (tbS (f :: fs) 0 b).shape 0 true = some (tbS (f :: fs) 0 true) := tb?_nums (by simp) 0 true
  simp only [hdq] at h3
  simp only [declare, tb?_one, Option.map_some, Option.some.injEq] at h1 h2 h3
  obtain ⟨os, ps, is⟩ := sh
  simp only at h1 h2 h3
  subst h1 h2 h3
  have hy : at? (shapesOf [(str "loss", tbS [1])] T B) "loss" = some [T, B, 1] := at_in0 T B rfl
  have hm : at? (shapesOf [(str "tmp", tbS (f :: fs) 0 b), (str "dsq_activations", tbS (f :: fs) 0 true)] T B) "tmp" =
    some (T :: B :: f :: fs) := at_in0 T B rfl
  refine ⟨fun tr => ?_, ?_⟩
  · simp [l2Decay, viewsOf, hx', hy, hm, flattenTF_ok, flattenTime_ok, same2_ok, same3_ok, sum_cols_keep]
  · simp [l2Decay, viewsOf, hx', hy, hm, flattenTF_ok, flattenTime_ok, same3_ok, multMV_col]

theorem runs_loss (hv : ∀ k s, inp ins k = some s → s.validate = .ok ()) (hc : ∀ k s, inp ins k = some s → s.contextSize = 0)
    (hd : Setup.loss.decl n kw ins = some d) (hb : d.build = some sh) : Runs loss kw ins sh T B := by
  open_setup hd
  obtain ⟨x, hx, -, rfl⟩ := hd
  obtain ⟨h1, h2, h3⟩ := build_some hb
  simp only [declare, mk?_one, Option.map_some, Option.some.injEq] at h1 h2 h3
  obtain ⟨os, ps, is⟩ := sh
  simp only at h1 h2 h3
  subst h1 h2 h3
  have hy : at? (shapesOf [(str "loss", ⟨[.n 1], 0, false⟩)] T B) "loss" = some [1] := rfl
  have hx' : at? (shapesOf ins T B) "default" = some (Buffers.structShape x T B) := by
    rw [at?, get?_shapesOf, inp_of hx]; rfl
  have hbi : ∃ i, Self.batchIndex ⟨kw, ins⟩ = some i ∧ batchSize (Buffers.structShape x T B) i = some () := by
    refine ⟨_, by simp [Self.batchIndex, hx]; rfl, ?_⟩
    obtain ⟨p, fs, hne, hs, -⟩ := (C13_structures x).1 (hv _ _ hx)
    obtain ⟨f, fs, rfl⟩ := List.exists_cons_of_ne_nil hne
    simp only [Buffers.structShape, Struct.featureShape, Struct.bufferType, hs]
    cases p <;> simp [shapeOf, Scaling.marks, typeOf, batchSize, dim]
  obtain ⟨i, hi, hbs⟩ := hbi
  refine ⟨fun tr => ?_, ?_⟩
  · simp [loss, viewsOf, hx', hy, hi, hbs, reshape, sumAll, check, same2]
  · simp [loss, viewsOf, hx', hi, hbs, same2_ok]

end

end Verif.Shapes
