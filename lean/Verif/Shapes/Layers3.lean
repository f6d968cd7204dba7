import Verif.Shapes.Layers2

/-! # Lemmas: the passes of the recurrent layer types succeed -/

namespace Verif.Shapes

open Verif.Structure Verif.Instantiate
open Verif.Setup (Kwargs KVal inp intSize pairArg intArg poolIsMax mk? tb? mk?_some inp_some declare Decl)

theorem bind_ok {α β : Type} {a : Option α} {x : α} {f : α → Option β} {r : Option β} (h : a = some x) (h' : f x = r) :
    (a >>= f) = r := by subst h; exact h'

/-- Walks down a `do` block, discharging each statement with one of the given facts. -/
macro "run" "[" ts:term,* "]" : tactic => do
  let ts := ts.getElems
  `(tactic| (repeat (refine bind_ok (by first $[| with_reducible exact $ts]*) ?_; try dsimp only)
             try (first $[| with_reducible exact $ts]*)))

/-- The views of a layer with one input and one output, whatever the parameters. -/
structure RecViews (v : Views) (T B f : Nat) (fs : List Nat) (n : Nat) : Prop where
  x : at? v.inputs "default" = some (T :: B :: f :: fs)
  dx : at? v.inputDeltas "default" = some (T :: B :: f :: fs)
  y : at? v.outputs "default" = some [T + 1, B, n]
  dy : at? v.outputDeltas "default" = some [T + 1, B, n]

theorem size_ok {kw : Kwargs} {ins : Dict Name Struct} {x : Struct} {n : Nat} (hx : inp ins (str "default") = some x)
    (hn : intSize kw x.featureSize = some n) : Self.size ⟨kw, ins⟩ = some n := by
  simp only [Self.size, hx, Option.bind_eq_bind, Option.bind_some, hn]

theorem idx_nat {T t : Nat} (h : t < T) (r : Sh) : idx ((T + 1) :: r) (t : Int) = some r := idx_ok (by omega) (by omega)
theorem idx_prev {T t : Nat} (h : t < T) (r : Sh) : idx ((T + 1) :: r) ((t : Int) - 1) = some r := idx_ok (by omega) (by omega)
theorem idx_next {T t : Nat} (h : t < T) (r : Sh) : idx ((T + 1) :: r) ((t : Int) + 1) = some r := idx_ok (by omega) (by omega)
theorem idx_last (T : Nat) (r : Sh) : idx ((T + 1) :: r) (-1) = some r := idx_ok (by omega) (by omega)
theorem idx_zero (T : Nat) (r : Sh) : idx ((T + 1) :: r) 0 = some r := idx_ok (by omega) (by omega)
theorem idx_pred (T : Nat) (r : Sh) : idx ((T + 1) :: r) ((T : Int) - 1) = some r := idx_ok (by omega) (by omega)

theorem slice_01 (T : Nat) (r : Sh) : slice ((T + 1) :: r) 0 1 = some (T :: r) := rfl
theorem slice_02 (T : Nat) (r : Sh) : slice ((T + 1) :: r) 0 2 = some ((T - 1) :: r) := by simp [slice]
theorem slice_11 (T : Nat) (r : Sh) : slice ((T + 1) :: r) 1 1 = some ((T - 1) :: r) := by simp [slice]
theorem dim_zero (a : Nat) (r : Sh) : dim (a :: r) 0 = some a := rfl
theorem dim_one (a b : Nat) (r : Sh) : dim (a :: b :: r) 1 = some b := rfl

theorem clockCond_ok (B n : Nat) : clockCond [n] [B, n] = some () := by
  simp only [clockCond, same3_ok, dim_zero, row_ok, Option.bind_eq_bind, Option.bind_some]
  exact check_ok (by simp)

section
variable {n : Name} {kw : Kwargs} {ins : Dict Name Struct} {d : Decl} {sh : Instantiate.Shapes} (T B : Nat)

theorem runs_recurrent (hk : Known kw) (hin : AllTB ins) (hd : Setup.recurrent.decl n kw ins = some d)
    (hb : d.build = some sh) : Runs recurrent kw ins sh T B := by
  open_setup hd
  obtain ⟨x, hx, m, hm, rfl⟩ := hd
  have hsize := size_ok hx hm
  obtain ⟨f, fs, b, rfl⟩ := hin _ _ hx
  have hx' := at_in0 T B (inp_of hx)
  obtain ⟨h1, h2, h3⟩ := build_some hb
  simp only [declare, featureSize_cons, tb?_one, mk?_one, mk?_two, Option.map_some, Option.some.injEq] at h1 h2 h3
  have hact := known_ok hk (dflt := str "tanh") (by decide)
  obtain ⟨os, ps, is⟩ := sh
  simp only at h1 h2 h3
  subst h1 h2 h3
  unfold Runs
  generalize hv : viewsOf ins _ T B = v
  have vx : at? v.inputs "default" = some (T :: B :: f :: fs) := by rw [← hv]; exact hx'
  have vdx : at? v.inputDeltas "default" = some (T :: B :: f :: fs) := by rw [← hv]; exact hx'
  have vy : at? v.outputs "default" = some [T + 1, B, m] := by rw [← hv]; rfl
  have vdy : at? v.outputDeltas "default" = some [T + 1, B, m] := by rw [← hv]; rfl
  have vp : unpack3 (values v.parameters) = some ([m, f * fs.prod], [m, m], [m]) := by rw [← hv]; rfl
  have vg : unpack3 (values v.gradients) = some ([m, f * fs.prod], [m, m], [m]) := by rw [← hv]; rfl
  have vi : unpack3 (values v.internals) = some ([T + 1, B, m], [T + 1, B, m], [T + 1, B, m]) := by rw [← hv]; rfl
  have vH : at? v.internals "Ha" = some [T + 1, B, m] := by rw [← hv]; rfl
  clear hv hb hx hm hx'
  refine ⟨fun tr => ?_, ?_⟩
  · unfold recurrent
    dsimp only
    run [vp, vx, vy, vH, hsize, flattenTF_ok _ _ _ _, slice_01 _ _, flattenTime_ok _ _ _ _, dot_nt _ _ _, row_ok _,
      opMV_row _ _, dim_zero _ _]
    apply loop_ok
    intro t ht
    run [idx_nat ht _, idx_prev ht _, dot_nt _ _ _, act_ok hact _]
  · unfold recurrent
    dsimp only
    run [vp, vg, vx, vdx, vy, vdy, vi, same2_ok _, dim_zero _ _, idx_pred _ _, actDeriv_ok hact _]
    refine bind_ok (x := ()) (loop_ok fun t ht => ?_) ?_
    · have ht' : t < T := by omega
      run [idx_nat ht' _, idx_next ht' _, dot_nn _ _ _, actDeriv_ok hact _]
    · run [flattenTF_ok _ _ _ _, slice_01 _ _, slice_02 _ _, slice_11 _ _, flattenTime_ok _ _ _ _, dot_nn _ _ _, dot_tn _ _ _,
        sum_rows _ _, same3_ok _, idx_zero _ _, idx_last _ _]

theorem runs_clockwork (hk : Known kw) (hin : AllTB ins) (hd : Setup.clockwork.decl n kw ins = some d)
    (hb : d.build = some sh) : Runs clockwork kw ins sh T B := by
  open_setup hd
  obtain ⟨x, hx, m, hm, rfl⟩ := hd
  have hsize := size_ok hx hm
  obtain ⟨f, fs, b, rfl⟩ := hin _ _ hx
  have hx' := at_in0 T B (inp_of hx)
  obtain ⟨h1, h2, h3⟩ := build_some hb
  simp only [declare, featureSize_cons, tb?_one, mk?_one, mk?_two, Option.map_some, Option.some.injEq] at h1 h2 h3
  have hact := known_ok hk (dflt := str "tanh") (by decide)
  obtain ⟨os, ps, is⟩ := sh
  simp only at h1 h2 h3
  subst h1 h2 h3
  unfold Runs
  generalize hv : viewsOf ins _ T B = v
  have vx : at? v.inputs "default" = some (T :: B :: f :: fs) := by rw [← hv]; exact hx'
  have vdx : at? v.inputDeltas "default" = some (T :: B :: f :: fs) := by rw [← hv]; exact hx'
  have vy : at? v.outputs "default" = some [T + 1, B, m] := by rw [← hv]; rfl
  have vdy : at? v.outputDeltas "default" = some [T + 1, B, m] := by rw [← hv]; rfl
  have vp : unpack4 (values v.parameters) = some ([m, f * fs.prod], [m, m], [m], [m]) := by rw [← hv]; rfl
  have vg : unpack4 (values v.gradients) = some ([m, f * fs.prod], [m, m], [m], [m]) := by rw [← hv]; rfl
  have vi : unpack3 (values v.internals) = some ([T + 1, B, m], [T + 1, B, m], [T + 1, B, m]) := by rw [← hv]; rfl
  have vH : at? v.internals "Ha" = some [T + 1, B, m] := by rw [← hv]; rfl
  clear hv hb hx hm hx'
  refine ⟨fun tr => ?_, ?_⟩
  · unfold clockwork
    dsimp only
    run [vp, vx, vy, vH, hsize, flattenTF_ok _ _ _ _, slice_01 _ _, flattenTime_ok _ _ _ _, dot_nt _ _ _, row_ok _,
      opMV_row _ _, dim_zero _ _, idx_zero _ _]
    apply loop_ok
    intro t ht
    run [idx_nat ht _, idx_prev ht _, dot_nt _ _ _, act_ok hact _, clockCond_ok _ _, same3_ok _, ite_self _]
    split
    · run [clockCond_ok _ _, idx_nat ht _, idx_prev ht _, same3_ok _]
    · rfl
  · unfold clockwork
    dsimp only
    run [vp, vg, vx, vdx, vy, vdy, vi, same2_ok _, dim_zero _ _, idx_pred _ _, idx_zero _ _, actDeriv_ok hact _]
    refine bind_ok (x := ()) (loop_ok fun t ht => ?_) ?_
    · have ht' : t < T := by omega
      run [idx_nat ht' _, idx_next ht' _, dot_nn _ _ _, actDeriv_ok hact _, clockCond_ok _ _, same2_ok _, same3_ok _]
    · run [flattenTF_ok _ _ _ _, slice_01 _ _, slice_02 _ _, slice_11 _ _, flattenTime_ok _ _ _ _, dot_nn _ _ _, dot_tn _ _ _,
        sum_rows _ _, same3_ok _, idx_zero _ _, idx_last _ _]

/-! ### LSTM -/

/-- The shapes of the parameters of an LSTM with `m` cells and `k` inputs. -/
def stdP (m k : Nat) : LstmP :=
  ⟨[m, k], [m, k], [m, k], [m, k], [1, m], [1, m], [1, m], [m, m], [m, m], [m, m], [m, m], [m], [m], [m], [m]⟩

/-- The shapes of its internal buffers. -/
def stdI (s : Sh) : LstmI := ⟨s, s, s, s, s, s, s, s, s, s, s, s, s, s, s, s, s, s, s, s⟩

theorem deriv_ok (x : Sh) : deriv x x x x = some () := by simp [deriv, check]

theorem lstmInputs_ok (m : Nat) (f : Nat) (fs : List Nat) :
    lstmInputs (stdP m (f * fs.prod)) (stdI [T + 1, B, m]) (T :: B :: f :: fs) = some () := by
  unfold lstmInputs stdP stdI
  dsimp only
  run [flattenTF_ok _ _ _ _, flattenTime_ok _ _ _ _, slice_01 _ _, dot_nt _ _ _]

theorem lstmStep_ok {a : Option Name} (ha : known a = some ()) (m k : Nat) {t : Nat} (ht : t < T) :
    lstmStep a m (stdP m k) (stdI [T + 1, B, m]) [T + 1, B, m] t = some () := by
  unfold lstmStep stdP stdI
  dsimp only
  run [idx_nat ht _, idx_prev ht _, dot_nt _ _ _, row_ok _, opMV_row _ _, act_ok ha _, same2_ok _, same3_ok _]

theorem lstmBackStep_ok {a : Option Name} (ha : known a = some ()) (m k : Nat) {t : Nat} (ht : t < T) :
    lstmBackStep a (stdP m k) (stdI [T + 1, B, m]) [T + 1, B, m] [T + 1, B, m] t = some () := by
  unfold lstmBackStep stdP stdI
  dsimp only
  run [idx_nat ht _, idx_prev ht _, idx_next ht _, dot_nn _ _ _, opMV_row _ _, actDeriv_ok ha _, deriv_ok _, same2_ok _,
    same3_ok _]

theorem cwLstmBackStep_ok {a : Option Name} (ha : known a = some ()) (m k : Nat) {t : Nat} (ht : t < T) :
    cwLstmBackStep a (stdP m k) [m] (stdI [T + 1, B, m]) [T + 1, B, m] [T + 1, B, m] [B, m] t = some () := by
  unfold cwLstmBackStep stdP stdI
  dsimp only
  run [idx_nat ht _, idx_prev ht _, idx_next ht _, dot_nn _ _ _, opMV_row _ _, actDeriv_ok ha _, deriv_ok _, same2_ok _,
    same3_ok _, clockCond_ok _ _]

theorem lstmGrads_ok (m f : Nat) (fs : List Nat) :
    lstmGrads (stdP m (f * fs.prod)) (stdP m (f * fs.prod)) (stdI [T + 1, B, m]) (T :: B :: f :: fs) (T :: B :: f :: fs) =
      some () := by
  unfold lstmGrads stdP stdI
  dsimp only
  run [flattenTF_ok _ _ _ _, flattenTime_ok _ _ _ _, slice_01 _ _, dot_nn _ _ _, dot_tn _ _ _, sum_rows _ _, same3_ok _]

theorem lstmRecGrads_ok (m k : Nat) :
    lstmRecGrads (stdP m k) (stdI [T + 1, B, m]) [T + 1, B, m] [T + 1, B, m] = some () := by
  unfold lstmRecGrads stdP stdI
  dsimp only
  run [flattenTime_ok _ _ _ _, slice_01 _ _, slice_02 _ _, slice_11 _ _, idx_zero _ _, idx_last _ _, dot_tn _ _ _,
    sum_rows_keep _ _, same3_ok _]

theorem runs_lstm (hk : Known kw) (hin : AllTB ins) (hd : Setup.lstm.decl n kw ins = some d)
    (hb : d.build = some sh) : Runs lstm kw ins sh T B := by
  open_setup hd
  obtain ⟨x, hx, m, hm, rfl⟩ := hd
  have hsize := size_ok hx hm
  obtain ⟨f, fs, b, rfl⟩ := hin _ _ hx
  have hx' := at_in0 T B (inp_of hx)
  obtain ⟨h1, h2, h3⟩ := build_some hb
  simp only [Setup.lstmParams, Setup.lstmInternals, declare, featureSize_cons, tb?_one, mk?_one, mk?_two, Option.map_some, Option.some.injEq] at h1 h2 h3
  have hact := known_ok hk (dflt := str "tanh") (by decide)
  obtain ⟨os, ps, is⟩ := sh
  simp only at h1 h2 h3
  subst h1 h2 h3
  unfold Runs
  generalize hv : viewsOf ins _ T B = v
  have vx : at? v.inputs "default" = some (T :: B :: f :: fs) := by rw [← hv]; exact hx'
  have vdx : at? v.inputDeltas "default" = some (T :: B :: f :: fs) := by rw [← hv]; exact hx'
  have vy : at? v.outputs "default" = some [T + 1, B, m] := by rw [← hv]; rfl
  have vdy : at? v.outputDeltas "default" = some [T + 1, B, m] := by rw [← hv]; rfl
  have vp : lstmP (values v.parameters) = some (stdP m (f * fs.prod)) := by rw [← hv]; rfl
  have vg : lstmP (values v.gradients) = some (stdP m (f * fs.prod)) := by rw [← hv]; rfl
  have vi : lstmI (values v.internals) = some (stdI [T + 1, B, m]) := by rw [← hv]; rfl
  clear hv hb hx hm hx'
  refine ⟨fun tr => ?_, ?_⟩
  · unfold lstm
    dsimp only
    run [vp, vx, vy, vi, hsize, dim_zero _ _, dim_one _ _ _, lstmInputs_ok _ _ _ _ _]
    exact loop_ok fun t ht => lstmStep_ok T B hact m _ ht
  · unfold lstm
    dsimp only
    run [vp, vg, vx, vdx, vy, vdy, vi, dim_zero _ _, dim_one _ _ _,
      loop_ok (fun t (ht : t < T) => lstmBackStep_ok T B hact m (f * fs.prod) ht), lstmGrads_ok _ _ _ _ _,
      lstmRecGrads_ok _ _ _ _]

theorem runs_clockworkLstm (hk : Known kw) (hin : AllTB ins) (hd : Setup.clockworkLstm.decl n kw ins = some d)
    (hb : d.build = some sh) : Runs clockworkLstm kw ins sh T B := by
  open_setup hd
  obtain ⟨x, hx, m, hm, rfl⟩ := hd
  have hsize := size_ok hx hm
  obtain ⟨f, fs, b, rfl⟩ := hin _ _ hx
  have hx' := at_in0 T B (inp_of hx)
  obtain ⟨h1, h2, h3⟩ := build_some hb
  simp only [Setup.lstmParams, Setup.lstmInternals, List.cons_append, List.nil_append, declare, featureSize_cons, tb?_one, mk?_one, mk?_two, Option.map_some, Option.some.injEq] at h1 h2 h3
  have hact := known_ok hk (dflt := str "tanh") (by decide)
  obtain ⟨os, ps, is⟩ := sh
  simp only at h1 h2 h3
  subst h1 h2 h3
  unfold Runs
  generalize hv : viewsOf ins _ T B = v
  have vx : at? v.inputs "default" = some (T :: B :: f :: fs) := by rw [← hv]; exact hx'
  have vdx : at? v.inputDeltas "default" = some (T :: B :: f :: fs) := by rw [← hv]; exact hx'
  have vy : at? v.outputs "default" = some [T + 1, B, m] := by rw [← hv]; rfl
  have vdy : at? v.outputDeltas "default" = some [T + 1, B, m] := by rw [← hv]; rfl
  have vp : cwLstmP (values v.parameters) = some (stdP m (f * fs.prod), [m]) := by rw [← hv]; rfl
  have vg : cwLstmP (values v.gradients) = some (stdP m (f * fs.prod), [m]) := by rw [← hv]; rfl
  have vi : lstmI (values v.internals) = some (stdI [T + 1, B, m]) := by rw [← hv]; rfl
  clear hv hb hx hm hx'
  refine ⟨fun tr => ?_, ?_⟩
  · unfold clockworkLstm
    dsimp only
    run [vp, vx, vy, vi, hsize, dim_zero _ _, dim_one _ _ _, idx_zero _ _, lstmInputs_ok _ _ _ _ _]
    apply loop_ok
    intro t ht
    run [lstmStep_ok T B hact m _ ht, clockCond_ok _ _, idx_nat ht _, idx_prev ht _, same3_ok _]
    split
    · unfold stdI
      run [clockCond_ok _ _, idx_nat ht _, idx_prev ht _, same3_ok _]
    · rfl
  · unfold clockworkLstm
    dsimp only
    run [vp, vg, vx, vdx, vy, vdy, vi, dim_zero _ _, dim_one _ _ _, idx_zero _ _,
      loop_ok (fun t (ht : t < T) => cwLstmBackStep_ok T B hact m (f * fs.prod) ht), lstmGrads_ok _ _ _ _ _,
      lstmRecGrads_ok _ _ _ _]

end

end Verif.Shapes
