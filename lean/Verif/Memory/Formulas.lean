import Verif.Memory.LibraryExample
import Verif.Layers.Forward

/-!
# C76: what the arrays of the layers of the library hold after the forward pass

`LibLayer.Computes` states for every layer of the library the formula by which it computes its outputs.  Arrays are named by
category and name as in the views of the buffer, entries by their position in row-major order; row `r` stands for example `b`
at time `t` with `r = t * B + b`.  Arrays of recurrent layers have a row `T`, the context.
-/

namespace Verif.Memory

open Verif.Structure Verif.Layout Verif.Buffers Verif.Network Verif.Layers

/-! ### Specification -/

/-- The row that a recurrent layer reads at time `t` as the one before: the last row, for the context, at time 0. -/
def rowBefore (T t : ℕ) : ℕ := if t = 0 then T else t - 1

/-- The net input of unit `j` of a recurrent layer or of a gate at time `t` for example `b`: weights `W` times inputs, plus
weights `R` times outputs one step before, plus bias. -/
noncomputable def netInput (T B m n : ℕ) (e : String → String → ℕ → ℝ) (W R bias : String) (t b j : ℕ) : ℝ :=
  (∑ k : Fin m, e "parameters" W (j * m + k) * e "inputs" "default" (t * (B * m) + (b * m + k))) +
  (∑ i : Fin n, e "parameters" R (j * n + i) * e "outputs" "default" (rowBefore T t * (B * n) + (b * n + i))) +
  e "parameters" bias j

/-- One step of an LSTM: cell state and output of unit `j`. -/
def LstmStep (a : Act) (T B m n : ℕ) (e : String → String → ℕ → ℝ) (t b j : ℕ) : Prop :=
  let old := e "internals" "Ca" (rowBefore T t * (B * n) + (b * n + j))
  let new := e "internals" "Ca" (t * (B * n) + (b * n + j))
  let z := actSpec a (netInput T B m n e "Wz" "Rz" "bz" t b j)
  let i := actSpec .sigmoid (netInput T B m n e "Wi" "Ri" "bi" t b j + e "parameters" "pi" j * old)
  let f := actSpec .sigmoid (netInput T B m n e "Wf" "Rf" "bf" t b j + e "parameters" "pf" j * old)
  let o := actSpec .sigmoid (netInput T B m n e "Wo" "Ro" "bo" t b j + e "parameters" "po" j * new)
  new = i * z + f * old ∧ e "outputs" "default" (t * (B * n) + (b * n + j)) = o * actSpec a new

/-- Step `t` is a multiple of the clock period `p`. -/
def OnTime (p : ℝ) (t : ℕ) : Prop := ∃ k : ℤ, (t : ℝ) = k * p

/-- Value at row `y`, column `x`, channel `c` of image `j` of the array `inputs.default`; zero outside of the image. -/
noncomputable def padded (e : String → String → ℕ → ℝ) (H W C j : ℕ) (y x : ℤ) (c : ℕ) : ℝ :=
  if 0 ≤ y ∧ y < H ∧ 0 ≤ x ∧ x < W then e "inputs" "default" (j * (H * W * C) + ((y.toNat * W + x.toNat) * C + c)) else 0

section
variable {layers : List LayerInfo} {data l : LayerInfo} {T B : ℕ}

/-- The arrays of the layer, whose entries are given by `e`, fit together as they should after a forward pass.  `rnd` are
random numbers. -/
def LibLayer.Computes : LibLayer layers data l T B → (String → String → ℕ → ℝ) → (ℕ → ℝ) → Prop
  | .fullyConnected a x y _ _ _ _, e, _ =>
    ∀ (r : Fin (T * B)) (j : Fin y.featureSize), e "outputs" "default" (r * y.featureSize + j) =
      actSpec a ((∑ k : Fin x.featureSize, e "parameters" "W" (j * x.featureSize + k) *
        e "inputs" "default" (r * x.featureSize + k)) + e "parameters" "bias" j)
  | .elementwise a x _ _, e, _ => ∀ c < T * B * x.featureSize, e "outputs" "default" c = actSpec a (e "inputs" "default" c)
  | .noOp x _ _, e, _ => ∀ c < T * B * x.featureSize, e "outputs" "default" c = e "inputs" "default" c
  | .highway _ _ x _ _ _ _ _ _ _ _ _, e, _ => ∀ c < T * B * x.featureSize, e "outputs" "default" c =
      e "inputs" "H" c * e "inputs" "T" c + e "inputs" "x" c * (1 - e "inputs" "T" c)
  | .merge R m n _ _ _ _ _ _ _ _, e, _ => ∀ r : Fin R,
      (∀ k : Fin m, e "outputs" "default" (r * (m + n) + k) = e "inputs" "inputs_1" (r * m + k)) ∧
      ∀ k : Fin n, e "outputs" "default" (r * (m + n) + (m + k)) = e "inputs" "inputs_2" (r * n + k)
  | .mask R n _ _ _ _ _ _ _, e, _ => ∀ (r : Fin R) (k : Fin n),
      e "outputs" "default" (r * n + k) = e "inputs" "default" (r * n + k) * e "inputs" "mask" r
  | .maskFull x _ _ _ _ _ _, e, _ => ∀ c < T * B * x.featureSize,
      e "outputs" "default" c = e "inputs" "default" c * e "inputs" "mask" c
  | .dropout training q off x _ _ _, e, rnd => ∀ c < T * B * x.featureSize,
      if training then e "internals" "mask" c = rnd (off + c) ∧
        e "outputs" "default" c = e "inputs" "default" c * rnd (off + c) / (1 - q)
      else e "outputs" "default" c = e "inputs" "default" c
  | .squaredDifference x _ _ _ _ _ _ _ _ _ _ _ _, e, _ => ∀ c < T * B * x.featureSize,
      e "outputs" "default" c = (e "inputs" "inputs_1" c - e "inputs" "inputs_2" c) ^ 2
  | .squaredError x _ _ _ _ _ _ _ _ _ _ _ _ _ _ _ _ _, e, _ => ∀ c < T * B * x.featureSize,
      e "outputs" "predictions" c = e "inputs" "default" c ∧
      e "outputs" "loss" c = (e "inputs" "default" c - e "inputs" "targets" c) ^ 2 / 2
  | .sigmoidCE x _ _ _ _ _ _ _ _ _ _ _ _ _, e, _ => ∀ c < T * B * x.featureSize,
      e "outputs" "predictions" c = actSpec .sigmoid (e "inputs" "default" c) ∧
      e "outputs" "loss" c = binaryCE (actSpec .sigmoid (e "inputs" "default" c)) (e "inputs" "targets" c)
  | .softmaxCE R n dec _ _ _ _ _ _ _ _ _ _ _ _ _ _ _, e, _ => ∀ r : Fin R,
      let p : Fin n → ℝ := fun k => Real.exp (e "inputs" "default" (r * n + k)) / ∑ j : Fin n, Real.exp (e "inputs" "default" (r * n + j))
      (∀ k : Fin n, e "outputs" "predictions" (r * n + k) = p k) ∧
      e "outputs" "loss" r = -Real.log (max (p (dec (e "inputs" "targets" r))) 1e-6)
  | .binomialCE x _ _ _ _ _ _ _ _ _ _ _ _ _, e, _ => ∀ r : Fin (T * B),
      (∀ k : Fin x.featureSize, 0 ≤ e "inputs" "default" (r * x.featureSize + k) ∧ e "inputs" "default" (r * x.featureSize + k) ≤ 1) →
      e "outputs" "default" r = ∑ k : Fin x.featureSize,
        binaryCE (e "inputs" "default" (r * x.featureSize + k)) (e "inputs" "targets" (r * x.featureSize + k))
  | .l1Decay x _ _ _ _ _ _, e, _ => ∀ r : Fin (T * B),
      e "outputs" "loss" r = ∑ k : Fin x.featureSize, |e "inputs" "default" (r * x.featureSize + k)|
  | .l2Decay x _ _ _ _ _ _, e, _ => ∀ r : Fin (T * B),
      e "outputs" "loss" r = (∑ k : Fin x.featureSize, e "inputs" "default" (r * x.featureSize + k) ^ 2) / 2
  | .loss importance x _ _, e, _ =>
      e "outputs" "loss" 0 = importance * (∑ c : Fin (size x T B), e "inputs" "default" c) / (if x.bufferType = 0 then 1 else (B : ℝ))
  | .recurrent a n x _ _, e, _ => ∀ (t : Fin T) (b : Fin B) (j : Fin n),
      e "outputs" "default" (t * (B * n) + (b * n + j)) = actSpec a (netInput T B x.featureSize n e "W" "R" "bias" t b j)
  | .clockwork a n x _ _, e, _ => (∀ j : Fin n, e "parameters" "timing" j ≠ 0) → ∀ (t : Fin T) (b : Fin B) (j : Fin n),
      (OnTime (e "parameters" "timing" j) t → e "outputs" "default" (t * (B * n) + (b * n + j)) =
        actSpec a (netInput T B x.featureSize n e "W" "R" "bias" t b j)) ∧
      (¬ OnTime (e "parameters" "timing" j) t → e "outputs" "default" (t * (B * n) + (b * n + j)) =
        e "outputs" "default" (rowBefore T t * (B * n) + (b * n + j)))
  | .lstm a n x _ _, e, _ => ∀ (t : Fin T) (b : Fin B) (j : Fin n), LstmStep a T B x.featureSize n e t b j
  | .clockworkLstm a n x _ _, e, _ => (∀ j : Fin n, e "parameters" "timing" j ≠ 0) → ∀ (t : Fin T) (b : Fin B) (j : Fin n),
      (OnTime (e "parameters" "timing" j) t → LstmStep a T B x.featureSize n e t b j) ∧
      (¬ OnTime (e "parameters" "timing" j) t →
        e "outputs" "default" (t * (B * n) + (b * n + j)) = e "outputs" "default" (rowBefore T t * (B * n) + (b * n + j)) ∧
        e "internals" "Ca" (t * (B * n) + (b * n + j)) = e "internals" "Ca" (rowBefore T t * (B * n) + (b * n + j)))
  | .convolution2D a g _ nf _ _ _ _ _ _ _ _ _ _, e, _ => ∀ (j : Fin (T * B)) (h : Fin g.hc) (w : Fin g.wc) (f : Fin nf),
      e "outputs" "default" (j * (g.hc * g.wc * nf) + ((h * g.wc + w) * nf + f)) =
        actSpec a ((∑ kh : Fin g.KH, ∑ kw : Fin g.KW, ∑ c : Fin g.C,
          e "parameters" "W" (((f * g.KH + kh) * g.KW + kw) * g.C + c) *
            padded e g.H g.W g.C j ((h : ℤ) * g.sh - g.pt + kh) ((w : ℤ) * g.sw - g.pl + kw) c) + e "parameters" "bias" f)
  | .avgPooling2D g _ _ _ _ _ _ _, e, _ => ∀ (j : Fin (T * B)) (y : Fin g.OH) (x : Fin g.OW) (c : Fin g.nc),
      let image := fun v u : ℕ => e "inputs" "default" (j * (g.H * (g.W * g.nc)) + (v * (g.W * g.nc) + (u * g.nc + c)))
      let out := e "outputs" "default" (j * (g.OH * (g.OW * g.nc)) + (y * (g.OW * g.nc) + (x * g.nc + c)))
      ((∃ v u, Pool.InWindow g y x v u) → out =
        (∑ q ∈ Pool.window g y x, image q.1 q.2) / ((Pool.window g y x).card : ℝ)) ∧
      ((∀ v u, ¬ Pool.InWindow g y x v u) → out = 0)
  | .maxPooling2D g lo store _ _ _ _ _ _ _ _ _ _ _ _, e, _ => ∀ (j : Fin (T * B)) (y : Fin g.OH) (x : Fin g.OW) (c : Fin g.nc),
      let image := fun v u : ℕ => e "inputs" "default" (j * (g.H * (g.W * g.nc)) + (v * (g.W * g.nc) + (u * g.nc + c)))
      let at' := j * (g.OH * (g.OW * g.nc)) + (y * (g.OW * g.nc) + (x * g.nc + c))
      ((∃ v u, Pool.InWindow g y x v u) → (∀ v u, Pool.InWindow g y x v u → lo < image v u) →
        ∃ v u, Pool.InWindow g y x v u ∧ (∀ v' u', Pool.InWindow g y x v' u' → image v' u' ≤ image v u) ∧
          e "outputs" "default" at' = image v u ∧ e "internals" "argmax" at' = store (((v * g.W + u) * g.nc + c : ℕ) : ℤ)) ∧
      ((∀ v u, ¬ Pool.InWindow g y x v u) → e "outputs" "default" at' = 0 ∧ e "internals" "argmax" at' = store (-1))

end

/-! ### Proofs -/

section
variable {layers : List LayerInfo} {data l : LayerInfo} {T B : ℕ}

theorem prevRow_eq {T t : ℕ} (ht : t < T) : prevRow T t = rowBefore T t := by
  unfold rowBefore
  cases t with
  | zero => simp [prevRow_zero]
  | succ t => simp [prevRow_succ]

/-- Entries of the arrays of a layer, as `LibLayer.Computes` wants them. -/
def read (v : Slot → ℝ) (cat x : String) (j : ℕ) : ℝ := v ⟨str cat, str x, j⟩

theorem read_mat (v : Slot → ℝ) (cat x : String) {R n : ℕ} (r : Fin R) (k : Fin n) :
    v (arr (str cat) (str x) (mat R n) (r, k)) = read v cat x (r * n + k) := by
  show v ⟨_, _, (mat R n (r, k) : ℕ)⟩ = _
  rw [mat_val]
  rfl

theorem read_cube (v : Slot → ℝ) (cat x : String) {T B n : ℕ} (t : Fin T) (b : Fin B) (k : Fin n) :
    v (arr (str cat) (str x) (cube T B n) (t, b, k)) = read v cat x (t * (B * n) + (b * n + k)) := by
  show v ⟨_, _, (cube T B n (t, b, k) : ℕ)⟩ = _
  rw [cube_val]
  rfl

theorem read_pixels (v : Slot → ℝ) (cat x : String) {N h w c : ℕ} (j : Fin N) (y : Fin h) (u : Fin w) (k : Fin c) :
    v (arr (str cat) (str x) (pixels N h w c) (j, y, u, k)) =
      read v cat x (j * (h * (w * c)) + (y * (w * c) + (u * c + k))) := by
  show v ⟨_, _, (mat N (h * (w * c)) (j, cube h w c (y, u, k)) : ℕ)⟩ = _
  rw [mat_val, cube_val]
  rfl

/-- Position `c` of an array with rows of `n` entries. -/
theorem row_of {R n c : ℕ} (hc : c < R * n) : ∃ (r : Fin R) (k : Fin n), c = r * n + k := by
  refine ⟨((mat R n).symm ⟨c, hc⟩).1, ((mat R n).symm ⟨c, hc⟩).2, ?_⟩
  rw [← mat_val]
  simp

/-- The row before, where row `T` is the context. -/
theorem read_before (v : Slot → ℝ) (cat x : String) {T B n : ℕ} (f : ℕ → M (Fin B) (Fin n))
    (hT : ∀ b i, f T b i = v (tail (str cat) (str x) (T * (B * n)) (mat B n) (b, i)))
    (hr : ∀ (t : Fin T) b i, v (arr (str cat) (str x) (cube T B n) (t, b, i)) = f t b i) (t : Fin T) (b : Fin B) (i : Fin n) :
    f (prevRow T t) b i = read v cat x (rowBefore T t * (B * n) + (b * n + i)) := by
  rw [prevRow_eq t.2]
  unfold rowBefore
  split
  · rw [hT]
    show v ⟨_, _, T * (B * n) + (mat B n (b, i) : ℕ)⟩ = _
    rw [mat_val]
    rfl
  · have h : (t : ℕ) - 1 < T := by omega
    exact (hr ⟨t - 1, h⟩ b i).symm.trans (read_cube v cat x ⟨t - 1, h⟩ b i)

section
variable {β φ ψ : Type} [Fintype φ] [Fintype ψ]

theorem rnn_step (a : Act) (N : ℕ) (x : ℕ → M β φ) (p : RnnParams φ ψ) (st : ℕ → RnnRow β ψ) (b : β) (j : ψ) (t : ℕ) (ht : t < N) :
    (rnnForward a N x p st t).out b j = actSpec a ((∑ k, p.W j k * x t b k) +
      (∑ i, p.R j i * (rnnForward a N x p st (prevRow N t)).out b i) + p.bias j) := by
  have hp : (rnnForward a N x p st (prevRow N t)).out b = rnnSpec a p (fun t => x t b) ((st N).out b) t := by
    cases t with
    | zero =>
      rw [prevRow_zero]
      show (scanFwd N (rnnStep a p) (rnnPre N x p st) N).out b = _
      rw [(scanFwd_spec N (rnnStep a p) (rnnPre N x p st)).2 N le_rfl]
      simp [rnnPre, rnnSpec]
    | succ t => rw [prevRow_succ]; exact C61_recurrent a N x p st b t (by omega)
  rw [C61_recurrent a N x p st b t ht, rnnSpec, ← hp]

theorem cw_step (a : Act) (N : ℕ) (x : ℕ → M β φ) (p : RnnParams φ ψ) (timing : V ψ) (ht0 : ∀ j, timing j ≠ 0)
    (st : ℕ → RnnRow β ψ) (b : β) (j : ψ) (t : ℕ) (ht : t < N) :
    (Due timing t j → (cwForward a N x p timing st t).out b j = actSpec a ((∑ k, p.W j k * x t b k) +
      (∑ i, p.R j i * (cwForward a N x p timing st (prevRow N t)).out b i) + p.bias j)) ∧
    (¬ Due timing t j → (cwForward a N x p timing st t).out b j = (cwForward a N x p timing st (prevRow N t)).out b j) := by
  have hp : (cwForward a N x p timing st (prevRow N t)).out b = cwSpec a p timing (fun t => x t b) ((st N).out b) t := by
    cases t with
    | zero =>
      rw [prevRow_zero]
      show (scanFwd N (cwStep a p timing) (rnnPre N x p st) N).out b = _
      rw [(scanFwd_spec N (cwStep a p timing) (rnnPre N x p st)).2 N le_rfl]
      simp [rnnPre, cwSpec]
    | succ t => rw [prevRow_succ]; exact C61_clockwork a N x p timing ht0 st b t (by omega)
  rw [C61_clockwork a N x p timing ht0 st b t ht, cwSpec, ← hp]
  exact ⟨fun h => if_pos h, fun h => if_neg h⟩

theorem lstm_step (a : Act) (N : ℕ) (x : ℕ → M β φ) (p : LstmParams φ ψ) (st : ℕ → LstmRow β ψ) (b : β) (j : ψ) (t : ℕ) (ht : t < N) :
    ((lstmForward a N x p st t).y b j, (lstmForward a N x p st t).Ca b j) = lstmUnit a p (x t b)
      ((lstmForward a N x p st (prevRow N t)).y b) ((lstmForward a N x p st (prevRow N t)).Ca b) j := by
  have hp : ((lstmForward a N x p st (prevRow N t)).y b, (lstmForward a N x p st (prevRow N t)).Ca b) =
      lstmSpec a p (fun t => x t b) ((st N).y b) ((st N).Ca b) t := by
    cases t with
    | zero =>
      rw [prevRow_zero]
      have : lstmForward a N x p st N = st N := by
        show scanFwd N (fun _ => lstmStep a p) (lstmPre N x p st) N = _
        rw [(scanFwd_spec N (fun _ => lstmStep a p) (lstmPre N x p st)).2 N le_rfl]
        simp [lstmPre]
      rw [this]
      rfl
    | succ t => rw [prevRow_succ]; exact C61_lstm a N x p st b t (by omega)
  have h := C61_lstm a N x p st b t ht
  rw [lstmSpec, ← hp] at h
  exact Prod.ext (congrFun (congrArg Prod.fst h) j) (congrFun (congrArg Prod.snd h) j)

theorem cwLstm_step (a : Act) (N : ℕ) (x : ℕ → M β φ) (p : LstmParams φ ψ) (timing : V ψ) (ht0 : ∀ j, timing j ≠ 0)
    (st : ℕ → LstmRow β ψ) (b : β) (j : ψ) (t : ℕ) (ht : t < N) :
    (Due timing t j → ((cwLstmForward a N x p timing st t).y b j, (cwLstmForward a N x p timing st t).Ca b j) = lstmUnit a p (x t b)
      ((cwLstmForward a N x p timing st (prevRow N t)).y b) ((cwLstmForward a N x p timing st (prevRow N t)).Ca b) j) ∧
    (¬ Due timing t j → (cwLstmForward a N x p timing st t).y b j = (cwLstmForward a N x p timing st (prevRow N t)).y b j ∧
      (cwLstmForward a N x p timing st t).Ca b j = (cwLstmForward a N x p timing st (prevRow N t)).Ca b j) := by
  have hp : ((cwLstmForward a N x p timing st (prevRow N t)).y b, (cwLstmForward a N x p timing st (prevRow N t)).Ca b) =
      cwLstmSpec a p timing (fun t => x t b) ((st N).y b) ((st N).Ca b) t := by
    cases t with
    | zero =>
      rw [prevRow_zero]
      have : cwLstmForward a N x p timing st N = st N := by
        show scanFwd N (cwLstmStep a p timing) (lstmPre N x p st) N = _
        rw [(scanFwd_spec N (cwLstmStep a p timing) (lstmPre N x p st)).2 N le_rfl]
        simp [lstmPre]
      rw [this]
      rfl
    | succ t => rw [prevRow_succ]; exact C61_clockwork_lstm a N x p timing ht0 st b t (by omega)
  have h := C61_clockwork_lstm a N x p timing ht0 st b t ht
  rw [cwLstmSpec, ← hp] at h
  have e1 := congrFun (congrArg Prod.fst h) j
  have e2 := congrFun (congrArg Prod.snd h) j
  simp only at e1 e2
  refine ⟨fun hd => ?_, fun hd => ?_⟩
  · rw [if_pos hd] at e1 e2
    exact Prod.ext e1 e2
  · rw [if_neg hd] at e1 e2
    exact ⟨e1, e2⟩

end

theorem lstmStep_of {m n : ℕ} (v : Slot → ℝ) (a : Act) (f : ℕ → LstmRow (Fin B) (Fin n)) {t : Fin T} {b : Fin B} {j : Fin n}
    (hs : ((f t).y b j, (f t).Ca b j) = lstmUnit a (lstmP fun q => v ((lstmSlots T B m n).i q))
      (tm T (fun q => v (inArr "default" (cube T B m) q)) t b) ((f (prevRow T t)).y b) ((f (prevRow T t)).Ca b) j)
    (c1 : ∀ b i, (f T).y b i = v (tail (str "outputs") (str "default") (T * (B * n)) (mat B n) (b, i)))
    (c2 : ∀ b i, (f T).Ca b i = v (tail (str "internals") (str "Ca") (T * (B * n)) (mat B n) (b, i)))
    (h1 : ∀ (t : Fin T) b i, v (arr (str "outputs") (str "default") (cube T B n) (t, b, i)) = (f t).y b i)
    (h2 : ∀ (t : Fin T) b i, v (arr (str "internals") (str "Ca") (cube T B n) (t, b, i)) = (f t).Ca b i) :
    LstmStep a T B m n (read v) t b j := by
  have b1 := read_before v "outputs" "default" (fun t => (f t).y) c1 h1 t b
  have b2 := read_before v "internals" "Ca" (fun t => (f t).Ca) c2 h2 t b j
  have g : ∀ q (W R bias : String), gateW q = str W → gateR q = str R → gateB q = str bias →
      gateSpec (lstmP fun q => v ((lstmSlots T B m n).i q)) q (tm T (fun q => v (inArr "default" (cube T B m) q)) t b)
        ((f (prevRow T t)).y b) j = netInput T B m n (read v) W R bias t b j := by
    intro q W R bias eW eR eb
    unfold gateSpec netInput
    congr 2
    · refine Finset.sum_congr rfl fun k _ => ?_
      rw [tm_at, ← read_mat v "parameters" W j k, ← read_cube v "inputs" "default" t b k, ← eW]
      rfl
    · refine Finset.sum_congr rfl fun i _ => ?_
      rw [← b1 i, ← read_mat v "parameters" R j i, ← eR]
      rfl
    · show v ⟨_, gateB q, _⟩ = v ⟨_, str bias, _⟩
      rw [eb]
      rfl
  unfold lstmUnit at hs
  rw [g .z "Wz" "Rz" "bz" rfl rfl rfl, g .i "Wi" "Ri" "bi" rfl rfl rfl, g .f "Wf" "Rf" "bf" rfl rfl rfl,
    g .o "Wo" "Ro" "bo" rfl rfl rfl] at hs
  unfold LstmStep
  rw [← read_cube, ← read_cube, h1, h2, ← b2]
  have e1 : (f t).y b j = _ := congrArg Prod.fst hs
  have e2 : (f t).Ca b j = _ := congrArg Prod.snd hs
  refine ⟨e2, ?_⟩
  rw [e2]
  exact e1

/-- The outputs and internals of the layer are those that its forward pass computes. -/
def Placed.Holds (q : Placed layers data l T B) (v : Slot → ℝ) (rnd : ℕ → ℝ) : Prop :=
  ∃ (o : q.O → ℝ) (k : q.K → ℝ),
    (∀ b, v (q.S.o b) = (q.V.F (fun a => Sum.elim v rnd (q.S.p a)) (fun a => v (q.S.i a)) o k).1 b) ∧
    ∀ b, v (q.S.k b) = (q.V.F (fun a => Sum.elim v rnd (q.S.p a)) (fun a => v (q.S.i a)) o k).2 b

theorem LibLayer.computes (q : LibLayer layers data l T B) (v : Slot → ℝ) (rnd : ℕ → ℝ) (H : q.placed.Holds v rnd) :
    q.Computes (read v) rnd := by
  cases q with
  | fullyConnected a x y has hx hy own =>
    intro r j
    obtain ⟨o, k, h1, -⟩ := H
    rw [← read_mat]
    refine (h1 (r, j)).trans ((C61_fully_connected a _ _ _ _ r j).trans ?_)
    congr 2
    refine Finset.sum_congr rfl fun k _ => ?_
    rw [← read_mat v "parameters" "W" j k, ← read_mat v "inputs" "default" r k]
    rfl
  | elementwise a x has hx =>
    intro c hc
    obtain ⟨r, i, rfl⟩ := row_of hc
    obtain ⟨o, k, h1, -⟩ := H
    rw [← read_mat, ← read_mat]
    exact (h1 (r, i)).trans (C61_activation a _)
  | noOp x has hx =>
    intro c hc
    obtain ⟨r, i, rfl⟩ := row_of hc
    obtain ⟨o, k, h1, -⟩ := H
    rw [← read_mat, ← read_mat]
    exact h1 (r, i)
  | highway h1 t x y has hh ht hx hy eh et ey =>
    intro c hc
    obtain ⟨r, i, rfl⟩ := row_of hc
    obtain ⟨o, k, h1, -⟩ := H
    rw [← read_mat, ← read_mat, ← read_mat, ← read_mat]
    exact (h1 (r, i)).trans (C61_highway _ _ _ (mt o) r i)
  | merge R m n x y z has hx hy hz hc =>
    intro r
    obtain ⟨o, k, h1, -⟩ := H
    constructor
    · intro i
      rw [← read_mat]
      refine Eq.trans ?_ (h1 (r, .inl i))
      show _ = v ⟨_, _, (mat R (m + n) (r, finSumFinEquiv (.inl i)) : ℕ)⟩
      rw [mat_val]
      simp [read]
    · intro i
      rw [← read_mat]
      refine Eq.trans ?_ (h1 (r, .inr i))
      show _ = v ⟨_, _, (mat R (m + n) (r, finSumFinEquiv (.inr i)) : ℕ)⟩
      rw [mat_val]
      simp [read]
  | mask R n x k has hx hxs hks hd =>
    intro r i
    obtain ⟨o, k, h1, -⟩ := H
    rw [← read_mat, ← read_mat]
    exact h1 (r, i)
  | maskFull x k has hx hk ek hd =>
    intro c hc
    obtain ⟨r, i, rfl⟩ := row_of hc
    obtain ⟨o, k, h1, -⟩ := H
    rw [← read_mat, ← read_mat, ← read_mat]
    exact h1 (r, i)
  | dropout training q off x has hx hb =>
    intro c hc
    obtain ⟨r, i, rfl⟩ := row_of hc
    obtain ⟨o, k, h1, h2⟩ := H
    cases training with
    | false =>
      simp only [Bool.false_eq_true, if_false]
      rw [← read_mat, ← read_mat]
      exact h1 (r, i)
    | true =>
      simp only [if_true]
      rw [← read_mat, ← read_mat, ← read_mat]
      have e : rnd (off + (r * x.featureSize + i)) = rnd (off + mat (T * B) x.featureSize (r, i)) := by rw [mat_val]
      rw [e]
      refine ⟨h2 (r, i), (h1 (r, i)).trans ?_⟩
      have key : ∀ u w : ℝ, 1 / (1 - q) * (u * w) = u * w / (1 - q) := fun u w => by ring
      exact key _ _
  | squaredDifference x y z d has hx hy hz hd ey ez ed hb =>
    intro c hc
    obtain ⟨r, i, rfl⟩ := row_of hc
    obtain ⟨o, k, h1, -⟩ := H
    rw [← read_mat, ← read_mat, ← read_mat]
    exact (h1 (r, i)).trans (C61_squared_difference _ _ (mt k) (mt o) r i)
  | squaredError x t p z d has hx ht hp hz hd et ep ez ed hb hdata loose =>
    intro c hc
    obtain ⟨r, i, rfl⟩ := row_of hc
    obtain ⟨o, k, h1, h2⟩ := H
    rw [← read_mat, ← read_mat, ← read_mat, ← read_mat]
    exact ⟨h2 (.inl (r, i)), (h1 (r, i)).trans (C61_squared_error _ _ (mt (k ∘ .inl)) _ _ r i).2⟩
  | sigmoidCE x t p z has hx ht hp hz et ep ez hdata loose =>
    intro c hc
    obtain ⟨r, i, rfl⟩ := row_of hc
    obtain ⟨o, k, h1, h2⟩ := H
    rw [← read_mat, ← read_mat, ← read_mat, ← read_mat]
    exact ⟨(h2 (r, i)).trans (C61_sigmoid_ce _ (mt fun b => v (inArr "targets" (mat (T * B) x.featureSize) b)) (mt k) (mt o) r i).1, (h1 (r, i)).trans (C61_sigmoid_ce _ (mt fun b => v (inArr "targets" (mat (T * B) x.featureSize) b)) (mt k) (mt o) r i).2⟩
  | softmaxCE R n dec x t p z has hx ht hp hz sx st sp sz hdata loose =>
    haveI : Nonempty (Fin n) := ⟨dec 0⟩
    intro r
    obtain ⟨o, k, h1, h2⟩ := H
    intro p
    have ep : p = fun k => Real.exp (v (arr (str "inputs") (str "default") (mat R n) (r, k))) /
        ∑ j : Fin n, Real.exp (v (arr (str "inputs") (str "default") (mat R n) (r, j))) := by
      funext k
      simp only [read_mat]
      rfl
    rw [ep]
    refine ⟨fun i => ?_, ?_⟩
    · rw [← read_mat]
      exact (h2 (r, i)).trans ((C61_softmax_ce _ (fun r => dec (v (inArr "targets" (Equiv.refl _) r))) (mt k) o r).1 i)
    · exact (h1 r).trans (C61_softmax_ce _ (fun r => dec (v (inArr "targets" (Equiv.refl _) r))) (mt k) o r).2
  | binomialCE x t z c has hx ht hz hc et ez ec hb hdata =>
    intro r hr
    obtain ⟨o, k, h1, -⟩ := H
    simp only [← read_mat] at hr ⊢
    exact (h1 r).trans (C61_binomial_ce _ (mt fun b => v (inArr "targets" (mat (T * B) x.featureSize) b)) (mt k) o r hr)
  | l1Decay x z has hx hz ez hb =>
    intro r
    obtain ⟨o, k, h1, -⟩ := H
    simp only [← read_mat]
    exact h1 r
  | l2Decay x z has hx hz ez hb =>
    intro r
    obtain ⟨o, k, h1, -⟩ := H
    simp only [← read_mat]
    exact (h1 r).trans (C61_l2 (mt fun b => v (inArr "default" (mat (T * B) x.featureSize) b)) (mt k) o r)
  | loss importance x has loose =>
    obtain ⟨o, k, h1, -⟩ := H
    refine (h1 ()).trans ((C61_loss _ _ _ _).trans ?_)
    rw [Fin.sum_univ_one]
    show importance * (∑ k, v (arr (str "inputs") (str "default") (mat 1 (size x T B)) (0, k))) / lossBatch x B = _
    simp only [read_mat]
    simp [lossBatch]
  | recurrent a n x has hx =>
    intro t b j
    obtain ⟨o, k, h1, -⟩ := H
    rw [← read_cube]
    refine (h1 (t, b, j)).trans ((rnn_step a T _ _ _ b j t t.2).trans ?_)
    congr 1
    unfold netInput
    congr 2
    · refine Finset.sum_congr rfl fun k _ => ?_
      rw [← read_mat v "parameters" "W" j k, ← read_cube v "inputs" "default" t b k, tm_at]
      rfl
    · refine Finset.sum_congr rfl fun i _ => ?_
      rw [← read_mat v "parameters" "R" j i, ← read_before v "outputs" "default" (fun t => (rnnForward a T _ _ _ t).out) ?_
        (fun t b i => h1 (t, b, i)) t b i]
      · rfl
      · intro b i
        exact congrArg (fun r => RnnRow.out r b i) (rnn_later T a _ _ _ o k T le_rfl)
  | clockwork a n x has hx =>
    intro ht0 t b j
    obtain ⟨o, k, h1, -⟩ := H
    have hb := read_before v "outputs" "default" (fun t => (cwForward a T (tm T fun q => v (inArr "default" (cube T B x.featureSize) q))
      (rnnP fun q => v ((clockworkSlots T B x.featureSize n).i q)) (fun j => v (parArr "timing" (Equiv.refl _) j))
      (rnnRows T (fun q => v (tail (str "outputs") (str "default") (T * (B * n)) (mat B n) q)) o k) t).out) (by
        intro b i
        rw [cw_later T a _ _ _ _ o k T le_rfl]
        rfl) (fun t b i => h1 (t, b, i)) t b
    have hs := cw_step a T (tm T fun q => v (inArr "default" (cube T B x.featureSize) q))
      (rnnP fun q => v ((clockworkSlots T B x.featureSize n).i q)) (fun j => v (parArr "timing" (Equiv.refl _) j)) ht0
      (rnnRows T (fun q => v (tail (str "outputs") (str "default") (T * (B * n)) (mat B n) q)) o k) b j t t.2
    refine ⟨fun hd => ?_, fun hd => ?_⟩
    · rw [← read_cube]
      refine (h1 (t, b, j)).trans ((hs.1 hd).trans ?_)
      congr 1
      unfold netInput
      congr 2
      · refine Finset.sum_congr rfl fun k _ => ?_
        rw [← read_mat v "parameters" "W" j k, ← read_cube v "inputs" "default" t b k, tm_at]
        rfl
      · refine Finset.sum_congr rfl fun i _ => ?_
        rw [← read_mat v "parameters" "R" j i, ← hb i]
        rfl
    · rw [← read_cube, ← hb j]
      exact (h1 (t, b, j)).trans (hs.2 hd)
  | lstm a n x has hx =>
    intro t b j
    obtain ⟨o, k, h1, h2⟩ := H
    exact lstmStep_of v a _ (lstm_step a T _ _ (lstmRows T (fun c => Sum.elim v rnd ((lstmSlots T B x.featureSize n).p c)) o k) b j t t.2)
      (fun b i => congrArg (fun r => LstmRow.y r b i) (lstm_later T a _ _ _ o k T le_rfl))
      (fun b i => congrArg (fun r => LstmRow.Ca r b i) (lstm_later T a _ _ _ o k T le_rfl))
      (fun t b i => h1 (t, b, i)) (fun t b i => h2 (.Ca, t, b, i))
  | clockworkLstm a n x has hx =>
    intro ht0 t b j
    obtain ⟨o, k, h1, h2⟩ := H
    have hs := cwLstm_step a T (tm T fun q => v (inArr "default" (cube T B x.featureSize) q))
      (lstmP fun q => v ((lstmSlots T B x.featureSize n).i q)) (fun j => v (parArr "timing" (Equiv.refl _) j)) ht0
      (lstmRows T (fun c => Sum.elim v rnd ((lstmSlots T B x.featureSize n).p c)) o k) b j t t.2
    obtain ⟨f, hf⟩ : ∃ f, f = cwLstmForward a T (tm T fun q => v (inArr "default" (cube T B x.featureSize) q))
      (lstmP fun q => v ((lstmSlots T B x.featureSize n).i q)) (fun j => v (parArr "timing" (Equiv.refl _) j))
      (lstmRows T (fun c => Sum.elim v rnd ((lstmSlots T B x.featureSize n).p c)) o k) := ⟨_, rfl⟩
    rw [← hf] at hs
    have hT : f T = lstmCtx (fun c => Sum.elim v rnd ((lstmSlots T B x.featureSize n).p c)) := by
      rw [hf]
      exact cwLstm_later T a _ _ _ _ o k T le_rfl
    have c1 : ∀ b i, (f T).y b i = v (tail (str "outputs") (str "default") (T * (B * n)) (mat B n) (b, i)) :=
      fun b i => congrArg (fun r => LstmRow.y r b i) hT
    have c2 : ∀ b i, (f T).Ca b i = v (tail (str "internals") (str "Ca") (T * (B * n)) (mat B n) (b, i)) :=
      fun b i => congrArg (fun r => LstmRow.Ca r b i) hT
    have h1' : ∀ (t : Fin T) b i, v (arr (str "outputs") (str "default") (cube T B n) (t, b, i)) = (f t).y b i := by
      intro t b i
      rw [hf]
      exact h1 (t, b, i)
    have h2' : ∀ (t : Fin T) b i, v (arr (str "internals") (str "Ca") (cube T B n) (t, b, i)) = (f t).Ca b i := by
      intro t b i
      rw [hf]
      exact h2 (.Ca, t, b, i)
    refine ⟨fun hd => lstmStep_of v a f (hs.1 hd) c1 c2 h1' h2', fun hd => ?_⟩
    have b1 := read_before v "outputs" "default" (fun t => (f t).y) c1 h1' t b j
    have b2 := read_before v "internals" "Ca" (fun t => (f t).Ca) c2 h2' t b j
    rw [← read_cube, ← read_cube, ← b1, ← b2, h1', h2']
    exact hs.2 hd
  | convolution2D a g hs nf x y w has hx hy ex ey ew own =>
    intro j h w f
    obtain ⟨o, k, h1, -⟩ := H
    obtain ⟨out, ho, hout⟩ := Conv.C47_forward g hs (Network.cells fun q => v (parArr "W" (Equiv.refl (Fin (nf * g.kp))) q))
      (Network.cells fun q => v (parArr "bias" (Equiv.refl (Fin nf)) q))
      (image g (fun q => v (inArr "default" (mat (T * B) (g.H * g.W * g.C)) q)) j) rfl
    have hp : (h : ℕ) * g.wc + w < g.hc * g.wc := by
      have h1 := h.2
      have h2 := w.2
      calc (h : ℕ) * g.wc + w < h * g.wc + g.wc := by omega
        _ = (h + 1) * g.wc := by ring
        _ ≤ g.hc * g.wc := Nat.mul_le_mul_right _ h1
    have e0 : convLayerForward a g (Network.cells fun q => v (parArr "W" (Equiv.refl (Fin (nf * g.kp))) q))
        (Network.cells fun q => v (parArr "bias" (Equiv.refl (Fin nf)) q))
        (image g (fun q => v (inArr "default" (mat (T * B) (g.H * g.W * g.C)) q)) j) = some (fun p f => a.f (out p f)) := by
      unfold convLayerForward
      rw [ho]
      rfl
    have e1 := h1 (j, ⟨h * g.wc + w, hp⟩, f)
    have e2 := read_cube v "outputs" "default" j (⟨h * g.wc + w, hp⟩ : Fin (g.hc * g.wc)) f
    refine e2.symm.trans (e1.trans ?_)
    show (match convLayerForward a g (Network.cells fun q => v (parArr "W" (Equiv.refl (Fin (nf * g.kp))) q))
        (Network.cells fun q => v (parArr "bias" (Equiv.refl (Fin nf)) q))
        (image g (fun q => v (inArr "default" (mat (T * B) (g.H * g.W * g.C)) q)) j) with | none => _ | some out => _) = _
    rw [e0]
    show a.f (out (h * g.wc + w) f) = _
    rw [C61_activation, hout h w f h.2 w.2, Network.cells_val, Finset.sum_range]
    congr 2
    refine Finset.sum_congr rfl fun kh _ => ?_
    rw [Finset.sum_range]
    refine Finset.sum_congr rfl fun kw _ => ?_
    rw [Finset.sum_range]
    refine Finset.sum_congr rfl fun c _ => ?_
    rw [mul_comm]
    congr 1
    · have hlt : g.weight f kh kw c < nf * g.kp := by
        rw [Conv.weight_eq]
        have h1 := f.2
        have h2 : ((kh : ℕ) * g.KW + kw) * g.C + c < g.kp := Conv.lt_mul (Conv.lt_mul kh.2 kw.2) c.2
        exact Conv.lt_mul h1 h2
      rw [show g.weight f kh kw c = ((⟨g.weight f kh kw c, hlt⟩ : Fin (nf * g.kp)) : ℕ) from rfl, Network.cells_val]
      rfl
    · unfold Conv.pixel padded
      split
      · rename_i hh
        have hlt : (((h : ℤ) * g.sh - g.pt + kh).toNat * g.W + ((w : ℤ) * g.sw - g.pl + kw).toNat) * g.C + c < g.H * g.W * g.C :=
          Conv.lt_mul (Conv.lt_mul (by omega) (by omega)) c.2
        have := image_val g (fun q => v (inArr "default" (mat (T * B) (g.H * g.W * g.C)) q)) (j, ⟨_, hlt⟩)
        refine this.trans ?_
        exact read_mat v "inputs" "default" j ⟨_, hlt⟩
      · rfl
  | avgPooling2D g x y has hx hy ex ey =>
    intro j y x c image out
    obtain ⟨o, k, h1, -⟩ := H
    have e := (read_pixels v "outputs" "default" j y x c).symm.trans (h1 (j, y, x, c))
    have hw : ∀ v' u, Pool.InWindow g y x v' u → plane (fun q => v (inArr "default" (pixels (T * B) g.H g.W g.nc) q)) j c v' u =
        image v' u := by
      intro v' u hv
      unfold plane
      rw [dif_pos ⟨hv.1, hv.2.1⟩]
      exact read_pixels v "inputs" "default" j ⟨v', hv.1⟩ ⟨u, hv.2.1⟩ c
    refine ⟨fun hne => ?_, fun hno => ?_⟩
    · refine e.trans ((Pool.C48_avg (chan g c) _ y x hne).trans ?_)
      congr 1
      exact Finset.sum_congr rfl fun q hq => hw _ _ (Pool.mem_window.1 hq)
    · exact e.trans (Pool.C48_avg_none (chan g c) _ y x hno)
  | maxPooling2D g lo store load x y k has hx hy hk ex ey ek hb =>
    intro j y x c image at'
    obtain ⟨o, k, h1, h2⟩ := H
    have e := (read_pixels v "outputs" "default" j y x c).symm.trans (h1 (j, y, x, c))
    have e' := (read_pixels v "internals" "argmax" j y x c).symm.trans (h2 (j, y, x, c))
    have hw : ∀ v' u, Pool.InWindow g y x v' u → plane (fun q => v (inArr "default" (pixels (T * B) g.H g.W g.nc) q)) j c v' u =
        image v' u := by
      intro v' u hv
      unfold plane
      rw [dif_pos ⟨hv.1, hv.2.1⟩]
      exact read_pixels v "inputs" "default" j ⟨v', hv.1⟩ ⟨u, hv.2.1⟩ c
    refine ⟨fun hne hlo => ?_, fun hno => ?_⟩
    · obtain ⟨p, q, hpq, hmax, -, r1, r2⟩ := Pool.C48_max (chan g c) lo
        (plane (fun q => v (inArr "default" (pixels (T * B) g.H g.W g.nc) q)) j c) y x hne
        (fun v' u hv => by rw [hw v' u hv]; exact hlo v' u hv)
      refine ⟨p, q, hpq, fun v' u hv => ?_, ?_, ?_⟩
      · rw [← hw _ _ hv, ← hw _ _ hpq]
        exact hmax _ _ hv
      · rw [← hw _ _ hpq]
        exact e.trans r1
      · exact e'.trans (congrArg store r2)
    · have hn := Pool.C48_max_none (chan g c) lo
        (plane (fun q => v (inArr "default" (pixels (T * B) g.H g.W g.nc) q)) j c) y x (fun v' u hv => absurd hv (hno v' u))
      exact ⟨e.trans (congrArg Prod.fst hn), e'.trans (congrArg (fun r : ℝ × ℤ => store r.2) hn)⟩

end

end Verif.Memory
