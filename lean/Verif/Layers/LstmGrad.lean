import Verif.Layers.Lstm

/-!
# Gradients of the LSTM and ClockworkLstm layers (C22): backpropagation through time
-/

namespace Verif.Layers

noncomputable section

variable {β φ ψ : Type}

theorem da_z (r : LstmBackRow β ψ) : r.da .z = r.dZa := rfl
theorem da_i (r : LstmBackRow β ψ) : r.da .i = r.dIa := rfl
theorem da_f (r : LstmBackRow β ψ) : r.da .f = r.dFa := rfl
theorem da_o (r : LstmBackRow β ψ) : r.da .o = r.dOa := rfl

/-- The moving parameters. -/
structure LstmMoves (p : ℝ → LstmParams φ ψ) (p' : LstmParams φ ψ) : Prop where
  W : ∀ q, Moves (fun s => (p s).W q) (p'.W q)
  R : ∀ q, Moves (fun s => (p s).R q) (p'.R q)
  b : ∀ q, MovesV (fun s => (p s).b q) (p'.b q)
  pi : MovesV (fun s => (p s).pi) p'.pi
  pf : MovesV (fun s => (p s).pf) p'.pf
  po : MovesV (fun s => (p s).po) p'.po

section
variable [Fintype φ] [Fintype ψ]

/-- The part of the input of gate `q` that comes from the inputs, the previous output and the bias. -/
def gateIn (p : LstmParams φ ψ) (q : Gate) (x : M β φ) (y : M β ψ) : M β ψ := fun b j =>
  ∑ k, x b k * p.W q j k + p.b q j + ∑ i, y b i * p.R q j i

open Classical in
/-- The equations between the row of a step, the previous cell state `cp` and the previous output `yp`; `c j` says
that unit `j` is inactive. -/
structure LstmEqs (a : Act) (p : LstmParams φ ψ) (c : ψ → Prop) (x : M β φ) (yp cp : M β ψ) (r : LstmRow β ψ) : Prop where
  Zb : ∀ b j, r.Zb b j = a.f (gateIn p .z x yp b j)
  Ib : ∀ b j, r.Ib b j = Act.sigmoid.f (gateIn p .i x yp b j + cp b j * p.pi j)
  Fb : ∀ b j, r.Fb b j = Act.sigmoid.f (gateIn p .f x yp b j + cp b j * p.pf j)
  Ob : ∀ b j, r.Ob b j = Act.sigmoid.f (gateIn p .o x yp b j + (r.Ib b j * r.Zb b j + r.Fb b j * cp b j) * p.po j)
  Cb : ∀ b j, r.Cb b j = a.f (r.Ib b j * r.Zb b j + r.Fb b j * cp b j)
  Ca : ∀ b j, r.Ca b j = if c j then cp b j else r.Ib b j * r.Zb b j + r.Fb b j * cp b j
  y : ∀ b j, r.y b j = if c j then yp b j else r.Ob b j * r.Cb b j

/-- The velocity of `gateIn`. -/
def gateVel (p p' : LstmParams φ ψ) (q : Gate) (x x' : M β φ) (y y' : M β ψ) : M β ψ := fun b j =>
  ((∑ k, x' b k * p.W q j k + ∑ k, x b k * p'.W q j k) + p'.b q j) + (∑ i, y' b i * p.R q j i + ∑ i, y b i * p'.R q j i)

theorem gateIn_moves {p : ℝ → LstmParams φ ψ} {p' : LstmParams φ ψ} (hp : LstmMoves p p') (q : Gate) {X : ℝ → M β φ}
    {X' : M β φ} (hX : Moves X X') {Y : ℝ → M β ψ} {Y' : M β ψ} (hY : Moves Y Y') :
    Moves (fun s => gateIn (p s) q (X s) (Y s)) (gateVel (p 0) p' q (X 0) X' (Y 0) Y') := by
  intro b j
  exact (Moves.affine hX (hp.W q) (hp.b q) b j).add (Moves.dot hY (hp.R q) b j)

/-- Velocities of a row: cell state candidate, cell output, gates. -/
structure LstmVel (β ψ : Type) where
  A : Gate → M β ψ
  cc : M β ψ
  Ca : M β ψ
  y : M β ψ

open Classical in
def lstmVel (a : Act) (p p' : LstmParams φ ψ) (c : ψ → Prop) (x x' : M β φ) (yp yp' cp cp' : M β ψ) (r : LstmRow β ψ) :
    LstmVel β ψ :=
  let Az := gateVel p p' .z x x' yp yp'
  let Ai : M β ψ := fun b j => gateVel p p' .i x x' yp yp' b j + (cp' b j * p.pi j + cp b j * p'.pi j)
  let Af : M β ψ := fun b j => gateVel p p' .f x x' yp yp' b j + (cp' b j * p.pf j + cp b j * p'.pf j)
  let cc : M β ψ := fun b j =>
    (Act.sigmoid.d (r.Ib b j) 1 * Ai b j * r.Zb b j + r.Ib b j * (a.d (r.Zb b j) 1 * Az b j)) +
    (Act.sigmoid.d (r.Fb b j) 1 * Af b j * cp b j + r.Fb b j * cp' b j)
  let Ao : M β ψ := fun b j => gateVel p p' .o x x' yp yp' b j +
    (cc b j * p.po j + (r.Ib b j * r.Zb b j + r.Fb b j * cp b j) * p'.po j)
  ⟨fun | .z => Az | .i => Ai | .f => Af | .o => Ao, cc,
   fun b j => if c j then cp' b j else cc b j,
   fun b j => if c j then yp' b j else
    Act.sigmoid.d (r.Ob b j) 1 * Ao b j * r.Cb b j + r.Ob b j * (a.d (r.Cb b j) 1 * cc b j)⟩

theorem lstm_step_moves (a : Act) (c : ψ → Prop) {X : ℝ → M β φ} {X' : M β φ} (hX : Moves X X')
    {p : ℝ → LstmParams φ ψ} {p' : LstmParams φ ψ} (hp : LstmMoves p p') {yp cp : ℝ → M β ψ} {yp' cp' : M β ψ}
    (hy : Moves yp yp') (hc : Moves cp cp') (r : ℝ → LstmRow β ψ)
    (eqs : ∀ s, LstmEqs a (p s) c (X s) (yp s) (cp s) (r s))
    (sm1 : ∀ b j, ¬ c j → a.Smooth (gateIn (p 0) .z (X 0) (yp 0) b j))
    (sm2 : ∀ b j, ¬ c j → a.Smooth ((r 0).Ib b j * (r 0).Zb b j + (r 0).Fb b j * cp 0 b j)) :
    Moves (fun s => (r s).Ca) (lstmVel a (p 0) p' c (X 0) X' (yp 0) yp' (cp 0) cp' (r 0)).Ca ∧
    Moves (fun s => (r s).y) (lstmVel a (p 0) p' c (X 0) X' (yp 0) yp' (cp 0) cp' (r 0)).y := by
  classical
  have ssm : ∀ x, Act.sigmoid.Smooth x := fun x => by simp [Act.Smooth]
  set v := lstmVel a (p 0) p' c (X 0) X' (yp 0) yp' (cp 0) cp' (r 0) with hv
  have key : ∀ b j, ¬ c j → HasDerivAt (fun s => (r s).Ib b j * (r s).Zb b j + (r s).Fb b j * cp s b j) (v.cc b j) 0 := by
    intro b j hj
    have hZ : HasDerivAt (fun s => (r s).Zb b j) (a.d ((r 0).Zb b j) 1 * v.A .z b j) 0 := by
      rw [show (fun s => (r s).Zb b j) = _ from funext fun s => (eqs s).Zb b j, (eqs 0).Zb b j]
      exact (a.hasDerivAt (sm1 b j hj)).comp (0 : ℝ) (gateIn_moves hp .z hX hy b j)
    have hI : HasDerivAt (fun s => (r s).Ib b j) (Act.sigmoid.d ((r 0).Ib b j) 1 * v.A .i b j) 0 := by
      rw [show (fun s => (r s).Ib b j) = _ from funext fun s => (eqs s).Ib b j, (eqs 0).Ib b j]
      exact (Act.sigmoid.hasDerivAt (ssm _)).comp (0 : ℝ) ((gateIn_moves hp .i hX hy b j).add ((hc b j).mul (hp.pi j)))
    have hF : HasDerivAt (fun s => (r s).Fb b j) (Act.sigmoid.d ((r 0).Fb b j) 1 * v.A .f b j) 0 := by
      rw [show (fun s => (r s).Fb b j) = _ from funext fun s => (eqs s).Fb b j, (eqs 0).Fb b j]
      exact (Act.sigmoid.hasDerivAt (ssm _)).comp (0 : ℝ) ((gateIn_moves hp .f hX hy b j).add ((hc b j).mul (hp.pf j)))
    exact (hI.mul hZ).add (hF.mul (hc b j))
  constructor
  · intro b j
    rw [show (fun s => (r s).Ca b j) = _ from funext fun s => (eqs s).Ca b j]
    by_cases hj : c j
    · simp only [if_pos hj]
      exact (hc b j).congr_deriv (if_pos hj).symm
    · simp only [if_neg hj]
      exact (key b j hj).congr_deriv (if_neg hj).symm
  · intro b j
    rw [show (fun s => (r s).y b j) = _ from funext fun s => (eqs s).y b j]
    by_cases hj : c j
    · simp only [if_pos hj]
      exact (hy b j).congr_deriv (if_pos hj).symm
    · simp only [if_neg hj]
      have hcc := key b j hj
      have hC : HasDerivAt (fun s => (r s).Cb b j) (a.d ((r 0).Cb b j) 1 * v.cc b j) 0 := by
        rw [show (fun s => (r s).Cb b j) = _ from funext fun s => (eqs s).Cb b j, (eqs 0).Cb b j]
        exact (a.hasDerivAt (sm2 b j hj)).comp (0 : ℝ) hcc
      have hO : HasDerivAt (fun s => (r s).Ob b j) (Act.sigmoid.d ((r 0).Ob b j) 1 * v.A .o b j) 0 := by
        rw [show (fun s => (r s).Ob b j) = _ from funext fun s => (eqs s).Ob b j, (eqs 0).Ob b j]
        exact (Act.sigmoid.hasDerivAt (ssm _)).comp (0 : ℝ) ((gateIn_moves hp .o hX hy b j).add (hcc.mul (hp.po j)))
      exact (hO.mul hC).congr_deriv (if_neg hj).symm

end

variable [Fintype β] [Fintype φ] [Fintype ψ]

theorem gateVel_inner (p p' : LstmParams φ ψ) (q : Gate) (x x' : M β φ) (y y' : M β ψ) (g : M β ψ) :
    inner g (gateVel p p' q x x' y y') =
      inner (fun b k => ∑ j, g b j * p.W q j k) x' + inner (fun j k => ∑ b, g b j * x b k) (p'.W q) +
      innerV (fun j => ∑ b, g b j) (p'.b q) + inner (fun b i => ∑ j, g b j * p.R q j i) y' +
      inner (fun j i => ∑ b, g b j * y b i) (p'.R q) := by
  unfold gateVel
  rw [inner_add g (fun b j => (∑ k, x' b k * p.W q j k + ∑ k, x b k * p'.W q j k) + p'.b q j)
      (fun b j => ∑ i, y' b i * p.R q j i + ∑ i, y b i * p'.R q j i),
      inner_add g (fun b j => ∑ k, x' b k * p.W q j k + ∑ k, x b k * p'.W q j k) (fun _ j => p'.b q j),
      inner_add g (fun b j => ∑ k, x' b k * p.W q j k), inner_add g (fun b j => ∑ i, y' b i * p.R q j i),
      inner_affine_left g x', inner_affine_right g x (p'.W q), inner_bias,
      inner_affine_right g y (p'.R q), inner_affine_left g y']
  ring

omit [Fintype φ] in
theorem inner_peep (g cp : M β ψ) (v : V ψ) : inner g (fun b j => cp b j * v j) = innerV (fun j => ∑ b, g b j * cp b j) v := by
  unfold inner innerV
  rw [Finset.sum_comm]
  refine Finset.sum_congr rfl fun j _ => ?_
  rw [Finset.sum_mul]
  exact Finset.sum_congr rfl fun b _ => by ring

open Classical in
/-- The equations between the rows of the backward pass; `c` and `c1` say which units are
inactive in this step and the next. -/
structure LstmBackEqs (a : Act) (p : LstmParams φ ψ) (c c1 : ψ → Prop) (δ : M β ψ) (cp : M β ψ) (r r1 : LstmRow β ψ)
    (g g1 : LstmBackRow β ψ) : Prop where
  dy : ∀ b i, g.dy b i = δ b i + ((∑ q, ∑ j, g1.da q b j * p.R q j i) + if c1 i then g1.dy b i else 0)
  dOa : ∀ b j, g.dOa b j = if c j then 0 else Act.sigmoid.d (r.Ob b j) (g.dy b j * r.Cb b j)
  dCa : ∀ b j, g.dCa b j = (g1.dIa b j * p.pi j + g1.dFa b j * p.pf j +
      if c1 j then g1.dCa b j else g1.dCa b j * r1.Fb b j) + g.dOa b j * p.po j +
      if c j then 0 else a.d (r.Cb b j) (g.dy b j * r.Ob b j)
  dFa : ∀ b j, g.dFa b j = if c j then 0 else Act.sigmoid.d (r.Fb b j) (g.dCa b j * cp b j)
  dIa : ∀ b j, g.dIa b j = if c j then 0 else Act.sigmoid.d (r.Ib b j) (g.dCa b j * r.Zb b j)
  dZa : ∀ b j, g.dZa b j = if c j then 0 else a.d (r.Zb b j) (g.dCa b j * r.Ib b j)

/-- What a step contributes to the derivative. -/
def lstmContribution (p p' : LstmParams φ ψ) (x x' : M β φ) (yp cp Ca : M β ψ) (g : LstmBackRow β ψ) : ℝ :=
  (∑ q, (inner (fun b k => ∑ j, g.da q b j * p.W q j k) x' + inner (fun j k => ∑ b, g.da q b j * x b k) (p'.W q) +
      innerV (fun j => ∑ b, g.da q b j) (p'.b q) + inner (fun j i => ∑ b, g.da q b j * yp b i) (p'.R q))) +
  innerV (fun j => ∑ b, g.dIa b j * cp b j) p'.pi + innerV (fun j => ∑ b, g.dFa b j * cp b j) p'.pf +
  innerV (fun j => ∑ b, g.dOa b j * Ca b j) p'.po

open Classical in
/-- What flows from a step to the step before. -/
def lstmFlow (p : LstmParams φ ψ) (c : ψ → Prop) (yp' cp' : M β ψ) (r : LstmRow β ψ) (g : LstmBackRow β ψ) : ℝ :=
  inner (fun b i => (∑ q, ∑ j, g.da q b j * p.R q j i) + if c i then g.dy b i else 0) yp' +
  inner (fun b j => g.dIa b j * p.pi j + g.dFa b j * p.pf j + if c j then g.dCa b j else g.dCa b j * r.Fb b j) cp'

theorem lstm_step_inner (a : Act) (p p' : LstmParams φ ψ) (c c1 : ψ → Prop) (x x' : M β φ) (yp yp' cp cp' : M β ψ)
    (r r1 : LstmRow β ψ) (g g1 : LstmBackRow β ψ) (δ : M β ψ) (eqs : LstmEqs a p c x yp cp r)
    (beqs : LstmBackEqs a p c c1 δ cp r r1 g g1) :
    let v := lstmVel a p p' c x x' yp yp' cp cp' r
    inner δ v.y = lstmContribution p p' x x' yp cp r.Ca g + lstmFlow p c yp' cp' r g - lstmFlow p c1 v.y v.Ca r1 g1 := by
  classical
  intro v
  -- element by element
  have h1 : inner δ v.y + lstmFlow p c1 v.y v.Ca r1 g1 + inner g.dOa (fun b j => v.cc b j * p.po j) =
      (∑ q, inner (g.da q) (v.A q)) + inner (fun b i => if c i then g.dy b i else 0) yp' +
      inner (fun b j => if c j then g.dCa b j else g.dCa b j * r.Fb b j) cp' := by
    rw [Gate.sum]
    unfold lstmFlow inner
    simp only [← Finset.sum_add_distrib]
    refine Finset.sum_congr rfl fun b _ => Finset.sum_congr rfl fun j _ => ?_
    have e1 := beqs.dy b j
    have e2 := beqs.dOa b j
    have e3 := beqs.dCa b j
    have e4 := beqs.dFa b j
    have e5 := beqs.dIa b j
    have e6 := beqs.dZa b j
    simp only [da_z, da_i, da_f, da_o] at *
    set K1 := (∑ q, ∑ j', g1.da q b j' * p.R q j' j) + if c1 j then g1.dy b j else 0 with hK1
    set K2 := g1.dIa b j * p.pi j + g1.dFa b j * p.pf j + (if c1 j then g1.dCa b j else g1.dCa b j * r1.Fb b j) with hK2
    by_cases hj : c j
    · simp only [if_pos hj] at e2 e3 e4 e5 e6 ⊢
      have vy : v.y b j = yp' b j := if_pos hj
      have vc : v.Ca b j = cp' b j := if_pos hj
      rw [vy, vc, e2, e4, e5, e6, e1, e3, e2]
      ring
    · simp only [if_neg hj] at e2 e3 e4 e5 e6 ⊢
      have vc : v.Ca b j = v.cc b j := if_neg hj
      have vy : v.y b j = Act.sigmoid.d (r.Ob b j) 1 * v.A .o b j * r.Cb b j + r.Ob b j * (a.d (r.Cb b j) 1 * v.cc b j) :=
        if_neg hj
      have vcc : v.cc b j = (Act.sigmoid.d (r.Ib b j) 1 * v.A .i b j * r.Zb b j + r.Ib b j * (a.d (r.Zb b j) 1 * v.A .z b j)) +
        (Act.sigmoid.d (r.Fb b j) 1 * v.A .f b j * cp b j + r.Fb b j * cp' b j) := rfl
      rw [Act.d_linear _ _ (_ * _)] at e2 e4 e5 e6
      rw [Act.d_linear _ _ (g.dy b j * r.Ob b j)] at e3
      have d1 : δ b j = g.dy b j - K1 := by rw [e1]; ring
      have d2 : K2 = g.dCa b j - g.dOa b j * p.po j - a.d (r.Cb b j) 1 * (g.dy b j * r.Ob b j) := by rw [e3]; ring
      rw [d1, d2, vc, vy, e4, e5, e6, e2]
      linear_combination (g.dCa b j) * vcc
  have h2 : inner g.dOa (v.A .o) = inner g.dOa (gateVel p p' .o x x' yp yp') + inner g.dOa (fun b j => v.cc b j * p.po j) +
      inner g.dOa (fun b j => r.Ca b j * p'.po j) := by
    unfold inner
    simp only [← Finset.sum_add_distrib]
    refine Finset.sum_congr rfl fun b _ => Finset.sum_congr rfl fun j _ => ?_
    have e2 := beqs.dOa b j
    by_cases hj : c j
    · rw [if_pos hj] at e2
      rw [e2]; ring
    · rw [eqs.Ca b j, if_neg hj]
      show _ * (gateVel p p' .o x x' yp yp' b j + (v.cc b j * p.po j + (r.Ib b j * r.Zb b j + r.Fb b j * cp b j) * p'.po j)) = _
      ring
  have h3 : inner g.dIa (v.A .i) = inner g.dIa (gateVel p p' .i x x' yp yp') + inner (fun b j => g.dIa b j * p.pi j) cp' +
      inner g.dIa (fun b j => cp b j * p'.pi j) := by
    unfold inner
    simp only [← Finset.sum_add_distrib]
    refine Finset.sum_congr rfl fun b _ => Finset.sum_congr rfl fun j _ => ?_
    show _ * (gateVel p p' .i x x' yp yp' b j + (cp' b j * p.pi j + cp b j * p'.pi j)) = _
    ring
  have h4 : inner g.dFa (v.A .f) = inner g.dFa (gateVel p p' .f x x' yp yp') + inner (fun b j => g.dFa b j * p.pf j) cp' +
      inner g.dFa (fun b j => cp b j * p'.pf j) := by
    unfold inner
    simp only [← Finset.sum_add_distrib]
    refine Finset.sum_congr rfl fun b _ => Finset.sum_congr rfl fun j _ => ?_
    show _ * (gateVel p p' .f x x' yp yp' b j + (cp' b j * p.pf j + cp b j * p'.pf j)) = _
    ring
  have h5 : inner g.dZa (v.A .z) = inner g.dZa (gateVel p p' .z x x' yp yp') := rfl
  have h6 : lstmFlow p c yp' cp' r g = (∑ q, inner (fun b i => ∑ j, g.da q b j * p.R q j i) yp') +
      inner (fun b i => if c i then g.dy b i else 0) yp' + inner (fun b j => g.dIa b j * p.pi j) cp' +
      inner (fun b j => g.dFa b j * p.pf j) cp' +
      inner (fun b j => if c j then g.dCa b j else g.dCa b j * r.Fb b j) cp' := by
    unfold lstmFlow
    simp only [Gate.sum]
    set A : Gate → M β ψ := fun q b i => ∑ j, g.da q b j * p.R q j i with hA
    have hA' : ∀ q b i, ∑ j, g.da q b j * p.R q j i = A q b i := fun _ _ _ => rfl
    simp only [hA']
    unfold inner
    simp only [← Finset.sum_add_distrib]
    refine Finset.sum_congr rfl fun b _ => Finset.sum_congr rfl fun j _ => ?_
    ring
  have h7 : ∀ q, inner (g.da q) (gateVel p p' q x x' yp yp') = _ := fun q => gateVel_inner p p' q x x' yp yp' (g.da q)
  rw [h6]
  unfold lstmContribution
  simp only [Gate.sum, da_z, da_i, da_f, da_o] at h1 h7 ⊢
  have z := h7 .z
  have i := h7 .i
  have f := h7 .f
  have o := h7 .o
  simp only [da_z, da_i, da_f, da_o] at z i f o
  rw [inner_peep g.dOa r.Ca] at h2
  rw [inner_peep] at h3 h4
  rw [h2, h3, h4, h5, z, i, f, o] at h1
  linear_combination h1

open Classical in
/-- Backpropagation through time for LSTM cells, some of which may be inactive in some
steps. -/
theorem lstm_bptt (a : Act) (N : ℕ) (c : ℕ → ψ → Prop)
    (X : ℝ → ℕ → M β φ) (X' : ℕ → M β φ) (hX : ∀ t < N, Moves (fun s => X s t) (X' t))
    (p : ℝ → LstmParams φ ψ) (p' : LstmParams φ ψ) (hp : LstmMoves p p') (ctxY ctxC : M β ψ)
    (r : ℝ → ℕ → LstmRow β ψ)
    (eqs : ∀ s, ∀ t < N, LstmEqs a (p s) (c t) (X s t) (before ctxY (fun t => (r s t).y) t)
      (before ctxC (fun t => (r s t).Ca) t) (r s t))
    (sm1 : ∀ t < N, ∀ b j, ¬ c t j → a.Smooth (gateIn (p 0) .z (X 0 t) (before ctxY (fun t => (r 0 t).y) t) b j))
    (sm2 : ∀ t < N, ∀ b j, ¬ c t j → a.Smooth ((r 0 t).Ib b j * (r 0 t).Zb b j +
      (r 0 t).Fb b j * before ctxC (fun t => (r 0 t).Ca) t b j))
    (δ : ℕ → M β ψ) (g : ℕ → LstmBackRow β ψ)
    (beqs : ∀ t < N, LstmBackEqs a (p 0) (c t) (c (t + 1)) (δ t) (before ctxC (fun t => (r 0 t).Ca) t) (r 0 t) (r 0 (t + 1))
      (g t) (g (t + 1)))
    (g0 : (∀ q, (g N).da q = 0) ∧ (g N).dy = 0 ∧ (g N).dCa = 0) :
    HasDerivAt (fun s => ∑ t ∈ Finset.range N, inner (δ t) (r s t).y)
      (∑ t ∈ Finset.range N, lstmContribution (p 0) p' (X 0 t) (X' t) (before ctxY (fun t => (r 0 t).y) t)
        (before ctxC (fun t => (r 0 t).Ca) t) (r 0 t).Ca (g t)) 0 := by
  let vel : ℕ → M β ψ × M β ψ → LstmVel β ψ := fun t q =>
    lstmVel a (p 0) p' (c t) (X 0 t) (X' t) (before ctxY (fun t => (r 0 t).y) t) q.1
      (before ctxC (fun t => (r 0 t).Ca) t) q.2 (r 0 t)
  let hv : ℕ → LstmVel β ψ := fun t => Nat.rec (vel 0 (0, 0)) (fun t q => vel (t + 1) (q.y, q.Ca)) t
  let by_ : ℕ → M β ψ := fun t => before 0 (fun t => (hv t).y) t
  let bc : ℕ → M β ψ := fun t => before 0 (fun t => (hv t).Ca) t
  have hbv : ∀ t, hv t = vel t (by_ t, bc t) := by
    intro t
    cases t with
    | zero => rfl
    | succ t => rfl
  have stepm : ∀ t < N, Moves (fun s => before ctxY (fun t => (r s t).y) t) (by_ t) →
      Moves (fun s => before ctxC (fun t => (r s t).Ca) t) (bc t) →
      Moves (fun s => (r s t).Ca) (hv t).Ca ∧ Moves (fun s => (r s t).y) (hv t).y := by
    intro t ht hy hc
    rw [hbv t]
    exact lstm_step_moves a (c t) (hX t ht) hp hy hc (fun s => r s t) (fun s => eqs s t ht) (sm1 t ht) (sm2 t ht)
  have hmov : ∀ t < N, Moves (fun s => (r s t).Ca) (hv t).Ca ∧ Moves (fun s => (r s t).y) (hv t).y := by
    intro t
    induction t with
    | zero =>
      intro ht
      exact stepm 0 ht (fun b j => hasDerivAt_const _ _) (fun b j => hasDerivAt_const _ _)
    | succ t ih =>
      intro ht
      exact stepm (t + 1) ht (ih (by omega)).2 (ih (by omega)).1
  have hd : HasDerivAt (fun s => ∑ t ∈ Finset.range N, inner (δ t) (r s t).y)
      (∑ t ∈ Finset.range N, inner (δ t) (hv t).y) 0 :=
    HasDerivAt.fun_sum (fun t ht => inner_hasDerivAt (δ t) (hmov t (Finset.mem_range.1 ht)).2)
  refine hd.congr_deriv ?_
  refine sum_telescope N _ _ (fun t => lstmFlow (p 0) (c t) (by_ t) (bc t) (r 0 t) (g t)) ?_ ?_ ?_
  · intro t ht
    have := lstm_step_inner a (p 0) p' (c t) (c (t + 1)) (X 0 t) (X' t) (before ctxY (fun t => (r 0 t).y) t) (by_ t)
      (before ctxC (fun t => (r 0 t).Ca) t) (bc t) (r 0 t) (r 0 (t + 1)) (g t) (g (t + 1)) (δ t) (eqs 0 t ht) (beqs t ht)
    dsimp only at this
    rw [show lstmVel a (p 0) p' (c t) (X 0 t) (X' t) (before ctxY (fun t => (r 0 t).y) t) (by_ t)
      (before ctxC (fun t => (r 0 t).Ca) t) (bc t) (r 0 t) = hv t from (hbv t).symm] at this
    exact this
  · show lstmFlow _ _ 0 0 _ _ = 0
    unfold lstmFlow inner
    simp
  · have i0 : (g N).dIa = 0 := g0.1 .i
    have f0 : (g N).dFa = 0 := g0.1 .f
    show lstmFlow _ _ _ _ _ _ = 0
    unfold lstmFlow inner
    simp [g0.1, g0.2.1, g0.2.2, i0, f0]

end

end Verif.Layers
