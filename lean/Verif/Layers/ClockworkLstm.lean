import Verif.Layers.LstmProps

/-!
# C22 for ClockworkLstm
-/

namespace Verif.Layers

noncomputable section

variable {β φ ψ : Type} [Fintype β] [Fintype φ] [Fintype ψ]

omit [Fintype β] in
/-- The forward pass of the ClockworkLstm satisfies the equations. -/
theorem cwLstmForward_eqs (a : Act) (N : ℕ) (x : ℕ → M β φ) (p : LstmParams φ ψ) (timing : V ψ) (st : ℕ → LstmRow β ψ)
    (t : ℕ) (ht : t < N) :
    let r := cwLstmForward a N x p timing st
    LstmEqs a p (keeps timing t) (x t) (before (st N).y (fun t => (r t).y) t) (before (st N).Ca (fun t => (r t).Ca) t) (r t) ∧
    (∀ b j, (r t).Za b j = gateIn p .z (x t) (before (st N).y (fun t => (r t).y) t) b j) := by
  classical
  intro r
  obtain ⟨s1, s2⟩ := scanFwd_spec N (cwLstmStep a p timing) (lstmPre N x p st)
  have hN : r N = st N := by
    show scanFwd _ _ _ N = _
    rw [s2 N le_rfl]
    exact if_neg (lt_irrefl N)
  have hr : r t = cwLstmStep a p timing t (lstmPre N x p st t) (r (prevRow N t)) := s1 t ht
  have hp : lstmPre N x p st t = _ := if_pos ht
  rw [← hN, ← lstm_before_y, ← lstm_before_Ca]
  set prev := r (prevRow N t) with hprev
  rw [hp] at hr
  set q := lstmStep a p ⟨dotMM (x t) (tr (p.W .z)) (st t).Za, (st t).Zb, dotMM (x t) (tr (p.W .i)) (st t).Ia, (st t).Ib,
     dotMM (x t) (tr (p.W .f)) (st t).Fa, (st t).Fb, dotMM (x t) (tr (p.W .o)) (st t).Oa, (st t).Ob,
     (st t).Ca, (st t).Cb, (st t).y⟩ prev with hq
  have hr' : r t = ⟨q.Za, q.Zb, q.Ia, q.Ib, q.Fa, q.Fb, q.Oa, q.Ob,
      fun b j => if keeps timing t j then prev.Ca b j else q.Ca b j, q.Cb,
      fun b j => if keeps timing t j then prev.y b j else q.y b j⟩ := by
    rw [hr]
    unfold cwLstmStep
    rw [← hq]
    dsimp only
    by_cases h0 : t > 0
    · rw [if_pos h0]
      have : ∀ j, keeps timing t j ↔ cwHolds timing t j := fun j => ⟨fun h => h.2, fun h => ⟨h0, h⟩⟩
      simp only [this]
      rfl
    · rw [if_neg h0]
      have : ∀ j, ¬ keeps timing t j := fun j h => h0 h.1
      simp only [if_neg (this _)]
  have ez : ∀ b j, (r t).Za b j = gateIn p .z (x t) prev.y b j := by
    intro b j
    rw [hr']
    show (∑ k, x t b k * p.W .z j k) + (∑ i, prev.y b i * p.R .z j i) + p.b .z j = _
    unfold gateIn; ring
  refine ⟨⟨?_, ?_, ?_, ?_, ?_, ?_, ?_⟩, ez⟩
  · intro b j
    rw [← ez, hr']; rfl
  · intro b j
    rw [hr']
    show Act.sigmoid.f ((∑ k, x t b k * p.W .i j k) + (∑ i, prev.y b i * p.R .i j i) + prev.Ca b j * p.pi j + p.b .i j) = _
    congr 1; unfold gateIn; ring
  · intro b j
    rw [hr']
    show Act.sigmoid.f ((∑ k, x t b k * p.W .f j k) + (∑ i, prev.y b i * p.R .f j i) + prev.Ca b j * p.pf j + p.b .f j) = _
    congr 1; unfold gateIn; ring
  · intro b j
    rw [hr']
    have h : q.Ob b j = Act.sigmoid.f ((∑ k, x t b k * p.W .o j k) + (∑ i, prev.y b i * p.R .o j i) +
        (q.Ib b j * q.Zb b j + q.Fb b j * prev.Ca b j) * p.po j + p.b .o j) := rfl
    dsimp only
    rw [h]
    congr 1; unfold gateIn; ring
  · intro b j
    rw [hr']; rfl
  · intro b j
    rw [hr']; rfl
  · intro b j
    rw [hr']; rfl

open Classical in
/-- The equations of one step of the backward loop, with what was in `dy` and `dCa` before. -/
structure CwEqs (a : Act) (p : LstmParams φ ψ) (c : ψ → Prop) (δ y0 c0 cp : M β ψ) (r : LstmRow β ψ) (Fb1 : M β ψ)
    (g g1 : LstmBackRow β ψ) : Prop where
  dy : ∀ b i, g.dy b i = y0 b i + δ b i + ∑ q, ∑ j, g1.da q b j * p.R q j i
  dOa : ∀ b j, g.dOa b j = if c j then 0 else Act.sigmoid.d (r.Ob b j) (g.dy b j * r.Cb b j)
  dCa : ∀ b j, g.dCa b j = c0 b j + (g1.dIa b j * p.pi j + g1.dFa b j * p.pf j + g1.dCa b j * Fb1 b j) + g.dOa b j * p.po j +
      if c j then 0 else a.d (r.Cb b j) (g.dy b j * r.Ob b j)
  dFa : ∀ b j, g.dFa b j = if c j then 0 else Act.sigmoid.d (r.Fb b j) (g.dCa b j * cp b j)
  dIa : ∀ b j, g.dIa b j = if c j then 0 else Act.sigmoid.d (r.Ib b j) (g.dCa b j * r.Zb b j)
  dZa : ∀ b j, g.dZa b j = if c j then 0 else a.d (r.Zb b j) (g.dCa b j * r.Ib b j)

omit [Fintype β] [Fintype φ] in
theorem cwLstmBackStep_eqs (a : Act) (N : ℕ) (p : LstmParams φ ψ) (timing : V ψ) (fwd : ℕ → LstmRow β ψ) (δ : ℕ → M β ψ)
    (t : ℕ) (row next : LstmBackRow β ψ) :
    CwEqs a p (cwHolds timing t) (δ t) row.dy row.dCa (fwd (prevRow N t)).Ca (fwd t) (fwd (t + 1)).Fb
      (cwLstmBackStep a N p timing fwd δ t row next) next := by
  classical
  set g := cwLstmBackStep a N p timing fwd δ t row next with hg
  have hOa : ∀ b j, g.dOa b j = if cwHolds timing t j then 0 else Act.sigmoid.d ((fwd t).Ob b j) (g.dy b j * (fwd t).Cb b j) := by
    intro b j
    have : g.dOa b j = Act.sigmoid.d ((fwd t).Ob b j) (if cwHolds timing t j then 0 else g.dy b j * (fwd t).Cb b j) := rfl
    rw [this]
    split
    · rw [Act.d_linear, mul_zero]
    · rfl
  refine ⟨?_, hOa, ?_, ?_, ?_, ?_⟩
  · intro b i
    rw [Gate.sum]
    show row.dy b i + δ t b i + (∑ j, next.dIa b j * p.R .i j i) + (∑ j, next.dFa b j * p.R .f j i) +
      (∑ j, next.dOa b j * p.R .o j i) + (∑ j, next.dZa b j * p.R .z j i) = _
    rw [da_z, da_i, da_f, da_o]
    ring
  · intro b j
    have : g.dCa b j = row.dCa b j + next.dIa b j * p.pi j + next.dFa b j * p.pf j + g.dOa b j * p.po j +
      (if cwHolds timing t j then 0 else a.d ((fwd t).Cb b j) (g.dy b j * (fwd t).Ob b j)) +
      next.dCa b j * (fwd (t + 1)).Fb b j := rfl
    rw [this]
    ring
  · intro b j
    rfl
  · intro b j
    rfl
  · intro b j
    rfl

open Classical in
omit [Fintype β] [Fintype φ] in
theorem cwLstmBack_spec (a : Act) (N : ℕ) (p : LstmParams φ ψ) (timing : V ψ) (h0 : ∀ j, ¬ cwHolds timing 0 j)
    (δ : ℕ → M β ψ) (k : ℕ) (hk : k ≤ N) (r0 : ℕ → LstmBackRow β ψ) (f0 : ℕ → LstmRow β ψ) :
    let fin := (List.range k).reverse.foldl (cwLstmBackBody a N p timing δ) (r0, f0)
    (∀ t, k ≤ t → fin.1 t = r0 t) ∧
    (∀ t, (fin.2 t).y = (f0 t).y ∧ (fin.2 t).Ca = (f0 t).Ca) ∧
    ∀ t < k, CwEqs a p (cwHolds timing t) (δ t)
      (fun b j => (r0 t).dy b j + if t + 1 < k ∧ cwHolds timing (t + 1) j then (fin.1 (t + 1)).dy b j else 0)
      (fun b j => (r0 t).dCa b j + if t + 1 < k ∧ cwHolds timing (t + 1) j then (fin.1 (t + 1)).dCa b j else 0)
      (f0 (prevRow N t)).Ca (f0 t)
      (fun b j => if t + 1 < k ∧ cwHolds timing (t + 1) j then 0 else (f0 (t + 1)).Fb b j)
      (fin.1 t) (fin.1 (t + 1)) := by
  induction k generalizing r0 f0 with
  | zero => exact ⟨fun t _ => rfl, fun t => ⟨rfl, rfl⟩, by intro t ht; omega⟩
  | succ k ih =>
    dsimp only
    rw [List.range_succ, List.reverse_append, List.reverse_singleton, List.singleton_append, List.foldl_cons]
    set r1 := (cwLstmBackBody a N p timing δ (r0, f0) k).1 with hr1
    set f1 := (cwLstmBackBody a N p timing δ (r0, f0) k).2 with hf1
    rw [show cwLstmBackBody a N p timing δ (r0, f0) k = (r1, f1) from rfl]
    obtain ⟨i1, i2, i3⟩ := ih (by omega) r1 f1
    set fin := (List.range k).reverse.foldl (cwLstmBackBody a N p timing δ) (r1, f1) with hfin
    have hpk : prevRow N k ≠ k := by unfold prevRow; split <;> omega
    have hr1k : r1 k = cwLstmBackStep a N p timing f0 δ k (r0 k) (r0 (k + 1)) := by
      rw [hr1]
      unfold cwLstmBackBody
      dsimp only
      rw [Function.update_of_ne hpk.symm, Function.update_self]
    have hr1p : ∀ t, t = prevRow N k → r1 t = ⟨(r0 t).dZa, (r0 t).dZb, (r0 t).dIa, (r0 t).dIb, (r0 t).dFa, (r0 t).dFb,
        (r0 t).dOa, (r0 t).dOb, addIntoIf (r1 k).dCa (r0 t).dCa (cwHolds timing k), (r0 t).dCb,
        addIntoIf (r1 k).dy (r0 t).dy (cwHolds timing k)⟩ := by
      intro t ht
      rw [hr1k, hr1]
      unfold cwLstmBackBody
      dsimp only
      rw [ht, Function.update_self]
      rw [Function.update_of_ne hpk, Function.update_self]
    have hr1n : ∀ t, t ≠ k → t ≠ prevRow N k → r1 t = r0 t := by
      intro t h1 h2
      rw [hr1]
      unfold cwLstmBackBody
      dsimp only
      rw [Function.update_of_ne h2, Function.update_of_ne h1]
    have hf1n : ∀ t, t ≠ k → f1 t = f0 t := by
      intro t h1
      rw [hf1]
      unfold cwLstmBackBody
      dsimp only
      rw [Function.update_of_ne h1]
    have hf1k : f1 k = ⟨(f0 k).Za, (f0 k).Zb, (f0 k).Ia, (f0 k).Ib, (f0 k).Fa, fillIf (f0 k).Fb 0 (cwHolds timing k),
        (f0 k).Oa, (f0 k).Ob, (f0 k).Ca, (f0 k).Cb, (f0 k).y⟩ := by
      rw [hf1]
      unfold cwLstmBackBody
      dsimp only
      rw [Function.update_self]
    have hf1Ca : ∀ t, (f1 t).Ca = (f0 t).Ca := by
      intro t
      by_cases h : t = k
      · rw [h, hf1k]
      · rw [hf1n t h]
    have hf1y : ∀ t, (f1 t).y = (f0 t).y := by
      intro t
      by_cases h : t = k
      · rw [h, hf1k]
      · rw [hf1n t h]
    -- rows above k are unchanged
    have habove : ∀ t, k + 1 ≤ t → r1 t = r0 t := by
      intro t ht
      by_cases h : t = prevRow N k
      · -- only for k = 0, where no unit is inactive
        have k0 : k = 0 := by
          by_contra hne
          unfold prevRow at h
          rw [if_neg hne] at h
          omega
        subst k0
        rw [hr1p t h]
        unfold addIntoIf
        simp only [if_neg (h0 _)]
      · exact hr1n t (by omega) h
    refine ⟨?_, ?_, ?_⟩
    · intro t ht
      rw [i1 t (by omega), habove t ht]
    · intro t
      rw [(i2 t).1, (i2 t).2, hf1y, hf1Ca]
      exact ⟨rfl, rfl⟩
    · intro t ht
      rcases Nat.lt_succ_iff_lt_or_eq.1 ht with h | h
      · have e := i3 t h
        rw [hf1Ca, hf1n t (by omega)] at e
        have hFb : (fun b j => if t + 1 < k ∧ cwHolds timing (t + 1) j then 0 else (f1 (t + 1)).Fb b j) =
            (fun (b : β) j => if t + 1 < k + 1 ∧ cwHolds timing (t + 1) j then 0 else (f0 (t + 1)).Fb b j) := by
          funext b j
          by_cases hc : cwHolds timing (t + 1) j
          · by_cases hl : t + 1 < k
            · rw [if_pos ⟨hl, hc⟩, if_pos ⟨by omega, hc⟩]
            · have : t + 1 = k := by omega
              rw [if_neg (fun h => hl h.1), if_pos ⟨by omega, hc⟩]
              rw [this] at hc ⊢
              rw [hf1k]
              exact if_pos hc
          · rw [if_neg (fun h => hc h.2), if_neg (fun h => hc h.2)]
            by_cases hl : t + 1 = k
            · rw [hl] at hc ⊢
              rw [hf1k]
              exact if_neg hc
            · rw [hf1n _ hl]
        have hadd : (fun b j => (r1 t).dy b j + if t + 1 < k ∧ cwHolds timing (t + 1) j then (fin.1 (t + 1)).dy b j else 0) =
            (fun (b : β) j => (r0 t).dy b j + if t + 1 < k + 1 ∧ cwHolds timing (t + 1) j then (fin.1 (t + 1)).dy b j else 0) ∧
            (fun b j => (r1 t).dCa b j + if t + 1 < k ∧ cwHolds timing (t + 1) j then (fin.1 (t + 1)).dCa b j else 0) =
            (fun (b : β) j => (r0 t).dCa b j + if t + 1 < k + 1 ∧ cwHolds timing (t + 1) j then (fin.1 (t + 1)).dCa b j else 0) := by
          by_cases hl : t + 1 = k
          · have hp : t = prevRow N k := by unfold prevRow; rw [if_neg (by omega)]; omega
            have hf : fin.1 (t + 1) = r1 k := by rw [hl]; exact i1 k le_rfl
            rw [hr1p t hp, hf]
            subst hl
            unfold addIntoIf
            constructor <;>
            · funext b j
              dsimp only
              by_cases hc : cwHolds timing (t + 1) j
              · rw [if_pos hc, if_neg (by omega), if_pos ⟨by omega, hc⟩, add_zero]
              · rw [if_neg hc, if_neg (by omega), if_neg (fun h => hc h.2), add_zero]
          · have hp : t ≠ prevRow N k := by unfold prevRow; split <;> omega
            rw [hr1n t (by omega) hp]
            have : ∀ j, (t + 1 < k ∧ cwHolds timing (t + 1) j) ↔ (t + 1 < k + 1 ∧ cwHolds timing (t + 1) j) :=
              fun j => ⟨fun h => ⟨by omega, h.2⟩, fun h => ⟨by omega, h.2⟩⟩
            simp only [this]
            exact ⟨trivial, trivial⟩
        rw [hFb, hadd.1, hadd.2] at e
        exact e
      · subst h
        have hf : fin.1 t = r1 t := i1 t le_rfl
        have hf1 : fin.1 (t + 1) = r0 (t + 1) := by rw [i1 (t + 1) (by omega), habove (t + 1) le_rfl]
        have e := cwLstmBackStep_eqs a N p timing f0 δ t (r0 t) (r0 (t + 1))
        rw [← hr1k] at e
        rw [hf, hf1]
        have n : ∀ j, ¬ (t + 1 < t + 1 ∧ cwHolds timing (t + 1) j) := fun j h => lt_irrefl _ h.1
        simp only [if_neg (n _), add_zero]
        exact e

/-- **C22 (ClockworkLstm), any context.**  With respect to everything but `timing`, which gets no gradient; no timing
is zero. -/
theorem C22_clockwork_lstm_context (a : Act) (N : ℕ) (hN : 0 < N) (X : ℝ → ℕ → M β φ) (X' : ℕ → M β φ)
    (hX : ∀ t < N, Moves (fun s => X s t) (X' t)) (p : ℝ → LstmParams φ ψ) (p' : LstmParams φ ψ) (hp : LstmMoves p p')
    (timing : V ψ) (htiming : ∀ j, timing j ≠ 0)
    (st : ℕ → LstmRow β ψ) (stb : ℕ → LstmBackRow β ψ) (cleared : ∀ q, (stb N).da q = 0)
    (δ : ℕ → M β ψ) (dx : ℕ → M β φ) (grads : LstmParams φ ψ)
    (smooth : ∀ t < N, ∀ b j, ¬ keeps timing t j → a.Smooth ((cwLstmForward a N (X 0) (p 0) timing st t).Za b j) ∧
      a.Smooth ((cwLstmForward a N (X 0) (p 0) timing st t).Ca b j)) :
    let back := cwLstmBackward a N (X 0) (p 0) timing (cwLstmForward a N (X 0) (p 0) timing st) δ stb dx grads
    HasDerivAt (fun s => ∑ t ∈ Finset.range N, inner (δ t) (cwLstmForward a N (X s) (p s) timing st t).y)
      (lstmComputed N back dx grads X' p' + lstmMissing (st N).y (st N).Ca (back.rows 0) p') 0 := by
  classical
  intro back
  set fwd := cwLstmForward a N (X 0) (p 0) timing st with hfwd
  have h0 : ∀ j, ¬ cwHolds timing 0 j := by
    intro j
    unfold cwHolds fmod
    rw [if_neg (htiming j)]
    simp
  obtain ⟨b1, b2, b3⟩ := cwLstmBack_spec a N (p 0) timing h0 δ N le_rfl (lstmBackInit stb) fwd
  set fin := (List.range N).reverse.foldl (cwLstmBackBody a N (p 0) timing δ) (lstmBackInit stb, fwd) with hfin
  set rows := fin.1 with hrows
  have hrN : rows N = lstmBackInit stb N := b1 N le_rfl
  have hfN : fwd N = st N := by
    show scanFwd _ _ _ N = _
    rw [(scanFwd_spec N _ _).2 N le_rfl]
    exact if_neg (lt_irrefl N)
  have kk : ∀ t j, keeps timing t j ↔ cwHolds timing t j := by
    intro t j
    cases t with
    | zero => exact ⟨fun h => h.2, fun h => absurd h (h0 j)⟩
    | succ t => exact ⟨fun h => h.2, fun h => ⟨Nat.succ_pos t, h⟩⟩
  have main := lstm_bptt a N (keeps timing) X X' hX p p' hp (st N).y (st N).Ca
    (fun s t => cwLstmForward a N (X s) (p s) timing st t)
    (fun s t ht => (cwLstmForward_eqs a N (X s) (p s) timing st t ht).1)
    (fun t ht b j hc => by
      have := (cwLstmForward_eqs a N (X 0) (p 0) timing st t ht).2 b j
      rw [← this]
      exact (smooth t ht b j hc).1)
    (fun t ht b j hc => by
      have := (cwLstmForward_eqs a N (X 0) (p 0) timing st t ht).1.Ca b j
      rw [if_neg hc] at this
      rw [← this]
      exact (smooth t ht b j hc).2)
    δ rows
    (fun t ht => by
      have e := b3 t ht
      rw [lstm_before_Ca, hfN] at e
      refine ⟨?_, ?_, ?_, ?_, ?_, ?_⟩
      · intro b i
        rw [e.dy b i]
        simp only [kk]
        show (0 : ℝ) + _ + _ + _ = _
        by_cases hl : t + 1 < N
        · simp only [hl, true_and]
          ring
        · have hz : t + 1 = N := by omega
          have : (rows (t + 1)).dy b i = 0 := by rw [hz, hrN]; rfl
          rw [this]
          simp only [ite_self]
          ring
      · intro b j
        rw [e.dOa b j]
        simp only [kk]
        rfl
      · intro b j
        rw [e.dCa b j]
        simp only [kk]
        show (0 : ℝ) + _ + _ + _ + _ = _
        by_cases hl : t + 1 < N
        · simp only [hl, true_and]
          by_cases hc : cwHolds timing (t + 1) j
          · simp only [if_pos hc]
            ring
          · simp only [if_neg hc]
            ring
        · have hz : t + 1 = N := by omega
          have : (rows (t + 1)).dCa b j = 0 := by rw [hz, hrN]; rfl
          rw [this]
          simp only [ite_self, zero_mul]
          ring
      · intro b j
        rw [e.dFa b j]
        simp only [kk]
        rfl
      · intro b j
        rw [e.dIa b j]
        simp only [kk]
        rfl
      · intro b j
        rw [e.dZa b j]
        simp only [kk]
        rfl)
    (by
      rw [hrN]
      refine ⟨fun q => ?_, rfl, rfl⟩
      have := cleared q
      cases q <;> exact this)
  refine main.congr_deriv ?_
  rw [lstmContribution_context hN]
  congr 1
  have hg := lstmGrads_inner hN (X 0) (p 0) fin.2 rows dx grads X' p' (by rw [hrN]; rfl) (by rw [hrN]; rfl)
  have ey : (fun t => (fin.2 t).y) = fun t => (fwd t).y := funext fun t => (b2 t).1
  have ec : (fun t => (fin.2 t).Ca) = fun t => (fwd t).Ca := funext fun t => (b2 t).2
  rw [ey, ec] at hg
  simp only [(b2 _).2] at hg
  rw [← hg]
  rfl

/-- **C22 (ClockworkLstm), partial.**  If the context is zero, the deltas and gradients are the derivatives, for every number
of time steps and all timings but zero.  Missing: other contexts (false, as for Lstm) and timing zero. -/
theorem C22_clockwork_lstm_partial (a : Act) (N : ℕ) (hN : 0 < N) (X : ℝ → ℕ → M β φ) (X' : ℕ → M β φ)
    (hX : ∀ t < N, Moves (fun s => X s t) (X' t)) (p : ℝ → LstmParams φ ψ) (p' : LstmParams φ ψ) (hp : LstmMoves p p')
    (timing : V ψ) (htiming : ∀ j, timing j ≠ 0)
    (st : ℕ → LstmRow β ψ) (ctxY : (st N).y = 0) (ctxC : (st N).Ca = 0)
    (stb : ℕ → LstmBackRow β ψ) (cleared : ∀ q, (stb N).da q = 0)
    (δ : ℕ → M β ψ) (dx : ℕ → M β φ) (grads : LstmParams φ ψ)
    (smooth : ∀ t < N, ∀ b j, ¬ keeps timing t j → a.Smooth ((cwLstmForward a N (X 0) (p 0) timing st t).Za b j) ∧
      a.Smooth ((cwLstmForward a N (X 0) (p 0) timing st t).Ca b j)) :
    let back := cwLstmBackward a N (X 0) (p 0) timing (cwLstmForward a N (X 0) (p 0) timing st) δ stb dx grads
    HasDerivAt (fun s => ∑ t ∈ Finset.range N, inner (δ t) (cwLstmForward a N (X s) (p s) timing st t).y)
      ((∑ t ∈ Finset.range N, inner (back.dx t - dx t) (X' t)) +
        (∑ q, (inner (back.grads.W q - grads.W q) (p'.W q) + inner (back.grads.R q - grads.R q) (p'.R q) +
          innerV (back.grads.b q - grads.b q) (p'.b q))) +
        innerV (back.grads.pi - grads.pi) p'.pi + innerV (back.grads.pf - grads.pf) p'.pf +
        innerV (back.grads.po - grads.po) p'.po) 0 := by
  intro back
  refine (C22_clockwork_lstm_context a N hN X X' hX p p' hp timing htiming st stb cleared δ dx grads smooth).congr_deriv ?_
  rw [ctxY, ctxC]
  have : lstmMissing (0 : M β ψ) 0 (back.rows 0) p' = 0 := by
    simp [lstmMissing, inner, innerV]
  rw [this, add_zero]
  rfl

end

end Verif.Layers
