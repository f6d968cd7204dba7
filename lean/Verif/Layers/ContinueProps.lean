import Verif.Layers.Continue
import Verif.Layers.Model

/-!
# C19: negation for Clockwork, and an example network
-/

namespace Verif.Layers

noncomputable section

/-- **C19 (Clockwork), negation.**  With timing 2, a sequence of two steps and the same sequence in two pieces of one
step, the second with the context of the first, have different outputs in the second step. -/
theorem C19_clockwork_wrong :
    ∃ (p : RnnParams Unit Unit) (timing : V Unit) (x : ℕ → M Unit Unit) (whole first second : ℕ → RnnRow Unit Unit),
      whole 2 = first 1 ∧ second 1 = cwForward .linear 1 x p timing first 0 ∧
      (cwForward .linear 1 x p timing first 0).out = (cwForward .linear 2 x p timing whole 0).out ∧
      (cwForward .linear 1 (fun t => x (1 + t)) p timing second 0).out ≠ (cwForward .linear 2 x p timing whole 1).out := by
  let p : RnnParams Unit Unit := ⟨fun _ _ => 1, fun _ _ => 0, fun _ => 0⟩
  let timing : V Unit := fun _ => 2
  let x : ℕ → M Unit Unit := fun t _ _ => 1 + 4 * t
  let z : ℕ → RnnRow Unit Unit := fun _ => ⟨0, 0⟩
  have holds : cwHolds timing 1 () := by
    unfold cwHolds fmod
    have : (⌊(1 : ℝ) / 2⌋ : ℤ) = 0 := by norm_num [Int.floor_eq_iff]
    simp only [timing, Nat.cast_one]
    rw [if_neg (by norm_num), if_pos (by norm_num)]
    rw [this]
    norm_num
  have first : ∀ (N : ℕ), 0 < N → ∀ (y : ℕ → M Unit Unit) st, (cwForward .linear N y p timing st 0).out = y 0 := by
    intro N hN y st
    unfold cwForward
    rw [(scanFwd_spec N _ _).1 0 hN]
    funext b j
    show dotAddMM _ _ _ b j = _
    unfold dotAddMM rnnPre
    rw [if_pos hN]
    simp [dotMM, addMV, tr, p]
  have second : (cwForward .linear 2 x p timing z 1).out = x 0 := by
    have h : (cwForward .linear 2 x p timing z 1).out = (cwForward .linear 2 x p timing z 0).out := by
      show RnnRow.out (scanFwd _ _ _ 1) = _
      rw [(scanFwd_spec 2 _ _).1 1 (by omega)]
      funext b j
      exact if_pos holds
    rw [h, first 2 (by omega)]
  refine ⟨p, timing, x, z, z, Function.update z 1 (cwForward .linear 1 x p timing z 0), rfl, ?_, ?_, ?_⟩
  · rw [Function.update_self]
  · rw [first 1 (by omega), first 2 (by omega)]
  · rw [first 1 (by omega), second]
    intro h
    have := congrFun (congrFun h ()) ()
    norm_num [x] at this

/-! ## An example: Input → Recurrent → Lstm → FullyConnected, where the last layer also sees the input -/

inductive Ex
  | input
  | rnn
  | lstm
  | fc
deriving DecidableEq

section example_
variable (β φ ψ : Type) [Fintype φ] [Fintype ψ]

def ExRow : Ex → Type
  | .input => M β φ
  | .rnn => RnnRow β ψ
  | .lstm => LstmRow β ψ
  | .fc => M β ψ

def ExCtx : Ex → Type
  | .input => Unit
  | .rnn => M β ψ
  | .lstm => M β ψ × M β ψ
  | .fc => Unit

def exCtxOf : ∀ l, ExRow β φ ψ l → ExCtx β ψ l
  | .input, _ => ()
  | .rnn, r => RnnRow.out r
  | .lstm, r => (LstmRow.y r, LstmRow.Ca r)
  | .fc, _ => ()

def exLayers (a : Act) (p : RnnParams φ ψ) (q : LstmParams ψ ψ) (W : M ψ (ψ ⊕ φ)) (b : V ψ) : List (NetLayer Ex (ExRow β φ ψ)) :=
  [rnnNet a p .rnn (fun cur => cur .input) (Equiv.refl _),
   lstmNet a q .lstm (fun cur => RnnRow.out (cur .rnn)) (Equiv.refl _),
   pointwiseNet .fc (fun cur => fcForward a (mergeForward (LstmRow.y (cur .lstm)) (cur .input) (fun _ _ => 0)) W b (fun _ _ => 0))]

/-- The hypotheses of `C19_network` hold for this network, without restriction of the cuts. -/
example (a : Act) (p : RnnParams φ ψ) (q : LstmParams ψ ψ) (W : M ψ (ψ ⊕ φ)) (b : V ψ) :
    Ordered (exCtxOf β φ ψ) (fun _ => True) (exLayers β φ ψ a p q W b) := by
  refine ⟨⟨fun m => m = .input, C19_recurrent _ a p Ex.rnn _ _ _ ?_ id (fun r => rfl) _, ?_⟩, ?_,
    ⟨fun m => m = .rnn, C19_lstm _ a q Ex.lstm _ _ _ ?_ Prod.fst Prod.snd (fun r => ⟨rfl, rfl⟩) _, ?_⟩, ?_,
    ⟨fun m => m = .lstm ∨ m = .input, C19_pointwise _ Ex.fc _ _ ?_ _, ?_⟩, ?_, trivial⟩
  · intro cur cur' h
    exact h .input rfl
  · rintro m rfl
    exact ⟨by simp [rnnNet], by simp [lstmNet, pointwiseNet]⟩
  · simp [rnnNet, lstmNet, pointwiseNet]
  · intro cur cur' h
    show RnnRow.out (cur .rnn) = RnnRow.out (cur' .rnn)
    rw [h .rnn rfl]
  · rintro m rfl
    exact ⟨by simp [lstmNet], by simp [pointwiseNet]⟩
  · simp [lstmNet, pointwiseNet]
  · intro cur cur' h
    rw [h .lstm (Or.inl rfl), h .input (Or.inr rfl)]
  · rintro m (rfl | rfl)
    · exact ⟨by simp [pointwiseNet], by simp⟩
    · exact ⟨by simp [pointwiseNet], by simp⟩
  · simp

end example_

end

end Verif.Layers
