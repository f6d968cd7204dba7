import Verif.Evaluate.Cut
import Verif.Sequence.Props

/-!
# C79: the states after the passes
-/

namespace Verif.Evaluate

open Verif.Structure Verif.Layout Verif.Buffers Verif.Memory Verif.EndToEnd
open Verif.Session Verif.Sequence

section
variable {layers : List LayerInfo} {L : Layout} {data : LayerInfo} {rest : List LayerInfo} {P : ℕ → ℕ → List MLayer}

/-- The state after a forward pass over the batch, with the parameters `θ`. -/
def Ran (layers : List LayerInfo) (L : Layout) (data : LayerInfo) (P : ℕ → ℕ → List MLayer) (θ : List ℝ) (b : Batch) (st : State ℝ) : Prop :=
  ∃ s sz k vs, Inv (netOf layers L) st b.T b.B sz k vs ∧ (∀ c < total (netOf layers L) b.T b.B, memOf st c = forward (P b.T b.B) s c) ∧
    Found layers L data b.T b.B b.data θ (contextRows (netOf layers L) b.T b.B) s

theorem passes_ran (S : Sited layers L data rest P) {θ : List ℝ} : ∀ (bs : List Batch) (st : State ℝ) (T B sz k : ℕ) (vs : List (Name × View)),
    Inv (netOf layers L) st T B sz k vs → st.read (str "parameters") = some θ → (∀ b ∈ bs, b.Good data) →
    ∃ sts, passes (netOf layers L) data.name P bs st = some sts ∧ List.Forall₂ (Ran layers L data P θ) bs sts
  | [], _, _, _, _, _, _, _, _, _ => ⟨[], rfl, .nil⟩
  | b :: bs, st, _, _, _, _, _, i, hθ, hb => by
    obtain ⟨st₁, st₂, s, sz, k, vs, h1, h2, i2, m2, r2, H⟩ := fresh S i (hb b (by simp)) hθ
    obtain ⟨sts, g1, g2⟩ := passes_ran S bs st₂ _ _ _ _ _ i2 r2 fun b' hb' => hb b' (by simp [hb'])
    exact ⟨st₂ :: sts, by simp only [passes, h1, h2, g1, Option.bind_some, Option.map_some], .cons ⟨s, sz, k, vs, i2, m2, H⟩ g2⟩

/-- The comparison of a sequence of the whole batch with its place in one of the parts. -/
theorem ran_same (F : Memory.Fits layers L data rest) (ps : ∀ T B, ∀ l ∈ rest, LibLayer layers data l T B) {M : Mode}
    {ty : LayerInfo → Name} {kw : LayerInfo → Setup.Kwargs} (hps : ∀ T B l hl, Describes M (ty l) (kw l) (ps T B l hl))
    (S : Sited layers L data rest fun T B => libNetwork F (ps T B)) (hctx : ∀ h ∈ (netOf layers L).hubs, h.ctx ≤ 1)
    (hM : M.training = false) {w b : Batch} (hw : w.Good data) (hb : b.Good data) (eT : b.T = w.T ∨ DataAlone layers L data) {θ : List ℝ} {s s' : Mem}
    (H : Found layers L data w.T w.B w.data θ (contextRows (netOf layers L) w.T w.B) s)
    (H' : Found layers L data b.T b.B b.data θ (contextRows (netOf layers L) b.T b.B) s')
    (hclock : ∀ l ∈ rest, ty l = str "Clockwork" ∨ ty l = str "ClockworkLstm" → ∀ n, (str "timing", vec n) ∈ l.paramShapes → ∀ j < n,
      value (netOf layers L) w.T w.B l.name (forward (libNetwork F (ps w.T w.B)) s) ⟨str "parameters", str "timing", j⟩ ≠ 0)
    {A : Align} (a1 : A.T = w.T ∧ A.B = w.B) (a2 : A.T' = b.T ∧ A.B' = b.B) (a3 : A.o = 0) (hsame : SameData A data w b) :
    (∀ l ∈ rest, ty l ≠ str "Loss" → Writes A (ty l) l (value (netOf layers L) A.T A.B l.name (forward (libNetwork F (ps w.T w.B)) s))
      (value (netOf layers L) A.T' A.B' l.name (forward (libNetwork F (ps b.T b.B)) s'))) ∧
    (∀ x sh, (x, sh) ∈ data.outShapes →
      A.Same sh (fun j => value (netOf layers L) A.T A.B data.name (forward (libNetwork F (ps w.T w.B)) s) ⟨str "outputs", x, j⟩)
        (fun j => value (netOf layers L) A.T' A.B' data.name (forward (libNetwork F (ps b.T b.B)) s') ⟨str "outputs", x, j⟩)) ∧
    ∀ l ∈ rest, ∀ x sh, (x, sh) ∈ l.inShapes →
      A.Same sh (fun j => value (netOf layers L) A.T A.B l.name (forward (libNetwork F (ps w.T w.B)) s) ⟨str "inputs", x, j⟩)
        (fun j => value (netOf layers L) A.T' A.B' l.name (forward (libNetwork F (ps b.T b.B)) s') ⟨str "inputs", x, j⟩) := by
  obtain ⟨a1, a1'⟩ := a1
  obtain ⟨a2, a2'⟩ := a2
  rw [← a1, ← a1'] at H hclock ⊢
  rw [← a2, ← a2'] at H' ⊢
  have q1 := A.seq
  have q2 := A.seq'
  have cd : ∀ e ∈ data.outShapes, ∃ xs, (e.1, xs) ∈ w.data := fun e he => by
    obtain ⟨⟨y, ys⟩, g1, g2⟩ := List.mem_map.1 (hw.complete e he); exact ⟨ys, g2 ▸ g1⟩
  have cd' : ∀ e ∈ data.outShapes, ∃ xs, (e.1, xs) ∈ b.data := fun e he => by
    obtain ⟨⟨y, ys⟩, g1, g2⟩ := List.mem_map.1 (hb.complete e he); exact ⟨ys, g2 ▸ g1⟩
  have erase : ∀ x sh, (x, sh) ∈ data.outShapes → ∀ r r', A.Rows sh r r' → ∀ k < sh.featureSize, _ := fun x sh hx r r' hr k hk =>
    fresh_erase F.laid hctx S.data_mem a3 (eT.imp (fun e => by rw [a1, a2, e]) Or.inr) hx hr hk
  have W := compare (A := A) F ps hps S H H' (fun _ => rfl) (fun _ => rfl) cd cd' hsame erase
    (fun l hl _ x n hx k hk => by
      rw [featureSize_rec1] at hk ⊢
      rw [a3]
      exact (fresh_before S H hl (Or.inl rfl) hx q1 hk).trans (fresh_before S H' hl (Or.inl rfl) hx q2 hk).symm)
    (fun l hl n _ hx k hk => by
      rw [featureSize_rec1] at hk ⊢
      rw [a3]
      exact (fresh_before S H hl (Or.inr rfl) hx q1 hk).trans (fresh_before S H' hl (Or.inr rfl) hx q2 hk).symm)
    (fun l hl hne => ⟨hne, fun _ => hM, fun e => ⟨a3, fun n hx j hj => hclock l hl e n hx j hj⟩⟩)
  have hd : ∀ x sh, (x, sh) ∈ data.outShapes → A.Same sh
      (fun j => value (netOf layers L) A.T A.B data.name (forward (libNetwork F (ps A.T A.B)) s) ⟨str "outputs", x, j⟩)
      (fun j => value (netOf layers L) A.T' A.B' data.name (forward (libNetwork F (ps A.T' A.B')) s') ⟨str "outputs", x, j⟩) :=
    fun x sh hx => data_same S H H' cd cd' hsame erase hx
  refine ⟨W, hd, fun l hl x sh hx => ?_⟩
  refine inputs_of (v := fun l => value (netOf layers L) A.T A.B l.name (forward (libNetwork F (ps A.T A.B)) s))
    (v' := fun l => value (netOf layers L) A.T' A.B' l.name (forward (libNetwork F (ps A.T' A.B')) s')) F hl hx (fun _ => rfl) (fun _ => rfl)
    (fun l hl x sh hx j hj => params_same S H H' hl hx hj) hd fun k hk o ho sh h3 h4 e1 => ?_
  refine (W k hk fun hty => ?_).outs _ _ h4
  have := hps A.T A.B k hk
  rw [hty] at this
  exact loss_loose this ho h3 h4

/-- The sum of a row of the input of a Loss layer. -/
noncomputable def inputSum (net : Net) (n : Name) (c T B : ℕ) (m : Mem) (r : ℕ) : ℝ :=
  ((List.range c).map fun k => value net T B n m ⟨str "inputs", str "default", r * c + k⟩).sum

theorem sum_range_mul (g : ℕ → ℝ) (R c : ℕ) : ∑ i : Fin (R * c), g i = ((List.range R).map fun r => ((List.range c).map fun k => g (r * c + k)).sum).sum := by
  rw [Fin.sum_univ_eq_sum_range, Finset.sum, Finset.range_val, Multiset.range, Multiset.map_coe, Multiset.sum_coe, range_mul, blk,
    List.flatMap_def, List.sum_flatten, List.map_map]
  simp only [Function.comp_def, Nat.zero_add]

/-- What a Loss layer computes. -/
theorem loss_entry (F : Memory.Fits layers L data rest) {T B : ℕ} (ps : ∀ l ∈ rest, LibLayer layers data l T B) {M : Mode} {kw : Setup.Kwargs}
    {l : LayerInfo} (hl : l ∈ rest) (hd : Describes M (str "Loss") kw (ps l hl)) (s : Mem) :
    ∃ importance x, numArg kw (str "importance") 1 = some importance ∧ (str "default", x) ∈ l.inShapes ∧
      (str "loss", vec 1) ∈ l.outShapes ∧
      entry (netOf layers L) T B l.name (forward (libNetwork F ps) s) "outputs" "loss" 0 =
        importance * ((List.range (rows x T B)).map (inputSum (netOf layers L) l.name x.featureSize T B (forward (libNetwork F ps) s))).sum /
          (if x.bufferType = 0 then 1 else (B : ℝ)) := by
  have hC := C76_formulas F ps s l hl
  have et := describes_type hd
  cases hq : ps l hl with
  | loss importance x has loose =>
    rw [hq] at hC hd
    refine ⟨importance, x, hd.2, has.ins _ (by simp), by rw [has.outs]; simp, ?_⟩
    refine Eq.trans hC ?_
    rw [rows_size]
    congr 2
    exact sum_range_mul (fun c => entry (netOf layers L) T B l.name (forward (libNetwork F ps) s) "inputs" "default" c) _ _
  | _ => rw [hq] at et; simp only [typeName] at et; exact absurd et (by decide)

end

end Verif.Evaluate
