import Verif.Descent.Props
import Verif.Evaluate.Props

/-!
# C85: the loss of a batch, as a function of the parameters, is the weighted mean of the losses of its parts
-/

namespace Verif.Parts

open Verif.Architecture hiding demoArch
open Verif.Structure Verif.Layout Verif.Buffers Verif.Instantiate Verif.EndToEnd
open Verif.Memory hiding demoL
open Verif.Setup (Kwargs libEnv infos toInfo inp_some)
open Verif.Shapes (Supported)
open Verif.Session Verif.Determined Verif.Sequence Verif.Descent
open Verif.Evaluate (Cut Ran loss_sum loss_entries)

theorem describes_still {layers : List LayerInfo} {data l : LayerInfo} {T B : ℕ} {M : Mode} {t : Name} {kw : Kwargs}
    {q : LibLayer layers data l T B} (h : Describes M t kw q) (ht : t ≠ str "Dropout") : Describes { M with training := false } t kw q := by
  cases q <;> first | exact h | exact absurd h.1 ht

section
variable {kwargs : Name → Kwargs} {a : Arch} {ord : Orders} {layers : Dict Name (LayerObj Kwargs)} {L : Layout} {data : LayerInfo}
  {rest : List LayerInfo}

/-- What the network reports after a forward pass over a batch. -/
theorem ran_loss (m : Made kwargs a ord layers L) (F : Memory.Fits (infos layers) L data rest)
    (ps : ∀ T B, ∀ l ∈ rest, LibLayer (infos layers) data l T B)
    (S : Sited (infos layers) L data rest fun T B => libNetwork F (ps T B))
    (hrep : Reports (fun T B => libNetwork F (ps T B)) (reported a layers L)) {b : Batch} (hb : b.Good data)
    {θ : Fin (paramCount (infos layers) L) → ℝ} {st : State ℝ} {T B sz k : ℕ} {vs : List (Name × View)}
    (i : Inv (netOf (infos layers) L) st T B sz k vs) (hθ : st.read (str "parameters") = some (List.ofFn θ)) :
    ∃ st', Ran (infos layers) L data (fun T B => libNetwork F (ps T B)) (List.ofFn θ) b st' ∧
      reported a layers L b.T b.B (memOf st') = some (lossV (infos layers) L data.name (fun T B => libNetwork F (ps T B)) (reported a layers L) b θ) := by
  obtain ⟨st₁, h1, hr, r1⟩ := provide_ready S.laid S.data_mem i hb
  have hl := before_loaded S.laid S.data_mem hb hr (r1.trans hθ)
  obtain ⟨sz, k, vs, i1, -⟩ := hr
  obtain ⟨st₂, h2, i2, m2, r2⟩ := forwardPass_spec S i1 b.rnd
  refine ⟨st₂, ⟨_, sz, k, vs, i2, m2, hl.params, fun x hx i c hi _ hn => hl.data x hx i c hi hn, hl.context⟩, ?_⟩
  rw [hrep, lossV_loaded S hb hrep hl]
  refine congrArg some (totalLoss_congr (S.site _ _) fun l hl c hc => m2 c ?_)
  exact out_lt (S.site _ _) hl hc

/-- Periods that are not zero. -/
theorem period_value {P : ℕ → ℕ → List MLayer} (S : Sited (infos layers) L data rest P) {st : State ℝ} {T₀ B₀ sz k : ℕ} {vs : List (Name × View)}
    (i : Inv (netOf (infos layers) L) st T₀ B₀ sz k vs) {θ : Fin (paramCount (infos layers) L) → ℝ}
    (hθ : st.read (str "parameters") = some (List.ofFn θ)) (h0 : ∀ i : Fin (paramCount (infos layers) L), IsPeriod (infos layers) L i → θ i ≠ 0)
    {T B : ℕ} {d : List (Name × List ℝ)} {E : Set ℕ} {s : Mem} (H : Found (infos layers) L data T B d (List.ofFn θ) E s) {l : LayerInfo}
    (hl : l ∈ infos layers) {n : ℕ} (hx : (str "timing", vec n) ∈ l.paramShapes) {j : ℕ} (hj : j < n) :
    value (netOf (infos layers) L) T B l.name (forward (P T B) s) ⟨str "parameters", str "timing", j⟩ ≠ 0 := by
  refine param_ne_zero S i hθ H hl hx (fun ts hts hz => ?_) (by rw [featureSize_vec]; exact hj)
  obtain rfl := Option.some.inj (hts.symm.trans (Constrained.read_part S.laid i (c := .par) (Or.inl rfl) hl hx hθ))
  obtain ⟨q, hq⟩ := List.getElem?_of_mem hz
  by_cases hlt : q < (vec n).featureSize
  · rw [Constrained.part_getElem? _ _ _ _ hlt, List.getElem?_ofFn] at hq
    split at hq
    · next hi => exact h0 ⟨_, hi⟩ ⟨l, hl, _, hx, q, hlt, rfl⟩ (Option.some.inj hq)
    · cases hq
  · rw [List.getElem?_eq_none (by simp only [Constrained.part, List.length_take]; omega)] at hq
    cases hq

theorem swap {α β : Type} (f : α → β → ℝ) (ys : List β) : ∀ xs : List α,
    (xs.map fun x => (ys.map fun y => f x y).sum).sum = (ys.map fun y => (xs.map fun x => f x y).sum).sum
  | [] => by simp
  | x :: xs => by
    simp only [List.map_cons, List.sum_cons, swap f ys xs]
    induction ys with
    | nil => simp
    | cons y ys ih =>
      simp only [List.map_cons, List.sum_cons]
      rw [← ih]
      ring

theorem sum_zip {α β : Type} {R : α → β → Prop} {f : α → ℝ} {g : α → β → ℝ} (h : ∀ x y, R x y → f x = g x y) {xs : List α} {ys : List β}
    (hs : List.Forall₂ R xs ys) : (xs.map f).sum = ((xs.zip ys).map fun z => g z.1 z.2).sum := by
  induction hs with
  | nil => rfl
  | cons h1 _ ih => simp only [List.map_cons, List.zip_cons_cons, List.sum_cons, h _ _ h1, ih]

/-- The loss of a batch is the mean of the losses of its parts, weighted with the numbers of their sequences. -/
theorem whole_loss (m : Made kwargs a ord layers L) (F : Memory.Fits (infos layers) L data rest) (hdt : HasType a data.name (str "Input")) {M : Mode}
    (ps : ∀ T B, ∀ l ∈ rest, LibLayer (infos layers) data l T B)
    (hps : ∀ T B l (hl : l ∈ rest) t, HasType a l.name t → Describes M t (kwargs l.name) (ps T B l hl))
    (hD : ∀ n, ¬ HasType a n (str "Dropout")) {w : Batch} {bs : List Batch} (C : Cut data w bs)
    (θ : Fin (paramCount (infos layers) L) → ℝ) (h0 : ∀ i : Fin (paramCount (infos layers) L), IsPeriod (infos layers) L i → θ i ≠ 0) :
    w.B * lossV (infos layers) L data.name (fun T B => libNetwork F (ps T B)) (reported a layers L) w θ =
      (bs.map fun b => (b.B : ℝ) * lossV (infos layers) L data.name (fun T B => libNetwork F (ps T B)) (reported a layers L) b θ).sum := by
  have S := sited m F ps
  have hrep := reports m F ps hdt hps
  obtain ⟨st₀, k₀, vs₀, g0, i0⟩ := create_inv (V := ℝ) (netOf_wellLaid F.laid.wf F.laid.shaped F.laid.layout)
  obtain ⟨st, g1, i1, r1, -⟩ := write_report S i0 (θ := List.ofFn θ) (by simp)
  have hty : ∀ l ∈ infos layers, HasType a l.name (typeIn a l) := fun l hl => typeIn_spec m hl
  have hps' : ∀ T B l hl, Describes { M with training := false } (typeIn a l) (kwargs l.name) (ps T B l hl) := fun T B l hl =>
    describes_still (hps T B l hl _ (hty l (F.ordered.mem hl))) fun e => hD l.name (e ▸ hty l (F.ordered.mem hl))
  obtain ⟨wst, hw, lw⟩ := ran_loss m F ps S hrep C.good.1 i1 r1
  have hck : ∀ s, Found (infos layers) L data w.T w.B w.data (List.ofFn θ) (contextRows (netOf (infos layers) L) w.T w.B) s →
      ∀ l ∈ rest, typeIn a l = str "Clockwork" ∨ typeIn a l = str "ClockworkLstm" → ∀ n, (str "timing", vec n) ∈ l.paramShapes → ∀ j < n,
      value (netOf (infos layers) L) w.T w.B l.name (forward (libNetwork F (ps w.T w.B)) s) ⟨str "parameters", str "timing", j⟩ ≠ 0 := by
    intro s H l hl e n hx j hj
    exact period_value S i1 r1 h0 H (F.ordered.mem hl) hx hj
  have hsts : ∀ bs : List Batch, (∀ b ∈ bs, b.Good data) → ∃ sts, List.Forall₂ (fun b st' =>
      Ran (infos layers) L data (fun T B => libNetwork F (ps T B)) (List.ofFn θ) b st' ∧ reported a layers L b.T b.B (memOf st') =
        some (lossV (infos layers) L data.name (fun T B => libNetwork F (ps T B)) (reported a layers L) b θ)) bs sts := by
    intro bs hbs
    induction bs with
    | nil => exact ⟨[], .nil⟩
    | cons b bs ih =>
      obtain ⟨sts, hs⟩ := ih fun b hb => hbs b (by simp [hb])
      obtain ⟨st', hb⟩ := ran_loss m F ps S hrep (hbs b (by simp)) i1 r1
      exact ⟨st' :: sts, .cons hb hs⟩
  obtain ⟨sts, hs⟩ := hsts bs C.good.2
  rcases loss_entries m (str "total_loss") with hno | ⟨names, hn, hv⟩
  · have := (hno _).symm.trans lw
    cases this
  have hval : ∀ (b : Batch) (st' : State ℝ), reported a layers L b.T b.B (memOf st') =
        some (lossV (infos layers) L data.name (fun T B => libNetwork F (ps T B)) (reported a layers L) b θ) →
      lossV (infos layers) L data.name (fun T B => libNetwork F (ps T B)) (reported a layers L) b θ =
        (names.map fun n => Evaluate.lossV (netOf (infos layers) L) n b st').sum := fun b st' e =>
    (Option.some.inj ((hv _).symm.trans e)).symm
  rw [hval w wst lw, sum_zip (g := fun b st' => (names.map fun n => (b.B : ℝ) * Evaluate.lossV (netOf (infos layers) L) n b st').sum)
    (fun b st' h => by rw [hval b st' h.2, List.sum_map_mul_left]) hs, swap, ← List.sum_map_mul_left]
  refine congrArg List.sum (List.map_congr_left fun n hn' => ?_)
  have hka : n ∈ Dict.keys a := by
    obtain ⟨d, hd, -⟩ := hn n hn'
    exact List.mem_map.2 ⟨_, hd, rfl⟩
  rw [← m.mem_keys, ← m.names, F.ordered.all, List.mem_map] at hka
  obtain ⟨l, hl, rfl⟩ := hka
  rcases List.mem_cons.1 hl with rfl | hl
  · exact absurd (m.type_unique (hn _ hn') hdt) (by decide)
  · exact (loss_sum F ps hps' S m.ctx_le rfl C hw hck hl (m.type_unique (hty l (F.ordered.mem hl)) (hn _ hn'))
      (hs.imp fun _ _ h => h.1)).symm

end

end Verif.Parts
