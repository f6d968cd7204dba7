import Verif.Sequence.Before

/-!
# Property C78: what a network computes for a sequence depends only on that sequence up to now

For accepted architectures, and all states that a network can be in.
-/

namespace Verif.Sequence

open Verif.Architecture hiding demoArch
open Verif.Structure Verif.Layout Verif.Buffers Verif.Instantiate Verif.EndToEnd
open Verif.Memory hiding demoL
open Verif.Session
open Verif.Setup (Kwargs libEnv infos toInfo inp_some)
open Verif.Shapes (Supported)

/-! ### Proofs -/

section
variable {kwargs : Name → Kwargs} {a : Arch} {ord : Orders} {layers : Dict Name (LayerObj Kwargs)} {L : Layout}

open Classical in
/-- The type of a layer. -/
noncomputable def typeIn (a : Arch) (l : LayerInfo) : Name := if h : ∃ t, HasType a l.name t then h.choose else []

theorem typeIn_spec (m : Made kwargs a ord layers L) {l : LayerInfo} (hl : l ∈ infos layers) : HasType a l.name (typeIn a l) := by
  obtain ⟨lo, hlo, rfl⟩ := m.mem_infos hl
  obtain ⟨t, -, ht, -⟩ := m.cls hlo
  have h : ∃ t, HasType a (toInfo lo).name t := ⟨t, ht⟩
  unfold typeIn
  rw [dif_pos h]
  exact h.choose_spec

theorem readable {layers : List LayerInfo} {L : Layout} (hL : Laid layers L) {st : State ℝ} {T B sz k : ℕ} {vs : List (Name × View)}
    (i : Inv (netOf layers L) st T B sz k vs) {ms : List MLayer} {s : Mem}
    (hm : ∀ c < total (netOf layers L) T B, memOf st c = forward ms s c) {l : LayerInfo} (hl : l ∈ layers) {x : Name} {sh : Struct}
    (hx : (x, sh) ∈ l.outShapes) : ∃ xs, st.read (path l.name (str "outputs") x) = some xs ∧
      ∀ r < rows sh T B, ∀ k < sh.featureSize, xs.getD (r * sh.featureSize + k) 0 =
        value (netOf layers L) T B l.name (forward ms s) ⟨str "outputs", x, r * sh.featureSize + k⟩ := by
  obtain ⟨e, h, hloc⟩ := loc hL (array_get hL.wf hl (cat := str "outputs") (sh := l.outShapes) (by simp [layerCats]) hx)
  refine ⟨_, read_inv hL i hloc.get, fun r hr k hk => ?_⟩
  have hc := hloc.cell T B r k hr hk
  show _ = forward ms s ((cells _ _ _ _).getD _ 0)
  rw [List.getD_eq_getElem?_getD, List.getElem?_map, hc, List.getD_eq_getElem?_getD, hc]
  exact hm _ (cells_lt (List.mem_of_getElem? hc))

theorem outputs_same {layers : List LayerInfo} {L : Layout} (hL : Laid layers L) {A : Align} {st st' : State ℝ} {sz k sz' k' : ℕ}
    {vs vs' : List (Name × View)} (i : Inv (netOf layers L) st A.T A.B sz k vs) (i' : Inv (netOf layers L) st' A.T' A.B' sz' k' vs')
    {ms ms' : List MLayer} {s s' : Mem} (hm : ∀ c < total (netOf layers L) A.T A.B, memOf st c = forward ms s c)
    (hm' : ∀ c < total (netOf layers L) A.T' A.B', memOf st' c = forward ms' s' c) {l : LayerInfo} (hl : l ∈ layers) {ty : Name}
    (W : Writes A ty l (value (netOf layers L) A.T A.B l.name (forward ms s)) (value (netOf layers L) A.T' A.B' l.name (forward ms' s'))) :
    SameOutputs A l st st' := by
  intro x sh hx
  obtain ⟨xs, h1, h2⟩ := readable hL i hm hl hx
  obtain ⟨xs', h1', h2'⟩ := readable hL i' hm' hl hx
  refine ⟨xs, xs', h1, h1', fun r r' hr k hk => ?_⟩
  have hrow := Align.lt_rows hr
  simp only
  rw [h2 r hrow.1 k hk, h2' r' hrow.2 k hk]
  exact W.outs x sh hx r r' hr k hk

/-- A parameter of a layer that is not zero when it is read is not zero in a pass. -/
theorem param_ne_zero {layers : List LayerInfo} {L : Layout} {data : LayerInfo} {rest : List LayerInfo} {P : ℕ → ℕ → List MLayer}
    (S : Sited layers L data rest P) {st : State ℝ} {T₀ B₀ sz k T B : ℕ} {vs : List (Name × View)} (i : Inv (netOf layers L) st T₀ B₀ sz k vs)
    {θ : List ℝ} (hθ : st.read (str "parameters") = some θ) {d : List (Name × List ℝ)} {E : Set ℕ} {s : Mem}
    (H : Found layers L data T B d θ E s) {l : LayerInfo} (hl : l ∈ layers) {x : Name} {sh : Struct} (hx : (x, sh) ∈ l.paramShapes)
    (h0 : ∀ ts, st.read (path l.name (str "parameters") x) = some ts → (0 : ℝ) ∉ ts) {j : ℕ} (hj : j < sh.featureSize) :
    value (netOf layers L) T B l.name (forward (P T B) s) ⟨str "parameters", x, j⟩ ≠ 0 := by
  obtain ⟨ix, hix⟩ := param_index S.laid hl hx hj
  obtain ⟨c₀, h1, h2⟩ := hix T₀ B₀
  obtain ⟨c, h3, h4⟩ := hix T B
  obtain ⟨e, h, hloc⟩ := loc S.laid (array_get S.laid.wf hl (cat := str "parameters") (sh := l.paramShapes) (by simp [layerCats]) hx)
  obtain ⟨ep, hep⟩ := params_entry (layers := layers) (L := L)
  have hn := h0 _ (read_inv S.laid i hloc.get)
  have hp := H.param S h4
  rw [read_inv S.laid i hep, Option.some.injEq] at hθ
  rw [← hθ, List.getElem?_map, h2, Option.map_some, Option.some.injEq] at hp
  show forward _ s ((cells _ _ _ _).getD j 0) ≠ 0
  rw [List.getD_eq_getElem?_getD, h3, Option.getD_some, ← hp]
  intro h0'
  exact hn (h0' ▸ List.mem_map.2 ⟨c₀, List.mem_of_getElem? h1, rfl⟩)

end

/-! ### Pieces -/

section
variable {layers : List LayerInfo} {L : Layout} {data : LayerInfo} {rest : List LayerInfo}

theorem alone_not_erased (hL : Laid layers L) (hd : data ∈ layers) (hA : DataAlone layers L data) {T B : ℕ} {x : Name} {sh : Struct}
    (hx : (x, sh) ∈ data.outShapes) {r k : ℕ} (hr : r < rows sh T B) (hk : k < sh.featureSize) :
    (cells (netOf layers L) T B (path data.name (str "outputs") x)).getD (r * sh.featureSize + k) 0 ∉ contextRows (netOf layers L) T B := by
  obtain ⟨e, h, hloc⟩ := loc hL (array_get hL.wf hd (cat := str "outputs") (sh := data.outShapes) (by simp [layerCats]) hx)
  rw [hloc.getD hr hk, hloc.context_iff hL hr hk]
  intro g
  exact g.2.1 (hA x sh e h hx hloc.get hloc.hub)

/-- What a context must hold: the state of the network at the last step of the pieces before. -/
def Holds (layers : List LayerInfo) (L : Layout) (rest : List LayerInfo) (ty : LayerInfo → Name) (w : Batch) (m : Mem) (o Tp : ℕ) (mp : Mem) : Prop :=
  ∀ l ∈ rest, ty l ≠ str "Loss" → ∀ (c : Src) x n, (c = .out ∨ c = .int ∧ x = str "Ca" ∧ (ty l = str "Lstm" ∨ ty l = str "ClockworkLstm")) →
    (x, rec1 n) ∈ c.shapes l → ∀ q < w.B, ∀ k < n,
    m ((cells (netOf layers L) w.T w.B (path l.name c.str x)).getD (((o - 1) * w.B + q) * n + k) 0) =
      mp ((cells (netOf layers L) Tp w.B (path l.name c.str x)).getD (((Tp - 1) * w.B + q) * n + k) 0)

/-- What the next piece starts with. -/
inductive Start (layers : List LayerInfo) (L : Layout) (rest : List LayerInfo) (ty : LayerInfo → Name) (w : Batch) (m : Mem) :
    ℕ → Option Context → Prop
  | first : Start layers L rest ty w m 0 none
  | next {o Tp szp kp : ℕ} {vsp : List (Name × View)} {stp : State ℝ} : Inv (netOf layers L) stp Tp w.B szp kp vsp → 0 < Tp → 0 < o →
      Holds layers L rest ty w m o Tp (memOf stp) → Start layers L rest ty w m o (some (contextOf (netOf layers L) Tp w.B (block stp.heap kp)))

/-- One piece. -/
theorem piece_step {M : Mode} (F : Memory.Fits layers L data rest) (ps : ∀ T B, ∀ l ∈ rest, LibLayer layers data l T B)
    {ty : LayerInfo → Name} {kw : LayerInfo → Setup.Kwargs} (hps : ∀ T B l hl, Describes M (ty l) (kw l) (ps T B l hl))
    (S : Sited layers L data rest fun T B => libNetwork F (ps T B)) (hctx : ∀ h ∈ (netOf layers L).hubs, h.ctx ≤ 1)
    (hal : DataAlone layers L data) (hK : ∀ l ∈ rest, ty l ≠ str "Clockwork" ∧ ty l ≠ str "ClockworkLstm" ∧
      (ty l = str "Dropout" → M.training = false))
    {w : Batch} {θ : List ℝ} {s : Mem} (H : Found layers L data w.T w.B w.data θ (contextRows (netOf layers L) w.T w.B) s)
    (cw : w.Good data) {b : Batch} (hb : b.Good data) (eB : b.B = w.B) (hT : 0 < b.T) {o : ℕ} (ho : o + b.T ≤ w.T)
    (same : ∀ A : Align, A.T = w.T → A.B = w.B → A.T' = b.T → A.B' = b.B → A.b = A.b' → A.o = o → A.n = b.T → SameData A data w b)
    {context : Option Context} (hs : Start layers L rest ty w (forward (libNetwork F (ps w.T w.B)) s) o context)
    {st : State ℝ} {T₀ B₀ sz₀ k₀ : ℕ} {vs₀ : List (Name × View)} (i : Inv (netOf layers L) st T₀ B₀ sz₀ k₀ vs₀)
    (hθ : st.read (str "parameters") = some θ) :
    ∃ st₁ st₂ context' sz k vs, provide (netOf layers L) data.name b st = some st₁ ∧
      forwardFrom (netOf layers L) (fun T B => libNetwork F (ps T B)) context b.rnd st₁ = some st₂ ∧
      getContext (netOf layers L) st₂ = some context' ∧ Inv (netOf layers L) st₂ b.T b.B sz k vs ∧ st₂.read (str "parameters") = some θ ∧
      Start layers L rest ty w (forward (libNetwork F (ps w.T w.B)) s) (o + b.T) (some context') ∧
      ∃ s', (∀ c < total (netOf layers L) b.T b.B, memOf st₂ c = forward (libNetwork F (ps b.T b.B)) s' c) ∧
      ∀ A : Align, A.T = w.T → A.B = w.B → A.T' = b.T → A.B' = b.B → A.b = A.b' → A.o = o → A.n = b.T →
        ∀ l ∈ rest, ty l ≠ str "Loss" → Writes A (ty l) l (value (netOf layers L) A.T A.B l.name (forward (libNetwork F (ps w.T w.B)) s))
          (value (netOf layers L) A.T' A.B' l.name (forward (libNetwork F (ps b.T b.B)) s')) := by
  obtain ⟨st₁, st₂, s', sz, k, vs, E', h1, h2, i2, m2, r2, H', hE', hbef⟩ :
      ∃ st₁ st₂ s' sz k vs E', provide (netOf layers L) data.name b st = some st₁ ∧
        forwardFrom (netOf layers L) (fun T B => libNetwork F (ps T B)) context b.rnd st₁ = some st₂ ∧
        Inv (netOf layers L) st₂ b.T b.B sz k vs ∧
        (∀ c < total (netOf layers L) b.T b.B, memOf st₂ c = forward (libNetwork F (ps b.T b.B)) s' c) ∧
        st₂.read (str "parameters") = some θ ∧ Found layers L data b.T b.B b.data θ E' s' ∧
        (∀ x sh, (x, sh) ∈ data.outShapes → ∀ r < rows sh b.T b.B, ∀ k < sh.featureSize,
          (cells (netOf layers L) b.T b.B (path data.name (str "outputs") x)).getD (r * sh.featureSize + k) 0 ∉ E') ∧
        ∀ l ∈ rest, ty l ≠ str "Loss" → ∀ (c : Src) x n,
          (c = .out ∨ c = .int ∧ x = str "Ca" ∧ (ty l = str "Lstm" ∨ ty l = str "ClockworkLstm")) → (x, rec1 n) ∈ c.shapes l →
          ∀ q < w.B, ∀ k < n, forward (libNetwork F (ps w.T w.B)) s
              ((cells (netOf layers L) w.T w.B (path l.name c.str x)).getD ((rowBefore w.T o * w.B + q) * n + k) 0) =
            forward (libNetwork F (ps b.T b.B)) s'
              ((cells (netOf layers L) b.T b.B (path l.name c.str x)).getD ((b.T * b.B + q) * n + k) 0) := by
    cases hs with
    | first =>
      obtain ⟨st₁, st₂, s', sz, k, vs, h1, h2, i2, m2, r2, H'⟩ := fresh S i hb hθ
      refine ⟨st₁, st₂, s', sz, k, vs, _, h1, h2, i2, m2, r2, H',
        fun x sh hx r hr k hk => alone_not_erased S.laid S.data_mem hal hx hr hk, ?_⟩
      intro l hl _ c x n hc hx q hq k hk
      have hc' : c = .out ∨ c = .int := hc.imp_right fun g => g.1
      exact (fresh_before S H hl hc' hx hq hk).trans (fresh_before S H' hl hc' hx (eB ▸ hq) hk).symm
    | @next o Tp szp kp vsp stp ip hTp ho0 hold =>
      rw [← eB] at ip
      obtain ⟨st₁, st₂, s', sz, k, vs, h1, h2, i2, m2, r2, H', hx'⟩ :=
        resumed S ip (fun h hh => (hctx h hh).trans hTp) i hb hθ
      rw [eB] at h2
      refine ⟨st₁, st₂, s', sz, k, vs, _, h1, h2, i2, m2, r2, H', fun x sh hx r hr k hk => Set.notMem_empty _, ?_⟩
      intro l hl hne c x n hc hx q hq k hk
      have hc' : c = .out ∨ c = .int := hc.imp_right fun g => g.1
      obtain ⟨e, h, hloc, ht, hf⟩ := rec_context S hl hc' hx
      obtain ⟨t1, t2, t3⟩ := ht (by omega)
      have hc1 : h.ctx = 1 := by have := hctx h (List.mem_of_getElem? hloc.hub); omega
      have hq' : q < b.B := eB ▸ hq
      have hk' : k < (rec1 n).featureSize := by rw [featureSize_rec1]; exact hk
      have hr : b.T * b.B + q < rows (rec1 n) b.T b.B := by rw [rec1_rows, Nat.add_mul]; omega
      rw [hf b.T b.B q k s' hq' hk]
      have hlt := cells_lt (hloc.mem hr hk')
      have key := hx' e.hub h hloc.hub t1 0 (by omega) q hq' (e.slice.1 + k) (by omega) (by rw [Nat.add_zero]; exact hlt)
      rw [Nat.add_zero, hc1, Nat.add_zero] at key
      rw [key, rowBefore, if_neg (by omega), hold l hl hne c x n hc hx q hq k hk]
      have hrp : (Tp - 1) * w.B + q < rows (rec1 n) Tp w.B := by
        rw [rec1_rows]
        have : (Tp - 1 + 1) * w.B ≤ (Tp + 1) * w.B := Nat.mul_le_mul_right _ (by omega)
        rw [Nat.add_mul] at this
        omega
      have hg := hloc.getD (T := Tp) (B := w.B) hrp hk'
      rw [featureSize_rec1] at hg
      rw [hg, eB]
  have W : ∀ A : Align, A.T = w.T → A.B = w.B → A.T' = b.T → A.B' = b.B → A.b = A.b' → A.o = o → A.n = b.T →
      ∀ l ∈ rest, ty l ≠ str "Loss" → Writes A (ty l) l (value (netOf layers L) A.T A.B l.name (forward (libNetwork F (ps w.T w.B)) s))
        (value (netOf layers L) A.T' A.B' l.name (forward (libNetwork F (ps b.T b.B)) s')) := by
    intro A e1 e2 e3 e4 e5 e6 e7
    have hsame := same A e1 e2 e3 e4 e5 e6 e7
    rw [← e1, ← e2] at H
    rw [← e3, ← e4] at H'
    have hbef' : ∀ l ∈ rest, ty l ≠ str "Loss" → ∀ (c : Src) x n,
          (c = .out ∨ c = .int ∧ x = str "Ca" ∧ (ty l = str "Lstm" ∨ ty l = str "ClockworkLstm")) → (x, rec1 n) ∈ c.shapes l →
          A.SameBefore (rec1 n) (fun j => value (netOf layers L) A.T A.B l.name (forward (libNetwork F (ps A.T A.B)) s) ⟨c.str, x, j⟩)
            (fun j => value (netOf layers L) A.T' A.B' l.name (forward (libNetwork F (ps A.T' A.B')) s') ⟨c.str, x, j⟩) := by
      intro l hl hne c x n hc hx k hk
      rw [featureSize_rec1] at hk ⊢
      have := hbef l hl hne c x n hc hx A.b (e2 ▸ A.seq) k hk
      rw [← e1, ← e2, ← e3, ← e4, ← e6, e5] at this
      rw [e5]
      exact this
    have := compare (A := A) F ps hps S H H' (fun _ => rfl) (fun _ => rfl)
      (fun e he => by obtain ⟨⟨y, ys⟩, g1, g2⟩ := List.mem_map.1 (cw.complete e he); exact ⟨ys, g2 ▸ g1⟩)
      (fun e he => by obtain ⟨⟨y, ys⟩, g1, g2⟩ := List.mem_map.1 (hb.complete e he); exact ⟨ys, g2 ▸ g1⟩)
      hsame
      (fun x sh hx r r' hr k hk => by
        have hrow := Align.lt_rows hr
        have g1 := alone_not_erased (T := A.T) (B := A.B) S.laid S.data_mem hal hx hrow.1 hk
        have g2 := hE' x sh hx r' (by rw [← e3, ← e4]; exact hrow.2) k hk
        rw [← e3, ← e4] at g2
        exact iff_of_false g1 g2)
      (fun l hl hne x n hx => hbef' l hl hne .out x n (Or.inl rfl) hx)
      (fun l hl n ht hx => hbef' l hl (by rcases ht with ht | ht <;> rw [ht] <;> decide) .int (str "Ca") n (Or.inr ⟨rfl, rfl, ht⟩) hx)
      (fun l hl hne => ⟨hne, (hK l hl).2.2, fun e => by
        rcases e with e | e
        · exact absurd e (hK l hl).1
        · exact absurd e (hK l hl).2.1⟩)
    rw [e1, e2, e3, e4] at this ⊢
    exact this
  refine ⟨st₁, st₂, _, sz, k, vs, h1, h2, getContext_some i2 fun h hh => (hctx h hh).trans hT, i2, r2, ?_, s', m2, W⟩
  rw [eB] at i2 ⊢
  refine .next i2 hT (by omega) ?_
  intro l hl hne c x n hc hx q hq k hk
  have hA := W ⟨w.T, w.B, q, b.T, b.B, q, o, b.T, ho, le_refl _, hq, eB ▸ hq⟩ rfl rfl rfl rfl rfl rfl rfl l hl hne
  have hsm : Align.Same ⟨w.T, w.B, q, b.T, b.B, q, o, b.T, ho, le_refl _, hq, eB ▸ hq⟩ (rec1 n)
      (fun j => value (netOf layers L) w.T w.B l.name (forward (libNetwork F (ps w.T w.B)) s) ⟨c.str, x, j⟩)
      (fun j => value (netOf layers L) b.T b.B l.name (forward (libNetwork F (ps b.T b.B)) s') ⟨c.str, x, j⟩) := by
    rcases hc with rfl | ⟨rfl, rfl, ht⟩
    · exact hA.outs x _ hx
    · exact hA.cells n ht hx
  have := hsm ((o + (b.T - 1)) * w.B + q) ((b.T - 1) * b.B + q) ⟨b.T - 1, by simp only; omega, rfl, rfl⟩ k (by rw [featureSize_rec1]; exact hk)
  simp only [featureSize_rec1] at this
  rw [show o + b.T - 1 = o + (b.T - 1) by omega]
  refine Eq.trans this ?_
  rw [eB]
  show forward _ s' ((cells _ _ _ _).getD _ 0) = _
  have hc' : c = .out ∨ c = .int := hc.imp_right fun g => g.1
  obtain ⟨e, h, hloc, -⟩ := rec_context S hl hc' hx
  have hrp : (b.T - 1) * w.B + q < rows (rec1 n) b.T w.B := by
    rw [rec1_rows]
    have : (b.T - 1 + 1) * w.B ≤ (b.T + 1) * w.B := Nat.mul_le_mul_right _ (by omega)
    rw [Nat.add_mul] at this
    omega
  have hk' : k < (rec1 n).featureSize := by rw [featureSize_rec1]; exact hk
  have hg := hloc.getD (T := b.T) (B := w.B) hrp hk'
  have hlt := cells_lt (hloc.mem (T := b.T) (B := w.B) hrp hk')
  rw [featureSize_rec1] at hg
  rw [hg]
  rw [eB] at m2
  exact (m2 _ hlt).symm

/-- One piece after the other. -/
theorem pieces_same {M : Mode} (F : Memory.Fits layers L data rest) (ps : ∀ T B, ∀ l ∈ rest, LibLayer layers data l T B)
    {ty : LayerInfo → Name} {kw : LayerInfo → Setup.Kwargs} (hps : ∀ T B l hl, Describes M (ty l) (kw l) (ps T B l hl))
    (S : Sited layers L data rest fun T B => libNetwork F (ps T B)) (hctx : ∀ h ∈ (netOf layers L).hubs, h.ctx ≤ 1)
    (hal : DataAlone layers L data) (hK : ∀ l ∈ rest, ty l ≠ str "Clockwork" ∧ ty l ≠ str "ClockworkLstm" ∧
      (ty l = str "Dropout" → M.training = false))
    {w : Batch} {θ : List ℝ} {s : Mem} (H : Found layers L data w.T w.B w.data θ (contextRows (netOf layers L) w.T w.B) s)
    (cw : w.Good data) {wst : State ℝ} {wsz wk : ℕ} {wvs : List (Name × View)} (iw : Inv (netOf layers L) wst w.T w.B wsz wk wvs)
    (mw : ∀ c < total (netOf layers L) w.T w.B, memOf wst c = forward (libNetwork F (ps w.T w.B)) s c) (bs : List Batch) :
    ∀ (done : List Batch) (context : Option Context) (st : State ℝ) (T₀ B₀ sz₀ k₀ : ℕ) (vs₀ : List (Name × View)),
      (∀ b ∈ bs, b.Good data ∧ b.B = w.B ∧ 0 < b.T) → ((done ++ bs).map Batch.T).sum ≤ w.T →
      (∀ done' b later, bs = done' ++ b :: later → ∀ A, Piece w (done ++ done') b A → SameData A data w b) →
      Start layers L rest ty w (forward (libNetwork F (ps w.T w.B)) s) (done.map Batch.T).sum context →
      Inv (netOf layers L) st T₀ B₀ sz₀ k₀ vs₀ → st.read (str "parameters") = some θ →
      ∃ sts, pieces (netOf layers L) data.name (fun T B => libNetwork F (ps T B)) context bs st = some sts ∧ sts.length = bs.length ∧
        ∀ done' b later, bs = done' ++ b :: later → ∀ A, Piece w (done ++ done') b A → ∃ stb, sts[done'.length]? = some stb ∧
          ∀ l ∈ rest, ty l ≠ str "Loss" → SameOutputs A l wst stb := by
  induction bs with
  | nil =>
    intro done context st T₀ B₀ sz₀ k₀ vs₀ _ _ _ _ _ _
    refine ⟨[], rfl, rfl, ?_⟩
    intro done' b later e
    simp at e
  | cons b bs ih =>
    intro done context st T₀ B₀ sz₀ k₀ vs₀ hg hT hsame hs i hθ
    obtain ⟨hb, eB, hbT⟩ := hg b (by simp)
    simp only [List.map_append, List.map_cons, List.sum_append, List.sum_cons] at hT
    obtain ⟨st₁, st₂, context', sz, k, vs, h1, h2, h3, i2, r2, hs', s', m2, W⟩ := piece_step F ps hps S hctx hal hK H cw hb eB hbT
      (o := (done.map Batch.T).sum) (by omega)
      (fun A e1 e2 e3 e4 e5 e6 e7 => hsame [] b bs rfl A (by rw [List.append_nil]; exact ⟨⟨e1, e2⟩, ⟨e3, e4⟩, e5, e6, e7⟩)) hs i hθ
    obtain ⟨sts, g1, g2, g3⟩ := ih (done ++ [b]) (some context') st₂ b.T b.B sz k vs (fun b' hb' => hg b' (by simp [hb']))
      (by simp only [List.map_append, List.map_cons, List.map_nil, List.sum_append, List.sum_cons, List.sum_nil]; omega)
      (fun done' b' later e A hA => hsame (b :: done') b' later (by rw [e]; rfl) A (by simpa using hA))
      (by simpa using hs') i2 r2
    refine ⟨st₂ :: sts, by simp only [pieces, h1, h2, h3, g1, Option.bind_some, Option.map_some], by simp [g2], ?_⟩
    intro done' b' later e A hA
    cases done' with
    | nil =>
      obtain ⟨rfl, rfl⟩ := List.cons.inj e
      rw [List.append_nil] at hA
      refine ⟨st₂, rfl, fun l hl hne => ?_⟩
      have hW := W A hA.whole.1 hA.whole.2 hA.part.1 hA.part.2 hA.seq hA.start hA.len l hl hne
      rw [← hA.whole.1, ← hA.whole.2] at iw mw hW
      rw [← hA.part.1, ← hA.part.2] at i2 m2 hW
      exact outputs_same F.laid iw i2 mw m2 (F.ordered.mem hl) hW
    | cons x done' =>
      obtain ⟨rfl, e'⟩ := List.cons.inj e
      exact g3 done' b' later e' A (by simpa using hA)

end

/-! ### The property -/

section
variable (kwargs : Name → Kwargs) (a : Arch) (hk : (Dict.keys a).Nodup) (ord : Orders) (ho : ord.Ok)
  (layers : Dict Name (LayerObj Kwargs)) (h : Instantiates (libEnv kwargs) ord a (.ok layers))
  (hne : ∃ n l, Dict.get? layers n = some l ∧ l.shapes.outs ≠ []) (L : Layout) (hL : createLayout (infos layers) = .ok L)
  (tr : Trainable a) (num : Numeric a kwargs)
  (sup : ∀ n l t, Dict.get? layers n = some l → HasType a n t → Supported t l.kwargs l.inShapes)
include hk ho h hne hL tr num sup

/-- **C78.**  Sequence `q` of one batch and sequence `q'` of another one that begin with the same `n` steps: in these steps, a
network computes the same for them, whatever the other sequences of the batches and the later steps are, and whatever was done
with the network before.  Exceptions: Loss layers (which sum over all sequences), Dropout in training passes, clocks with the
period zero.  If the batches do not have the same number of steps then, because of the error described in C18, the last step of
a batch is not included if the data share a buffer with a recurrent layer. -/
theorem C78_sequence :
    ∃ data rest, HasType a data.name (str "Input") ∧ ∃ F : Memory.Fits (infos layers) L data rest,
      ∃ ps : Mode → ∀ T B, ∀ l ∈ rest, LibLayer (infos layers) data l T B,
      (∀ M T B l (hl : l ∈ rest) t, HasType a l.name t → Describes M t (kwargs l.name) (ps M T B l hl)) ∧
      ∀ (M : Mode) (st st' : State ℝ) (b b' : Batch) (θ : List ℝ) (q q' n : ℕ) (hq : q < b.B) (hq' : q' < b'.B) (hn : n ≤ b.T)
        (hn' : n ≤ b'.T), Reachable (netOf (infos layers) L) st → Reachable (netOf (infos layers) L) st' → b.Good data → b'.Good data →
        st.read (str "parameters") = some θ → st'.read (str "parameters") = some θ →
        (M.training = true → ∀ l, ¬ HasType a l (str "Dropout")) →
        (∀ l ts, HasType a l (str "Clockwork") ∨ HasType a l (str "ClockworkLstm") →
          st.read (path l (str "parameters") (str "timing")) = some ts → (0 : ℝ) ∉ ts) →
        b.T = b'.T ∨ (n < b.T ∧ n < b'.T) ∨ DataAlone (infos layers) L data →
        SameData ⟨b.T, b.B, q, b'.T, b'.B, q', 0, n, by omega, hn', hq, hq'⟩ data b b' →
        ∃ st₁ st₂ st₁' st₂', provide (netOf (infos layers) L) data.name b st = some st₁ ∧
          forwardPass (netOf (infos layers) L) (fun T B => libNetwork F (ps M T B)) b.rnd st₁ = some st₂ ∧
          provide (netOf (infos layers) L) data.name b' st' = some st₁' ∧
          forwardPass (netOf (infos layers) L) (fun T B => libNetwork F (ps M T B)) b'.rnd st₁' = some st₂' ∧
          ∀ l ∈ rest, ¬ HasType a l.name (str "Loss") →
            SameOutputs ⟨b.T, b.B, q, b'.T, b'.B, q', 0, n, by omega, hn', hq, hq'⟩ l st₂ st₂' := by
  have m : Made kwargs a ord layers L := ⟨hk, ho, h, hne, hL⟩
  obtain ⟨data, rest, hdt, F, ps, hps⟩ := functions m tr num sup
  refine ⟨data, rest, hdt, F, ps, hps, ?_⟩
  intro M st st' b b' θ q q' n hq hq' hn hn' hst hst' hb hb' hθ hθ' hdrop hclock hcase hsame
  have S := sited m F (ps M)
  have hwl := netOf_wellLaid F.laid.wf F.laid.shaped F.laid.layout
  obtain ⟨T₀, B₀, _, _, _, i⟩ := hst.inv hwl
  obtain ⟨_, _, _, _, _, i'⟩ := hst'.inv hwl
  obtain ⟨st₁, st₂, s, sz, k, vs, h1, h2, i2, m2, -, H⟩ := fresh S i hb hθ
  obtain ⟨st₁', st₂', s', sz', k', vs', h1', h2', i2', m2', -, H'⟩ := fresh S i' hb' hθ'
  refine ⟨st₁, st₂, st₁', st₂', h1, h2, h1', h2', fun l hl hnl => ?_⟩
  have hty : ∀ l ∈ rest, HasType a l.name (typeIn a l) := fun l hl => typeIn_spec m (F.ordered.mem hl)
  have W := compare (A := ⟨b.T, b.B, q, b'.T, b'.B, q', 0, n, by omega, hn', hq, hq'⟩) F (ps M) (ty := typeIn a)
    (kw := fun l => kwargs l.name) (fun T B l hl => hps M T B l hl _ (hty l hl)) S H H' (fun _ => rfl) (fun _ => rfl)
    (fun e he => by obtain ⟨⟨y, ys⟩, g1, g2⟩ := List.mem_map.1 (hb.complete e he); exact ⟨ys, g2 ▸ g1⟩)
    (fun e he => by obtain ⟨⟨y, ys⟩, g1, g2⟩ := List.mem_map.1 (hb'.complete e he); exact ⟨ys, g2 ▸ g1⟩)
    hsame (fun x sh hx r r' hr k hk => fresh_erase F.laid m.ctx_le S.data_mem rfl hcase hx hr hk)
    (fun l hl _ x n hx k hk => by
      rw [featureSize_rec1] at hk ⊢
      exact (fresh_before S H hl (Or.inl rfl) hx hq hk).trans (fresh_before S H' hl (Or.inl rfl) hx hq' hk).symm)
    (fun l hl n _ hx k hk => by
      rw [featureSize_rec1] at hk ⊢
      exact (fresh_before S H hl (Or.inr rfl) hx hq hk).trans (fresh_before S H' hl (Or.inr rfl) hx hq' hk).symm)
    (fun l hl hne => ⟨hne, fun e => by
        by_contra ht
        exact hdrop (by simpa using ht) l.name (e ▸ hty l hl), fun e => ⟨rfl, fun n hx j hj => by
        refine param_ne_zero S i hθ H (F.ordered.mem hl) hx (fun ts => hclock l.name ts ?_) (by rw [featureSize_vec]; exact hj)
        rcases e with e | e
        · exact Or.inl (e ▸ hty l hl)
        · exact Or.inr (e ▸ hty l hl)⟩⟩)
    l hl (fun e => hnl (e ▸ hty l hl))
  exact outputs_same F.laid i2 i2' m2 m2' (F.ordered.mem hl) W

/-- **C78.**  A network that gets long sequences in pieces, each with the context that the piece before has left, computes the
same as for the whole sequences.  Exceptions: Clockwork layers (which start their clocks anew with each piece), Dropout in
training passes, Loss layers, and data that share a buffer with a recurrent layer (C18). -/
theorem C78_pieces :
    ∃ data rest, HasType a data.name (str "Input") ∧ ∃ F : Memory.Fits (infos layers) L data rest,
      ∃ ps : Mode → ∀ T B, ∀ l ∈ rest, LibLayer (infos layers) data l T B,
      (∀ M T B l (hl : l ∈ rest) t, HasType a l.name t → Describes M t (kwargs l.name) (ps M T B l hl)) ∧
      ∀ (M : Mode) (st st' : State ℝ) (w : Batch) (bs : List Batch) (θ : List ℝ),
        Reachable (netOf (infos layers) L) st → Reachable (netOf (infos layers) L) st' →
        w.Good data → (∀ b ∈ bs, b.Good data ∧ b.B = w.B ∧ 0 < b.T) → (bs.map Batch.T).sum ≤ w.T →
        st.read (str "parameters") = some θ → st'.read (str "parameters") = some θ →
        (M.training = true → ∀ l, ¬ HasType a l (str "Dropout")) →
        (∀ l, ¬ HasType a l (str "Clockwork") ∧ ¬ HasType a l (str "ClockworkLstm")) → DataAlone (infos layers) L data →
        (∀ done b later, bs = done ++ b :: later → ∀ A, Piece w done b A → SameData A data w b) →
        ∃ st₁ st₂ sts, provide (netOf (infos layers) L) data.name w st = some st₁ ∧
          forwardPass (netOf (infos layers) L) (fun T B => libNetwork F (ps M T B)) w.rnd st₁ = some st₂ ∧
          pieces (netOf (infos layers) L) data.name (fun T B => libNetwork F (ps M T B)) none bs st' = some sts ∧
          sts.length = bs.length ∧
          ∀ done b later, bs = done ++ b :: later → ∀ A, Piece w done b A → ∃ stb, sts[done.length]? = some stb ∧
            ∀ l ∈ rest, ¬ HasType a l.name (str "Loss") → SameOutputs A l st₂ stb := by
  have m : Made kwargs a ord layers L := ⟨hk, ho, h, hne, hL⟩
  obtain ⟨data, rest, hdt, F, ps, hps⟩ := functions m tr num sup
  refine ⟨data, rest, hdt, F, ps, hps, ?_⟩
  intro M st st' w bs θ hst hst' hw hbs hsum hθ hθ' hdrop hclock hal hsame
  have S := sited m F (ps M)
  have hwl := netOf_wellLaid F.laid.wf F.laid.shaped F.laid.layout
  obtain ⟨_, _, _, _, _, i⟩ := hst.inv hwl
  obtain ⟨T₀, B₀, sz₀, k₀, vs₀, i'⟩ := hst'.inv hwl
  obtain ⟨st₁, st₂, s, sz, k, vs, h1, h2, i2, m2, -, H⟩ := fresh S i hw hθ
  have hty : ∀ l ∈ rest, HasType a l.name (typeIn a l) := fun l hl => typeIn_spec m (F.ordered.mem hl)
  obtain ⟨sts, g1, g2, g3⟩ := pieces_same (M := M) F (ps M) (ty := typeIn a) (kw := fun l => kwargs l.name)
    (fun T B l hl => hps M T B l hl _ (hty l hl)) S m.ctx_le hal
    (fun l hl => ⟨fun e => (hclock l.name).1 (e ▸ hty l hl), fun e => (hclock l.name).2 (e ▸ hty l hl), fun e => by
      by_contra ht
      exact hdrop (by simpa using ht) l.name (e ▸ hty l hl)⟩) H hw i2 m2 bs [] none st' T₀ B₀ sz₀ k₀ vs₀ hbs (by simpa using hsum)
    (fun done b later e A hA => hsame done b later e A (by simpa using hA)) .first i' hθ'
  refine ⟨st₁, st₂, sts, h1, h2, g1, g2, fun done b later e A hA => ?_⟩
  obtain ⟨stb, f1, f2⟩ := g3 done b later e A (by simpa using hA)
  exact ⟨stb, f1, fun l hl hnl => f2 l hl fun e => hnl (e ▸ hty l hl)⟩

end

end Verif.Sequence
