import Verif.Session.Loaded
import Verif.Memory.LibraryProps

/-! # Proofs for C77: the passes as functions of parameters and batch -/

namespace Verif.Session

open Verif.Structure Verif.Layout Verif.Buffers Verif.Memory

section
variable {layers : List LayerInfo} {L : Layout} {data : LayerInfo} {rest : List LayerInfo} {b : Batch} {st : State ℝ}

/-- What is assumed of the layers: they belong to the network, whatever the sizes of the batch. -/
structure Sited (layers : List LayerInfo) (L : Layout) (data : LayerInfo) (rest : List LayerInfo) (P : ℕ → ℕ → List MLayer) : Prop where
  laid : Laid layers L
  ordered : Ordered layers data rest
  short : ∀ T, Short (netOf layers L) T
  site : ∀ T B, List.Forall₂ (Site layers L T B data) rest (P T B)
  honest : ∀ T B, ∀ m ∈ P T B, m.Honest (delta layers (netOf layers L) T B)

variable {P : ℕ → ℕ → List MLayer} {report : ℕ → ℕ → Mem → Option ℝ}

theorem Sited.data_mem (h : Sited layers L data rest P) : data ∈ layers := by rw [h.ordered.all]; simp

/-- The number of parameters. -/
def paramCount (layers : List LayerInfo) (L : Layout) : ℕ := (cells (netOf layers L) 0 0 (str "parameters")).length

theorem paramCount_eq (hL : Laid layers L) (T B : ℕ) : (cells (netOf layers L) T B (str "parameters")).length = paramCount layers L :=
  params_length hL T B 0 0

theorem gradCount_eq (hL : Laid layers L) (T B : ℕ) : (cells (netOf layers L) T B (str "gradients")).length = paramCount layers L := by
  rw [← paramCount_eq hL T B]
  obtain ⟨hp, hg, n, hrp, hrg, -, -⟩ := aligned layers hL.wf L hL.layout
  have hwl := netOf_wellLaid hL.wf hL.shaped hL.layout
  have key : ∀ t e, Dict.get? (netOf layers L).layout t = some e → e.struct.bufferType = 0 → e.slice = (0, n) →
      (cells (netOf layers L) T B t).length = n := by
    intro t e he h0 hn
    obtain ⟨v, hv, -, h1, -⟩ := viewOf_fits (hwl.fits _ (Dict.mem_of_get? he)) T B
    have e1 : cells (netOf layers L) T B t = v.cells := by simp [cells, he, hv]
    rw [e1, h1 h0]
    simp [hn]
  have hroot : ∀ (t : Name) hub, L.root t = (hub, (0, n)) → (rootOf L t).2.struct.bufferType = 0 ∧ (rootOf L t).2.slice = (0, n) := by
    intro t hub h
    simp [rootOf, Struct.bufferType, typeOf, h]
  have hne : str "parameters" ≠ str "gradients" := by decide
  rw [key (str "parameters") (rootOf L (str "parameters")).2 (by simp [netOf, rootOf, Dict.get?]) (hroot _ _ hrp).1 (hroot _ _ hrp).2,
    key (str "gradients") (rootOf L (str "gradients")).2 (by simp [netOf, rootOf, Dict.get?, hne]) (hroot _ _ hrg).1 (hroot _ _ hrg).2]

/-- The state after a forward pass. -/
theorem forwardPass_spec (h : Sited layers L data rest P) {sz k : ℕ} {vs : List (Name × View)} {T B : ℕ}
    (hi : Inv (netOf layers L) st T B sz k vs) (rnd : ℕ → ℝ) :
    ∃ st', forwardPass (netOf layers L) P rnd st = some st' ∧ Inv (netOf layers L) st' T B sz k vs ∧
      (∀ c < total (netOf layers L) T B, memOf st' c = forward (P T B) (before (netOf layers L) T B rnd st) c) ∧
      st'.read (str "parameters") = st.read (str "parameters") := by
  obtain ⟨st', h1, h2, h3⟩ := forwardPass_inv hi P rnd
  refine ⟨st', h1, h2, h3, ?_⟩
  obtain ⟨e, he⟩ := params_entry (layers := layers) (L := L)
  rw [read_inv h.laid h2 he, read_inv h.laid hi he]
  congr 1
  refine List.map_congr_left fun c hc => ?_
  rw [h3 c (cells_lt hc), (C72_parameters_kept h.laid h.ordered (h.site T B) (h.honest T B) _ c hc).1]
  simp [before, seen, cells_lt hc, clear, param_not_context h.laid hc]

theorem forward_outside (h : Sited layers L data rest P) {T B : ℕ} (s : Mem) {c : ℕ} (hc : total (netOf layers L) T B ≤ c) :
    forward (P T B) s c = s c := by
  unfold total at hc
  refine (kept h.laid h.ordered (h.site T B) (h.honest T B) s c (fun hb => ?_) fun m hm ho => ?_).1
  · have := back_lt_total hb
    omega
  · obtain ⟨l, hl, hsite⟩ := forall₂_right (h.site T B) hm
    rcases ho with ho | ho
    · obtain ⟨x, s, hh, -⟩ := hsite.outs c ho
      have := hh.lt_total
      omega
    · rcases hsite.own c ho with ⟨x, s, hh, -⟩ | ⟨x, s, hh, -⟩ | ⟨-, x, s, hh, -⟩ <;>
      · have := hh.lt_total
        omega

theorem out_lt {ms : List MLayer} {T B : ℕ} (hs : List.Forall₂ (Site layers L T B data) rest ms) {m : MLayer} (hm : m ∈ ms) {a : ℕ}
    (ha : a ∈ m.outs) : a < total (netOf layers L) T B := by
  obtain ⟨l, hl, hsite⟩ := forall₂_right hs hm
  obtain ⟨x, s, hh, -⟩ := hsite.outs a ha
  exact hh.lt_total

/-- The loss is that of any memory that holds the parameters and the batch. -/
theorem lossOf_eq (h : Sited layers L data rest P) (hb : b.Good data)
    (hrep : ∀ m, report b.T b.B m = some (totalLoss (P b.T b.B) m)) {θ : List ℝ} {s : Mem}
    (hs : Loaded (netOf layers L) data.name b θ s) :
    lossOf (netOf layers L) data.name P report b θ = some (totalLoss (P b.T b.B) (forward (P b.T b.B) s)) := by
  have hwl := netOf_wellLaid h.laid.wf h.laid.shaped h.laid.layout
  obtain ⟨st₀, k₀, vs₀, h0, i0⟩ := create_inv (V := ℝ) hwl
  obtain ⟨e, he⟩ := params_entry (layers := layers) (L := L)
  have hlen : θ.length = paramCount layers L := by rw [← hs.params, List.length_map, paramCount_eq h.laid]
  obtain ⟨st₁, h1, i1, r1, -⟩ := write_inv h.laid i0 he (vals := θ) (by rw [hlen, paramCount_eq h.laid])
  obtain ⟨st₂, h2, hr2, r2⟩ := provide_ready h.laid h.data_mem i1 hb
  have hl2 := before_loaded h.laid h.data_mem hb hr2 (θ := θ) (by rw [r2, r1])
  obtain ⟨sz, k, vs, i2, -⟩ := hr2
  obtain ⟨st₃, h3, i3, m3, -⟩ := forwardPass_spec h i2 b.rnd
  simp only [lossOf, h0, h1, h2, h3, Option.bind_some, hrep]
  congr 1
  refine totalLoss_congr (h.site _ _) fun l hl a ha => ?_
  rw [m3 a (out_lt (h.site _ _) hl ha)]
  exact hl2.agree h.laid h.ordered hb (h.short _) (h.site _ _) (fun m hm => (h.honest _ _ m hm).toHonestForward) hs l hl a ha

/-- A forward pass reports the loss. -/
theorem forwardPass_loss (h : Sited layers L data rest P) (hb : b.Good data)
    (hrep : ∀ m, report b.T b.B m = some (totalLoss (P b.T b.B) m)) (hr : Ready layers L data b st) {θ : List ℝ}
    (hθ : st.read (str "parameters") = some θ) :
    ∃ st', forwardPass (netOf layers L) P b.rnd st = some st' ∧
      report b.T b.B (memOf st') = lossOf (netOf layers L) data.name P report b θ ∧
      st'.read (str "parameters") = some θ := by
  have hl := before_loaded h.laid h.data_mem hb hr hθ
  obtain ⟨sz, k, vs, i, -⟩ := hr
  obtain ⟨st', h1, i1, m1, r1⟩ := forwardPass_spec h i b.rnd
  refine ⟨st', h1, ?_, by rw [r1, hθ]⟩
  rw [lossOf_eq h hb hrep hl, hrep]
  congr 1
  exact totalLoss_congr (h.site _ _) fun l hl a ha => m1 a (out_lt (h.site _ _) hl ha)

theorem outs_not_own (h : Sited layers L data rest P) {T B : ℕ} {m n : MLayer} (hm : m ∈ P T B) (hn : n ∈ P T B) {a : ℕ}
    (ha : a ∈ m.outs) : a ∉ n.own := by
  have key : ∀ {l k : LayerInfo} {m n : MLayer}, l ∈ rest → k ∈ rest → Site layers L T B data l m → Site layers L T B data k n →
      (l = k → m = n) → ∀ a ∈ m.outs, a ∉ n.own := by
    intro l k m n hl hk hsl hsk he a ha ho
    obtain ⟨x, s, hh, -⟩ := hsl.outs a ha
    rcases hsk.own a ho with ⟨x', s', hh', -⟩ | ⟨x', s', hh', -⟩ | ⟨hno, x', s', hh', -⟩
    · cases (Home.inj h.laid (h.ordered.mem hl) (h.ordered.mem hk) hh hh').2.1
    · cases (Home.inj h.laid (h.ordered.mem hl) (h.ordered.mem hk) hh hh').2.1
    · have := he (Home.inj h.laid (h.ordered.mem hl) (h.ordered.mem hk) hh hh').1
      subst this
      exact hno ha
  have hp : (P T B).Pairwise (fun m n => (∀ a ∈ m.outs, a ∉ n.own) ∧ ∀ a ∈ n.outs, a ∉ m.own) := by
    refine pairwise_of (h.site T B) (rest_pairwise h.laid h.ordered) ?_
    rintro l hl k hk m n ⟨hne, -⟩ hsl hsk
    exact ⟨key hl hk hsl hsk (fun e => absurd e hne), key hk hl hsk hsl (fun e => absurd e.symm hne)⟩
  have hr : ∀ m ∈ P T B, (∀ a ∈ m.outs, a ∉ m.own) ∧ ∀ a ∈ m.outs, a ∉ m.own := by
    intro m hm
    obtain ⟨l, hl, hsl⟩ := forall₂_right (h.site T B) hm
    exact ⟨key hl hl hsl hsl fun _ => rfl, key hl hl hsl hsl fun _ => rfl⟩
  haveI : Std.Symm (fun m n : MLayer => (∀ a ∈ m.outs, a ∉ n.own) ∧ ∀ a ∈ n.outs, a ∉ m.own) := ⟨fun _ _ h => ⟨h.2, h.1⟩⟩
  exact (List.Pairwise.forall_of_forall hr hp hm hn).1 a ha

/-- Both passes. -/
theorem passes_spec (h : Sited layers L data rest P) (hb : b.Good data) (hr : Ready layers L data b st) {θ : List ℝ}
    (hθ : st.read (str "parameters") = some θ) :
    ∃ st₁ st₂ s sz k vs, forwardPass (netOf layers L) P b.rnd st = some st₁ ∧ backwardPass (netOf layers L) P b.rnd st₁ = some st₂ ∧
      Inv (netOf layers L) st₂ b.T b.B sz k vs ∧ Loaded (netOf layers L) data.name b θ s ∧
      st₂.read (str "parameters") = some θ ∧
      st₂.read (str "gradients") = some ((cells (netOf layers L) b.T b.B (str "gradients")).map
        (backward (backCells (netOf layers L) b.T b.B) (P b.T b.B) (forward (P b.T b.B) s))) ∧
      ∀ m ∈ P b.T b.B, ∀ a ∈ m.outs, memOf st₂ a = forward (P b.T b.B) s a := by
  have hl := before_loaded h.laid h.data_mem hb hr hθ
  obtain ⟨sz, k, vs, i, -⟩ := hr
  obtain ⟨st₁, h1, i1, m1, r1⟩ := forwardPass_spec h i b.rnd
  set s := before (netOf layers L) b.T b.B b.rnd st with hs
  obtain ⟨st₂, h2, i2, m2⟩ := backwardPass_inv i1 P b.rnd m1
    (fun c hc => by rw [forward_outside h _ hc, hl.outside c hc]) fun c hc => back_lt_total hc
  refine ⟨st₁, st₂, s, sz, k, vs, h1, h2, i2, hl, ?_, ?_, ?_⟩
  · obtain ⟨e, he⟩ := params_entry (layers := layers) (L := L)
    rw [read_inv h.laid i2 he, ← hl.params]
    congr 1
    refine List.map_congr_left fun c hc => ?_
    rw [m2 c (cells_lt hc), (C72_parameters_kept h.laid h.ordered (h.site _ _) (h.honest _ _) _ c hc).2,
      (C72_parameters_kept h.laid h.ordered (h.site _ _) (h.honest _ _) _ c hc).1]
  · obtain ⟨e, he⟩ := grads_entry (layers := layers) (L := L)
    rw [read_inv h.laid i2 he]
    congr 1
    exact List.map_congr_left fun c hc => m2 c (cells_lt hc)
  · intro m hm a ha
    have hA := apart h.laid h.ordered (h.site b.T b.B)
    have hat := site_at h.laid h.ordered (h.site b.T b.B) hm
    rw [m2 a (out_lt (h.site _ _) hm ha)]
    exact (backward_abs hA _ (h.honest _ _) (fun m hm => site_at h.laid h.ordered (h.site b.T b.B) hm)
      (own_unused h.laid h.ordered (h.site b.T b.B)) _ (fun _ => 0)).2.1 a (hA.not_back a (hat.outs ha))
      fun n hn => outs_not_own h hm hn ha

/-- Assigning parameters does not change the loss that is reported. -/
theorem write_report (h : Sited layers L data rest P) {sz k : ℕ} {vs : List (Name × View)} {T B : ℕ}
    (hi : Inv (netOf layers L) st T B sz k vs) {θ : List ℝ} (hθ : θ.length = paramCount layers L) :
    ∃ st', st.write (str "parameters") θ = some st' ∧ Inv (netOf layers L) st' T B sz k vs ∧ st'.read (str "parameters") = some θ ∧
      ∀ m ∈ P T B, ∀ a ∈ m.outs, memOf st' a = memOf st a := by
  obtain ⟨e, he⟩ := params_entry (layers := layers) (L := L)
  obtain ⟨st', h1, h2, h3, h4⟩ := write_inv h.laid hi he (vals := θ) (by rw [hθ, paramCount_eq h.laid])
  refine ⟨st', h1, h2, h3, fun m hm a ha => h4 a ?_⟩
  obtain ⟨l, hl, hsite⟩ := forall₂_right (h.site T B) hm
  obtain ⟨x, s, hh, -⟩ := hsite.outs a ha
  exact out_not_param h.laid (h.ordered.mem hl) hh.1 hh.2

/-- Evaluations do not change the parameters. -/
theorem evaluate_spec {Q : ℕ → ℕ → List MLayer} (h : Sited layers L data rest Q) : ∀ (bs : List Batch), (∀ b ∈ bs, b.Good data) →
    ∀ {st : State ℝ} {T B sz k : ℕ} {vs : List (Name × View)}, Inv (netOf layers L) st T B sz k vs →
    ∃ st' T' B' sz' k' vs', evaluate (netOf layers L) data.name Q bs st = some st' ∧ Inv (netOf layers L) st' T' B' sz' k' vs' ∧
      st'.read (str "parameters") = st.read (str "parameters")
  | [], _, st, _, _, _, _, _, i => ⟨st, _, _, _, _, _, rfl, i, rfl⟩
  | b :: bs, hbs, st, _, _, _, _, _, i => by
    obtain ⟨st₁, h1, ⟨_, _, _, i1, -⟩, r1⟩ := provide_ready h.laid h.data_mem i (hbs b List.mem_cons_self)
    obtain ⟨st₂, h2, i2, -, r2⟩ := forwardPass_spec h i1 b.rnd
    obtain ⟨st', _, _, _, _, _, h3, i3, r3⟩ := evaluate_spec h bs (fun b hb => hbs b (List.mem_cons_of_mem _ hb)) i2
    exact ⟨st', _, _, _, _, _, by simp only [evaluate, h1, h2, h3, Option.bind_some], i3, by rw [r3, r2, r1]⟩

end

end Verif.Session
