import Verif.Determined.Settled
import Verif.Session.Passes

/-! # Proofs for C81: parameters and batch determine the gradients -/

namespace Verif.Determined

open Verif.Structure Verif.Layout Verif.Buffers Verif.Memory Verif.Network
open Verif.Session (Batch Loaded root_of_par contextRows)

section
variable {layers : List LayerInfo} {L : Layout} {data : LayerInfo} {rest : List LayerInfo} {b : Batch} {θ : List ℝ} {s s' : Mem}

/-- Parameters and data. -/
theorem loaded_given (hL : Laid layers L) (hb : b.Good data) (h : Loaded (netOf layers L) data.name b θ s)
    (h' : Loaded (netOf layers L) data.name b θ s') {c : ℕ} (hc : c ∈ given layers L b.T b.B data) : s c = s' c := by
  rcases (mem_given c).1 hc with ⟨k, hk, y, t, hy⟩ | ⟨y, t, hy, hma⟩
  · exact List.map_inj_left.1 (h.params.trans h'.params.symm) c (root_of_par hL hk hy.1 hy.2)
  · obtain ⟨d, hdm, rfl⟩ := List.mem_map.1 (hb.complete _ hy)
    by_cases hcr : c ∈ contextRows (netOf layers L) b.T b.B
    · have h2 := Session.cells_lt (hL.main_sub hma)
      rw [h.context c hcr h2, h'.context c hcr h2]
    · obtain ⟨i, hi⟩ := List.mem_iff_getElem?.1 (hL.main_sub hma)
      have h1 := h.data d hdm i c hi hcr
      rw [h'.data d hdm i c hi hcr] at h1
      exact (Option.some.inj h1).symm

variable {ms : List MLayer}

/-- What is read without computing deltas. -/
theorem loaded_fixed (hL : Laid layers L) (ho : Ordered layers data rest) (hb : b.Good data) (hS : Session.Short (netOf layers L) b.T)
    (hs : List.Forall₂ (Site layers L b.T b.B data) rest ms) (h : Loaded (netOf layers L) data.name b θ s)
    (h' : Loaded (netOf layers L) data.name b θ s') {m : MLayer} (hm : m ∈ ms) {c : ℕ} (hc : c ∈ m.fixed) : s c = s' c := by
  obtain ⟨k, hk, hkn⟩ := forall₂_right hs hm
  have hctx : ∀ n, c ∈ contextCells (netOf layers L) b.T b.B n → s c = s' c := by
    intro n hc
    have h1 := Session.context_cleared hL hS hc
    have h2 := Session.cells_lt (context_main hc).1
    rw [h.context c h1 h2, h'.context c h1 h2]
  rcases hkn.fixed c hc with ⟨y, t, hy, hma⟩ | ⟨y, t, hy⟩ | ⟨y, t, hy, hma⟩ | ⟨y, t, hy, hma, -⟩ | hy
  · exact loaded_given hL hb h h' ((mem_given c).2 (Or.inr ⟨y, t, hy.1, hma⟩))
  · exact loaded_given hL hb h h' ((mem_given c).2 (Or.inl ⟨k, ho.mem hk, y, t, hy⟩))
  · exact hctx (path k.name (str "outputs") y) (by simpa [contextCells] using ⟨hy.2, hma⟩)
  · exact hctx (path k.name (str "internals") y) (by simpa [contextCells] using ⟨hy.2, hma⟩)
  · rw [h.outside c hy, h'.outside c hy]

/-- After the forward pass, what a layer reads is determined by parameters and batch. -/
theorem loaded_reads (hL : Laid layers L) (ho : Ordered layers data rest) (hb : b.Good data) (hS : Session.Short (netOf layers L) b.T)
    (hs : List.Forall₂ (Site layers L b.T b.B data) rest ms)
    (hh : ∀ m ∈ ms, m.Honest (delta layers (netOf layers L) b.T b.B)) (h : Loaded (netOf layers L) data.name b θ s)
    (h' : Loaded (netOf layers L) data.name b θ s') {m : MLayer} (hm : m ∈ ms) {c : ℕ} (hc : c ∈ m.ins ∨ c ∈ m.fixed) :
    forward ms s c = forward ms s' c := by
  rcases hc with hc | hc
  · rcases ins_values hL ho hs hm hc with hg | ⟨k, hk, hck⟩
    · rw [(given_kept hL ho hs hh s c hg).1, (given_kept hL ho hs hh s' c hg).1, loaded_given hL hb h h' hg]
    · exact h.agree hL ho hb hS hs (fun m hm => (hh m hm).toHonestForward) h' k hk c hck
  · obtain ⟨k, hk, hkn⟩ := forall₂_right hs hm
    have hno : ∀ n ∈ ms, ¬ (c ∈ n.outs ∨ c ∈ n.own) := by
      intro n hn hw
      obtain ⟨k', hk', hkn'⟩ := forall₂_right hs hn
      exact written_fixed hL ho hk' hk hkn' hkn hw hc
    rw [forward_other ms (fun m hm => (hh m hm).toHonestForward) s c hno,
      forward_other ms (fun m hm => (hh m hm).toHonestForward) s' c hno, loaded_fixed hL ho hb hS hs h h' hm hc]

end

section
variable {layers : List LayerInfo} {L : Layout} {data : LayerInfo} {rest : List LayerInfo} {b : Batch} {θ : List ℝ} {s s' : Mem}

/-- One layer of the backward pass: if the values are those after the forward passes and the deltas agree, they agree afterwards. -/
theorem layer_backward (F : Memory.Fits layers L data rest) (hb : b.Good data) (hS : Session.Short (netOf layers L) b.T)
    (ps : ∀ l ∈ rest, Placed layers data l b.T b.B) (hset : ∀ l hl, Settled (ps l hl).V)
    (h : Loaded (netOf layers L) data.name b θ s) (h' : Loaded (netOf layers L) data.name b θ s') {m : MLayer}
    (hm : m ∈ network F ps) {t t' : Mem}
    (hv : ∀ a, a ∉ backCells (netOf layers L) b.T b.B → t a = forward (network F ps) s a ∧ t' a = forward (network F ps) s' a)
    (hd : ∀ a ∈ backCells (netOf layers L) b.T b.B, t a = t' a) :
    (∀ a, a ∉ backCells (netOf layers L) b.T b.B → m.bwd t a = forward (network F ps) s a ∧
      m.bwd t' a = forward (network F ps) s' a) ∧
    ∀ a ∈ backCells (netOf layers L) b.T b.B, m.bwd t a = m.bwd t' a := by
  have hs := network_site F ps
  have hh := network_honest F ps
  have hA := apart F.laid F.ordered hs
  have hat := site_at F.laid F.ordered hs hm
  have hread := fun {c : ℕ} => loaded_reads F.laid F.ordered hb hS hs hh h h' hm (c := c)
  obtain ⟨l, hl, rfl⟩ := mem_network.1 hm
  letI := (ps l hl).fintypeI
  letI := (ps l hl).fintypeO
  have hD := network_duals F ps hl
  obtain ⟨o, k, ho, hk⟩ := network_forward F ps s l hl
  obtain ⟨o', k', ho', hk'⟩ := network_forward F ps s' l hl
  set v := (ps l hl).ok.views F.laid F.ordered F.unmixed hl with hvdef
  set V := (ps l hl).V with hV
  set dual := delta layers (netOf layers L) b.T b.B with hdual
  have hdi : ∀ a, dual (v.i a) ∈ backCells (netOf layers L) b.T b.B := fun a =>
    hA.dual_back _ (hat.ins ((mem_ins V v).2 ⟨a, rfl⟩))
  have hdo : ∀ a, dual (v.o a) ∈ backCells (netOf layers L) b.T b.B := fun a =>
    hA.dual_back _ (hat.outs ((mem_outs V v).2 ⟨a, rfl⟩))
  have e1 : t ∘ v.p = t' ∘ v.p := funext fun a => by
    show t (v.p a) = t' (v.p a)
    rw [(hv _ (hD.fixed a)).1, (hv _ (hD.fixed a)).2]
    exact hread (Or.inr ⟨a, rfl⟩)
  have e2 : t ∘ v.i = t' ∘ v.i := funext fun a => by
    show t (v.i a) = t' (v.i a)
    rw [(hv _ (hD.value a)).1, (hv _ (hD.value a)).2]
    exact hread (Or.inl ((mem_ins V v).2 ⟨a, rfl⟩))
  have p1 : t ∘ v.p = fun a => valueOut (netOf layers L) b.T b.B l.name (forward (network F ps) s) ((ps l hl).S.p a) :=
    funext fun a => (hv _ (hD.fixed a)).1
  have i1 : t ∘ v.i = fun a => value (netOf layers L) b.T b.B l.name (forward (network F ps) s) ((ps l hl).S.i a) :=
    funext fun a => (hv _ (hD.value a)).1
  have p2 : t' ∘ v.p = fun a => valueOut (netOf layers L) b.T b.B l.name (forward (network F ps) s') ((ps l hl).S.p a) :=
    funext fun a => (hv _ (hD.fixed a)).2
  have i2 : t' ∘ v.i = fun a => value (netOf layers L) b.T b.B l.name (forward (network F ps) s') ((ps l hl).S.i a) :=
    funext fun a => (hv _ (hD.value a)).2
  have o1 : t ∘ v.o = (V.F (t ∘ v.p) (t ∘ v.i) o k).1 := by
    rw [p1, i1]
    exact funext fun a => ((hv _ (hD.outs a)).1).trans (ho a)
  have k1 : t ∘ v.k = (V.F (t ∘ v.p) (t ∘ v.i) o k).2 := by
    rw [p1, i1]
    exact funext fun a => ((hv _ (hD.own a)).1).trans (hk a)
  have o2 : t' ∘ v.o = (V.F (t' ∘ v.p) (t' ∘ v.i) o' k').1 := by
    rw [p2, i2]
    exact funext fun a => ((hv _ (hD.outs a)).2).trans (ho' a)
  have k2 : t' ∘ v.k = (V.F (t' ∘ v.p) (t' ∘ v.i) o' k').2 := by
    rw [p2, i2]
    exact funext fun a => ((hv _ (hD.own a)).2).trans (hk' a)
  have d1 : t ∘ dual ∘ v.o = t' ∘ dual ∘ v.o := funext fun a => hd _ (hdo a)
  have d2 : t ∘ dual ∘ v.i = t' ∘ dual ∘ v.i := funext fun a => hd _ (hdi a)
  have key : V.B (t ∘ v.p) (t ∘ v.i) (t ∘ v.o) (t ∘ v.k) (t ∘ dual ∘ v.o) (t ∘ dual ∘ v.i) =
      V.B (t' ∘ v.p) (t' ∘ v.i) (t' ∘ v.o) (t' ∘ v.k) (t' ∘ dual ∘ v.o) (t' ∘ dual ∘ v.i) := by
    rw [o1, k1, o2, k2, e1, e2, d1, d2]
    exact hset l hl _ _ o k o' k' _ _
  have off : ∀ (u : Mem) a, (¬ ∃ c, (dual ∘ v.i) c = a) → ((ps l hl).layer F hl).bwd u a = u a := fun u a ha =>
    Function.extend_apply' _ _ _ ha
  have on : ∀ (u : Mem) c, ((ps l hl).layer F hl).bwd u (dual (v.i c)) =
      V.B (u ∘ v.p) (u ∘ v.i) (u ∘ v.o) (u ∘ v.k) (u ∘ dual ∘ v.o) (u ∘ dual ∘ v.i) c := fun u c =>
    hD.i_inj.extend_apply _ _ c
  constructor
  · intro a ha
    have hno : ¬ ∃ c, (dual ∘ v.i) c = a := by
      rintro ⟨c, rfl⟩
      exact ha (hdi c)
    rw [off t a hno, off t' a hno]
    exact hv a ha
  · intro a ha
    by_cases hc : ∃ c, (dual ∘ v.i) c = a
    · obtain ⟨c, rfl⟩ := hc
      show ((ps l hl).layer F hl).bwd t (dual (v.i c)) = ((ps l hl).layer F hl).bwd t' (dual (v.i c))
      rw [on, on, key]
    · rw [off t a hc, off t' a hc]
      exact hd a ha

/-- Parameters and batch determine all deltas and gradients. -/
theorem loaded_backward (F : Memory.Fits layers L data rest) (hb : b.Good data) (hS : Session.Short (netOf layers L) b.T)
    (ps : ∀ l ∈ rest, Placed layers data l b.T b.B) (hset : ∀ l hl, Settled (ps l hl).V)
    (h : Loaded (netOf layers L) data.name b θ s) (h' : Loaded (netOf layers L) data.name b θ s') :
    ∀ a ∈ backCells (netOf layers L) b.T b.B,
      backward (backCells (netOf layers L) b.T b.B) (network F ps) (forward (network F ps) s) a =
        backward (backCells (netOf layers L) b.T b.B) (network F ps) (forward (network F ps) s') a := by
  have key : ∀ (ns : List MLayer), (∀ m ∈ ns, m ∈ network F ps) → ∀ t t' : Mem,
      (∀ a, a ∉ backCells (netOf layers L) b.T b.B → t a = forward (network F ps) s a ∧ t' a = forward (network F ps) s' a) →
      (∀ a ∈ backCells (netOf layers L) b.T b.B, t a = t' a) →
      ∀ a ∈ backCells (netOf layers L) b.T b.B,
        ns.foldl (fun m l => l.bwd m) t a = ns.foldl (fun m l => l.bwd m) t' a := by
    intro ns
    induction ns with
    | nil => exact fun _ t t' _ hd => hd
    | cons m ns ih =>
      intro hns t t' hv hd
      obtain ⟨h1, h2⟩ := layer_backward F hb hS ps hset h h' (hns m List.mem_cons_self) hv hd
      exact ih (fun n hn => hns n (List.mem_cons_of_mem _ hn)) _ _ h1 h2
  refine key _ (fun m hm => List.mem_reverse.1 hm) _ _ (fun a ha => ?_) fun a ha => ?_
  · simp only [clear, if_neg ha, and_self]
  · simp only [clear, if_pos ha]

end

end Verif.Determined
