import Verif.Memory.Wire

/-!
# C72: forward and backward pass on the memory that the layout describes

The addresses of all arrays are those of the views that `BufferManager` creates for the layout of the network, see
`cells`.  Layers keep to their arrays (`Site`).  Nothing is assumed about how arrays of different layers lie in the
memory: that they do or do not overlap follows from the layout.
-/

namespace Verif.Memory

open Verif.Structure Verif.Layout Verif.Buffers

section
variable {layers : List LayerInfo} {L : Layout} {T B : Nat} {data : LayerInfo} {rest : List LayerInfo} {ms : List MLayer}

theorem gradient_given (hL : Laid layers L) (ho : Ordered layers data rest)
    (hs : List.Forall₂ (Site layers L T B data) rest ms)
    (hh : ∀ m ∈ ms, m.Honest (delta layers (netOf layers L) T B)) (s : Mem)
    (hd : AllDifferentiate (delta layers (netOf layers L) T B) (backCells (netOf layers L) T B) ms s)
    {a : ℕ} (ha : a ∈ given layers L T B data) (hf : ∀ m ∈ ms, a ∉ m.fixed) :
    HasDerivAt (fun x => totalLoss ms (forward ms (Function.update s a x)))
      (backward (backCells (netOf layers L) T B) ms (forward ms s) (delta layers (netOf layers L) T B a)) (s a) := by
  have hA := apart hL ho hs
  have hat : ∀ m ∈ ms, m.At _ _ _ := fun m hm => site_at hL ho hs hm
  have key := Network.C21_network (ms.map (MLayer.abs (values layers L T B data ms)
      (delta layers (netOf layers L) T B) (backCells (netOf layers L) T B)))
    (by intro l hl; obtain ⟨m, hm, rfl⟩ := List.mem_map.1 hl; exact abs_honest (hh m hm).toHonestForward)
    (by intro l hl; obtain ⟨m, hm, rfl⟩ := List.mem_map.1 hl; exact abs_honestBack hA (hh m hm) (hat m hm))
    _ (wired hL ho hs) s (abs_all hA hat hd) (fun _ => 0) a ha
    (by intro l hl; obtain ⟨m, hm, rfl⟩ := List.mem_map.1 hl; exact hf m hm)
  simp only [forward_abs, totalLoss_abs] at key
  rw [(backward_abs hA ms hh hat (own_unused hL ho hs) (forward ms s) (fun _ => 0)).1 a (Finset.mem_union_left _ ha)]
  exact key

/-- **C72, gradients.**  After a forward pass and a backward pass, the entry `i` of the array of all gradients is
the derivative of the total loss after the forward pass with respect to the entry `i` of the array of all
parameters, unless a layer reads that parameter without computing its gradient. -/
theorem C72_gradients (hL : Laid layers L) (ho : Ordered layers data rest)
    (hs : List.Forall₂ (Site layers L T B data) rest ms)
    (hh : ∀ m ∈ ms, m.Honest (delta layers (netOf layers L) T B)) (s : Mem)
    (hd : AllDifferentiate (delta layers (netOf layers L) T B) (backCells (netOf layers L) T B) ms s)
    (i p g : ℕ) (hp : (cells (netOf layers L) T B (str "parameters"))[i]? = some p)
    (hg : (cells (netOf layers L) T B (str "gradients"))[i]? = some g) (hf : ∀ m ∈ ms, p ∉ m.fixed) :
    HasDerivAt (fun x => totalLoss ms (forward ms (Function.update s p x)))
      (backward (backCells (netOf layers L) T B) ms (forward ms s) g) (s p) := by
  obtain ⟨l, hl, x, hx, hc⟩ := hL.root_cover (List.mem_of_getElem? hp)
  have hdc : DeltaCell layers (netOf layers L) T B p g := by
    refine ⟨_, _, i, Or.inr (Or.inr (Or.inr ⟨l, hl, ?_, rfl, rfl⟩)), hp, hg⟩
    rintro h
    rw [h] at hx
    simp at hx
  obtain ⟨sh, hsh⟩ := shape_of hx
  rw [← hdc.eq hL]
  exact gradient_given hL ho hs hh s hd ((mem_given p).2 (Or.inl ⟨l, hl, x, sh, hsh, hc⟩)) hf

/-- **C72, gradients of one layer.**  The same for each parameter and its gradient in the views of a layer. -/
theorem C72_layer_gradients (hL : Laid layers L) (ho : Ordered layers data rest)
    (hs : List.Forall₂ (Site layers L T B data) rest ms)
    (hh : ∀ m ∈ ms, m.Honest (delta layers (netOf layers L) T B)) (s : Mem)
    (hd : AllDifferentiate (delta layers (netOf layers L) T B) (backCells (netOf layers L) T B) ms s)
    (l : LayerInfo) (hl : l ∈ layers) (x : Name) (hx : x ∈ l.paramShapes.map Prod.fst)
    (i p g : ℕ) (hp : (cells (netOf layers L) T B (path l.name (str "parameters") x))[i]? = some p)
    (hg : (cells (netOf layers L) T B (path l.name (str "gradients") x))[i]? = some g) (hf : ∀ m ∈ ms, p ∉ m.fixed) :
    HasDerivAt (fun y => totalLoss ms (forward ms (Function.update s p y)))
      (backward (backCells (netOf layers L) T B) ms (forward ms s) g) (s p) := by
  have hdc : DeltaCell layers (netOf layers L) T B p g :=
    ⟨_, _, i, Or.inr (Or.inr (Or.inl ⟨l, hl, x, hx, rfl, rfl⟩)), hp, hg⟩
  obtain ⟨sh, hsh⟩ := shape_of hx
  rw [← hdc.eq hL]
  exact gradient_given hL ho hs hh s hd ((mem_given p).2 (Or.inl ⟨l, hl, x, sh, hsh, List.mem_of_getElem? hp⟩)) hf

/-- **C72, deltas of the data.**  The delta of an entry of an output of the Input layer is the derivative of the
total loss with respect to that entry. -/
theorem C72_data_deltas (hL : Laid layers L) (ho : Ordered layers data rest)
    (hs : List.Forall₂ (Site layers L T B data) rest ms)
    (hh : ∀ m ∈ ms, m.Honest (delta layers (netOf layers L) T B)) (s : Mem)
    (hd : AllDifferentiate (delta layers (netOf layers L) T B) (backCells (netOf layers L) T B) ms s)
    (x : Name) (hx : x ∈ data.outShapes.map Prod.fst)
    (i a d : ℕ) (ha : (cells (netOf layers L) T B (path data.name (str "outputs") x))[i]? = some a)
    (hda : (cells (netOf layers L) T B (path data.name (str "output_deltas") x))[i]? = some d)
    (hrow : a ∈ mainCells (netOf layers L) T B (path data.name (str "outputs") x)) (hf : ∀ m ∈ ms, a ∉ m.fixed) :
    HasDerivAt (fun y => totalLoss ms (forward ms (Function.update s a y)))
      (backward (backCells (netOf layers L) T B) ms (forward ms s) d) (s a) := by
  have hdc : DeltaCell layers (netOf layers L) T B a d :=
    ⟨_, _, i, Or.inr (Or.inl ⟨data, by rw [ho.all]; simp, x, hx, rfl, rfl⟩), ha, hda⟩
  obtain ⟨sh, hsh⟩ := shape_of hx
  rw [← hdc.eq hL]
  exact gradient_given hL ho hs hh s hd ((mem_given a).2 (Or.inr ⟨x, sh, hsh, hrow⟩)) hf

/-- **C72, outputs.**  After the forward pass the outputs of all layers depend on nothing but the parameters, the
data, the context rows of outputs and internals, and what lies outside of the buffer.  (Nothing is said about the backward
pass here, so `m.outs` may contain all outputs of the layer.) -/
theorem C72_outputs (hL : Laid layers L) (ho : Ordered layers data rest)
    (hs : List.Forall₂ (Site layers L T B data) rest ms)
    (hh : ∀ m ∈ ms, m.HonestForward) (s s' : Mem)
    (hpar : ∀ l ∈ layers, ∀ x ∈ l.paramShapes.map Prod.fst,
      ∀ a ∈ cells (netOf layers L) T B (path l.name (str "parameters") x), s a = s' a)
    (hdata : ∀ x ∈ data.outShapes.map Prod.fst,
      ∀ a ∈ mainCells (netOf layers L) T B (path data.name (str "outputs") x), s a = s' a)
    (hctx : ∀ l ∈ rest, (∀ x ∈ l.outShapes.map Prod.fst,
        ∀ a ∈ contextCells (netOf layers L) T B (path l.name (str "outputs") x), s a = s' a) ∧
      ∀ x ∈ l.internalShapes.map Prod.fst,
        ∀ a ∈ contextCells (netOf layers L) T B (path l.name (str "internals") x), s a = s' a)
    (hout : ∀ a, (totalSizeSlicesShapes (netOf layers L).hubs T B).1 ≤ a → s a = s' a) :
    ∀ m ∈ ms, ∀ a ∈ m.outs, forward ms s a = forward ms s' a := by
  intro m hm a ha
  have hA := apart hL ho hs
  have key := Network.C20_network (ms.map (MLayer.abs (values layers L T B data ms)
      (delta layers (netOf layers L) T B) (backCells (netOf layers L) T B)))
    (by intro l hl; obtain ⟨m, hm, rfl⟩ := List.mem_map.1 hl; exact abs_honest (hh m hm))
    _ (wired hL ho hs) s s' ?_ ?_ _ (List.mem_map.2 ⟨m, hm, rfl⟩) a ha
  · simpa only [forward_abs] using key
  · intro c hc
    rcases (mem_given c).1 hc with ⟨k, hk, y, t, h⟩ | ⟨y, t, h, hma⟩
    · exact hpar k hk y (List.mem_map.2 ⟨_, h.1, rfl⟩) c h.2
    · exact hdata y (List.mem_map.2 ⟨_, h, rfl⟩) c hma
  · intro l' hl' c hc
    obtain ⟨n, hn, rfl⟩ := List.mem_map.1 hl'
    obtain ⟨k, hk, hkn⟩ := forall₂_right hs hn
    rcases hkn.fixed c hc with ⟨y, t, h, hma⟩ | ⟨y, t, h⟩ | ⟨y, t, h, hma⟩ | ⟨y, t, h, hma, -⟩ | h
    · exact hdata y (List.mem_map.2 ⟨_, h.1, rfl⟩) c hma
    · exact hpar k (by rw [ho.all]; simp [hk]) y (List.mem_map.2 ⟨_, h.1, rfl⟩) c h.2
    · exact (hctx k hk).1 y (List.mem_map.2 ⟨_, h.1, rfl⟩) c (by simpa [contextCells] using ⟨h.2, hma⟩)
    · exact (hctx k hk).2 y (List.mem_map.2 ⟨_, h.1, rfl⟩) c (by simpa [contextCells] using ⟨h.2, hma⟩)
    · exact hout c h

/-- What no layer writes and is not cleared stays. -/
theorem kept (hL : Laid layers L) (ho : Ordered layers data rest)
    (hs : List.Forall₂ (Site layers L T B data) rest ms)
    (hh : ∀ m ∈ ms, m.Honest (delta layers (netOf layers L) T B)) (s : Mem) (c : ℕ)
    (hc : c ∉ backCells (netOf layers L) T B) (hno : ∀ m ∈ ms, ¬ (c ∈ m.outs ∨ c ∈ m.own)) :
    forward ms s c = s c ∧ backward (backCells (netOf layers L) T B) ms s c = s c := by
  have hA := apart hL ho hs
  have hat : ∀ m ∈ ms, m.At _ _ _ := fun m hm => site_at hL ho hs hm
  constructor
  · rw [← forward_abs (V := values layers L T B data ms) (dual := delta layers (netOf layers L) T B)
      (back := backCells (netOf layers L) T B)]
    refine Network.forwardPass_other _ ?_ s c ?_
    · intro l hl; obtain ⟨m, hm, rfl⟩ := List.mem_map.1 hl; exact abs_honest (hh m hm).toHonestForward
    · intro l hl; obtain ⟨m, hm, rfl⟩ := List.mem_map.1 hl; exact hno m hm
  · exact (backward_abs hA ms hh hat (own_unused hL ho hs) s (fun _ => 0)).2.1 c hc
      (fun m hm h => hno m hm (Or.inr h))

theorem given_kept (hL : Laid layers L) (ho : Ordered layers data rest)
    (hs : List.Forall₂ (Site layers L T B data) rest ms)
    (hh : ∀ m ∈ ms, m.Honest (delta layers (netOf layers L) T B)) (s : Mem) (c : ℕ)
    (hc : c ∈ given layers L T B data) :
    forward ms s c = s c ∧ backward (backCells (netOf layers L) T B) ms s c = s c := by
  refine kept hL ho hs hh s c ((apart hL ho hs).not_back c (Finset.mem_union_left _ hc)) ?_
  intro m hm h
  obtain ⟨l, hl, hsite⟩ := forall₂_right hs hm
  exact written_given hL ho hl hsite h hc

/-- **C72, parameters.**  Neither pass changes the parameters. -/
theorem C72_parameters_kept (hL : Laid layers L) (ho : Ordered layers data rest)
    (hs : List.Forall₂ (Site layers L T B data) rest ms)
    (hh : ∀ m ∈ ms, m.Honest (delta layers (netOf layers L) T B)) (s : Mem) :
    ∀ a ∈ cells (netOf layers L) T B (str "parameters"),
      forward ms s a = s a ∧ backward (backCells (netOf layers L) T B) ms s a = s a := by
  intro a ha
  obtain ⟨l, hl, x, hx, hc⟩ := hL.root_cover ha
  obtain ⟨sh, hsh⟩ := shape_of hx
  exact given_kept hL ho hs hh s a ((mem_given a).2 (Or.inl ⟨l, hl, x, sh, hsh, hc⟩))

/-- **C72, rerun.**  A forward pass after a forward and a backward pass gives the same outputs as the first one:
what the passes left in outputs, internals and deltas does not matter. -/
theorem C72_rerun (hL : Laid layers L) (ho : Ordered layers data rest)
    (hs : List.Forall₂ (Site layers L T B data) rest ms)
    (hh : ∀ m ∈ ms, m.Honest (delta layers (netOf layers L) T B)) (s : Mem) :
    ∀ m ∈ ms, ∀ a ∈ m.outs,
      forward ms (backward (backCells (netOf layers L) T B) ms (forward ms s)) a = forward ms s a := by
  have kgiven : ∀ c ∈ given layers L T B data, backward (backCells (netOf layers L) T B) ms (forward ms s) c = s c :=
    fun c hc => ((given_kept hL ho hs hh _ c hc).2).trans (given_kept hL ho hs hh s c hc).1
  have kfixed : ∀ m ∈ ms, ∀ c ∈ m.fixed, backward (backCells (netOf layers L) T B) ms (forward ms s) c = s c := by
    intro m hm c hc
    have hno : ∀ n ∈ ms, ¬ (c ∈ n.outs ∨ c ∈ n.own) := by
      intro n hn h
      obtain ⟨l, hl, hsite⟩ := forall₂_right hs hm
      obtain ⟨k, hk, hkn⟩ := forall₂_right hs hn
      exact written_fixed hL ho hk hl hkn hsite h hc
    have hb := (site_at hL ho hs hm).fixed c hc
    exact ((kept hL ho hs hh _ c hb hno).2).trans (kept hL ho hs hh s c hb hno).1
  intro m hm a ha
  have key := Network.C20_network (ms.map (MLayer.abs (values layers L T B data ms)
      (delta layers (netOf layers L) T B) (backCells (netOf layers L) T B)))
    (by intro l hl; obtain ⟨m, hm, rfl⟩ := List.mem_map.1 hl; exact abs_honest (hh m hm).toHonestForward)
    _ (wired hL ho hs) (backward (backCells (netOf layers L) T B) ms (forward ms s)) s kgiven
    (by intro l hl; obtain ⟨m, hm, rfl⟩ := List.mem_map.1 hl; exact kfixed m hm)
    _ (List.mem_map.2 ⟨m, hm, rfl⟩) a ha
  simpa only [forward_abs] using key

end

end Verif.Memory
