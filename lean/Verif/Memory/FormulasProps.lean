import Verif.Memory.Formulas
import Verif.Memory.Wiring

/-!
# C76: what a network computes
-/

namespace Verif.Memory

open Verif.Structure Verif.Layout Verif.Buffers Verif.Network Verif.Layers

section
variable {layers : List LayerInfo} {L : Layout} {T B : ℕ} {data : LayerInfo} {rest : List LayerInfo}

/-- **C76 (layers).**  After the forward pass the arrays of every layer fit together by the formula of the layer.  Random
numbers are what lies behind the buffer. -/
theorem C76_formulas (F : Fits layers L data rest) (ps : ∀ l ∈ rest, LibLayer layers data l T B) (s : Mem)
    (l : LayerInfo) (hl : l ∈ rest) :
    let m := forward (libNetwork F ps) s
    (ps l hl).Computes (entry (netOf layers L) T B l.name m)
      (fun j => m ((totalSizeSlicesShapes (netOf layers L).hubs T B).1 + j)) := by
  intro m
  obtain ⟨o, k, h1, h2⟩ := network_forward F (fun l hl => (ps l hl).placed) s l hl
  refine LibLayer.computes (ps l hl) (value (netOf layers L) T B l.name m) _ ⟨o, k, ?_⟩
  have e : (fun a => valueOut (netOf layers L) T B l.name m ((ps l hl).placed.S.p a)) =
      fun a => Sum.elim (value (netOf layers L) T B l.name m)
        (fun j => m ((totalSizeSlicesShapes (netOf layers L).hubs T B).1 + j)) ((ps l hl).placed.S.p a) := by
    funext a
    unfold valueOut fixedAddr
    cases (ps l hl).placed.S.p a <;> rfl
  exact ⟨fun b => (h1 b).trans (by rw [← e]; rfl), fun b => (h2 b).trans (by rw [← e]; rfl)⟩

/-- **C76 (inputs).**  An input of a layer is the arrays that are connected to it, side by side: every column of the input is
the same memory as one column of one of them, in the same row. -/
theorem C76_inputs (F : Fits layers L data rest) (l : LayerInfo) (hl : l ∈ rest) (x : Name) (sx : Struct)
    (hx : (x, sx) ∈ l.inShapes) :
    ∃ off : Name → ℕ,
      (∀ p s, Feeds layers l x p s → ∀ j < s.featureSize, off p + j < sx.featureSize ∧
        ∀ T B r, r < rows sx T B → ∃ a,
          (cells (netOf layers L) T B (path l.name (str "inputs") x))[r * sx.featureSize + (off p + j)]? = some a ∧
          (cells (netOf layers L) T B p)[r * s.featureSize + j]? = some a) ∧
      ∀ c < sx.featureSize, ∃ p s, Feeds layers l x p s ∧ off p ≤ c ∧ c < off p + s.featureSize ∧
        ∀ p' s', Feeds layers l x p' s' → off p' ≤ c → c < off p' + s'.featureSize → p' = p := by
  have hl' : l ∈ layers := by rw [F.ordered.all]; simp [hl]
  have hxm : x ∈ l.inShapes.map Prod.fst := List.mem_map.2 ⟨_, hx, rfl⟩
  refine F.laid.wiring hl' hx ?_
  obtain ⟨k, hk, o, ho, e1, e2⟩ := F.ordered.fed l hl x hxm
  have hfl : Flow layers (.arr (if o.kind = .outputs then .out else .par) k o.buffer) (.arr .inp l x) := by
    have := F.laid.noInternal k hk o ho
    cases h : o.kind with
    | outputs => rw [← e2]; simp only [if_true]; exact .out hk ho h hl' e1.symm
    | parameters => rw [← e2]; simp only [reduceCtorEq, if_false]; exact .par hk ho h hl' e1.symm
    | internals => exact absurd h this
  have hv := (hfl.valid F.laid.wf).1.2
  cases h : o.kind with
  | outputs =>
    simp only [h, if_true] at hv
    obtain ⟨s, hs⟩ := shape_of hv
    exact ⟨_, s, k, hk, o, ho, e1, e2, Or.inl ⟨h, hs, rfl⟩⟩
  | parameters =>
    simp only [h, reduceCtorEq, if_false] at hv
    obtain ⟨s, hs⟩ := shape_of hv
    exact ⟨_, s, k, hk, o, ho, e1, e2, Or.inr ⟨h, hs, rfl⟩⟩
  | internals => exact absurd h (F.laid.noInternal k hk o ho)

/-- **C76 (an input fed by one output).**  If only one output is connected to an input, every number of the input is the
number of the output at the same position. -/
theorem C76_input_copy (F : Fits layers L data rest) (l k : LayerInfo) (hl : l ∈ rest) (x b : String) (sx s : Struct)
    (o : Outgoing) (hx : (str x, sx) ∈ l.inShapes) (hk : k ∈ layers) (ho : o ∈ k.outgoing) (e1 : o.endLayer = l.name)
    (e2 : o.endInput = str x) (e3 : o.kind = .outputs) (e4 : o.buffer = str b) (hs : (str b, s) ∈ k.outShapes)
    (only : ∀ k' ∈ layers, ∀ o' ∈ k'.outgoing, o'.endLayer = l.name → o'.endInput = str x →
      k' = k ∧ o'.buffer = str b ∧ o'.kind = .outputs)
    (m : Mem) (c : ℕ) (hc : c < rows sx T B * sx.featureSize) :
    entry (netOf layers L) T B l.name m "inputs" x c = entry (netOf layers L) T B k.name m "outputs" b c := by
  obtain ⟨off, h1, h2⟩ := C76_inputs F l hl (str x) sx hx
  have hp : Feeds layers l (str x) (path k.name (str "outputs") (str b)) s :=
    ⟨k, hk, o, ho, e1, e2, Or.inl ⟨e3, by rw [e4]; exact hs, by rw [e4]⟩⟩
  have hone : ∀ p' s', Feeds layers l (str x) p' s' → p' = path k.name (str "outputs") (str b) ∧ s' = s := by
    intro p' s' hf
    have hf' := hf
    obtain ⟨k', hk', o', ho', g1, g2, ⟨g3, g4, rfl⟩ | ⟨g3, g4, rfl⟩⟩ := hf
    · obtain ⟨rfl, g5, -⟩ := only k' hk' o' ho' g1 g2
      rw [g5] at hf' ⊢
      refine ⟨rfl, ?_⟩
      have := (hf'.get F.laid).symm.trans (hp.get F.laid)
      exact Option.some.inj this
    · have := (only k' hk' o' ho' g1 g2).2.2
      rw [g3] at this
      cases this
  have hpos : 0 < sx.featureSize := by
    rcases Nat.eq_zero_or_pos sx.featureSize with h | h
    · rw [h] at hc; simp at hc
    · exact h
  have hoff : off (path k.name (str "outputs") (str b)) = 0 := by
    obtain ⟨p', s', hf, g1, -⟩ := h2 0 hpos
    obtain ⟨rfl, rfl⟩ := hone p' s' hf
    omega
  have hle : sx.featureSize ≤ s.featureSize := by
    obtain ⟨p', s', hf, -, g2, -⟩ := h2 (sx.featureSize - 1) (by omega)
    obtain ⟨rfl, rfl⟩ := hone p' s' hf
    omega
  have heq : s.featureSize = sx.featureSize := by
    refine le_antisymm ?_ hle
    by_contra hlt
    have := (h1 _ s hp sx.featureSize (by omega)).1
    omega
  have hr : c / sx.featureSize < rows sx T B := (Nat.div_lt_iff_lt_mul hpos).2 hc
  have hj : c % sx.featureSize < s.featureSize := by rw [heq]; exact Nat.mod_lt _ hpos
  obtain ⟨a, g1, g2⟩ := (h1 _ s hp _ hj).2 T B _ hr
  rw [hoff, Nat.zero_add, Nat.div_add_mod'] at g1
  rw [heq, Nat.div_add_mod'] at g2
  unfold entry
  rw [List.getD_eq_getElem?_getD, List.getD_eq_getElem?_getD, g1, g2]

/-- What a layer adds to the total loss. -/
def LibLayer.lossOf {l : LayerInfo} : LibLayer layers data l T B → (String → String → ℕ → ℝ) → ℝ
  | .loss .., e => e "outputs" "loss" 0
  | _, _ => 0

theorem no_losses (F : Fits layers L data rest) {l : LayerInfo} (hl : l ∈ rest) (q : Placed layers data l T B)
    (h : q.V.isLoss = false) (m : Mem) : ∑ c ∈ (q.layer F hl).losses, m c = 0 := by
  letI := q.fintypeI
  letI := q.fintypeO
  refine Finset.sum_eq_zero fun c hc => ?_
  have : q.V.isLoss = true := ((mem_losses q.V (q.ok.views F.laid F.ordered F.unmixed hl)).1 hc).1
  rw [h] at this
  cases this

theorem placed_losses (F : Fits layers L data rest) {l : LayerInfo} (hl : l ∈ rest) (q : LibLayer layers data l T B) (m : Mem) :
    ∑ c ∈ (q.placed.layer F hl).losses, m c = q.lossOf (entry (netOf layers L) T B l.name m) := by
  cases q with
  | loss importance x has loose =>
    have e : ((LibLayer.loss importance x has loose : LibLayer layers data l T B).placed.layer F hl).losses =
        {(cells (netOf layers L) T B (path l.name (str "outputs") (str "loss"))).getD 0 0} := by
      ext c
      letI := (LibLayer.loss importance x has loose : LibLayer layers data l T B).placed.fintypeI
      letI := (LibLayer.loss importance x has loose : LibLayer layers data l T B).placed.fintypeO
      refine (mem_losses _ _).trans ?_
      rw [Finset.mem_singleton]
      constructor
      · rintro ⟨-, a, rfl⟩; rfl
      · rintro rfl; exact ⟨rfl, (), rfl⟩
    rw [e, Finset.sum_singleton]
    rfl
  | _ => exact no_losses F hl _ rfl m

/-- **C76 (total loss).**  The total loss, of which C74 and C75 give the derivatives, is the sum of the outputs of the Loss
layers. -/
theorem C76_total_loss (F : Fits layers L data rest) (ps : ∀ l ∈ rest, LibLayer layers data l T B) (m : Mem) :
    totalLoss (libNetwork F ps) m =
      (rest.attach.map fun l => (ps l.1 l.2).lossOf (entry (netOf layers L) T B l.1.name m)).sum := by
  unfold totalLoss libNetwork network
  rw [List.map_map]
  congr 1
  refine List.map_congr_left fun l _ => ?_
  exact placed_losses F l.2 (ps l.1 l.2) m

end

/-- In the example network, the input of the cost layer is the output of the fully connected layer, for all sizes. -/
example (T B : ℕ) (m : Mem) (c : ℕ) (hc : c < rows ⟨[.T, .B, .n 1], 0, false⟩ T B * 1) :
    entry (netOf demoNet demoL) T B demoSE.name m "inputs" "default" c =
      entry (netOf demoNet demoL) T B demoFC.name m "outputs" "default" c :=
  C76_input_copy demo_fits demoSE demoFC (by decide +kernel) "default" "default" ⟨[.T, .B, .n 1], 0, false⟩
    ⟨[.T, .B, .n 1], 0, false⟩ ⟨.outputs, str "default", demoSE.name, str "default"⟩ (by decide +kernel) (by decide +kernel)
    (by decide +kernel) rfl rfl rfl rfl (by decide +kernel) (by decide +kernel) m c hc

/-- The outputs of the fully connected layer. -/
example (s : Mem) : (demoLib .tanh demoFC (by decide +kernel)).Computes
    (entry (netOf demoNet demoL) 1 2 demoFC.name (forward (libNetwork demo_fits (demoLib .tanh)) s))
    (fun j => forward (libNetwork demo_fits (demoLib .tanh)) s ((totalSizeSlicesShapes (netOf demoNet demoL).hubs 1 2).1 + j)) :=
  C76_formulas demo_fits (demoLib .tanh) s demoFC (by decide +kernel)

end Verif.Memory
