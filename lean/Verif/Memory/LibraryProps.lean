import Verif.Memory.LibraryPlaced

/-!
# C74: training a network of layers of the library on its memory

`Fits` says that the layers are laid out and in an order in which they can be run, `LibLayer` that they are layers of the
library, `LibLayer.Regular` that the numbers that a layer finds in the memory are none at which it is not differentiable.
The addresses of everything follow from the layout.
-/

namespace Verif.Memory

open Verif.Structure Verif.Layout Verif.Buffers Verif.Network Verif.Layers

section
variable {layers : List LayerInfo} {L : Layout} {T B : ℕ} {data : LayerInfo} {rest : List LayerInfo}

/-- The layers of the network except the Input layer, working on the memory. -/
noncomputable def libNetwork (F : Fits layers L data rest) (ps : ∀ l ∈ rest, LibLayer layers data l T B) : List MLayer :=
  network F fun l hl => (ps l hl).placed

/-- The memory after a forward pass is one at which all layers are differentiable. -/
def AllRegular (F : Fits layers L data rest) (ps : ∀ l ∈ rest, LibLayer layers data l T B) (s : Mem) : Prop :=
  ∀ (l : LayerInfo) (hl : l ∈ rest),
    (ps l hl).Regular (valueOut (netOf layers L) T B l.name (forward (libNetwork F ps) s))

/-- What layers of the library read without computing deltas. -/
theorem LibLayer.fixed_names {l : LayerInfo} (q : LibLayer layers data l T B) (a : q.placed.P) (r : Slot)
    (h : q.placed.S.p a = .inl r) : (r.cat = str "inputs" ∧ (r.array = str "targets" ∨ r.array = str "mask")) ∨
      (r.cat = str "parameters" ∧ r.array = str "timing") ∨ r.cat = str "outputs" ∨ r.cat = str "internals" := by
  cases q with
  | fullyConnected | elementwise | noOp | highway | merge | squaredDifference | l1Decay | l2Decay | loss | convolution2D
  | avgPooling2D | maxPooling2D => exact (show Empty from a).elim
  | mask | maskFull => cases h; exact Or.inl ⟨rfl, Or.inr rfl⟩
  | dropout => cases h
  | squaredError | sigmoidCE | softmaxCE | binomialCE => cases h; exact Or.inl ⟨rfl, Or.inl rfl⟩
  | recurrent => cases h; exact Or.inr (Or.inr (Or.inl rfl))
  | clockwork =>
    rcases a with a | a
    · cases h; exact Or.inr (Or.inr (Or.inl rfl))
    · cases h; exact Or.inr (Or.inl ⟨rfl, rfl⟩)
  | lstm =>
    rcases a with a | a
    · cases h; exact Or.inr (Or.inr (Or.inl rfl))
    · cases h; exact Or.inr (Or.inr (Or.inr rfl))
  | clockworkLstm =>
    rcases a with (a | a) | a
    · cases h; exact Or.inr (Or.inr (Or.inl rfl))
    · cases h; exact Or.inr (Or.inr (Or.inr rfl))
    · cases h; exact Or.inr (Or.inl ⟨rfl, rfl⟩)

/-- Where what a layer of the library reads without computing deltas lies. -/
theorem lib_fixed (F : Fits layers L data rest) {l : LayerInfo} (hl : l ∈ rest) (q : LibLayer layers data l T B)
    (a : q.placed.P) (c : ℕ) (hc : fixedAddr (netOf layers L) T B l.name (q.placed.S.p a) = c) :
    (∃ o ∈ data.outgoing, o.kind = .outputs ∧ (o.endInput = str "targets" ∨ o.endInput = str "mask") ∧
      ∃ s, Home layers L T B data .out o.buffer s c) ∨
    (∃ s, Home layers L T B l .par (str "timing") s c) ∨
    (∃ x s, Home layers L T B l .out x s c) ∨ (∃ x s, Home layers L T B l .int x s c) ∨
    (totalSizeSlicesShapes (netOf layers L).hubs T B).1 ≤ c := by
  cases hS : q.placed.S.p a with
  | inr j => rw [hS] at hc; exact Or.inr (Or.inr (Or.inr (Or.inr (by rw [← hc]; simp [fixedAddr]))))
  | inl r =>
    rw [hS] at hc
    replace hc : r.addr (netOf layers L) T B l.name = c := hc
    have hn := q.fixed_names a r hS
    rcases q.placed.ok.fixed a r hS with ⟨h1, ⟨s, h2, h3⟩, h4⟩ | ⟨h1, s, h2, h3⟩ | ⟨h1, s, h2, h3, h4⟩ | ⟨h1, s, h2, h3, h4, h5⟩
    · left
      rw [h1] at hn
      obtain ⟨k, hk, o, hok, e1, e2, h⟩ :=
        input_source F.laid F.ordered hl (List.mem_map.2 ⟨_, h2, rfl⟩) (addr_in F.laid F.ordered hl h1 h2 h3)
      obtain ⟨e, hkind⟩ := h4 k hk o hok e1 e2
      rw [e] at hok h
      rcases h with ⟨-, s', h6, -⟩ | ⟨h6, -⟩
      · rw [hc] at h6
        refine ⟨o, hok, hkind, ?_, s', h6⟩
        rw [e2]
        rcases hn with hn | hn | hn | hn
        · exact hn.2
        · exact absurd hn.1 (by decide)
        · exact absurd hn (by decide)
        · exact absurd hn (by decide)
      · rw [hkind] at h6; cases h6
    · right; left
      rw [h1] at hn
      have hH := addr_par F.laid F.ordered hl h1 h2 h3
      rw [hc] at hH
      rcases hn with hn | hn | hn | hn
      · exact absurd hn.1 (by decide)
      · rw [hn.2] at hH; exact ⟨s, hH⟩
      · exact absurd hn (by decide)
      · exact absurd hn (by decide)
    · right; right; left
      have hr := F.laid.row_out (T := T) (B := B) (F.ordered.mem hl) h2
      exact ⟨r.array, s, h2, by rw [← hc]; unfold Slot.addr; rw [h1]; exact hr.mem h4⟩
    · right; right; right; left
      have hr := F.laid.row_int (T := T) (B := B) (F.ordered.mem hl) h2
      exact ⟨r.array, s, h2, by rw [← hc]; unfold Slot.addr; rw [h1]; exact hr.mem h4⟩

/-- The only parameters that are read without computing gradients are called `timing`. -/
theorem par_not_fixed (F : Fits layers L data rest) (ps : ∀ l ∈ rest, LibLayer layers data l T B) {p : ℕ}
    {k : LayerInfo} (hk : k ∈ layers) {x : Name} {s : Struct} (h : Home layers L T B k .par x s p) (hx : x ≠ str "timing") :
    ∀ m ∈ libNetwork F ps, p ∉ m.fixed := by
  intro m hm hf
  obtain ⟨l, hl, rfl⟩ := mem_network.1 hm
  obtain ⟨a, ha⟩ := hf
  have hd : data ∈ layers := by rw [F.ordered.all]; simp
  rcases lib_fixed F hl (ps l hl) a p ha with ⟨o, -, -, -, s', h'⟩ | ⟨s', h'⟩ | ⟨x', s', h'⟩ | ⟨x', s', h'⟩ | h'
  · exact absurd (Home.inj F.laid hk hd h h').2.1 (by simp)
  · exact hx (Home.inj F.laid hk (F.ordered.mem hl) h h').2.2
  · exact absurd (Home.inj F.laid hk (F.ordered.mem hl) h h').2.1 (by simp)
  · exact absurd (Home.inj F.laid hk (F.ordered.mem hl) h h').2.1 (by simp)
  · exact absurd h.lt_total (by omega)

/-- Data that is not connected to `targets` or `mask` is not read without computing deltas. -/
theorem data_not_fixed (F : Fits layers L data rest) (ps : ∀ l ∈ rest, LibLayer layers data l T B) {p : ℕ}
    {x : Name} {s : Struct} (h : Home layers L T B data .out x s p)
    (ht : ∀ o ∈ data.outgoing, o.kind = .outputs → o.buffer = x → o.endInput ≠ str "targets" ∧ o.endInput ≠ str "mask") :
    ∀ m ∈ libNetwork F ps, p ∉ m.fixed := by
  intro m hm hf
  obtain ⟨l, hl, rfl⟩ := mem_network.1 hm
  obtain ⟨a, ha⟩ := hf
  have hd : data ∈ layers := by rw [F.ordered.all]; simp
  rcases lib_fixed F hl (ps l hl) a p ha with ⟨o, ho, hk, hi, s', h'⟩ | ⟨s', h'⟩ | ⟨x', s', h'⟩ | ⟨x', s', h'⟩ | h'
  · have := ht o ho hk (Home.inj F.laid hd hd h h').2.2.symm
    rcases hi with hi | hi
    · exact this.1 hi
    · exact this.2 hi
  · exact absurd (Home.inj F.laid hd (F.ordered.mem hl) h h').2.1 (by simp)
  · exact F.ordered.ne_data F.laid hl (Home.inj F.laid hd (F.ordered.mem hl) h h').1.symm
  · exact absurd (Home.inj F.laid hd (F.ordered.mem hl) h h').2.1 (by simp)
  · exact absurd h.lt_total (by omega)

/-- **C74, gradients.**  After a forward pass and a backward pass through a network of layers of the library, entry `i` of
the array of all gradients is the derivative of the total loss after the forward pass with respect to entry `i` of the
array of all parameters, unless that is an entry of an array called `timing`. -/
theorem C74_gradients (F : Fits layers L data rest) (ps : ∀ l ∈ rest, LibLayer layers data l T B) (s : Mem)
    (hR : AllRegular F ps s) (i p g : ℕ) (hp : (cells (netOf layers L) T B (str "parameters"))[i]? = some p)
    (hg : (cells (netOf layers L) T B (str "gradients"))[i]? = some g)
    (ht : ∀ l ∈ layers, p ∉ cells (netOf layers L) T B (path l.name (str "parameters") (str "timing"))) :
    HasDerivAt (fun x => totalLoss (libNetwork F ps) (forward (libNetwork F ps) (Function.update s p x)))
      (backward (backCells (netOf layers L) T B) (libNetwork F ps) (forward (libNetwork F ps) s) g) (s p) := by
  obtain ⟨k, hk, x, hx, hc⟩ := F.laid.root_cover (List.mem_of_getElem? hp)
  obtain ⟨sh, hsh⟩ := shape_of hx
  refine C72_gradients F.laid F.ordered (network_site F _) (network_honest F _) s
    (network_differentiates F _ s fun l hl => (ps l hl).regular_right L _ (hR l hl)) i p g hp hg
    (par_not_fixed F ps hk (x := x) (s := sh) ⟨hsh, hc⟩ ?_)
  rintro rfl
  exact ht k hk hc

/-- **C74, gradients of one layer.**  The same for the arrays `parameters.x` and `gradients.x` of a layer. -/
theorem C74_layer_gradients (F : Fits layers L data rest) (ps : ∀ l ∈ rest, LibLayer layers data l T B) (s : Mem)
    (hR : AllRegular F ps s) (l : LayerInfo) (hl : l ∈ layers) (x : Name) (hx : x ∈ l.paramShapes.map Prod.fst)
    (hxt : x ≠ str "timing") (i p g : ℕ)
    (hp : (cells (netOf layers L) T B (path l.name (str "parameters") x))[i]? = some p)
    (hg : (cells (netOf layers L) T B (path l.name (str "gradients") x))[i]? = some g) :
    HasDerivAt (fun y => totalLoss (libNetwork F ps) (forward (libNetwork F ps) (Function.update s p y)))
      (backward (backCells (netOf layers L) T B) (libNetwork F ps) (forward (libNetwork F ps) s) g) (s p) := by
  obtain ⟨sh, hsh⟩ := shape_of hx
  exact C72_layer_gradients F.laid F.ordered (network_site F _) (network_honest F _) s
    (network_differentiates F _ s fun l hl => (ps l hl).regular_right L _ (hR l hl)) l hl x hx i p g hp hg
    (par_not_fixed F ps hl (x := x) (s := sh) ⟨hsh, List.mem_of_getElem? hp⟩ hxt)

/-- **C74, deltas of the data.**  The delta of an entry of an output of the Input layer is the derivative of the total
loss with respect to that entry, unless the output is connected to targets or to a mask. -/
theorem C74_data_deltas (F : Fits layers L data rest) (ps : ∀ l ∈ rest, LibLayer layers data l T B) (s : Mem)
    (hR : AllRegular F ps s) (x : Name) (hx : x ∈ data.outShapes.map Prod.fst)
    (ht : ∀ o ∈ data.outgoing, o.kind = .outputs → o.buffer = x → o.endInput ≠ str "targets" ∧ o.endInput ≠ str "mask")
    (i a d : ℕ) (ha : (cells (netOf layers L) T B (path data.name (str "outputs") x))[i]? = some a)
    (hd : (cells (netOf layers L) T B (path data.name (str "output_deltas") x))[i]? = some d)
    (hrow : a ∈ mainCells (netOf layers L) T B (path data.name (str "outputs") x)) :
    HasDerivAt (fun y => totalLoss (libNetwork F ps) (forward (libNetwork F ps) (Function.update s a y)))
      (backward (backCells (netOf layers L) T B) (libNetwork F ps) (forward (libNetwork F ps) s) d) (s a) := by
  obtain ⟨sh, hsh⟩ := shape_of hx
  exact C72_data_deltas F.laid F.ordered (network_site F _) (network_honest F _) s
    (network_differentiates F _ s fun l hl => (ps l hl).regular_right L _ (hR l hl)) x hx i a d ha hd hrow
    (data_not_fixed F ps (x := x) (s := sh) ⟨hsh, List.mem_of_getElem? ha⟩ ht)

/-- **C74, outputs.**  After the forward pass the outputs of every layer are what its forward pass computes from the
inputs and parameters that are in the memory then, whatever its outputs and internals held before. -/
theorem C74_forward (F : Fits layers L data rest) (ps : ∀ l ∈ rest, LibLayer layers data l T B) (s : Mem) (l : LayerInfo)
    (hl : l ∈ rest) (o : (ps l hl).placed.O → ℝ) (k : (ps l hl).placed.K → ℝ) (b : (ps l hl).placed.O) :
    value (netOf layers L) T B l.name (forward (libNetwork F ps) s) ((ps l hl).placed.S.o b) =
      ((ps l hl).placed.V.F
        (fun a => valueOut (netOf layers L) T B l.name (forward (libNetwork F ps) s) ((ps l hl).placed.S.p a))
        (fun a => value (netOf layers L) T B l.name (forward (libNetwork F ps) s) ((ps l hl).placed.S.i a)) o k).1 b := by
  obtain ⟨o', k', h, -⟩ := network_forward F (fun l hl => (ps l hl).placed) s l hl
  rw [(ps l hl).placed.fresh _ _ o k o' k']
  exact h b

/-- **C74, parameters.**  Neither pass changes the parameters. -/
theorem C74_parameters_kept (F : Fits layers L data rest) (ps : ∀ l ∈ rest, LibLayer layers data l T B) (s : Mem) :
    ∀ a ∈ cells (netOf layers L) T B (str "parameters"), forward (libNetwork F ps) s a = s a ∧
      backward (backCells (netOf layers L) T B) (libNetwork F ps) s a = s a :=
  C72_parameters_kept F.laid F.ordered (network_site F _) (network_honest F _) s

/-- **C74, rerun.**  A forward pass after a forward and a backward pass gives the same outputs again. -/
theorem C74_rerun (F : Fits layers L data rest) (ps : ∀ l ∈ rest, LibLayer layers data l T B) (s : Mem) (l : LayerInfo)
    (hl : l ∈ rest) (b : (ps l hl).placed.O) :
    value (netOf layers L) T B l.name (forward (libNetwork F ps)
      (backward (backCells (netOf layers L) T B) (libNetwork F ps) (forward (libNetwork F ps) s))) ((ps l hl).placed.S.o b) =
      value (netOf layers L) T B l.name (forward (libNetwork F ps) s) ((ps l hl).placed.S.o b) := by
  letI := (ps l hl).placed.fintypeI
  letI := (ps l hl).placed.fintypeO
  exact C72_rerun F.laid F.ordered (network_site F _) (network_honest F _) s _ (mem_network.2 ⟨l, hl, rfl⟩) _
    ((mem_outs (ps l hl).placed.V ((ps l hl).placed.ok.views F.laid F.ordered F.unmixed hl)).2 ⟨b, rfl⟩)

end

end Verif.Memory
