import Verif.Memory.Placed

/-!
# Networks of layers that find their numbers in their arrays
-/

namespace Verif.Memory

open Verif.Structure Verif.Layout Verif.Buffers Verif.Network

/-! ### Specification -/

/-- The layers are laid out and can be run. -/
structure Fits (layers : List LayerInfo) (L : Layout) (data : LayerInfo) (rest : List LayerInfo) : Prop where
  laid : Laid layers L
  ordered : Ordered layers data rest
  unmixed : Unmixed layers

/-- A layer given by functions on arrays with the entries where it has its numbers. -/
structure Placed (layers : List LayerInfo) (data l : LayerInfo) (T B : ℕ) where
  I : Type
  O : Type
  K : Type
  P : Type
  fintypeI : Fintype I
  fintypeO : Fintype O
  V : VLayer I O K P
  S : Slots I O K P
  ok : S.Ok layers data l T B V
  fresh : V.Fresh
  one : V.isLoss = true → Subsingleton O

/-- The number at an entry of an array of the layer called `n`. -/
def value (net : Net) (T B : ℕ) (n : Name) (m : Mem) (q : Slot) : ℝ := m (q.addr net T B n)

/-- The number at an entry of an array of the layer called `n`, or outside of the buffer. -/
def valueOut (net : Net) (T B : ℕ) (n : Name) (m : Mem) (q : Slot ⊕ ℕ) : ℝ := m (fixedAddr net T B n q)

section
variable {layers : List LayerInfo} {L : Layout} {T B : ℕ} {data l : LayerInfo} {rest : List LayerInfo}

/-- The layer working on the memory. -/
noncomputable def Placed.layer (p : Placed layers data l T B) (F : Fits layers L data rest) (hl : l ∈ rest) : MLayer :=
  letI := p.fintypeI
  letI := p.fintypeO
  atViews p.V (p.ok.views F.laid F.ordered F.unmixed hl) (delta layers (netOf layers L) T B)

/-- The layers of a network, without the Input layer, working on the memory. -/
noncomputable def network (F : Fits layers L data rest) (ps : ∀ l ∈ rest, Placed layers data l T B) : List MLayer :=
  rest.attach.map fun l => (ps l.1 l.2).layer F l.2

/-- The layer by itself computes derivatives at the numbers that it finds in the memory `m`. -/
def Placed.RightAt (p : Placed layers data l T B) (L : Layout) (m : Mem) : Prop :=
  letI := p.fintypeI
  letI := p.fintypeO
  p.V.Right (fun a => valueOut (netOf layers L) T B l.name m (p.S.p a))
    (fun a => value (netOf layers L) T B l.name m (p.S.i a))

end

/-! ### Proofs -/

section
variable {layers : List LayerInfo} {L : Layout} {T B : ℕ} {data : LayerInfo} {rest : List LayerInfo}

theorem network_site (F : Fits layers L data rest) (ps : ∀ l ∈ rest, Placed layers data l T B) :
    List.Forall₂ (Site layers L T B data) rest (network F ps) := by
  unfold network
  have h : rest = rest.attach.map Subtype.val := by simp
  conv => arg 2; rw [h]
  rw [List.forall₂_map_left_iff, List.forall₂_map_right_iff]
  refine List.forall₂_same.2 ?_
  rintro ⟨l, hl⟩ -
  letI := (ps l hl).fintypeI
  letI := (ps l hl).fintypeO
  exact (ps l hl).ok.site F.laid F.ordered F.unmixed hl _

theorem mem_network {F : Fits layers L data rest} {ps : ∀ l ∈ rest, Placed layers data l T B} {m : MLayer} :
    m ∈ network F ps ↔ ∃ (l : LayerInfo) (hl : l ∈ rest), m = (ps l hl).layer F hl := by
  simp only [network, List.mem_map, List.mem_attach, true_and, Subtype.exists]
  exact ⟨fun ⟨l, hl, h⟩ => ⟨l, hl, h.symm⟩, fun ⟨l, hl, h⟩ => ⟨l, hl, h.symm⟩⟩

theorem network_duals (F : Fits layers L data rest) (ps : ∀ l ∈ rest, Placed layers data l T B) {l : LayerInfo}
    (hl : l ∈ rest) : Duals ((ps l hl).ok.views F.laid F.ordered F.unmixed hl) (delta layers (netOf layers L) T B)
      (backCells (netOf layers L) T B) := by
  letI := (ps l hl).fintypeI
  letI := (ps l hl).fintypeO
  exact duals_of F.laid F.ordered (network_site F ps) (ps l hl).V _ (mem_network.2 ⟨l, hl, rfl⟩)
    (fun a => (ps l hl).ok.own_back F.laid F.ordered F.unmixed hl a)

theorem network_honest (F : Fits layers L data rest) (ps : ∀ l ∈ rest, Placed layers data l T B) :
    ∀ m ∈ network F ps, m.Honest (delta layers (netOf layers L) T B) := by
  intro m hm
  obtain ⟨l, hl, rfl⟩ := mem_network.1 hm
  letI := (ps l hl).fintypeI
  letI := (ps l hl).fintypeO
  exact C72_honest (ps l hl).V _ (ps l hl).fresh (network_duals F ps hl)

theorem network_differentiates (F : Fits layers L data rest) (ps : ∀ l ∈ rest, Placed layers data l T B) (s : Mem)
    (hR : ∀ (l : LayerInfo) (hl : l ∈ rest), (ps l hl).RightAt L (forward (network F ps) s)) :
    AllDifferentiate (delta layers (netOf layers L) T B) (backCells (netOf layers L) T B) (network F ps) s := by
  have hs := network_site F ps
  refine allDifferentiate_of _ (fun m hm => (network_honest F ps m hm).toHonestForward) ?_ ?_ s ?_
  · intro m hm a ha hw
    obtain ⟨l, hl, hsite⟩ := forall₂_right hs hm
    rcases ha with ha | ha
    · exact written_ins F.laid F.ordered hl hl hsite hsite (F.ordered.noLoop l hl) hw ha
    · exact written_fixed F.laid F.ordered hl hl hsite hsite hw ha
  · refine pairwise_of hs (rest_pairwise F.laid F.ordered) ?_
    rintro l hl k hk m n ⟨hne, hno⟩ hsl hsk a ha hw
    exact not_used F.laid F.ordered hl hk hne hno hsl hsk hw (ha.elim Or.inl (fun h => Or.inr (Or.inl h)))
  · intro m hm m0 h0
    obtain ⟨l, hl, rfl⟩ := mem_network.1 hm
    letI := (ps l hl).fintypeI
    letI := (ps l hl).fintypeO
    refine C72_differentiates (ps l hl).V _ (ps l hl).fresh (ps l hl).one (network_duals F ps hl) m0 ?_
    have h1 : m0 ∘ ((ps l hl).ok.views F.laid F.ordered F.unmixed hl).p =
        fun a => valueOut (netOf layers L) T B l.name (forward (network F ps) s) ((ps l hl).S.p a) :=
      funext fun a => h0 _ (Or.inr ⟨a, rfl⟩)
    have h2 : m0 ∘ ((ps l hl).ok.views F.laid F.ordered F.unmixed hl).i =
        fun a => value (netOf layers L) T B l.name (forward (network F ps) s) ((ps l hl).S.i a) :=
      funext fun a => h0 _ (Or.inl ((mem_ins (ps l hl).V _).2 ⟨a, rfl⟩))
    rw [h1, h2]
    exact hR l hl

end

end Verif.Memory
