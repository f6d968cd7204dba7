import Verif.Reload.Outputs

/-! # Proofs for C92: the outputs of a layer depend on the parameters of the layers before it -/

namespace Verif.Locality

open Verif.Structure Verif.Layout Verif.Buffers Verif.Network Verif.Layers Verif.Memory
open Verif.Session (Batch Loaded contextRows root_of_par)
open Verif.Reload (covered)

section
variable {layers : List LayerInfo} {L : Layout} {data : LayerInfo} {rest : List LayerInfo} {b : Batch} {θ θ' : List ℝ} {s s' : Mem}

/-- With a layer, the set contains the layers from which a connection leads to it. -/
def Before (layers : List LayerInfo) (S : LayerInfo → Prop) : Prop :=
  ∀ l ∈ layers, S l → ∀ k ∈ layers, ∀ o ∈ k.outgoing, o.endLayer = l.name → S k

/-- In the layers of the set the parameters agree. -/
def Agree (layers : List LayerInfo) (L : Layout) (T B : ℕ) (S : LayerInfo → Prop) (s s' : Mem) : Prop :=
  ∀ k ∈ layers, S k → ∀ y t c, Home layers L T B k .par y t c → s c = s' c

/-- The data that are connected to layers of the set agree. -/
def AgreeData (layers : List LayerInfo) (L : Layout) (T B : ℕ) (data : LayerInfo) (S : LayerInfo → Prop) (s s' : Mem) : Prop :=
  ∀ l ∈ layers, S l → ∀ o ∈ data.outgoing, o.kind = .outputs → o.endLayer = l.name → ∀ c, Main layers L T B data .out o.buffer c → s c = s' c

/-- The data that a layer reads without computing deltas are connected to it. -/
def ReadsConnected (layers : List LayerInfo) (L : Layout) (T B : ℕ) (data l : LayerInfo) (m : MLayer) : Prop :=
  ∀ c ∈ m.fixed, (∃ y t, Home layers L T B data .out y t c) →
    ∃ o ∈ data.outgoing, o.kind = .outputs ∧ o.endLayer = l.name ∧ ∃ t, Home layers L T B data .out o.buffer t c

/-- Another batch with as many time steps and sequences, and the same random numbers. -/
def withData (b : Batch) (d : List (Name × List ℝ)) : Batch := { b with data := d }

variable {d : List (Name × List ℝ)}

theorem loaded_data (hL : Laid layers L) (h : Loaded (netOf layers L) data.name b θ s)
    (h' : Loaded (netOf layers L) data.name (withData b d) θ' s') {y : Name} {c : ℕ} {xs : List ℝ} (hy : (y, xs) ∈ b.data) (hy' : (y, xs) ∈ d)
    (hma : Main layers L b.T b.B data .out y c) : s c = s' c := by
  by_cases hcr : c ∈ contextRows (netOf layers L) b.T b.B
  · have h2 := Session.cells_lt (hL.main_sub hma)
    rw [h.context c hcr h2, h'.context c hcr h2]
  · obtain ⟨i, hi⟩ := List.mem_iff_getElem?.1 (hL.main_sub hma)
    have h1 := h.data _ hy i c hi hcr
    rw [h'.data _ hy' i c hi hcr] at h1
    exact (Option.some.inj h1).symm

variable {ms : List MLayer} {S : LayerInfo → Prop}

/-- What is read without computing deltas. -/
theorem local_fixed (hL : Laid layers L) (ho : Ordered layers data rest) (hS : Session.Short (netOf layers L) b.T)
    (h : Loaded (netOf layers L) data.name b θ s) (h' : Loaded (netOf layers L) data.name (withData b d) θ' s') (hag : Agree layers L b.T b.B S s s') (had : AgreeData layers L b.T b.B data S s s')
    {k : LayerInfo} (hk : k ∈ rest) (hSk : S k) {m : MLayer} (hkn : Site layers L b.T b.B data k m)
    (hrc : ReadsConnected layers L b.T b.B data k m) {c : ℕ} (hc : c ∈ m.fixed) : s c = s' c := by
  have hctx : ∀ n, c ∈ contextCells (netOf layers L) b.T b.B n → s c = s' c := by
    intro n hc
    have h1 := Session.context_cleared hL hS hc
    have h2 := Session.cells_lt (context_main hc).1
    rw [h.context c h1 h2, h'.context c h1 h2]
  rcases hkn.fixed c hc with ⟨y, t, hy, hma⟩ | ⟨y, t, hy⟩ | ⟨y, t, hy, hma⟩ | ⟨y, t, hy, hma, -⟩ | hy
  · obtain ⟨o, hok, hkind, hend, t', hy'⟩ := hrc c hc ⟨y, t, hy⟩
    have hdm : data ∈ layers := by rw [ho.all]; simp
    obtain ⟨-, -, rfl⟩ := Home.inj hL hdm hdm hy hy'
    exact had k (ho.mem hk) hSk o hok hkind hend c hma
  · exact hag k (ho.mem hk) hSk y t c hy
  · exact hctx (path k.name (str "outputs") y) (by simpa [contextCells] using ⟨hy.2, hma⟩)
  · exact hctx (path k.name (str "internals") y) (by simpa [contextCells] using ⟨hy.2, hma⟩)
  · rw [h.outside c hy, h'.outside c hy]; rfl

/-- What a layer of the set reads agrees after the forward passes, if the outputs of the earlier layers of the set do. -/
theorem local_reads_of (hL : Laid layers L) (ho : Ordered layers data rest) (hS : Session.Short (netOf layers L) b.T)
    (hs : List.Forall₂ (Site layers L b.T b.B data) rest ms)
    (hh : ∀ m ∈ ms, m.Honest (delta layers (netOf layers L) b.T b.B))
    (hr : List.Forall₂ (fun l m => Site layers L b.T b.B data l m ∧ ReadsConnected layers L b.T b.B data l m) rest ms) (h : Loaded (netOf layers L) data.name b θ s)
    (h' : Loaded (netOf layers L) data.name (withData b d) θ' s') (hcl : Before layers S) (hag : Agree layers L b.T b.B S s s') (had : AgreeData layers L b.T b.B data S s s')
    {l : LayerInfo} (hl : l ∈ rest) (hSl : S l) {m : MLayer} (hlm : Site layers L b.T b.B data l m)
    (hrc : ReadsConnected layers L b.T b.B data l m)
    (ih : ∀ k ∈ rest, S k → ∀ o ∈ k.outgoing, o.kind = .outputs → o.endLayer = l.name → ∀ n ∈ ms, Site layers L b.T b.B data k n →
      ReadsConnected layers L b.T b.B data k n → ∀ c, Main layers L b.T b.B k .out o.buffer c → c ∈ n.outs → forward ms s c = forward ms s' c)
    {c : ℕ} (hc : c ∈ m.ins ∨ c ∈ m.fixed) : forward ms s c = forward ms s' c := by
  rcases hc with hc | hc
  · have hgiven : ∀ c ∈ given layers L b.T b.B data, s c = s' c → forward ms s c = forward ms s' c := by
      intro c hg e
      rw [(given_kept hL ho hs hh s c hg).1, (given_kept hL ho hs hh s' c hg).1, e]
    rcases hlm.ins_home hL ho hl hc with ⟨x, t, hx⟩ | ⟨k, hk, o, hok, hok', hend, ⟨t, hx⟩, hma⟩ | ⟨k, hk, o, hok, -, hend, t, hx⟩
    · exact hgiven c ((mem_given c).2 (Or.inl ⟨l, ho.mem hl, x, t, hx⟩)) (hag l (ho.mem hl) hSl x t c hx)
    · have hSk := hcl l (ho.mem hl) hSl k hk o hok hend
      rw [ho.all] at hk
      rcases List.mem_cons.1 hk with rfl | hk
      · exact hgiven c ((mem_given c).2 (Or.inr ⟨_, t, hx.1, hma⟩)) (had l (ho.mem hl) hSl o hok hok' hend c hma)
      · obtain ⟨n, hn, hsn, hrn⟩ := forall₂_left hr hk
        exact ih k hk hSk o hok hok' hend n hn hsn hrn c hma (hsn.outsAll o hok hok' c hma)
    · exact hgiven c ((mem_given c).2 (Or.inl ⟨k, hk, _, t, hx⟩)) (hag k hk (hcl l (ho.mem hl) hSl k hk o hok hend) _ t c hx)
  · have hno : ∀ n ∈ ms, ¬ (c ∈ n.outs ∨ c ∈ n.own) := by
      intro n hn hw
      obtain ⟨k', hk', hkn'⟩ := forall₂_right hs hn
      exact written_fixed hL ho hk' hl hkn' hlm hw hc
    rw [forward_other ms (fun m hm => (hh m hm).toHonestForward) s c hno,
      forward_other ms (fun m hm => (hh m hm).toHonestForward) s' c hno, local_fixed hL ho hS h h' hag had hl hSl hlm hrc hc]

/-- The outputs of the layers of the set agree, by induction along the order of the layers. -/
theorem local_outs (hL : Laid layers L) (ho : Ordered layers data rest) (hS : Session.Short (netOf layers L) b.T)
    (hs : List.Forall₂ (Site layers L b.T b.B data) rest ms)
    (hh : ∀ m ∈ ms, m.Honest (delta layers (netOf layers L) b.T b.B))
    (hr : List.Forall₂ (fun l m => Site layers L b.T b.B data l m ∧ ReadsConnected layers L b.T b.B data l m) rest ms) (h : Loaded (netOf layers L) data.name b θ s)
    (h' : Loaded (netOf layers L) data.name (withData b d) θ' s') (hcl : Before layers S) (hag : Agree layers L b.T b.B S s s') (had : AgreeData layers L b.T b.B data S s s') :
    ∀ (i : ℕ) (hi : i < rest.length), S rest[i] → ∀ c x t, Home layers L b.T b.B rest[i] .out x t c →
      (∃ m ∈ ms, Site layers L b.T b.B data rest[i] m ∧ ReadsConnected layers L b.T b.B data rest[i] m ∧ c ∈ m.outs) → forward ms s c = forward ms s' c := by
  intro i
  induction i using Nat.strong_induction_on with
  | _ i ih =>
    intro hi hSi c x t hx ⟨m, hm, hsm, hrm, hcm⟩
    have hl : rest[i] ∈ rest := List.getElem_mem hi
    have hfa : ∀ s : Mem, ∃ m0 : Mem, (∀ a, a ∈ m.ins ∨ a ∈ m.fixed → m0 a = forward ms s a) ∧
        ∀ a, a ∈ m.outs ∨ a ∈ m.own → forward ms s a = m.fwd m0 a := fun s =>
      forward_at ms (fun m hm => (hh m hm).toHonestForward) (by
        intro m hm a ha hw
        obtain ⟨l, hl, hsite⟩ := forall₂_right hs hm
        rcases ha with ha | ha
        · exact written_ins hL ho hl hl hsite hsite (ho.noLoop l hl) hw ha
        · exact written_fixed hL ho hl hl hsite hsite hw ha) (by
        refine pairwise_of hs (rest_pairwise hL ho) ?_
        rintro l hl k hk m n ⟨hne, hno⟩ hsl hsk a ha hw
        rcases ha with ha | ha
        · exact not_used hL ho hl hk hne hno hsl hsk hw (ha.elim Or.inl (fun h => Or.inr (Or.inl h)))
        · exact written_written hL (ho.mem hl) (ho.mem hk) hne hsl hsk ha hw) s m hm
    obtain ⟨m0, h0, h1⟩ := hfa s
    obtain ⟨m0', h0', h1'⟩ := hfa s'
    rw [h1 c (Or.inl hcm), h1' c (Or.inl hcm)]
    refine (hh m hm).fwd_reads m0 m0' (fun d hd => ?_) c hcm
    rw [h0 d hd, h0' d hd]
    refine local_reads_of hL ho hS hs hh hr h h' hcl hag had hl hSi hsm hrm ?_ hd
    intro k hk hSk o hok hkind hend n hn hsn hrn d hma hdn
    obtain ⟨j, hj, rfl⟩ := List.mem_iff_getElem.1 hk
    have hji : j < i := by
      rcases Nat.lt_trichotomy j i with hlt | rfl | hgt
      · exact hlt
      · exact absurd hend (ho.noLoop _ hk o hok hkind)
      · exact absurd hend (List.pairwise_iff_getElem.1 ho.order i j hi hj hgt o hok hkind)
    obtain ⟨y, t', hy, -⟩ := hsn.outs d hdn
    exact ih j hji hj hSk d y t' hy ⟨n, hn, hsn, hrn, hdn⟩

/-- What a layer of the set reads agrees after the forward passes. -/
theorem local_reads (hL : Laid layers L) (ho : Ordered layers data rest) (hS : Session.Short (netOf layers L) b.T)
    (hs : List.Forall₂ (Site layers L b.T b.B data) rest ms)
    (hh : ∀ m ∈ ms, m.Honest (delta layers (netOf layers L) b.T b.B))
    (hr : List.Forall₂ (fun l m => Site layers L b.T b.B data l m ∧ ReadsConnected layers L b.T b.B data l m) rest ms) (h : Loaded (netOf layers L) data.name b θ s)
    (h' : Loaded (netOf layers L) data.name (withData b d) θ' s') (hcl : Before layers S) (hag : Agree layers L b.T b.B S s s') (had : AgreeData layers L b.T b.B data S s s')
    {l : LayerInfo} (hl : l ∈ rest) (hSl : S l) {m : MLayer} (hlm : Site layers L b.T b.B data l m)
    (hrc : ReadsConnected layers L b.T b.B data l m)
    {c : ℕ} (hc : c ∈ m.ins ∨ c ∈ m.fixed) : forward ms s c = forward ms s' c := by
  refine local_reads_of hL ho hS hs hh hr h h' hcl hag had hl hSl hlm hrc ?_ hc
  intro k hk hSk o hok hkind hend n hn hsn hrn d hma hdn
  obtain ⟨j, hj, rfl⟩ := List.mem_iff_getElem.1 hk
  obtain ⟨y, t', hy, -⟩ := hsn.outs d hdn
  exact local_outs hL ho hS hs hh hr h h' hcl hag had j hj hSk d y t' hy ⟨n, hn, hsn, hrn, hdn⟩

theorem layer_site (F : Memory.Fits layers L data rest) {T B : ℕ} (ps : ∀ l ∈ rest, LibLayer layers data l T B) {l : LayerInfo} (hl : l ∈ rest) :
    Site layers L T B data l ((ps l hl).placed.layer F hl) := by
  letI := (ps l hl).placed.fintypeI
  letI := (ps l hl).placed.fintypeO
  exact (ps l hl).placed.ok.site F.laid F.ordered F.unmixed hl _

theorem layer_reads (F : Memory.Fits layers L data rest) {T B : ℕ} {l : LayerInfo} (hl : l ∈ rest) (q : LibLayer layers data l T B) :
    ReadsConnected layers L T B data l (q.placed.layer F hl) := by
  rintro c ⟨a, hc⟩ ⟨y, t, hy⟩
  have hdm : data ∈ layers := by rw [F.ordered.all]; simp
  replace hc : fixedAddr (netOf layers L) T B l.name (q.placed.S.p a) = c := hc
  cases hS : q.placed.S.p a with
  | inr j =>
    rw [hS] at hc
    have h1 := Session.cells_lt hy.2
    have h2 : (totalSizeSlicesShapes (netOf layers L).hubs T B).1 ≤ c := by rw [← hc]; simp [fixedAddr]
    exact absurd h1 (Nat.not_lt.2 h2)
  | inl r =>
    rw [hS] at hc
    replace hc : r.addr (netOf layers L) T B l.name = c := hc
    have hdl : data ≠ l := by
      rintro rfl
      have := F.laid.wf.names
      rw [F.ordered.all, List.map_cons, List.nodup_cons] at this
      exact this.1 (List.mem_map.2 ⟨_, hl, rfl⟩)
    rcases q.placed.ok.fixed a r hS with ⟨h1, ⟨s, h2, h3⟩, h4⟩ | ⟨h1, s, h2, h3⟩ | ⟨h1, s, h2, h3, h4⟩ | ⟨h1, s, h2, h3, h4, h5⟩
    · obtain ⟨k, hk, o, hok, e1, e2, h⟩ :=
        input_source F.laid F.ordered hl (List.mem_map.2 ⟨_, h2, rfl⟩) (addr_in F.laid F.ordered hl h1 h2 h3)
      obtain ⟨e, hkind⟩ := h4 k hk o hok e1 e2
      rw [e] at hok h
      rcases h with ⟨-, s', h6, -⟩ | ⟨h6, -⟩
      · rw [hc] at h6
        exact ⟨o, hok, hkind, e1, s', h6⟩
      · rw [hkind] at h6; cases h6
    · have hH := addr_par F.laid F.ordered hl h1 h2 h3
      rw [hc] at hH
      cases (Home.inj F.laid hdm (F.ordered.mem hl) hy hH).2.1
    · have hr := F.laid.row_out (T := T) (B := B) (F.ordered.mem hl) h2
      have hH : Home layers L T B l .out r.array s c := ⟨h2, by rw [← hc]; unfold Slot.addr; rw [h1]; exact hr.mem h4⟩
      exact absurd (Home.inj F.laid hdm (F.ordered.mem hl) hy hH).1 hdl
    · have hr := F.laid.row_int (T := T) (B := B) (F.ordered.mem hl) h2
      have hH : Home layers L T B l .int r.array s c := ⟨h2, by rw [← hc]; unfold Slot.addr; rw [h1]; exact hr.mem h4⟩
      cases (Home.inj F.laid hdm (F.ordered.mem hl) hy hH).2.1

theorem network_reads (F : Memory.Fits layers L data rest) {T B : ℕ} (ps : ∀ l ∈ rest, LibLayer layers data l T B) :
    List.Forall₂ (fun l m => Site layers L T B data l m ∧ ReadsConnected layers L T B data l m) rest
      (network F (fun l hl => (ps l hl).placed)) := by
  unfold network
  have h : rest = rest.attach.map Subtype.val := by simp
  conv => arg 2; rw [h]
  rw [List.forall₂_map_left_iff, List.forall₂_map_right_iff]
  refine List.forall₂_same.2 ?_
  rintro ⟨l, hl⟩ -
  exact ⟨layer_site F ps hl, layer_reads F hl (ps l hl)⟩

/-- The context rows of the outputs, which no layer writes, are zero. -/
theorem context_kept (F : Memory.Fits layers L data rest) (hS : Session.Short (netOf layers L) b.T)
    (ps : ∀ l ∈ rest, LibLayer layers data l b.T b.B) (h : Loaded (netOf layers L) data.name b θ s)
    (h' : Loaded (netOf layers L) data.name (withData b d) θ' s') {l : LayerInfo} (hl : l ∈ rest) {x : Name} {sh : Struct}
    (hx : (x, sh) ∈ l.outShapes) {c : ℕ} (hc : c ∈ cells (netOf layers L) b.T b.B (path l.name (str "outputs") x))
    (hm : c ∉ mainCells (netOf layers L) b.T b.B (path l.name (str "outputs") x)) :
    forward (libNetwork F ps) s c = forward (libNetwork F ps) s' c := by
  have hs := network_site F (fun l hl => (ps l hl).placed)
  have hh := network_honest F (fun l hl => (ps l hl).placed)
  have hfw := fun m hm => (hh m hm).toHonestForward
  have hl' := F.ordered.mem hl
  have hhome : Home layers L b.T b.B l .out x sh c := ⟨hx, hc⟩
  have hno : ∀ n ∈ network F (fun l hl => (ps l hl).placed), ¬ (c ∈ n.outs ∨ c ∈ n.own) := by
    intro n hn hw
    obtain ⟨k, hk, hkn⟩ := forall₂_right hs hn
    have hk' := F.ordered.mem hk
    have hout : ¬ ∃ y t, Home layers L b.T b.B k .out y t c ∧ Main layers L b.T b.B k .out y c := by
      rintro ⟨y, t, h1, h2⟩
      obtain ⟨rfl, -, rfl⟩ := Home.inj F.laid hk' hl' h1 hhome
      exact hm h2
    rcases hw with hw | hw
    · exact hout (hkn.outs c hw)
    · rcases hkn.own c hw with ⟨y, t, h1, -⟩ | ⟨y, t, h1, -⟩ | ⟨-, h1⟩
      · cases (Home.inj F.laid hk' hl' h1 hhome).2.1
      · cases (Home.inj F.laid hk' hl' h1 hhome).2.1
      · exact hout h1
  show forward (network F _) s c = forward (network F _) s' c
  rw [forward_other _ hfw s c hno, forward_other _ hfw s' c hno]
  have h1 := Session.context_cleared F.laid hS (n := path l.name (str "outputs") x) (by simpa [contextCells] using ⟨hc, hm⟩)
  have h2 := Session.cells_lt hc
  rw [h.context c h1 h2, h'.context c h1 h2]

/-- All outputs of the layers of the set agree. -/
theorem local_determined (F : Memory.Fits layers L data rest) (hS : Session.Short (netOf layers L) b.T)
    (ps : ∀ l ∈ rest, LibLayer layers data l b.T b.B) (h : Loaded (netOf layers L) data.name b θ s)
    (h' : Loaded (netOf layers L) data.name (withData b d) θ' s') (hcl : Before layers S) (hag : Agree layers L b.T b.B S s s') (had : AgreeData layers L b.T b.B data S s s')
    {l : LayerInfo} (hl : l ∈ rest) (hSl : S l) {x : Name} {sh : Struct} (hx : (x, sh) ∈ l.outShapes)
    {c : ℕ} (hc : c ∈ cells (netOf layers L) b.T b.B (path l.name (str "outputs") x)) :
    forward (libNetwork F ps) s c = forward (libNetwork F ps) s' c := by
  have hs := network_site F (fun l hl => (ps l hl).placed)
  have hh := network_honest F (fun l hl => (ps l hl).placed)
  have hl' := F.ordered.mem hl
  by_cases hm : c ∈ mainCells (netOf layers L) b.T b.B (path l.name (str "outputs") x)
  swap
  · exact context_kept F hS ps h h' hl hx hc hm
  have hrow := F.laid.row_out (T := b.T) (B := b.B) (F.ordered.mem hl) hx
  obtain ⟨j, hj, rfl⟩ := List.mem_iff_getElem.1 hc
  rw [hrow.length] at hj
  have hget : (cells (netOf layers L) b.T b.B (path l.name (str "outputs") x))[j]'(by rw [hrow.length]; exact hj) =
      (cells (netOf layers L) b.T b.B (path l.name (str "outputs") x)).getD j 0 := by
    rw [List.getD_eq_getElem _ _ (by rw [hrow.length]; exact hj)]
  rw [hget] at hm ⊢
  have hj' := (hrow.mem_main hj).1 hm
  obtain ⟨o, k, ho, hk⟩ := network_forward F (fun l hl => (ps l hl).placed) s l hl
  obtain ⟨o', k', ho', hk'⟩ := network_forward F (fun l hl => (ps l hl).placed) s' l hl
  have hsite := layer_site F ps hl
  have hread := fun {c : ℕ} => local_reads F.laid F.ordered hS hs hh (network_reads F ps) h h' hcl hag had hl hSl hsite (layer_reads F hl (ps l hl)) (c := c)
  have hfix : (fun a => valueOut (netOf layers L) b.T b.B l.name (forward (network F (fun l hl => (ps l hl).placed)) s) ((ps l hl).placed.S.p a)) =
      fun a => valueOut (netOf layers L) b.T b.B l.name (forward (network F (fun l hl => (ps l hl).placed)) s') ((ps l hl).placed.S.p a) :=
    funext fun a => hread (Or.inr ⟨a, rfl⟩)
  have hin : (fun a => value (netOf layers L) b.T b.B l.name (forward (network F (fun l hl => (ps l hl).placed)) s) ((ps l hl).placed.S.i a)) =
      fun a => value (netOf layers L) b.T b.B l.name (forward (network F (fun l hl => (ps l hl).placed)) s') ((ps l hl).placed.S.i a) := by
    letI := (ps l hl).placed.fintypeI
    letI := (ps l hl).placed.fintypeO
    exact funext fun a => hread (Or.inl ((mem_ins (ps l hl).placed.V ((ps l hl).placed.ok.views F.laid F.ordered F.unmixed hl)).2 ⟨a, rfl⟩))
  rcases covered (ps l hl) hx hj' with ⟨q, hq⟩ | ⟨q, hq, hdet⟩
  · have h1 := ho q
    have h2 := ho' q
    rw [hq] at h1 h2
    refine h1.trans (Eq.trans ?_ h2.symm)
    rw [hfix, hin]
    exact congrFun ((ps l hl).placed.fresh _ _ _ _ _ _) q
  · have h1 := hk q
    have h2 := hk' q
    rw [hq] at h1 h2
    refine h1.trans (Eq.trans ?_ h2.symm)
    rw [hfix, hin]
    exact hdet _ _ _ _ _ _

end

end Verif.Locality
