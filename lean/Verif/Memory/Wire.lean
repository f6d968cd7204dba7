import Verif.Memory.Place

/-! Lemmas for C72: layers that keep to their arrays are wired as the backward pass needs it. -/

namespace Verif.Memory

open Verif.Structure Verif.Layout Verif.Buffers

theorem wired_of {C : Type} [DecidableEq C] {A : Finset C} {layers : List (Network.Layer C)}
    (h1 : ∀ l ∈ layers, (∀ c, l.written c → c ∉ A ∧ c ∉ l.fixed ∧ c ∉ l.ins) ∧ (∀ c ∈ l.outs, c ∉ l.scratch) ∧
      l.losses ⊆ l.outs ∧ l.over ⊆ l.ins)
    (h2 : layers.Pairwise (fun l m => (∀ c, m.written c → ¬ l.uses c) ∧ (∀ c, l.written c → c ∉ m.fixed) ∧
      (∀ c ∈ l.losses, c ∉ m.ins) ∧ ∀ c ∈ l.over, c ∉ m.ins))
    (h3 : ∀ l ∈ layers, ∀ c ∈ l.ins, c ∈ A ∨ ∃ k ∈ layers, c ∈ k.outs) : Network.Wired A layers := by
  induction layers generalizing A with
  | nil => trivial
  | cons l rest ih =>
    rw [List.pairwise_cons] at h2
    obtain ⟨a1, a2, a3, a4⟩ := h1 l (by simp)
    refine ⟨?_, fun c hc => ⟨(a1 c hc).1, (a1 c hc).2.1⟩, a2, a3, a4, fun m hm => h2.1 m hm, ?_⟩
    · intro c hc
      rcases h3 l (by simp) c hc with h | ⟨k, hk, hck⟩
      · exact h
      · rcases List.mem_cons.1 hk with rfl | hk
        · exact absurd hc (a1 c (Or.inl hck)).2.2
        · exact absurd (Or.inl hc) ((h2.1 k hk).1 c (Or.inl hck))
    · refine ih ?_ h2.2 ?_
      · intro m hm
        obtain ⟨b1, b2⟩ := h1 m (by simp [hm])
        refine ⟨fun c hc => ⟨?_, (b1 c hc).2⟩, b2⟩
        intro hA
        rcases Finset.mem_union.1 hA with h | h
        · exact (b1 c hc).1 h
        · exact (h2.1 m hm).1 c hc (Or.inr (Or.inr (Or.inl h)))
      · intro m hm c hc
        rcases h3 m (by simp [hm]) c hc with h | ⟨k, hk, hck⟩
        · exact Or.inl (Finset.mem_union_left _ h)
        · rcases List.mem_cons.1 hk with rfl | hk
          · exact Or.inl (Finset.mem_union_right _ hck)
          · exact Or.inr ⟨k, hk, hck⟩

theorem pairwise_of {α β : Type} {S : α → β → Prop} {P : α → α → Prop} {R : β → β → Prop} {as : List α} {bs : List β}
    (h : List.Forall₂ S as bs) (hp : as.Pairwise P)
    (hR : ∀ a ∈ as, ∀ a' ∈ as, ∀ b b', P a a' → S a b → S a' b' → R b b') : bs.Pairwise R := by
  induction h with
  | nil => exact .nil
  | @cons a b as bs hab hrest ih =>
    rw [List.pairwise_cons] at hp ⊢
    refine ⟨?_, ih hp.2 (fun a ha a' ha' => hR a (by simp [ha]) a' (by simp [ha']))⟩
    intro b' hb'
    obtain ⟨i, hi, rfl⟩ := List.getElem_of_mem hb'
    have hi' : i < as.length := by rw [hrest.length_eq]; exact hi
    have := (List.forall₂_iff_get.1 hrest).2 i hi' hi
    exact hR a (by simp) as[i] (by simp) b _ (hp.1 _ (List.getElem_mem hi')) hab this

theorem forall₂_right {α β : Type} {S : α → β → Prop} {as : List α} {bs : List β} (h : List.Forall₂ S as bs) {b : β}
    (hb : b ∈ bs) : ∃ a ∈ as, S a b := by
  obtain ⟨i, hi, rfl⟩ := List.getElem_of_mem hb
  have hi' : i < as.length := by rw [h.length_eq]; exact hi
  exact ⟨as[i], List.getElem_mem hi', (List.forall₂_iff_get.1 h).2 i hi' hi⟩

theorem forall₂_left {α β : Type} {S : α → β → Prop} {as : List α} {bs : List β} (h : List.Forall₂ S as bs) {a : α}
    (ha : a ∈ as) : ∃ b ∈ bs, S a b := by
  obtain ⟨i, hi, rfl⟩ := List.getElem_of_mem ha
  have hi' : i < bs.length := by rw [← h.length_eq]; exact hi
  exact ⟨bs[i], List.getElem_mem hi', (List.forall₂_iff_get.1 h).2 i hi hi'⟩

section
variable {layers : List LayerInfo} {L : Layout} {T B : Nat} {data : LayerInfo} {rest : List LayerInfo} {ms : List MLayer}

/-- The addresses that have deltas: given ones and outputs. -/
def values (layers : List LayerInfo) (L : Layout) (T B : Nat) (data : LayerInfo) (ms : List MLayer) : Finset ℕ :=
  given layers L T B data ∪ ms.foldr (fun m A => m.outs ∪ A) ∅

theorem mem_foldr_outs (ms : List MLayer) (a : ℕ) : a ∈ ms.foldr (fun m A => m.outs ∪ A) ∅ ↔ ∃ m ∈ ms, a ∈ m.outs := by
  induction ms with
  | nil => simp
  | cons m ms ih => simp [ih]

theorem mem_values (hL : Laid layers L) (ho : Ordered layers data rest)
    (hs : List.Forall₂ (Site layers L T B data) rest ms) {a : ℕ} (ha : a ∈ values layers L T B data ms) :
    ∃ l ∈ layers, ∃ x s, (Home layers L T B l .par x s a) ∨ (Home layers L T B l .out x s a ∧ Main layers L T B l .out x a) := by
  rcases Finset.mem_union.1 ha with h | h
  · rcases (mem_given a).1 h with ⟨l, hl, x, s, h⟩ | ⟨x, s, h, hm⟩
    · exact ⟨l, hl, x, s, Or.inl h⟩
    · exact ⟨data, by rw [ho.all]; simp, x, s, Or.inr ⟨Home.of_main hL h hm, hm⟩⟩
  · obtain ⟨m, hm, ham⟩ := (mem_foldr_outs ms a).1 h
    obtain ⟨l, hl, hsite⟩ := forall₂_right hs hm
    obtain ⟨x, s, h⟩ := hsite.outs a ham
    exact ⟨l, by rw [ho.all]; simp [hl], x, s, Or.inr h⟩

theorem par_main (hL : Laid layers L) {l : LayerInfo} (hl : l ∈ layers) {x : Name} {s : Struct} {a : ℕ}
    (h : Home layers L T B l .par x s a) : DeltaCell layers (netOf layers L) T B a (delta layers (netOf layers L) T B a) ∧
      Home layers L T B l .grad x s (delta layers (netOf layers L) T B a) := by
  have hd : DeltaOf layers (path l.name (str "parameters") x) (path l.name (str "gradients") x) :=
    Or.inr (Or.inr (Or.inl ⟨l, hl, x, List.mem_map.2 ⟨_, h.1, rfl⟩, rfl, rfl⟩))
  exact ⟨hL.deltaCell hd h.2, h.1, (hL.delta_place hd h.2).1⟩

theorem out_main (hL : Laid layers L) {l : LayerInfo} (hl : l ∈ layers) {x : Name} {s : Struct} {a : ℕ}
    (h : Home layers L T B l .out x s a) (hm : Main layers L T B l .out x a) :
    DeltaCell layers (netOf layers L) T B a (delta layers (netOf layers L) T B a) ∧
      Home layers L T B l .dout x s (delta layers (netOf layers L) T B a) ∧
      Main layers L T B l .dout x (delta layers (netOf layers L) T B a) := by
  have hd : DeltaOf layers (path l.name (str "outputs") x) (path l.name (str "output_deltas") x) :=
    Or.inr (Or.inl ⟨l, hl, x, List.mem_map.2 ⟨_, h.1, rfl⟩, rfl, rfl⟩)
  exact ⟨hL.deltaCell hd h.2, ⟨h.1, (hL.delta_place hd h.2).1⟩, (hL.delta_place hd h.2).2 hm⟩

theorem apart (hL : Laid layers L) (ho : Ordered layers data rest) (hs : List.Forall₂ (Site layers L T B data) rest ms) :
    Apart (values layers L T B data ms) (delta layers (netOf layers L) T B) (backCells (netOf layers L) T B) := by
  have hdc : ∀ c ∈ values layers L T B data ms,
      DeltaCell layers (netOf layers L) T B c (delta layers (netOf layers L) T B c) := by
    intro c hc
    obtain ⟨l, hl, x, s, h | ⟨h, hm⟩⟩ := mem_values hL ho hs hc
    · exact (par_main hL hl h).1
    · exact (out_main hL hl h hm).1
  refine ⟨?_, ?_, ?_⟩
  · intro c hc c' hc' he
    have h1 := hdc c hc
    have h2 := hdc c' hc'
    rw [he] at h1
    exact h1.inj hL h2
  · intro c hc
    obtain ⟨l, hl, x, s, h | ⟨h, hm⟩⟩ := mem_values hL ho hs hc
    · exact (Home.back_iff hL hl (par_main hL hl h).2).2 rfl
    · exact (Home.back_iff hL hl (out_main hL hl h hm).2.1).2 rfl
  · intro c hc hb
    obtain ⟨l, hl, x, s, h | ⟨h, hm⟩⟩ := mem_values hL ho hs hc
    · exact Bool.false_ne_true ((show s.backwardOnly = false from ho.params l hl _ h.1).symm.trans ((Home.back_iff hL hl h).1 hb))
    · exact Bool.false_ne_true ((show s.backwardOnly = false from ho.outs l hl _ h.1).symm.trans ((Home.back_iff hL hl h).1 hb))

theorem ins_values (hL : Laid layers L) (ho : Ordered layers data rest) (hs : List.Forall₂ (Site layers L T B data) rest ms)
    {m : MLayer} (hm : m ∈ ms) {c : ℕ} (hc : c ∈ m.ins) : c ∈ given layers L T B data ∨ ∃ k ∈ ms, c ∈ k.outs := by
  obtain ⟨l, hl, hsite⟩ := forall₂_right hs hm
  rcases hsite.ins_home hL ho hl hc with ⟨x, s, h⟩ | ⟨k, hk, o, hok, hok', -, ⟨s, h⟩, hma⟩ | ⟨k, hk, o, -, -, -, s, h⟩
  · exact Or.inl ((mem_given c).2 (Or.inl ⟨l, by rw [ho.all]; simp [hl], x, s, h⟩))
  · rw [ho.all] at hk
    rcases List.mem_cons.1 hk with rfl | hk
    · exact Or.inl ((mem_given c).2 (Or.inr ⟨_, s, h.1, hma⟩))
    · obtain ⟨n, hn, hsn⟩ := forall₂_left hs hk
      exact Or.inr ⟨n, hn, hsn.outsAll o hok hok' c hma⟩
  · exact Or.inl ((mem_given c).2 (Or.inl ⟨k, hk, _, s, h⟩))

theorem site_at (hL : Laid layers L) (ho : Ordered layers data rest) (hs : List.Forall₂ (Site layers L T B data) rest ms)
    {m : MLayer} (hm : m ∈ ms) :
    m.At (values layers L T B data ms) (delta layers (netOf layers L) T B) (backCells (netOf layers L) T B) := by
  obtain ⟨l, hl, hsite⟩ := forall₂_right hs hm
  have hl' : l ∈ layers := by rw [ho.all]; simp [hl]
  have hd' : data ∈ layers := by rw [ho.all]; simp
  refine ⟨?_, ?_, fun a ha => (hsite.losses a ha).1, fun a ha => (hsite.over a ha).1, ?_, ?_⟩
  · intro c hc
    rcases ins_values hL ho hs hm hc with h | h
    · exact Finset.mem_union_left _ h
    · exact Finset.mem_union_right _ ((mem_foldr_outs ms c).2 h)
  · intro c hc
    exact Finset.mem_union_right _ ((mem_foldr_outs ms c).2 ⟨m, hm, hc⟩)
  · intro a ha hb
    rcases hsite.fixed a ha with ⟨x, s, h, -⟩ | ⟨x, s, h⟩ | ⟨x, s, h, -⟩ | ⟨x, s, h, -, hbo⟩ | h
    · exact Bool.false_ne_true ((show s.backwardOnly = false from ho.outs _ hd' _ h.1).symm.trans ((Home.back_iff hL hd' h).1 hb))
    · exact Bool.false_ne_true ((show s.backwardOnly = false from ho.params _ hl' _ h.1).symm.trans ((Home.back_iff hL hl' h).1 hb))
    · exact Bool.false_ne_true ((show s.backwardOnly = false from ho.outs _ hl' _ h.1).symm.trans ((Home.back_iff hL hl' h).1 hb))
    · exact Bool.false_ne_true ((show s.backwardOnly = false from hbo).symm.trans ((Home.back_iff hL hl' h).1 hb))
    · have := back_lt_total hb
      omega
  · rintro a ha c hc rfl
    obtain ⟨k, hk, x, s, h | ⟨h, hma⟩⟩ := mem_values hL ho hs hc
    · have h2 := (par_main hL hk h).2
      rcases hsite.own _ ha with ⟨x', s', h', -⟩ | ⟨x', s', h', -⟩ | ⟨-, x', s', h', -⟩ <;>
      exact absurd (Home.inj hL hk hl' h2 h').2.1 (by simp)
    · obtain ⟨-, h2, h3⟩ := out_main hL hk h hma
      rcases hsite.own _ ha with ⟨x', s', h', -⟩ | ⟨x', s', h', hm'⟩ | ⟨-, x', s', h', -⟩
      · exact absurd (Home.inj hL hk hl' h2 h').2.1 (by simp)
      · obtain ⟨rfl, -, rfl⟩ := Home.inj hL hk hl' h2 h'
        exact hm' h3
      · exact absurd (Home.inj hL hk hl' h2 h').2.1 (by simp)

theorem rest_pairwise (hL : Laid layers L) (ho : Ordered layers data rest) :
    rest.Pairwise (fun a b => a ≠ b ∧ ∀ o ∈ b.outgoing, o.kind = .outputs → o.endLayer ≠ a.name) := by
  have hn := hL.wf.names
  rw [ho.all, List.map_cons, List.nodup_cons] at hn
  have h2 : rest.Pairwise (fun a b => a ≠ b) := List.Nodup.of_map _ hn.2
  exact h2.and ho.order

/-- What a layer writes is not used before. -/
theorem not_used (hL : Laid layers L) (ho : Ordered layers data rest) {l k : LayerInfo} (hl : l ∈ rest) (hk : k ∈ rest)
    {m n : MLayer} (hne : l ≠ k) (hno : ∀ o ∈ k.outgoing, o.kind = .outputs → o.endLayer ≠ l.name)
    (hs : Site layers L T B data l m) (ht : Site layers L T B data k n) {a : ℕ} (ha : a ∈ n.outs ∨ a ∈ n.own) :
    ¬ m.Uses a := by
  have hl' : l ∈ layers := by rw [ho.all]; simp [hl]
  have hk' : k ∈ layers := by rw [ho.all]; simp [hk]
  rintro (h | h | h)
  · exact written_ins hL ho hk hl ht hs hno ha h
  · exact written_fixed hL ho hk hl ht hs ha h
  · exact written_written hL hk' hl' hne.symm ht hs ha h

theorem wired (hL : Laid layers L) (ho : Ordered layers data rest) (hs : List.Forall₂ (Site layers L T B data) rest ms) :
    Network.Wired (given layers L T B data) (ms.map (MLayer.abs (values layers L T B data ms)
      (delta layers (netOf layers L) T B) (backCells (netOf layers L) T B))) := by
  refine wired_of ?_ ?_ ?_
  · intro l hl
    obtain ⟨m, hm, rfl⟩ := List.mem_map.1 hl
    obtain ⟨l, hl, hsite⟩ := forall₂_right hs hm
    have hl' : l ∈ layers := by rw [ho.all]; simp [hl]
    have hat := site_at hL ho hs hm
    refine ⟨?_, ?_, hat.losses, hat.over⟩
    · intro c hc
      exact ⟨written_given hL ho hl hsite hc, written_fixed hL ho hl hl hsite hsite hc,
        written_ins hL ho hl hl hsite hsite (ho.noLoop l hl) hc⟩
    · intro c hc
      exact outs_own hL hl' hsite hc
  · rw [List.pairwise_map]
    refine pairwise_of hs (rest_pairwise hL ho) ?_
    rintro l hl k hk m n ⟨hne, hno⟩ hsl hsk
    have hl' : l ∈ layers := by rw [ho.all]; simp [hl]
    have hk' : k ∈ layers := by rw [ho.all]; simp [hk]
    refine ⟨fun c hc => not_used hL ho hl hk hne hno hsl hsk hc, fun c hc => written_fixed hL ho hl hk hsl hsk hc, ?_, ?_⟩
    · intro c hc hin
      obtain ⟨hco, hcn⟩ := hsl.losses c hc
      obtain ⟨x, s, h, hm⟩ := hsl.outs c hco
      rcases hsk.ins_home hL ho hk hin with ⟨x', s', h'⟩ | ⟨j, hj, o, hoj, ho1, ho2, ⟨s', h'⟩, hm'⟩ | ⟨j, hj, o, hoj, ho1, ho2, s', h'⟩
      · exact absurd (Home.inj hL hl' hk' h h').2.1 (by simp)
      · obtain ⟨rfl, -, -⟩ := Home.inj hL hl' hj h h'
        exact hcn o hoj ho1 hm'
      · exact absurd (Home.inj hL hl' hj h h').2.1 (by simp)
    · intro c hc hin
      obtain ⟨hci, x, s, h, hcn⟩ := hsl.over c hc
      rcases hsk.ins_home hL ho hk hin with ⟨x', s', h'⟩ | ⟨j, hj, o, hoj, ho1, ho2, ⟨s', h'⟩, hm'⟩ | ⟨j, hj, o, hoj, ho1, ho2, s', h'⟩
      · exact hne (Home.inj hL hl' hk' h h').1
      · exact absurd (Home.inj hL hl' hj h h').2.1 (by simp)
      · obtain ⟨rfl, -, e3⟩ := Home.inj hL hl' hj h h'
        exact hcn o hoj ho1 e3.symm
  · intro l hl c hc
    obtain ⟨m, hm, rfl⟩ := List.mem_map.1 hl
    rcases ins_values hL ho hs hm hc with h | ⟨k, hk, h⟩
    · exact Or.inl h
    · exact Or.inr ⟨_, List.mem_map.2 ⟨k, hk, rfl⟩, h⟩

theorem own_unused (hL : Laid layers L) (ho : Ordered layers data rest) (hs : List.Forall₂ (Site layers L T B data) rest ms) :
    ms.Pairwise (fun l k => ∀ a ∈ k.own, ¬ l.Uses a) := by
  refine pairwise_of hs (rest_pairwise hL ho) ?_
  rintro l hl k hk m n ⟨hne, hno⟩ hsl hsk a ha
  exact not_used hL ho hl hk hne hno hsl hsk (Or.inr ha)

end

end Verif.Memory
