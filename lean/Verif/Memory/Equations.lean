import Verif.Memory.Bundle

/-!
# What the memory holds after the forward pass
-/

namespace Verif.Memory

open Verif.Structure Verif.Layout Verif.Buffers Verif.Network

theorem forward_other (ns : List MLayer) (h : ∀ m ∈ ns, m.HonestForward) (s : Mem) (a : ℕ)
    (ha : ∀ n ∈ ns, ¬ (a ∈ n.outs ∨ a ∈ n.own)) : forward ns s a = s a := by
  induction ns generalizing s with
  | nil => rfl
  | cons n ns ih =>
    have h1 := ih (fun m hm => h m (by simp [hm])) (n.fwd s) (fun m hm => ha m (by simp [hm]))
    have h2 := ha n (by simp)
    push Not at h2
    have h3 := (h n (by simp)).fwd_writes s a h2.1 h2.2
    show forward ns (n.fwd s) a = s a
    rw [h1, h3]

/-- What a layer read and wrote is still there after the forward pass. -/
theorem forward_at (ms : List MLayer) (hh : ∀ m ∈ ms, m.HonestForward)
    (hself : ∀ m ∈ ms, ∀ a, a ∈ m.ins ∨ a ∈ m.fixed → ¬ (a ∈ m.outs ∨ a ∈ m.own))
    (hp : ms.Pairwise (fun m n => ∀ a, (a ∈ m.ins ∨ a ∈ m.fixed) ∨ (a ∈ m.outs ∨ a ∈ m.own) → ¬ (a ∈ n.outs ∨ a ∈ n.own)))
    (s : Mem) (m : MLayer) (hm : m ∈ ms) : ∃ m0 : Mem, (∀ a, a ∈ m.ins ∨ a ∈ m.fixed → m0 a = forward ms s a) ∧
      ∀ a, a ∈ m.outs ∨ a ∈ m.own → forward ms s a = m.fwd m0 a := by
  induction ms generalizing s with
  | nil => simp at hm
  | cons n ms ih =>
    rw [List.pairwise_cons] at hp
    rcases List.mem_cons.1 hm with rfl | hm
    · refine ⟨s, ?_, ?_⟩
      · intro a ha
        refine (forward_other (m :: ms) hh s a ?_).symm
        intro k hk
        rcases List.mem_cons.1 hk with rfl | hk
        · exact hself k (by simp) a ha
        · exact hp.1 k hk a (Or.inl ha)
      · intro a ha
        exact forward_other ms (fun k hk => hh k (by simp [hk])) (m.fwd s) a (fun k hk => hp.1 k hk a (Or.inr ha))
    · exact ih (fun k hk => hh k (by simp [hk])) (fun k hk => hself k (by simp [hk])) hp.2 (n.fwd s) hm

section
variable {layers : List LayerInfo} {L : Layout} {T B : ℕ} {data : LayerInfo} {rest : List LayerInfo}

/-- After the forward pass, the outputs of every layer are what the layer computes from the inputs and parameters that
are in the memory then; so is what the layer keeps for the backward pass, up to old contents. -/
theorem network_forward (F : Fits layers L data rest) (ps : ∀ l ∈ rest, Placed layers data l T B) (s : Mem) (l : LayerInfo)
    (hl : l ∈ rest) : ∃ (o : (ps l hl).O → ℝ) (k : (ps l hl).K → ℝ),
      (∀ b, value (netOf layers L) T B l.name (forward (network F ps) s) ((ps l hl).S.o b) =
        ((ps l hl).V.F (fun a => valueOut (netOf layers L) T B l.name (forward (network F ps) s) ((ps l hl).S.p a))
          (fun a => value (netOf layers L) T B l.name (forward (network F ps) s) ((ps l hl).S.i a)) o k).1 b) ∧
      ∀ b, value (netOf layers L) T B l.name (forward (network F ps) s) ((ps l hl).S.k b) =
        ((ps l hl).V.F (fun a => valueOut (netOf layers L) T B l.name (forward (network F ps) s) ((ps l hl).S.p a))
          (fun a => value (netOf layers L) T B l.name (forward (network F ps) s) ((ps l hl).S.i a)) o k).2 b := by
  have hs := network_site F ps
  letI := (ps l hl).fintypeI
  letI := (ps l hl).fintypeO
  obtain ⟨m0, h0, h1⟩ := forward_at (network F ps) (fun m hm => (network_honest F ps m hm).toHonestForward) (by
      intro m hm a ha hw
      obtain ⟨l, hl, hsite⟩ := forall₂_right hs hm
      rcases ha with ha | ha
      · exact written_ins F.laid F.ordered hl hl hsite hsite (F.ordered.noLoop l hl) hw ha
      · exact written_fixed F.laid F.ordered hl hl hsite hsite hw ha) (by
      refine pairwise_of hs (rest_pairwise F.laid F.ordered) ?_
      rintro l hl k hk m n ⟨hne, hno⟩ hsl hsk a ha hw
      rcases ha with ha | ha
      · exact not_used F.laid F.ordered hl hk hne hno hsl hsk hw (ha.elim Or.inl (fun h => Or.inr (Or.inl h)))
      · exact written_written F.laid (F.ordered.mem hl) (F.ordered.mem hk) hne hsl hsk ha hw) s _ (mem_network.2 ⟨l, hl, rfl⟩)
  have e1 : m0 ∘ ((ps l hl).ok.views F.laid F.ordered F.unmixed hl).p =
      fun a => valueOut (netOf layers L) T B l.name (forward (network F ps) s) ((ps l hl).S.p a) :=
    funext fun a => h0 _ (Or.inr ⟨a, rfl⟩)
  have e2 : m0 ∘ ((ps l hl).ok.views F.laid F.ordered F.unmixed hl).i =
      fun a => value (netOf layers L) T B l.name (forward (network F ps) s) ((ps l hl).S.i a) :=
    funext fun a => h0 _ (Or.inl ((mem_ins (ps l hl).V _).2 ⟨a, rfl⟩))
  refine ⟨m0 ∘ ((ps l hl).ok.views F.laid F.ordered F.unmixed hl).o, m0 ∘ ((ps l hl).ok.views F.laid F.ordered F.unmixed hl).k, ?_, ?_⟩
  · intro b
    rw [← e1, ← e2]
    exact (h1 _ (Or.inl ((mem_outs (ps l hl).V ((ps l hl).ok.views F.laid F.ordered F.unmixed hl)).2 ⟨b, rfl⟩))).trans (fwd_o _ _ _ _)
  · intro b
    rw [← e1, ← e2]
    exact (h1 _ (Or.inr ⟨b, rfl⟩)).trans (fwd_k _ _ _ _)

end

end Verif.Memory
