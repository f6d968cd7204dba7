import Verif.Memory.Model
import Verif.Network.Props

/-! Lemmas for C72: the passes on the memory do what the passes on cells with values and deltas do. -/

namespace Verif.Memory

open Verif

open Classical in
/-- The memory with the values `s` and the deltas `δ` of the cells `V`. -/
noncomputable def merge (V : Finset ℕ) (dual : ℕ → ℕ) (back : Set ℕ) (s δ : ℕ → ℝ) : Mem := fun a =>
  if a ∈ back then (if h : ∃ c ∈ V, dual c = a then δ h.choose else 0) else s a

open Classical in
/-- The layer as one on cells with values and deltas. -/
noncomputable def MLayer.abs (V : Finset ℕ) (dual : ℕ → ℕ) (back : Set ℕ) (l : MLayer) : Network.Layer ℕ where
  ins := l.ins
  outs := l.outs
  scratch := l.own
  fixed := l.fixed
  losses := l.losses
  over := l.over
  fwd := l.fwd
  bwd := fun s δ c => if c ∈ V then l.bwd (merge V dual back s δ) (dual c) else δ c

/-- Values and deltas are apart: `V` are the cells that have deltas. -/
structure Apart (V : Finset ℕ) (dual : ℕ → ℕ) (back : Set ℕ) : Prop where
  inj : ∀ c ∈ V, ∀ c' ∈ V, dual c = dual c' → c = c'
  dual_back : ∀ c ∈ V, dual c ∈ back
  not_back : ∀ c ∈ V, c ∉ back

/-- The addresses of a layer in this memory. -/
structure MLayer.At (l : MLayer) (V : Finset ℕ) (dual : ℕ → ℕ) (back : Set ℕ) : Prop where
  ins : l.ins ⊆ V
  outs : l.outs ⊆ V
  losses : l.losses ⊆ l.outs
  over : l.over ⊆ l.ins
  fixed : ∀ a ∈ l.fixed, a ∉ back
  own : ∀ a ∈ l.own, ∀ c ∈ V, a ≠ dual c

section
variable {V : Finset ℕ} {dual : ℕ → ℕ} {back : Set ℕ}

theorem merge_dual (hA : Apart V dual back) (s δ : ℕ → ℝ) {c : ℕ} (hc : c ∈ V) : merge V dual back s δ (dual c) = δ c := by
  have h : ∃ c' ∈ V, dual c' = dual c := ⟨c, hc, rfl⟩
  simp only [merge, if_pos (hA.dual_back c hc), dif_pos h]
  rw [hA.inj _ h.choose_spec.1 c hc h.choose_spec.2]

theorem merge_value (s δ : ℕ → ℝ) {a : ℕ} (ha : a ∉ back) : merge V dual back s δ a = s a := by
  simp only [merge, if_neg ha]

theorem merge_rest (s δ : ℕ → ℝ) {a : ℕ} (ha : a ∈ back) (h : ∀ c ∈ V, a ≠ dual c) : merge V dual back s δ a = 0 := by
  have : ¬ ∃ c ∈ V, dual c = a := fun ⟨c, hc, e⟩ => h c hc e.symm
  simp only [merge, if_pos ha, dif_neg this]

theorem abs_honest {l : MLayer} (hl : l.HonestForward) : (l.abs V dual back).Honest :=
  ⟨fun s c h1 h2 => hl.fwd_writes s c h1 h2, fun s s' h c hc => hl.fwd_reads s s' h c hc⟩

theorem abs_honestBack (hA : Apart V dual back) {l : MLayer} (hl : l.Honest dual) (hat : l.At V dual back) :
    (l.abs V dual back).HonestBack := by
  constructor
  · intro s δ c h1 h2 _
    show (if c ∈ V then _ else _) = _
    split
    · rename_i hc
      rw [hl.bwd_writes _ _ (fun h => hat.own _ h c hc rfl), merge_dual hA _ _ hc]
      rintro c' (hc' | hc') e
      · exact h1 (hA.inj c hc c' (hat.ins hc') e ▸ hc')
      · exact h2 (hA.inj c hc c' (hat.outs hc') e ▸ hc')
    · rfl
  · intro s s' δ h c hc
    show (if c ∈ V then _ else _) = (if c ∈ V then _ else _)
    rw [if_pos (hat.ins hc), if_pos (hat.ins hc)]
    refine hl.bwd_reads _ _ ?_ ?_ c (Or.inl hc)
    · intro a ha
      by_cases hb : a ∈ back
      · have : ∀ c ∈ V, a ≠ dual c := by
          rcases ha with ha | ha | ha | ha
          · exact absurd hb (hA.not_back _ (hat.ins ha))
          · exact absurd hb (hat.fixed _ ha)
          · exact absurd hb (hA.not_back _ (hat.outs ha))
          · exact hat.own a ha
        rw [merge_rest _ _ hb this, merge_rest _ _ hb this]
      · rw [merge_value _ _ hb, merge_value _ _ hb]
        exact h a ha
    · intro c' hc'
      have : c' ∈ V := hc'.elim (fun h => hat.ins h) (fun h => hat.outs h)
      rw [merge_dual hA _ _ this, merge_dual hA _ _ this]

theorem abs_differentiates (hA : Apart V dual back) {l : MLayer} (hat : l.At V dual back) {m0 : Mem}
    (hd : l.Differentiates dual back m0) : (l.abs V dual back).Differentiates m0 := by
  intro S S' h0 h1 h2
  obtain ⟨v, hv, hsum⟩ := hd S S' h0 h1 h2
  refine ⟨v, hv, ?_⟩
  intro δ hloss hover
  have := hsum (merge V dual back (l.fwd m0) δ) (fun a ha => merge_value _ _ ha)
    (fun a ha hb => merge_rest _ _ hb (hat.own a ha))
    (fun c hc => by rw [merge_dual hA _ _ (hat.outs (hat.losses hc))]; exact hloss c hc)
    (fun c hc => by rw [merge_dual hA _ _ (hat.ins (hat.over hc))]; exact hover c hc)
  have e1 : ∀ c ∈ l.outs, (if c ∈ l.losses then 1 else merge V dual back (l.fwd m0) δ (dual c)) * v c =
      (if c ∈ l.losses then 1 else δ c) * v c := fun c hc => by rw [merge_dual hA _ _ (hat.outs hc)]
  have e2 : ∀ c ∈ l.ins, (l.bwd (merge V dual back (l.fwd m0) δ) (dual c) - merge V dual back (l.fwd m0) δ (dual c)) * S' c =
      ((l.abs V dual back).bwd ((l.abs V dual back).fwd m0) δ c - δ c) * S' c := fun c hc => by
    rw [merge_dual hA _ _ (hat.ins hc)]
    congr 2
    exact (if_pos (hat.ins hc)).symm
  exact (Finset.sum_congr rfl e1).symm.trans (this.trans (Finset.sum_congr rfl e2))

theorem abs_all (hA : Apart V dual back) : ∀ {layers : List MLayer} {m : Mem},
    (∀ l ∈ layers, l.At V dual back) → AllDifferentiate dual back layers m →
      Network.AllDifferentiate (layers.map (MLayer.abs V dual back)) m
  | [], _, _, _ => trivial
  | l :: _, _, hat, hd => ⟨abs_differentiates hA (hat l (by simp)) hd.1, abs_all hA (fun m hm => hat m (by simp [hm])) hd.2⟩

theorem forward_abs (layers : List MLayer) (m : Mem) :
    Network.forwardPass (layers.map (MLayer.abs V dual back)) m = forward layers m := by
  induction layers generalizing m with
  | nil => rfl
  | cons l rest ih =>
    show Network.forwardPass (rest.map _) (l.fwd m) = forward rest (l.fwd m)
    exact ih _

theorem totalLoss_abs (layers : List MLayer) (m : Mem) :
    Network.totalLoss (layers.map (MLayer.abs V dual back)) m = totalLoss layers m := by
  simp only [Network.totalLoss, totalLoss, List.map_map]
  rfl

/-- What a layer uses. -/
def MLayer.Uses (l : MLayer) (a : ℕ) : Prop := a ∈ l.ins ∨ a ∈ l.fixed ∨ a ∈ l.outs ∨ a ∈ l.own

/-- The backward pass on the memory does what the backward pass on cells does. -/
theorem backward_abs (hA : Apart V dual back) (layers : List MLayer) (hl : ∀ l ∈ layers, l.Honest dual)
    (hat : ∀ l ∈ layers, l.At V dual back) (hp : layers.Pairwise (fun l k => ∀ a ∈ k.own, ¬ l.Uses a)) (s δ0 : ℕ → ℝ) :
    (∀ c ∈ V, backward back layers s (dual c) = Network.backwardPass (layers.map (MLayer.abs V dual back)) s δ0 c) ∧
    (∀ a, a ∉ back → (∀ l ∈ layers, a ∉ l.own) → backward back layers s a = s a) ∧
    (∀ a ∈ back, (∀ c ∈ V, a ≠ dual c) → (∀ l ∈ layers, a ∉ l.own) → backward back layers s a = 0) := by
  classical
  induction layers with
  | nil =>
    refine ⟨fun c hc => ?_, fun a ha _ => ?_, fun a ha _ _ => ?_⟩
    · simp [backward, clear, Network.backwardPass, hA.dual_back c hc]
    · simp [backward, clear, ha]
    · simp [backward, clear, ha]
  | cons l rest ih =>
    rw [List.pairwise_cons] at hp
    obtain ⟨i1, i2, i3⟩ := ih (fun k hk => hl k (by simp [hk])) (fun k hk => hat k (by simp [hk])) hp.2
    have hl' := hl l (by simp)
    have hat' := hat l (by simp)
    have e1 : backward back (l :: rest) s = l.bwd (backward back rest s) := by
      simp [backward, List.foldl_append]
    have e2 : Network.backwardPass ((l :: rest).map (MLayer.abs V dual back)) s δ0 =
        (l.abs V dual back).bwd s (Network.backwardPass (rest.map (MLayer.abs V dual back)) s δ0) := by
      simp [Network.backwardPass, List.foldl_append]
    set m := backward back rest s
    set δ := Network.backwardPass (rest.map (MLayer.abs V dual back)) s δ0
    have hmem : ∀ c, c ∈ l.ins ∨ c ∈ l.outs → c ∈ V := fun c hc => hc.elim (fun h => hat'.ins h) (fun h => hat'.outs h)
    rw [e1, e2]
    refine ⟨fun c hc => ?_, fun a ha hno => ?_, fun a ha hd hno => ?_⟩
    · by_cases hio : c ∈ l.ins ∨ c ∈ l.outs
      · show _ = (if c ∈ V then _ else _)
        rw [if_pos hc]
        refine hl'.bwd_reads _ _ ?_ ?_ c hio
        · intro a ha
          have hno : ∀ k ∈ rest, a ∉ k.own := fun k hk hak => hp.1 k hk a hak ha
          by_cases hb : a ∈ back
          · have hd : ∀ c ∈ V, a ≠ dual c := by
              rcases ha with ha | ha | ha | ha
              · exact absurd hb (hA.not_back _ (hat'.ins ha))
              · exact absurd hb (hat'.fixed _ ha)
              · exact absurd hb (hA.not_back _ (hat'.outs ha))
              · exact hat'.own a ha
            rw [merge_rest _ _ hb hd, i3 a hb hd hno]
          · rw [merge_value _ _ hb, i2 a hb hno]
        · intro c' hc'
          rw [merge_dual hA _ _ (hmem c' hc'), i1 c' (hmem c' hc')]
      · push Not at hio
        by_cases hown : c ∈ l.own
        · -- an own cell has no delta that is written
          have hne : ∀ c', c' ∈ l.ins ∨ c' ∈ l.outs → dual c ≠ dual c' := by
            intro c' hc' e
            have := hA.inj c hc c' (hmem c' hc') e
            subst this
            exact hc'.elim hio.1 hio.2
          rw [hl'.bwd_writes _ _ (fun h => hat'.own _ h c hc rfl) hne, i1 c hc]
          show _ = (if c ∈ V then _ else _)
          rw [if_pos hc, hl'.bwd_writes _ _ (fun h => hat'.own _ h c hc rfl) hne, merge_dual hA _ _ hc]
        · rw [(abs_honestBack hA hl' hat').writes s δ c hio.1 hio.2 hown, hl'.bwd_writes _ _ (fun h => hat'.own _ h c hc rfl), i1 c hc]
          intro c' hc' e
          have := hA.inj c hc c' (hmem c' hc') e
          subst this
          exact hc'.elim hio.1 hio.2
    · rw [hl'.bwd_writes _ _ (hno l (by simp)), i2 a ha (fun k hk => hno k (by simp [hk]))]
      intro c hc e
      exact ha (e ▸ hA.dual_back c (hmem c hc))
    · rw [hl'.bwd_writes _ _ (hno l (by simp)), i3 a ha hd (fun k hk => hno k (by simp [hk]))]
      intro c hc
      exact hd c (hmem c hc)

end

end Verif.Memory
