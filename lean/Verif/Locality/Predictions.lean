import Verif.Locality.Lemmas

/-! # Proofs for C92: predictions do not depend on targets -/

namespace Verif.Locality

open Verif.Structure Verif.Layout Verif.Buffers Verif.Network Verif.Layers Verif.Memory
open Verif.Session (Batch Loaded contextRows)
open Verif.Reload (covered one two arr_at)

section
variable {layers : List LayerInfo} {data l : LayerInfo} {T B : ℕ}

/-- Every entry of the predictions is computed from the input `default`, whatever else the layer reads. -/
theorem predicted (q : LibLayer layers data l T B) {s : Struct} (hx : (str "predictions", s) ∈ l.outShapes) :
    (∀ a, (q.placed.S.i a).cat = str "inputs" ∧ (q.placed.S.i a).array = str "default") ∧
    ∀ j < mainSize s T B, ∃ k, q.placed.S.k k = ⟨str "outputs", str "predictions", j⟩ ∧
      ∀ u u' i o o' v v', (q.placed.V.F u i o v).2 k = (q.placed.V.F u' i o' v').2 k := by
  cases q with
  | squaredError x t p z d has hx' ht hp hz hd et ep ez ed hb hdata loose =>
    rcases two has.outs hx with ⟨-, rfl⟩ | ⟨h, -⟩
    · refine ⟨fun a => ⟨rfl, rfl⟩, fun j hj => ?_⟩
      obtain ⟨b, hb⟩ := arr_at (mat (T * B) x.featureSize) (str "predictions") (j := j) (by rwa [hp.main, ep] at hj)
      exact ⟨.inl b, hb, fun _ _ _ _ _ _ _ => rfl⟩
    · exact absurd h (by decide)
  | sigmoidCE x t p z has hx' ht hp hz et ep ez hdata loose =>
    rcases two has.outs hx with ⟨-, rfl⟩ | ⟨h, -⟩
    · refine ⟨fun a => ⟨rfl, rfl⟩, fun j hj => ?_⟩
      obtain ⟨b, hb⟩ := arr_at (mat (T * B) x.featureSize) (str "predictions") (j := j) (by rwa [hp.main, ep] at hj)
      exact ⟨b, hb, fun _ _ _ _ _ _ _ => rfl⟩
    · exact absurd h (by decide)
  | softmaxCE R n dec x t p z has hx' ht hp hz sx st sp sz hdata loose =>
    rcases two has.outs hx with ⟨-, rfl⟩ | ⟨h, -⟩
    · refine ⟨fun a => ⟨rfl, rfl⟩, fun j hj => ?_⟩
      obtain ⟨b, hb⟩ := arr_at (mat R n) (str "predictions") (j := j) (by rwa [mainSize_eq hp.2, sp] at hj)
      exact ⟨b, hb, fun _ _ _ _ _ _ _ => rfl⟩
    · exact absurd h (by decide)
  | fullyConnected a x y has | elementwise a x has | noOp x has | highway h1 t x y has | merge R m' n x y z has | mask R n x k has
  | maskFull x k has | dropout training q off x has | squaredDifference x y z d has | binomialCE x t z c has | l1Decay x z has | l2Decay x z has
  | loss importance x has | recurrent a n x has | clockwork a n x has | lstm a n x has | clockworkLstm a n x has
  | convolution2D a g hs nf x y w has | avgPooling2D g x y has | maxPooling2D g lo store load x y k has =>
    exact absurd (one has.outs hx).1 (by decide)

end

section
variable {layers : List LayerInfo} {L : Layout} {data : LayerInfo} {rest : List LayerInfo} {b : Batch} {θ θ' : List ℝ} {s s' : Mem}
  {S : LayerInfo → Prop} {d : List (Name × List ℝ)}

/-- The predictions agree if the layers before the input `default` have the same parameters and the data connected to them are the same. -/
theorem predictions_determined (F : Memory.Fits layers L data rest) (hS : Session.Short (netOf layers L) b.T)
    (ps : ∀ l ∈ rest, LibLayer layers data l b.T b.B) (h : Loaded (netOf layers L) data.name b θ s)
    (h' : Loaded (netOf layers L) data.name (withData b d) θ' s') (hcl : Before layers S) (hag : Agree layers L b.T b.B S s s')
    (had : AgreeData layers L b.T b.B data S s s') {l : LayerInfo} (hl : l ∈ rest)
    (hto : ∀ k ∈ layers, ∀ o ∈ k.outgoing, o.endLayer = l.name → o.endInput = str "default" → S k)
    (hdd : ∀ o ∈ data.outgoing, o.kind = .outputs → o.endLayer = l.name → o.endInput = str "default" →
      ∀ c, Main layers L b.T b.B data .out o.buffer c → s c = s' c)
    {sh : Struct} (hx : (str "predictions", sh) ∈ l.outShapes)
    {c : ℕ} (hc : c ∈ cells (netOf layers L) b.T b.B (path l.name (str "outputs") (str "predictions"))) :
    forward (libNetwork F ps) s c = forward (libNetwork F ps) s' c := by
  have hs := network_site F (fun l hl => (ps l hl).placed)
  have hh := network_honest F (fun l hl => (ps l hl).placed)
  have hr := network_reads F ps
  have hl' := F.ordered.mem hl
  obtain ⟨hdef, hall⟩ := predicted (ps l hl) hx
  by_cases hm : c ∈ mainCells (netOf layers L) b.T b.B (path l.name (str "outputs") (str "predictions"))
  swap
  · exact context_kept F hS ps h h' hl hx hc hm
  have hrow := F.laid.row_out (T := b.T) (B := b.B) hl' hx
  obtain ⟨j, hj, rfl⟩ := List.mem_iff_getElem.1 hc
  rw [hrow.length] at hj
  have hget : (cells (netOf layers L) b.T b.B (path l.name (str "outputs") (str "predictions")))[j]'(by rw [hrow.length]; exact hj) =
      (cells (netOf layers L) b.T b.B (path l.name (str "outputs") (str "predictions"))).getD j 0 := by
    rw [List.getD_eq_getElem _ _ (by rw [hrow.length]; exact hj)]
  rw [hget] at hm ⊢
  have hj' := (hrow.mem_main hj).1 hm
  obtain ⟨o, k, ho, hk⟩ := network_forward F (fun l hl => (ps l hl).placed) s l hl
  obtain ⟨o', k', ho', hk'⟩ := network_forward F (fun l hl => (ps l hl).placed) s' l hl
  have hgiven : ∀ c ∈ given layers L b.T b.B data, s c = s' c →
      forward (network F (fun l hl => (ps l hl).placed)) s c = forward (network F (fun l hl => (ps l hl).placed)) s' c := by
    intro c hg e
    rw [(given_kept F.laid F.ordered hs hh s c hg).1, (given_kept F.laid F.ordered hs hh s' c hg).1, e]
  have hin : (fun a => value (netOf layers L) b.T b.B l.name (forward (network F (fun l hl => (ps l hl).placed)) s) ((ps l hl).placed.S.i a)) =
      fun a => value (netOf layers L) b.T b.B l.name (forward (network F (fun l hl => (ps l hl).placed)) s') ((ps l hl).placed.S.i a) := by
    funext a
    obtain ⟨hcat, harr⟩ := hdef a
    rcases (ps l hl).placed.ok.ins a with ⟨h1, t, h2, h3⟩ | ⟨h1, -⟩
    swap
    · rw [hcat] at h1; exact absurd h1 (by decide)
    obtain ⟨f, hf, e, hok, e1, e2, hh'⟩ :=
      input_source F.laid F.ordered hl (List.mem_map.2 ⟨_, h2, rfl⟩) (addr_in F.laid F.ordered hl h1 h2 h3)
    have hSk := hto f hf e hok e1 (e2.trans harr)
    rcases hh' with ⟨hkind, t', hy, hma⟩ | ⟨hkind, t', hy⟩
    · rw [F.ordered.all] at hf
      rcases List.mem_cons.1 hf with rfl | hf
      · exact hgiven _ ((mem_given _).2 (Or.inr ⟨_, t', hy.1, hma⟩)) (hdd e hok hkind e1 (e2.trans harr) _ hma)
      · obtain ⟨n, hn, hsn, hrn⟩ := forall₂_left hr hf
        obtain ⟨i, hi, rfl⟩ := List.mem_iff_getElem.1 hf
        exact local_outs F.laid F.ordered hS hs hh hr h h' hcl hag had i hi hSk _ _ t' hy ⟨n, hn, hsn, hrn, hsn.outsAll e hok hkind _ hma⟩
    · exact hgiven _ ((mem_given _).2 (Or.inl ⟨f, hf, _, t', hy⟩)) (hag f hf hSk _ t' _ hy)
  obtain ⟨q, hq, hdet⟩ := hall j hj'
  have h1 := hk q
  have h2 := hk' q
  rw [hq] at h1 h2
  refine h1.trans (Eq.trans ?_ h2.symm)
  rw [hin]
  exact hdet _ _ _ _ _ _ _

end

end Verif.Locality
