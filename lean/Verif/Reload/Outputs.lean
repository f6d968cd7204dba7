import Verif.Reload.Spec
import Verif.Determined.Backward

/-! # Proofs for C83: parameters and batch determine all outputs, also those that are not connected -/

namespace Verif.Reload

open Verif.Structure Verif.Layout Verif.Buffers Verif.Network Verif.Layers Verif.Memory
open Verif.Session (Batch Loaded contextRows)

section
variable {layers : List LayerInfo} {data l : LayerInfo} {T B : ℕ}

/-- Every entry of an output is computed by the layer, from what it reads. -/
def Covered {layers : List LayerInfo} {data l : LayerInfo} {T B : ℕ} (p : Placed layers data l T B) (x : Name) (j : ℕ) : Prop :=
  (∃ b, p.S.o b = ⟨str "outputs", x, j⟩) ∨
  ∃ k, p.S.k k = ⟨str "outputs", x, j⟩ ∧ ∀ u i o o' v v', (p.V.F u i o v).2 k = (p.V.F u i o' v').2 k

theorem one {x y : Name} {s t : Struct} (h : l.outShapes = [(x, s)]) (hy : (y, t) ∈ l.outShapes) : y = x ∧ t = s := by
  rw [h] at hy
  simpa using hy

theorem two {x x' y : Name} {s s' t : Struct} (h : l.outShapes = [(x, s), (x', s')]) (hy : (y, t) ∈ l.outShapes) :
    y = x ∧ t = s ∨ y = x' ∧ t = s' := by
  rw [h] at hy
  simpa using hy

theorem arr_at {ι : Type} {n : ℕ} (e : ι ≃ Fin n) (x : Name) {j : ℕ} (hj : j < n) :
    ∃ b, arr (str "outputs") x e b = ⟨str "outputs", x, j⟩ := ⟨e.symm ⟨j, hj⟩, by simp [arr]⟩

theorem covered (q : LibLayer layers data l T B) {x : Name} {s : Struct} (hx : (x, s) ∈ l.outShapes) {j : ℕ} (hj : j < mainSize s T B) :
    Covered q.placed x j := by
  cases q with
  | fullyConnected a x y has hx' hy own =>
    obtain ⟨rfl, rfl⟩ := one has.outs hx
    exact Or.inl (arr_at _ _ (by rwa [hy.main] at hj))
  | elementwise a x has hx' =>
    obtain ⟨rfl, rfl⟩ := one has.outs hx
    exact Or.inl (arr_at _ _ (by rwa [hx'.main] at hj))
  | noOp x has hx' =>
    obtain ⟨rfl, rfl⟩ := one has.outs hx
    exact Or.inl (arr_at _ _ (by rwa [hx'.main] at hj))
  | highway h1 t x y has hh ht hx' hy eh et ey =>
    obtain ⟨rfl, rfl⟩ := one has.outs hx
    exact Or.inl (arr_at _ _ (by rwa [hy.main, ey] at hj))
  | merge R m' n x y z has hx' hy hz hc =>
    obtain ⟨rfl, rfl⟩ := one has.outs hx
    exact Or.inl (arr_at _ _ (by rwa [mainSize_eq hc, hz] at hj))
  | mask R n x k has hx' hxs hks hd =>
    obtain ⟨rfl, rfl⟩ := one has.outs hx
    exact Or.inl (arr_at _ _ (by rwa [mainSize_eq hx'.2, hxs] at hj))
  | maskFull x k has hx' hk ek hd =>
    obtain ⟨rfl, rfl⟩ := one has.outs hx
    exact Or.inl (arr_at _ _ (by rwa [hx'.main] at hj))
  | dropout training q off x has hx' hb =>
    obtain ⟨rfl, rfl⟩ := one has.outs hx
    exact Or.inl (arr_at _ _ (by rwa [hx'.main] at hj))
  | squaredDifference x y z d has hx' hy hz hd ey ez ed hb =>
    obtain ⟨rfl, rfl⟩ := one has.outs hx
    exact Or.inl (arr_at _ _ (by rwa [hz.main, ez] at hj))
  | squaredError x t p z d has hx' ht hp hz hd et ep ez ed hb hdata loose =>
    rcases two has.outs hx with ⟨rfl, rfl⟩ | ⟨rfl, rfl⟩
    · obtain ⟨b, hb⟩ := arr_at (mat (T * B) x.featureSize) (str "predictions") (j := j) (by rwa [hp.main, ep] at hj)
      exact Or.inr ⟨.inl b, hb, fun _ _ _ _ _ _ => rfl⟩
    · exact Or.inl (arr_at _ _ (by rwa [hz.main, ez] at hj))
  | sigmoidCE x t p z has hx' ht hp hz et ep ez hdata loose =>
    rcases two has.outs hx with ⟨rfl, rfl⟩ | ⟨rfl, rfl⟩
    · obtain ⟨b, hb⟩ := arr_at (mat (T * B) x.featureSize) (str "predictions") (j := j) (by rwa [hp.main, ep] at hj)
      exact Or.inr ⟨b, hb, fun _ _ _ _ _ _ => rfl⟩
    · exact Or.inl (arr_at _ _ (by rwa [hz.main, ez] at hj))
  | softmaxCE R n dec x t p z has hx' ht hp hz sx st sp sz hdata loose =>
    rcases two has.outs hx with ⟨rfl, rfl⟩ | ⟨rfl, rfl⟩
    · obtain ⟨b, hb⟩ := arr_at (mat R n) (str "predictions") (j := j) (by rwa [mainSize_eq hp.2, sp] at hj)
      exact Or.inr ⟨b, hb, fun _ _ _ _ _ _ => rfl⟩
    · exact Or.inl (arr_at _ _ (by rwa [mainSize_eq hz.2, sz] at hj))
  | binomialCE x t z c has hx' ht hz hc et ez ec hb hdata =>
    obtain ⟨rfl, rfl⟩ := one has.outs hx
    exact Or.inl (arr_at _ _ (by rwa [hz.main, ez, mul_one] at hj))
  | l1Decay x z has hx' hz ez hb =>
    obtain ⟨rfl, rfl⟩ := one has.outs hx
    exact Or.inl (arr_at _ _ (by rwa [hz.main, ez, mul_one] at hj))
  | l2Decay x z has hx' hz ez hb =>
    obtain ⟨rfl, rfl⟩ := one has.outs hx
    exact Or.inl (arr_at _ _ (by rwa [hz.main, ez, mul_one] at hj))
  | loss importance x has loose =>
    obtain ⟨rfl, rfl⟩ := one has.outs hx
    exact Or.inl (arr_at _ _ (by rwa [mainSize_eq rfl, size_vec] at hj))
  | recurrent a n x has hx' =>
    obtain ⟨rfl, rfl⟩ := one has.outs hx
    exact Or.inl (arr_at _ _ (by rwa [main_rec1] at hj))
  | clockwork a n x has hx' =>
    obtain ⟨rfl, rfl⟩ := one has.outs hx
    exact Or.inl (arr_at _ _ (by rwa [main_rec1] at hj))
  | lstm a n x has hx' =>
    obtain ⟨rfl, rfl⟩ := one has.outs hx
    exact Or.inl (arr_at _ _ (by rwa [main_rec1] at hj))
  | clockworkLstm a n x has hx' =>
    obtain ⟨rfl, rfl⟩ := one has.outs hx
    exact Or.inl (arr_at _ _ (by rwa [main_rec1] at hj))
  | convolution2D a g hs nf x y w has hx' hy ex ey ew own =>
    obtain ⟨rfl, rfl⟩ := one has.outs hx
    exact Or.inl (arr_at _ _ (by rwa [hy.main, ey] at hj))
  | avgPooling2D g x y has hx' hy ex ey =>
    obtain ⟨rfl, rfl⟩ := one has.outs hx
    exact Or.inl (arr_at _ _ (by rwa [hy.main, ey, Nat.mul_assoc g.OH] at hj))
  | maxPooling2D g lo store load x y k has hx' hy hk ex ey ek hb =>
    obtain ⟨rfl, rfl⟩ := one has.outs hx
    exact Or.inl (arr_at _ _ (by rwa [hy.main, ey, Nat.mul_assoc g.OH] at hj))

end

section
variable {layers : List LayerInfo} {L : Layout} {data : LayerInfo} {rest : List LayerInfo} {b : Batch} {θ : List ℝ} {s s' : Mem}

/-- Parameters and batch determine all outputs. -/
theorem outputs_determined (F : Memory.Fits layers L data rest) (hb : b.Good data) (hS : Session.Short (netOf layers L) b.T)
    (ps : ∀ l ∈ rest, LibLayer layers data l b.T b.B) (h : Loaded (netOf layers L) data.name b θ s)
    (h' : Loaded (netOf layers L) data.name b θ s') {l : LayerInfo} (hl : l ∈ layers) {x : Name} {sh : Struct} (hx : (x, sh) ∈ l.outShapes)
    {c : ℕ} (hc : c ∈ cells (netOf layers L) b.T b.B (path l.name (str "outputs") x)) :
    forward (libNetwork F ps) s c = forward (libNetwork F ps) s' c := by
  have hs := network_site F (fun l hl => (ps l hl).placed)
  have hh := network_honest F (fun l hl => (ps l hl).placed)
  have hfw := fun m hm => (hh m hm).toHonestForward
  have hhome : Home layers L b.T b.B l .out x sh c := ⟨hx, hc⟩
  by_cases hm : c ∈ mainCells (netOf layers L) b.T b.B (path l.name (str "outputs") x)
  swap
  · have hno : ∀ n ∈ network F (fun l hl => (ps l hl).placed), ¬ (c ∈ n.outs ∨ c ∈ n.own) := by
      intro n hn hw
      obtain ⟨k, hk, hkn⟩ := forall₂_right hs hn
      have hk' := F.ordered.mem hk
      have hout : ¬ ∃ y t, Home layers L b.T b.B k .out y t c ∧ Main layers L b.T b.B k .out y c := by
        rintro ⟨y, t, h1, h2⟩
        obtain ⟨rfl, -, rfl⟩ := Home.inj F.laid hk' hl h1 hhome
        exact hm h2
      rcases hw with hw | hw
      · exact hout (hkn.outs c hw)
      · rcases hkn.own c hw with ⟨y, t, h1, -⟩ | ⟨y, t, h1, -⟩ | ⟨-, h1⟩
        · cases (Home.inj F.laid hk' hl h1 hhome).2.1
        · cases (Home.inj F.laid hk' hl h1 hhome).2.1
        · exact hout h1
    show forward (network F _) s c = forward (network F _) s' c
    rw [forward_other _ hfw s c hno, forward_other _ hfw s' c hno]
    have h1 := Session.context_cleared F.laid hS (n := path l.name (str "outputs") x) (by simpa [contextCells] using ⟨hc, hm⟩)
    have h2 := Session.cells_lt hc
    rw [h.context c h1 h2, h'.context c h1 h2]
  rw [F.ordered.all, List.mem_cons] at hl
  rcases hl with rfl | hl
  · have hg : c ∈ given layers L b.T b.B l := (mem_given c).2 (Or.inr ⟨x, sh, hx, hm⟩)
    show forward (network F _) s c = forward (network F _) s' c
    rw [(given_kept F.laid F.ordered hs hh s c hg).1, (given_kept F.laid F.ordered hs hh s' c hg).1, Determined.loaded_given F.laid hb h h' hg]
  have hrow := F.laid.row_out (T := b.T) (B := b.B) (F.ordered.mem hl) hx
  obtain ⟨j, hj, rfl⟩ := List.mem_iff_getElem.1 hc
  rw [hrow.length] at hj
  have hget : (cells (netOf layers L) b.T b.B (path l.name (str "outputs") x))[j]'(by rw [hrow.length]; exact hj) =
      (cells (netOf layers L) b.T b.B (path l.name (str "outputs") x)).getD j 0 := by
    rw [List.getD_eq_getElem _ _ (by rw [hrow.length]; exact hj)]
  rw [hget] at hm ⊢
  have hj' := (hrow.mem_main hj).1 hm
  obtain ⟨o, k, ho, hk⟩ := network_forward F (fun l hl => (ps l hl).placed) s l hl
  obtain ⟨o', k', ho', hk'⟩ := network_forward F (fun l hl => (ps l hl).placed) s' l hl
  have hmem := (mem_network (F := F) (ps := fun l hl => (ps l hl).placed)).2 ⟨l, hl, rfl⟩
  have hread := fun {c : ℕ} => Determined.loaded_reads F.laid F.ordered hb hS hs hh h h' hmem (c := c)
  have hfix : (fun a => valueOut (netOf layers L) b.T b.B l.name (forward (network F (fun l hl => (ps l hl).placed)) s) ((ps l hl).placed.S.p a)) =
      fun a => valueOut (netOf layers L) b.T b.B l.name (forward (network F (fun l hl => (ps l hl).placed)) s') ((ps l hl).placed.S.p a) :=
    funext fun a => hread (Or.inr ⟨a, rfl⟩)
  have hin : (fun a => value (netOf layers L) b.T b.B l.name (forward (network F (fun l hl => (ps l hl).placed)) s) ((ps l hl).placed.S.i a)) =
      fun a => value (netOf layers L) b.T b.B l.name (forward (network F (fun l hl => (ps l hl).placed)) s') ((ps l hl).placed.S.i a) := by
    letI := (ps l hl).placed.fintypeI
    letI := (ps l hl).placed.fintypeO
    exact funext fun a => hread (Or.inl ((mem_ins (ps l hl).placed.V ((ps l hl).placed.ok.views F.laid F.ordered F.unmixed hl)).2 ⟨a, rfl⟩))
  rcases covered (ps l hl) hx hj' with ⟨q, hq⟩ | ⟨q, hq, hdet⟩
  · have h1 := ho q
    have h2 := ho' q
    rw [hq] at h1 h2
    refine h1.trans (Eq.trans ?_ h2.symm)
    rw [hfix, hin]
    exact congrFun ((ps l hl).placed.fresh _ _ _ _ _ _) q
  · have h1 := hk q
    have h2 := hk' q
    rw [hq] at h1 h2
    refine h1.trans (Eq.trans ?_ h2.symm)
    rw [hfix, hin]
    exact hdet _ _ _ _ _ _

end

end Verif.Reload
