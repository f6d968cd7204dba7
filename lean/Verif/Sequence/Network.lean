import Verif.Sequence.LayersAll
import Verif.Memory.FormulasProps

/-!
# C78: what a network computes for a sequence

Induction over the layers.
-/

namespace Verif.Sequence

open Verif.Structure Verif.Layout Verif.Buffers Verif.Memory Verif.EndToEnd

section
variable {layers : List LayerInfo} {L : Layout} {T B : ℕ} {data : LayerInfo} {rest : List LayerInfo}

theorem holds (F : Memory.Fits layers L data rest) (ps : ∀ l ∈ rest, LibLayer layers data l T B) (s : Mem) (l : LayerInfo) (hl : l ∈ rest) :
    (ps l hl).placed.Holds (value (netOf layers L) T B l.name (forward (libNetwork F ps) s))
      (fun j => forward (libNetwork F ps) s ((totalSizeSlicesShapes (netOf layers L).hubs T B).1 + j)) := by
  obtain ⟨o, k, h1, h2⟩ := network_forward F (fun l hl => (ps l hl).placed) s l hl
  refine ⟨o, k, ?_⟩
  have e : (fun a => valueOut (netOf layers L) T B l.name (forward (libNetwork F ps) s) ((ps l hl).placed.S.p a)) =
      fun a => Sum.elim (value (netOf layers L) T B l.name (forward (libNetwork F ps) s))
        (fun j => forward (libNetwork F ps) s ((totalSizeSlicesShapes (netOf layers L).hubs T B).1 + j)) ((ps l hl).placed.S.p a) := by
    funext a
    unfold valueOut fixedAddr
    cases (ps l hl).placed.S.p a <;> rfl
  exact ⟨fun b => (h1 b).trans (by rw [← e]; rfl), fun b => (h2 b).trans (by rw [← e]; rfl)⟩

/-- A source of an input has the same axes as the input. -/
theorem feeds_type (F : Memory.Fits layers L data rest) {l : LayerInfo} (hl : l ∈ rest) {x p : Name} {s sx : Struct}
    (hx : (x, sx) ∈ l.inShapes) (hf : Feeds layers l x p s) : s.bufferType = sx.bufferType ∧ sx.contextSize = 0 := by
  have hl' : l ∈ layers := by rw [F.ordered.all]; simp [hl]
  obtain ⟨forced, conns, gs, hP⟩ := createLayout_ok F.laid.layout
  have hc := hP.connsOk
  have hxm : x ∈ l.inShapes.map Prod.fst := List.mem_map.2 ⟨_, hx, rfl⟩
  have hp := (feeds_iff F.laid hc hl' hxm p).2 ⟨s, hf⟩
  have hg : Dict.get? (networkArrays layers) (path l.name (str "inputs") x) = some sx :=
    array_get F.laid.wf hl' (by simp [layerCats]) hx
  obtain ⟨srcs, -, h1, h2, -, h3⟩ := F.laid.shaped.sinks conns hc _ _ hg ⟨p, hp⟩
  exact ⟨h3 p ((h1 p).2 hp) s (hf.get F.laid), h2⟩

variable {A : Align} {M : Mode}

/-- What an input holds is the same if its sources are. -/
theorem inputs_same (F : Memory.Fits layers L data rest) {m m' : Mem} {l : LayerInfo} (hl : l ∈ rest) {x : Name} {sx : Struct}
    (hx : (x, sx) ∈ l.inShapes)
    (h : ∀ p s, Feeds layers l x p s → A.Same s (fun j => m ((cells (netOf layers L) A.T A.B p).getD j 0))
      (fun j => m' ((cells (netOf layers L) A.T' A.B' p).getD j 0))) :
    A.Same sx (fun j => value (netOf layers L) A.T A.B l.name m ⟨str "inputs", x, j⟩)
      (fun j => value (netOf layers L) A.T' A.B' l.name m' ⟨str "inputs", x, j⟩) := by
  obtain ⟨off, h1, h2⟩ := C76_inputs F l hl x sx hx
  intro r r' hr c hc
  obtain ⟨p, s, hf, g1, g2, -⟩ := h2 c hc
  obtain ⟨j, rfl⟩ : ∃ j, c = off p + j := ⟨c - off p, by omega⟩
  have hj : j < s.featureSize := by omega
  have hrl := Align.lt_rows hr
  obtain ⟨a, e1, e2⟩ := (h1 p s hf j hj).2 A.T A.B r hrl.1
  obtain ⟨a', e1', e2'⟩ := (h1 p s hf j hj).2 A.T' A.B' r' hrl.2
  have := h p s hf r r' (Align.rows_congr (feeds_type F hl hx hf).1.symm hr) j hj
  simp only [List.getD_eq_getElem?_getD, e2, e2', Option.getD_some] at this
  show m ((cells _ _ _ _).getD _ 0) = m' ((cells _ _ _ _).getD _ 0)
  simp only [List.getD_eq_getElem?_getD, e1, e1', Option.getD_some]
  exact this

/-- The output of a Loss layer is not connected. -/
theorem loss_loose {l : LayerInfo} {q : LibLayer layers data l T B} {kw : Setup.Kwargs} (d : Describes M (str "Loss") kw q)
    {o : Outgoing} {s : Struct} (ho : o ∈ l.outgoing) (hk : o.kind = .outputs) (hs : (o.buffer, s) ∈ l.outShapes) : False := by
  have et := describes_type d
  cases q with
  | loss importance x has loose =>
    rw [has.outs] at hs
    simp only [List.mem_singleton, Prod.mk.injEq] at hs
    exact loose o ho hk hs.1
  | _ => simp only [typeName] at et; exact absurd et (by decide)

/-- The layers before a layer are those that it can read from. -/
theorem source_before (ho : Ordered layers data rest) {pre post : List LayerInfo} {l k : LayerInfo} (e : rest = pre ++ l :: post)
    (hk : k ∈ rest) {o : Outgoing} (hok : o ∈ k.outgoing) (h1 : o.kind = .outputs) (h2 : o.endLayer = l.name) : k ∈ pre := by
  have hp := ho.order
  have hn := ho.noLoop k hk o hok h1
  subst e
  rcases List.mem_append.1 hk with hk' | hk'
  · exact hk'
  · rcases List.mem_cons.1 hk' with rfl | hk'
    · exact absurd h2 hn
    · rw [List.pairwise_append, List.pairwise_cons] at hp
      exact absurd h2 (hp.2.1.1 k hk' o hok h1)

/-- What an input holds is the same if outputs that are connected to it are. -/
theorem inputs_of (F : Memory.Fits layers L data rest) {m m' : Mem} {l : LayerInfo} (hl : l ∈ rest) {x : Name} {sx : Struct}
    (hx : (x, sx) ∈ l.inShapes) {v v' : LayerInfo → Slot → ℝ} (ev : ∀ l, v l = value (netOf layers L) A.T A.B l.name m)
    (ev' : ∀ l, v' l = value (netOf layers L) A.T' A.B' l.name m')
    (hpar : ∀ l ∈ layers, ∀ x s, (x, s) ∈ l.paramShapes → ∀ j < s.featureSize,
      v l ⟨str "parameters", x, j⟩ = v' l ⟨str "parameters", x, j⟩)
    (hdata : ∀ x s, (x, s) ∈ data.outShapes → A.Same s (fun j => v data ⟨str "outputs", x, j⟩) (fun j => v' data ⟨str "outputs", x, j⟩))
    (h : ∀ k ∈ rest, ∀ o ∈ k.outgoing, ∀ s, o.kind = .outputs → (o.buffer, s) ∈ k.outShapes → o.endLayer = l.name →
      A.Same s (fun j => v k ⟨str "outputs", o.buffer, j⟩) (fun j => v' k ⟨str "outputs", o.buffer, j⟩)) :
    A.Same sx (fun j => v l ⟨str "inputs", x, j⟩) (fun j => v' l ⟨str "inputs", x, j⟩) := by
  rw [ev, ev']
  refine inputs_same F hl hx ?_
  rintro p sp ⟨k, hk, o, ho, e1, e2, ⟨h3, h4, rfl⟩ | ⟨h3, h4, rfl⟩⟩
  · rw [F.ordered.all] at hk
    rcases List.mem_cons.1 hk with rfl | hk
    · have := hdata _ _ h4
      rw [ev, ev'] at this
      exact this
    · have := h k hk o ho _ h3 h4 e1
      rw [ev, ev'] at this
      exact this
  · have hb := F.laid.shaped.params k hk _ h4
    intro r r' hr j hj
    simp only [Align.Rows] at hr
    rw [show sp.bufferType = 0 from hb] at hr
    obtain ⟨rfl, rfl⟩ := hr
    have := hpar k hk _ _ h4 j hj
    rw [ev, ev'] at this
    simp only [Nat.zero_mul, Nat.zero_add]
    exact this

/-- Both passes do the same for the sequence. -/
theorem network_same (F : Memory.Fits layers L data rest) (ps : ∀ l ∈ rest, LibLayer layers data l A.T A.B)
    (ps' : ∀ l ∈ rest, LibLayer layers data l A.T' A.B') {ty : LayerInfo → Name} {kw : LayerInfo → Setup.Kwargs}
    (hd : ∀ l hl, Describes M (ty l) (kw l) (ps l hl)) (hd' : ∀ l hl, Describes M (ty l) (kw l) (ps' l hl)) (s s' : Mem) {v v' : LayerInfo → Slot → ℝ}
    (ev : ∀ l, v l = value (netOf layers L) A.T A.B l.name (forward (libNetwork F ps) s))
    (ev' : ∀ l, v' l = value (netOf layers L) A.T' A.B' l.name (forward (libNetwork F ps') s'))
    (hpar : ∀ l ∈ layers, ∀ x s, (x, s) ∈ l.paramShapes → ∀ j < s.featureSize,
      v l ⟨str "parameters", x, j⟩ = v' l ⟨str "parameters", x, j⟩)
    (hdata : ∀ x s, (x, s) ∈ data.outShapes → A.Same s (fun j => v data ⟨str "outputs", x, j⟩) (fun j => v' data ⟨str "outputs", x, j⟩))
    (hbo : ∀ l ∈ rest, ty l ≠ str "Loss" → ∀ x n, (x, rec1 n) ∈ l.outShapes →
      A.SameBefore (rec1 n) (fun j => v l ⟨str "outputs", x, j⟩) (fun j => v' l ⟨str "outputs", x, j⟩))
    (hbc : ∀ l ∈ rest, ∀ n, ty l = str "Lstm" ∨ ty l = str "ClockworkLstm" → (str "Ca", rec1 n) ∈ l.internalShapes →
      A.SameBefore (rec1 n) (fun j => v l ⟨str "internals", str "Ca", j⟩) (fun j => v' l ⟨str "internals", str "Ca", j⟩))
    (hK : ∀ l ∈ rest, ty l ≠ str "Loss" → Alike A M (ty l) l (v l)) :
    ∀ l ∈ rest, ty l ≠ str "Loss" → Writes A (ty l) l (v l) (v' l) := by
  have key : ∀ pre post, rest = pre ++ post → ∀ l ∈ pre, ty l ≠ str "Loss" → Writes A (ty l) l (v l) (v' l) := by
    intro pre
    induction pre using List.reverseRecOn with
    | nil => intro _ _ l hl; cases hl
    | append_singleton pre l ih =>
      intro post e
      rw [List.append_assoc] at e
      have ih := ih _ e
      intro l' hl'
      rcases List.mem_append.1 hl' with hl' | hl'
      · exact ih l' hl'
      rw [List.mem_singleton.1 hl']
      intro hne
      have hl : l ∈ rest := by rw [e]; simp
      have hll : l ∈ layers := by rw [F.ordered.all]; simp [hl]
      refine layer_same (ps l hl) (ps' l hl) (F.laid.wf.inNodup l hll) (F.laid.wf.internalNodup l hll) (F.laid.shaped.params l hll)
        (ev l ▸ holds F ps s l hl) (ev' l ▸ holds F ps' s' l hl) (hd l hl) (hd' l hl) (hK l hl hne)
        ⟨fun x sx hx => ?_, hpar l hll, hbo l hl hne⟩ (hbc l hl)
      refine inputs_of F hl hx ev ev' hpar hdata fun k hk o ho _ h3 h4 e1 => ?_
      have hkl : ty k ≠ str "Loss" := by
        intro hty
        have := hd k hk
        rw [hty] at this
        exact loss_loose this ho h3 h4
      exact (ih k (source_before F.ordered e hk ho h3 e1) hkl).outs _ _ h4
  intro l hl
  exact key rest [] (by simp) l hl

end

end Verif.Sequence
