import Verif.Memory.Library

/-!
# The layers of the library in the memory
-/

namespace Verif.Memory

open Verif.Structure Verif.Layout Verif.Buffers Verif.Network Verif.Layers

section
variable {layers : List LayerInfo} {data l : LayerInfo} {T B : ℕ}

theorem size_vec (n T B : ℕ) : size (vec n) T B = n := by
  simp [size, structShape, vec, Struct.featureShape, Struct.bufferType, typeOf, Tok.size]

theorem size_mm (n m T B : ℕ) : size (mm n m) T B = n * m := by
  simp [size, structShape, mm, Struct.featureShape, Struct.bufferType, typeOf, Tok.size]

theorem size_rec1 (n T B : ℕ) : size (rec1 n) T B = T * (B * n) + B * n := by
  rw [size_seq rfl]
  simp [rec1, Struct.featureSize, Struct.featureShape, Struct.bufferType, typeOf, Tok.size]
  ring

theorem main_rec1 (n T B : ℕ) : mainSize (rec1 n) T B = T * (B * n) := by
  simp [mainSize, structShape, rec1, Struct.featureShape, Struct.bufferType, typeOf, Tok.size]

theorem fam_inj {γ ι : Type} {n : ℕ} {cat : Name} {names : γ → Name} (e : ι ≃ Fin n) (hn : Function.Injective names) :
    Function.Injective (fam cat names e) := by
  rintro ⟨g, a⟩ ⟨g', a'⟩ h
  simp only [fam, Slot.mk.injEq, true_and, Fin.val_inj, EmbeddingLike.apply_eq_iff_eq] at h
  exact Prod.ext (hn h.1) h.2

theorem not_loss {I O K P : Type} {V : VLayer I O K P} {S : Slots I O K P} (h : V.isLoss = false) :
    V.isLoss = true → ∀ o ∈ l.outgoing, o.kind = .outputs → ∀ b, (S.o b).array ≠ o.buffer := by
  intro h'
  rw [h] at h'
  cases h'

theorem not_over {I O K P : Type} {V : VLayer I O K P} {S : Slots I O K P} (h : ∀ a, V.over a = false) :
    ∀ a, V.over a = true → (S.i a).cat = str "parameters" ∧ ∀ o ∈ l.outgoing, o.kind = .parameters → o.buffer ≠ (S.i a).array := by
  intro a h'
  rw [h a] at h'
  cases h'


theorem fcSlots_ok {a : Act} {x y : Struct}
    (has : Has l [(str "default", x)] [(str "default", y)] [(str "W", mm y.featureSize x.featureSize), (str "bias", vec y.featureSize)] [])
    (hx : Seq x) (hy : Seq y) (own : OwnParams l) :
    (fcSlots (T * B) x.featureSize y.featureSize).Ok layers data l T B (fcLayer a) where
  i_inj := elim_inj (arr_inj _ _ _) (elim_inj (arr_inj _ _ _) (arr_inj _ _ _) (arr_ne (by decide)))
    (ne_elim (arr_ne (by decide)) (arr_ne (by decide)))
  o_inj := arr_inj _ _ _
  k_inj := fun a => a.elim
  ins := by
    rintro (a | a | a)
    · exact Or.inl (arr_in _ (has.ins (_, x) (by simp)) (by rw [hx.size]) a)
    · exact Or.inr (arr_par _ (has.pars (_, mm y.featureSize x.featureSize) (by simp)) (by rw [size_mm]) a)
    · exact Or.inr (arr_par _ (has.pars (_, vec y.featureSize) (by simp)) (by rw [size_vec]) a)
  outs := arr_out (s := y) _ (by rw [has.outs]; simp) (by rw [hy.main])
  outsAll := arr_all _ (single has.outs (hy.main T B))
  own := fun a => a.elim
  fixed := fun a => a.elim
  loss := not_loss rfl
  over := by
    rintro (a | a | a) h
    · cases h
    · exact ⟨rfl, fun o ho hk => absurd hk (own o ho)⟩
    · exact ⟨rfl, fun o ho hk => absurd hk (own o ho)⟩

theorem sameSlots_ok {n : ℕ} {V : VLayer (Fin (T * B) × Fin n) (Fin (T * B) × Fin n) Empty Empty} {x : Struct} (hV : V.isLoss = false)
    (hO : ∀ a, V.over a = false) (has : Has l [(str "default", x)] [(str "default", x)] [] []) (hx : Seq x) (hn : x.featureSize = n) :
    (sameSlots (T * B) n).Ok layers data l T B V where
  i_inj := arr_inj _ _ _
  o_inj := arr_inj _ _ _
  k_inj := fun a => a.elim
  ins := fun a => Or.inl (arr_in _ (has.ins (_, x) (by simp)) (by rw [hx.size, hn]) a)
  outs := arr_out (s := x) _ (by rw [has.outs]; simp) (by rw [hx.main, hn])
  outsAll := arr_all _ (single has.outs (by rw [hx.main, hn]))
  own := fun a => a.elim
  fixed := fun a => a.elim
  loss := not_loss hV
  over := not_over hO

theorem highwaySlots_ok {h t x y : Struct} (has : Has l [(str "H", h), (str "T", t), (str "x", x)] [(str "default", y)] [] [])
      (hh : Seq h) (ht : Seq t) (hx : Seq x) (hy : Seq y)
      (eh : h.featureSize = x.featureSize) (et : t.featureSize = x.featureSize) (ey : y.featureSize = x.featureSize) :
    (highwaySlots (T * B) x.featureSize).Ok layers data l T B highwayLayer where
  i_inj := elim_inj (arr_inj _ _ _) (elim_inj (arr_inj _ _ _) (arr_inj _ _ _) (arr_ne (by decide)))
    (ne_elim (arr_ne (by decide)) (arr_ne (by decide)))
  o_inj := arr_inj _ _ _
  k_inj := fun a => a.elim
  ins := by
    rintro (a | a | a)
    · exact Or.inl (arr_in _ (has.ins (_, h) (by simp)) (by rw [hh.size, eh]) a)
    · exact Or.inl (arr_in _ (has.ins (_, t) (by simp)) (by rw [ht.size, et]) a)
    · exact Or.inl (arr_in _ (has.ins (_, x) (by simp)) (by rw [hx.size]) a)
  outs := arr_out (s := y) _ (by rw [has.outs]; simp) (by rw [hy.main, ey])
  outsAll := arr_all _ (single has.outs (by rw [hy.main, ey]))
  own := fun a => a.elim
  fixed := fun a => a.elim
  loss := not_loss rfl
  over := not_over fun _ => rfl

theorem mergeSlots_ok {R m n : ℕ} {x y z : Struct} (has : Has l [(str "inputs_1", x), (str "inputs_2", y)] [(str "default", z)] [] [])
      (hx : size x T B = R * m) (hy : size y T B = R * n) (hz : size z T B = R * (m + n)) (hc : z.contextSize = 0) :
    (mergeSlots R m n).Ok layers data l T B mergeLayer where
  i_inj := elim_inj (arr_inj _ _ _) (arr_inj _ _ _) (arr_ne (by decide))
  o_inj := arr_inj _ _ _
  k_inj := fun a => a.elim
  ins := by
    rintro (a | a)
    · exact Or.inl (arr_in _ (has.ins (_, x) (by simp)) (by rw [hx]) a)
    · exact Or.inl (arr_in _ (has.ins (_, y) (by simp)) (by rw [hy]) a)
  outs := arr_out (s := z) _ (by rw [has.outs]; simp) (by rw [mainSize_eq hc, hz])
  outsAll := arr_all _ (single has.outs (by rw [mainSize_eq hc, hz]))
  own := fun a => a.elim
  fixed := fun a => a.elim
  loss := not_loss rfl
  over := not_over fun _ => rfl

theorem data_fixed {ι : Type} {n : ℕ} {x : Name} {s : Struct} (e : ι ≃ Fin n) (h : (x, s) ∈ l.inShapes) (hn : n ≤ size s T B)
    (hd : OnlyData layers data l x) (a : ι) (q : Slot) (hq : (Sum.inl (arr (str "inputs") x e a) : Slot ⊕ ℕ) = .inl q) :
    (q.cat = str "inputs" ∧ (∃ s, (q.array, s) ∈ l.inShapes ∧ q.pos < size s T B) ∧ OnlyData layers data l q.array) := by
  obtain rfl := Sum.inl.inj hq
  exact ⟨rfl, ⟨s, h, lt_of_lt_of_le (e a).2 hn⟩, hd⟩

theorem maskSlots_ok {R n : ℕ} {x k : Struct} (has : Has l [(str "default", x), (str "mask", k)] [(str "default", x)] [] [])
      (hx : Seq x) (hxs : size x T B = R * n) (hks : size k T B = R) (hd : OnlyData layers data l (str "mask")) :
    (maskSlots R n).Ok layers data l T B maskLayer where
  i_inj := arr_inj _ _ _
  o_inj := arr_inj _ _ _
  k_inj := fun a => a.elim
  ins := fun a => Or.inl (arr_in _ (has.ins (_, x) (by simp)) (by rw [hxs]) a)
  outs := arr_out (s := x) _ (by rw [has.outs]; simp) (by rw [mainSize_eq hx.2, hxs])
  outsAll := arr_all _ (single has.outs (by rw [mainSize_eq hx.2, hxs]))
  own := fun a => a.elim
  fixed := fun a q hq => Or.inl (data_fixed _ (has.ins (_, k) (by simp)) (by rw [hks]) hd a q hq)
  loss := not_loss rfl
  over := not_over fun _ => rfl

theorem maskFullSlots_ok {x k : Struct} (has : Has l [(str "default", x), (str "mask", k)] [(str "default", x)] [] [])
      (hx : Seq x) (hk : Seq k) (ek : k.featureSize = x.featureSize) (hd : OnlyData layers data l (str "mask")) :
    (maskFullSlots (T * B) x.featureSize).Ok layers data l T B maskFullLayer where
  i_inj := arr_inj _ _ _
  o_inj := arr_inj _ _ _
  k_inj := fun a => a.elim
  ins := fun a => Or.inl (arr_in _ (has.ins (_, x) (by simp)) (by rw [hx.size]) a)
  outs := arr_out (s := x) _ (by rw [has.outs]; simp) (by rw [hx.main])
  outsAll := arr_all _ (single has.outs (by rw [hx.main]))
  own := fun a => a.elim
  fixed := fun a q hq => Or.inl (data_fixed _ (has.ins (_, k) (by simp)) (by rw [hk.size, ek]) hd a q hq)
  loss := not_loss rfl
  over := not_over fun _ => rfl

theorem dropoutSlots_ok {training : Bool} {q : ℝ} {off : ℕ} {x : Struct}
      (has : Has l [(str "default", x)] [(str "default", x)] [] [(str "mask", x)]) (hx : Seq x) (hb : x.backwardOnly = false) :
    (dropoutSlots off (T * B) x.featureSize).Ok layers data l T B (dropoutLayer training q) where
  i_inj := arr_inj _ _ _
  o_inj := arr_inj _ _ _
  k_inj := arr_inj _ _ _
  ins := fun a => Or.inl (arr_in _ (has.ins (_, x) (by simp)) (by rw [hx.size]) a)
  outs := arr_out (s := x) _ (by rw [has.outs]; simp) (by rw [hx.main])
  outsAll := arr_all _ (single has.outs (by rw [hx.main]))
  own := fun a => Or.inl (arr_int _ (has.ints (_, x) (by simp)) (by rw [hx.main]) hb a)
  fixed := fun a q hq => by cases hq
  loss := not_loss rfl
  over := not_over fun _ => rfl

theorem squaredDifferenceSlots_ok {x y z d : Struct}
      (has : Has l [(str "inputs_1", x), (str "inputs_2", y)] [(str "default", z)] [] [(str "diff", d)])
      (hx : Seq x) (hy : Seq y) (hz : Seq z) (hd : Seq d) (ey : y.featureSize = x.featureSize)
      (ez : z.featureSize = x.featureSize) (ed : d.featureSize = x.featureSize) (hb : d.backwardOnly = false) :
    (squaredDifferenceSlots (T * B) x.featureSize).Ok layers data l T B squaredDiffLayer where
  i_inj := elim_inj (arr_inj _ _ _) (arr_inj _ _ _) (arr_ne (by decide))
  o_inj := arr_inj _ _ _
  k_inj := arr_inj _ _ _
  ins := by
    rintro (a | a)
    · exact Or.inl (arr_in _ (has.ins (_, x) (by simp)) (by rw [hx.size]) a)
    · exact Or.inl (arr_in _ (has.ins (_, y) (by simp)) (by rw [hy.size, ey]) a)
  outs := arr_out (s := z) _ (by rw [has.outs]; simp) (by rw [hz.main, ez])
  outsAll := arr_all _ (single has.outs (by rw [hz.main, ez]))
  own := fun a => Or.inl (arr_int _ (has.ints (_, d) (by simp)) (by rw [hd.main, ed]) hb a)
  fixed := fun a => a.elim
  loss := not_loss rfl
  over := not_over fun _ => rfl

theorem squaredErrorSlots_ok {x t p z d : Struct}
      (has : Has l [(str "default", x), (str "targets", t)] [(str "predictions", p), (str "loss", z)] [] [(str "diff", d)])
      (hx : Seq x) (ht : Seq t) (hp : Seq p) (hz : Seq z) (hd : Seq d) (et : t.featureSize = x.featureSize)
      (ep : p.featureSize = x.featureSize) (ez : z.featureSize = x.featureSize) (ed : d.featureSize = x.featureSize)
      (hb : d.backwardOnly = false) (hdata : OnlyData layers data l (str "targets")) (loose : Loose l "predictions") :
    (squaredErrorSlots (T * B) x.featureSize).Ok layers data l T B squaredErrorLayer where
  i_inj := arr_inj _ _ _
  o_inj := arr_inj _ _ _
  k_inj := elim_inj (arr_inj _ _ _) (arr_inj _ _ _) (arr_ne (by decide))
  ins := fun a => Or.inl (arr_in _ (has.ins (_, x) (by simp)) (by rw [hx.size]) a)
  outs := arr_out (s := z) _ (by rw [has.outs]; simp) (by rw [hz.main, ez])
  outsAll := arr_all _ (second has.outs loose (by rw [hz.main, ez]))
  own := by
    rintro (a | a)
    · exact Or.inr ⟨rfl, fun b => arr_ne (by decide) b a, (arr_out (s := p) _ (by rw [has.outs]; simp) (by rw [hp.main, ep]) a).2⟩
    · exact Or.inl (arr_int _ (has.ints (_, d) (by simp)) (by rw [hd.main, ed]) hb a)
  fixed := fun a q hq => Or.inl (data_fixed _ (has.ins (_, t) (by simp)) (by rw [ht.size, et]) hdata a q hq)
  loss := not_loss rfl
  over := not_over fun _ => rfl

theorem sigmoidCESlots_ok {x t p z : Struct}
      (has : Has l [(str "default", x), (str "targets", t)] [(str "predictions", p), (str "loss", z)] [] [])
      (hx : Seq x) (ht : Seq t) (hp : Seq p) (hz : Seq z) (et : t.featureSize = x.featureSize)
      (ep : p.featureSize = x.featureSize) (ez : z.featureSize = x.featureSize)
      (hdata : OnlyData layers data l (str "targets")) (loose : Loose l "predictions") :
    (sigmoidCESlots (T * B) x.featureSize).Ok layers data l T B sigmoidCELayer where
  i_inj := arr_inj _ _ _
  o_inj := arr_inj _ _ _
  k_inj := arr_inj _ _ _
  ins := fun a => Or.inl (arr_in _ (has.ins (_, x) (by simp)) (by rw [hx.size]) a)
  outs := arr_out (s := z) _ (by rw [has.outs]; simp) (by rw [hz.main, ez])
  outsAll := arr_all _ (second has.outs loose (by rw [hz.main, ez]))
  own := fun a =>
    Or.inr ⟨rfl, fun b => arr_ne (by decide) b a, (arr_out (s := p) _ (by rw [has.outs]; simp) (by rw [hp.main, ep]) a).2⟩
  fixed := fun a q hq => Or.inl (data_fixed _ (has.ins (_, t) (by simp)) (by rw [ht.size, et]) hdata a q hq)
  loss := not_loss rfl
  over := not_over fun _ => rfl

theorem softmaxCESlots_ok {R n : ℕ} [Nonempty (Fin n)] {dec : ℝ → Fin n} {x t p z : Struct}
      (has : Has l [(str "default", x), (str "targets", t)] [(str "predictions", p), (str "loss", z)] [] [])
      (hp : Seq p) (hz : Seq z) (sx : size x T B = R * n) (st : size t T B = R)
      (sp : size p T B = R * n) (sz : size z T B = R)
      (hdata : OnlyData layers data l (str "targets")) (loose : Loose l "predictions") :
    (softmaxCESlots R n).Ok layers data l T B (softmaxCELayer dec) where
  i_inj := arr_inj _ _ _
  o_inj := arr_inj _ _ _
  k_inj := arr_inj _ _ _
  ins := fun a => Or.inl (arr_in _ (has.ins (_, x) (by simp)) (by rw [sx]) a)
  outs := arr_out (s := z) _ (by rw [has.outs]; simp) (by rw [mainSize_eq hz.2, sz])
  outsAll := arr_all _ (second has.outs loose (by rw [mainSize_eq hz.2, sz]))
  own := fun a =>
    Or.inr ⟨rfl, fun b => arr_ne (by decide) b a, (arr_out (s := p) _ (by rw [has.outs]; simp) (by rw [mainSize_eq hp.2, sp]) a).2⟩
  fixed := fun a q hq => Or.inl (data_fixed _ (has.ins (_, t) (by simp)) (by rw [st]) hdata a q hq)
  loss := not_loss rfl
  over := not_over fun _ => rfl

theorem binomialCESlots_ok {x t z c : Struct}
      (has : Has l [(str "default", x), (str "targets", t)] [(str "default", z)] [] [(str "cee", c)])
      (hx : Seq x) (ht : Seq t) (hz : Seq z) (hc : Seq c) (et : t.featureSize = x.featureSize) (ez : z.featureSize = 1)
      (ec : c.featureSize = x.featureSize) (hb : c.backwardOnly = false) (hdata : OnlyData layers data l (str "targets")) :
    (binomialCESlots (T * B) x.featureSize).Ok layers data l T B binomialCELayer where
  i_inj := arr_inj _ _ _
  o_inj := arr_inj _ _ _
  k_inj := arr_inj _ _ _
  ins := fun a => Or.inl (arr_in _ (has.ins (_, x) (by simp)) (by rw [hx.size]) a)
  outs := arr_out (s := z) _ (by rw [has.outs]; simp) (by rw [hz.main, ez, mul_one])
  outsAll := arr_all _ (single has.outs (by rw [hz.main, ez, mul_one]))
  own := fun a => Or.inl (arr_int _ (has.ints (_, c) (by simp)) (by rw [hc.main, ec]) hb a)
  fixed := fun a q hq => Or.inl (data_fixed _ (has.ins (_, t) (by simp)) (by rw [ht.size, et]) hdata a q hq)
  loss := not_loss rfl
  over := not_over fun _ => rfl

theorem decaySlots_ok {x z : Struct} {V : VLayer (Fin (T * B) × Fin x.featureSize) (Fin (T * B)) (Fin (T * B) × Fin x.featureSize) Empty}
    (hV : V.isLoss = false) (hO : ∀ a, V.over a = false) (has : Has l [(str "default", x)] [(str "loss", z)] [] [(str "tmp", x)])
      (hx : Seq x) (hz : Seq z) (ez : z.featureSize = 1) (hb : x.backwardOnly = false) :
    (decaySlots (T * B) x.featureSize).Ok layers data l T B V where
  i_inj := arr_inj _ _ _
  o_inj := arr_inj _ _ _
  k_inj := arr_inj _ _ _
  ins := fun a => Or.inl (arr_in _ (has.ins (_, x) (by simp)) (by rw [hx.size]) a)
  outs := arr_out (s := z) _ (by rw [has.outs]; simp) (by rw [hz.main, ez, mul_one])
  outsAll := arr_all _ (single has.outs (by rw [hz.main, ez, mul_one]))
  own := fun a => Or.inl (arr_int _ (has.ints (_, x) (by simp)) (by rw [hx.main]) hb a)
  fixed := fun a => a.elim
  loss := not_loss hV
  over := not_over hO

theorem lossSlots_ok {importance batch : ℝ} {x : Struct} (has : Has l [(str "default", x)] [(str "loss", vec 1)] [] [])
    (loose : Loose l "loss") : (lossSlots 1 (size x T B)).Ok layers data l T B (lossLayer importance batch) where
  i_inj := arr_inj _ _ _
  o_inj := arr_inj _ _ _
  k_inj := fun a => a.elim
  ins := fun a => Or.inl (arr_in _ (has.ins (_, x) (by simp)) (by rw [one_mul]) a)
  outs := arr_out (s := vec 1) _ (by rw [has.outs]; simp) (by rw [mainSize_eq rfl, size_vec])
  outsAll := arr_all _ (single has.outs (by rw [mainSize_eq rfl, size_vec]))
  own := fun a => a.elim
  fixed := fun a => a.elim
  loss := fun _ o ho hk _ => (loose o ho hk).symm
  over := not_over fun _ => rfl

/-- The context row of outputs. -/
theorem tail_out {n : ℕ} (h : (str "default", rec1 n) ∈ l.outShapes) (a : Fin B × Fin n) (q : Slot)
    (hq : (Sum.inl (tail (str "outputs") (str "default") (T * (B * n)) (mat B n) a) : Slot ⊕ ℕ) = .inl q) :
    (q.cat = str "outputs" ∧ ∃ s, (q.array, s) ∈ l.outShapes ∧ mainSize s T B ≤ q.pos ∧ q.pos < size s T B) := by
  obtain rfl := Sum.inl.inj hq
  refine ⟨rfl, _, h, ?_, ?_⟩
  · rw [main_rec1]; exact Nat.le_add_right _ _
  · rw [size_rec1]; exact Nat.add_lt_add_left (mat B n a).2 _

theorem tail_int {n : ℕ} {x : Name} (h : (x, rec1 n) ∈ l.internalShapes) (a : Fin B × Fin n) (q : Slot)
    (hq : (Sum.inl (tail (str "internals") x (T * (B * n)) (mat B n) a) : Slot ⊕ ℕ) = .inl q) :
    (q.cat = str "internals" ∧ ∃ s, (q.array, s) ∈ l.internalShapes ∧ mainSize s T B ≤ q.pos ∧ q.pos < size s T B ∧
      s.backwardOnly = false) := by
  obtain rfl := Sum.inl.inj hq
  refine ⟨rfl, _, h, ?_, ?_, rfl⟩
  · rw [main_rec1]; exact Nat.le_add_right _ _
  · rw [size_rec1]; exact Nat.add_lt_add_left (mat B n a).2 _

theorem param_fixed {ι : Type} {n : ℕ} {x : Name} {s : Struct} (e : ι ≃ Fin n) (h : (x, s) ∈ l.paramShapes) (hn : n ≤ size s T B)
    (a : ι) (q : Slot) (hq : (Sum.inl (arr (str "parameters") x e a) : Slot ⊕ ℕ) = .inl q) :
    (q.cat = str "parameters" ∧ ∃ s, (q.array, s) ∈ l.paramShapes ∧ q.pos < size s T B) := by
  obtain rfl := Sum.inl.inj hq
  exact ⟨rfl, s, h, lt_of_lt_of_le (e a).2 hn⟩

theorem rnn_inj (T B m n : ℕ) : Function.Injective (rnnSlots T B m n).i :=
  elim_inj (arr_inj _ _ _) (elim_inj (arr_inj _ _ _) (elim_inj (arr_inj _ _ _) (arr_inj _ _ _) (arr_ne (by decide)))
    (ne_elim (arr_ne (by decide)) (arr_ne (by decide))))
    (ne_elim (arr_ne (by decide)) (ne_elim (arr_ne (by decide)) (arr_ne (by decide))))

theorem rnn_ins {n : ℕ} {x : Struct} {outs pars ints : List (Name × Struct)} (has : Has l [(str "default", x)] outs pars ints)
    (hp : ∀ e ∈ [(str "W", mm n x.featureSize), (str "R", mm n n), (str "bias", vec n)], e ∈ pars) (hx : Seq x)
    (a : RnnI T (Fin B) (Fin x.featureSize) (Fin n)) :
    (((rnnSlots T B x.featureSize n).i a).cat = str "inputs" ∧ ∃ s, (((rnnSlots T B x.featureSize n).i a).array, s) ∈ l.inShapes ∧
      ((rnnSlots T B x.featureSize n).i a).pos < size s T B) ∨
    (((rnnSlots T B x.featureSize n).i a).cat = str "parameters" ∧ ∃ s, (((rnnSlots T B x.featureSize n).i a).array, s) ∈ l.paramShapes ∧
      ((rnnSlots T B x.featureSize n).i a).pos < size s T B) := by
  rcases a with a | a | a | a
  · exact Or.inl (arr_in _ (has.ins (_, x) (by simp)) (by rw [hx.size, mul_assoc]) a)
  · exact Or.inr (arr_par _ (has.pars _ (hp (_, mm n x.featureSize) (by simp))) (by rw [size_mm]) a)
  · exact Or.inr (arr_par _ (has.pars _ (hp (_, mm n n) (by simp))) (by rw [size_mm]) a)
  · exact Or.inr (arr_par _ (has.pars _ (hp (_, vec n) (by simp))) (by rw [size_vec]) a)

theorem rnnSlots_ok {a : Act} {n : ℕ} {x : Struct}
      (has : Has l [(str "default", x)] [(str "default", rec1 n)]
        [(str "W", mm n x.featureSize), (str "R", mm n n), (str "bias", vec n)] [(str "Ha", rec1 n)]) (hx : Seq x) :
    (rnnSlots T B x.featureSize n).Ok layers data l T B (rnnLayer T a) where
  i_inj := rnn_inj _ _ _ _
  o_inj := arr_inj _ _ _
  k_inj := arr_inj _ _ _
  ins := rnn_ins has (fun e h => h) hx
  outs := arr_out (s := rec1 n) _ (by rw [has.outs]; simp) (by rw [main_rec1])
  outsAll := arr_all _ (single has.outs (by rw [main_rec1]))
  own := fun a => Or.inl (arr_int _ (has.ints (_, rec1 n) (by simp)) (by rw [main_rec1]) rfl a)
  fixed := fun a q hq => Or.inr (Or.inr (Or.inl (tail_out (by rw [has.outs]; simp) a q hq)))
  loss := not_loss rfl
  over := not_over fun _ => rfl

theorem clockworkSlots_ok {a : Act} {n : ℕ} {x : Struct}
      (has : Has l [(str "default", x)] [(str "default", rec1 n)]
        [(str "W", mm n x.featureSize), (str "R", mm n n), (str "bias", vec n), (str "timing", vec n)] [(str "Ha", rec1 n)])
      (hx : Seq x) : (clockworkSlots T B x.featureSize n).Ok layers data l T B (cwLayer T a) where
  i_inj := rnn_inj _ _ _ _
  o_inj := arr_inj _ _ _
  k_inj := arr_inj _ _ _
  ins := rnn_ins has (fun e h => by simp at h ⊢; tauto) hx
  outs := arr_out (s := rec1 n) _ (by rw [has.outs]; simp) (by rw [main_rec1])
  outsAll := arr_all _ (single has.outs (by rw [main_rec1]))
  own := fun a => Or.inl (arr_int _ (has.ints (_, rec1 n) (by simp)) (by rw [main_rec1]) rfl a)
  fixed := by
    rintro (a | a) q hq
    · exact Or.inr (Or.inr (Or.inl (tail_out (by rw [has.outs]; simp) a q hq)))
    · exact Or.inr (Or.inl (param_fixed _ (has.pars (_, vec n) (by simp)) (by rw [size_vec]) a q hq))
  loss := not_loss rfl
  over := not_over fun _ => rfl

theorem gate_inj : Function.Injective gateW ∧ Function.Injective gateR ∧ Function.Injective gateB := by
  refine ⟨?_, ?_, ?_⟩ <;> (intro a b; cases a <;> cases b <;> decide)

theorem lstmName_inj : Function.Injective lstmName := by
  intro a b h
  cases a <;> cases b <;> first | rfl | exact absurd h (by decide)

theorem fam_ne {γ γ' ι ι' : Type} {n n' : ℕ} {cat cat' : Name} {names : γ → Name} {names' : γ' → Name} {e : ι ≃ Fin n} {e' : ι' ≃ Fin n'}
    (h : ∀ g g', cat ≠ cat' ∨ names g ≠ names' g') (a : γ × ι) (b : γ' × ι') : fam cat names e a ≠ fam cat' names' e' b := by
  intro he
  simp only [fam, Slot.mk.injEq] at he
  rcases h a.1 b.1 with h | h
  · exact h he.1
  · exact h he.2.1

theorem fam_arr {γ ι ι' : Type} {n n' : ℕ} {cat cat' x : Name} {names : γ → Name} {e : ι ≃ Fin n} {e' : ι' ≃ Fin n'}
    (h : ∀ g, cat ≠ cat' ∨ names g ≠ x) (a : γ × ι) (b : ι') : fam cat names e a ≠ arr cat' x e' b := by
  intro he
  simp only [fam, arr, Slot.mk.injEq] at he
  rcases h a.1 with h | h
  · exact h he.1
  · exact h he.2.1

theorem arr_fam {γ ι ι' : Type} {n n' : ℕ} {cat cat' x : Name} {names : γ → Name} {e : ι ≃ Fin n} {e' : ι' ≃ Fin n'}
    (h : ∀ g, cat ≠ cat' ∨ names g ≠ x) (b : ι') (a : γ × ι) : arr cat' x e' b ≠ fam cat names e a := fun he => fam_arr h a b he.symm

theorem lstm_inj (T B m n : ℕ) : Function.Injective (lstmSlots T B m n).i := by
  have hg : ∀ g g' : Gate, gateW g ≠ gateR g' ∧ gateW g ≠ gateB g' ∧ gateR g ≠ gateB g' := by
    intro g g'; cases g <;> cases g' <;> decide
  have hp : ∀ g : Gate, (gateW g ≠ str "pi" ∧ gateW g ≠ str "pf" ∧ gateW g ≠ str "po") ∧
      (gateR g ≠ str "pi" ∧ gateR g ≠ str "pf" ∧ gateR g ≠ str "po") ∧
      (gateB g ≠ str "pi" ∧ gateB g ≠ str "pf" ∧ gateB g ≠ str "po") := by
    intro g; cases g <;> decide
  refine elim_inj (arr_inj _ _ _) (elim_inj (fam_inj _ gate_inj.1) (elim_inj (fam_inj _ gate_inj.2.1) (elim_inj (fam_inj _ gate_inj.2.2)
    (elim_inj (arr_inj _ _ _) (elim_inj (arr_inj _ _ _) (arr_inj _ _ _) (arr_ne (by decide)))
      (ne_elim (arr_ne (by decide)) (arr_ne (by decide)))) ?_) ?_) ?_) ?_
  · exact ne_elim (fam_arr fun g => Or.inr (hp g).2.2.1) (ne_elim (fam_arr fun g => Or.inr (hp g).2.2.2.1) (fam_arr fun g => Or.inr (hp g).2.2.2.2))
  · exact ne_elim (fam_ne fun g g' => Or.inr (hg g g').2.2) (ne_elim (fam_arr fun g => Or.inr (hp g).2.1.1)
      (ne_elim (fam_arr fun g => Or.inr (hp g).2.1.2.1) (fam_arr fun g => Or.inr (hp g).2.1.2.2)))
  · exact ne_elim (fam_ne fun g g' => Or.inr (hg g g').1) (ne_elim (fam_ne fun g g' => Or.inr (hg g g').2.1)
      (ne_elim (fam_arr fun g => Or.inr (hp g).1.1) (ne_elim (fam_arr fun g => Or.inr (hp g).1.2.1) (fam_arr fun g => Or.inr (hp g).1.2.2))))
  · exact ne_elim (arr_fam fun g => Or.inl (by decide)) (ne_elim (arr_fam fun g => Or.inl (by decide)) (ne_elim (arr_fam fun g => Or.inl (by decide))
      (ne_elim (arr_ne (by decide)) (ne_elim (arr_ne (by decide)) (arr_ne (by decide))))))

theorem lstm_ins {n : ℕ} {x : Struct} {outs pars ints : List (Name × Struct)} (has : Has l [(str "default", x)] outs pars ints)
    (hp : ∀ e ∈ lstmPars x.featureSize n, e ∈ pars) (hx : Seq x)
    (a : LstmI T (Fin B) (Fin x.featureSize) (Fin n)) :
    (((lstmSlots T B x.featureSize n).i a).cat = str "inputs" ∧ ∃ s, (((lstmSlots T B x.featureSize n).i a).array, s) ∈ l.inShapes ∧
      ((lstmSlots T B x.featureSize n).i a).pos < size s T B) ∨
    (((lstmSlots T B x.featureSize n).i a).cat = str "parameters" ∧ ∃ s, (((lstmSlots T B x.featureSize n).i a).array, s) ∈ l.paramShapes ∧
      ((lstmSlots T B x.featureSize n).i a).pos < size s T B) := by
  rcases a with a | ⟨g, a⟩ | ⟨g, a⟩ | ⟨g, a⟩ | a | a | a
  · exact Or.inl (arr_in _ (has.ins (_, x) (by simp)) (by rw [hx.size, mul_assoc]) a)
  · exact Or.inr ⟨rfl, mm n x.featureSize, has.pars _ (hp _ (by cases g <;> simp [lstmPars, lstmSlots, fam, gateW])),
      by rw [size_mm]; exact (mat n x.featureSize a).2⟩
  · exact Or.inr ⟨rfl, mm n n, has.pars _ (hp _ (by cases g <;> simp [lstmPars, lstmSlots, fam, gateR])),
      by rw [size_mm]; exact (mat n n a).2⟩
  · exact Or.inr ⟨rfl, vec n, has.pars _ (hp _ (by cases g <;> simp [lstmPars, lstmSlots, fam, gateB])),
      by rw [size_vec]; exact a.2⟩
  · exact Or.inr (arr_par _ (has.pars _ (hp (str "pi", mm 1 n) (by simp [lstmPars]))) (by rw [size_mm, one_mul]) a)
  · exact Or.inr (arr_par _ (has.pars _ (hp (str "pf", mm 1 n) (by simp [lstmPars]))) (by rw [size_mm, one_mul]) a)
  · exact Or.inr (arr_par _ (has.pars _ (hp (str "po", mm 1 n) (by simp [lstmPars]))) (by rw [size_mm, one_mul]) a)

theorem lstm_own {n : ℕ} {ins outs pars : List (Name × Struct)} (has : Has l ins outs pars (lstmInts n))
    (a : LstmInt × Fin T × Fin B × Fin n) :
    ((fam (str "internals") lstmName (cube T B n) a).cat = str "internals" ∧
      ∃ s, ((fam (str "internals") lstmName (cube T B n) a).array, s) ∈ l.internalShapes ∧
        (fam (str "internals") lstmName (cube T B n) a).pos < mainSize s T B ∧ s.backwardOnly = false) := by
  obtain ⟨g, a⟩ := a
  refine ⟨rfl, rec1 n, has.ints _ (by cases g <;> simp [lstmInts, fam, lstmName]), ?_, rfl⟩
  rw [main_rec1]
  exact (cube T B n a).2

theorem lstmSlots_ok {a : Act} {n : ℕ} {x : Struct}
      (has : Has l [(str "default", x)] [(str "default", rec1 n)] (lstmPars x.featureSize n) (lstmInts n)) (hx : Seq x) :
    (lstmSlots T B x.featureSize n).Ok layers data l T B (lstmLayer T a) where
  i_inj := lstm_inj _ _ _ _
  o_inj := arr_inj _ _ _
  k_inj := fam_inj _ lstmName_inj
  ins := lstm_ins has (fun e h => h) hx
  outs := arr_out (s := rec1 n) _ (by rw [has.outs]; simp) (by rw [main_rec1])
  outsAll := arr_all _ (single has.outs (by rw [main_rec1]))
  own := fun a => Or.inl (lstm_own has a)
  fixed := by
    rintro (a | a) q hq
    · exact Or.inr (Or.inr (Or.inl (tail_out (by rw [has.outs]; simp) a q hq)))
    · exact Or.inr (Or.inr (Or.inr (tail_int (has.ints (_, rec1 n) (by simp [lstmInts])) a q hq)))
  loss := not_loss rfl
  over := not_over fun _ => rfl

theorem clockworkLstmSlots_ok {a : Act} {n : ℕ} {x : Struct}
      (has : Has l [(str "default", x)] [(str "default", rec1 n)] (lstmPars x.featureSize n ++ [(str "timing", vec n)]) (lstmInts n))
      (hx : Seq x) : (clockworkLstmSlots T B x.featureSize n).Ok layers data l T B (cwLstmLayer T a) where
  i_inj := lstm_inj _ _ _ _
  o_inj := arr_inj _ _ _
  k_inj := fam_inj _ lstmName_inj
  ins := lstm_ins has (fun e h => List.mem_append_left _ h) hx
  outs := arr_out (s := rec1 n) _ (by rw [has.outs]; simp) (by rw [main_rec1])
  outsAll := arr_all _ (single has.outs (by rw [main_rec1]))
  own := fun a => Or.inl (lstm_own has a)
  fixed := by
    rintro ((a | a) | a) q hq
    · exact Or.inr (Or.inr (Or.inl (tail_out (by rw [has.outs]; simp) a q hq)))
    · exact Or.inr (Or.inr (Or.inr (tail_int (has.ints (_, rec1 n) (by simp [lstmInts])) a q hq)))
    · exact Or.inr (Or.inl (param_fixed _ (has.pars (_, vec n) (by simp)) (by rw [size_vec]) a q hq))
  loss := not_loss rfl
  over := not_over fun _ => rfl

theorem convSlots_ok {a : Act} {g : Conv.Geom} {nf : ℕ} {x y w : Struct}
      (has : Has l [(str "default", x)] [(str "default", y)] [(str "W", w), (str "bias", vec nf)] [])
      (hx : Seq x) (hy : Seq y) (ex : x.featureSize = g.H * g.W * g.C) (ey : y.featureSize = g.hc * g.wc * nf)
      (ew : size w T B = nf * g.kp) (own : OwnParams l) :
    (convSlots g (T * B) nf).Ok layers data l T B (convLayer a g (T * B) nf) where
  i_inj := elim_inj (arr_inj _ _ _) (elim_inj (arr_inj _ _ _) (arr_inj _ _ _) (arr_ne (by decide)))
    (ne_elim (arr_ne (by decide)) (arr_ne (by decide)))
  o_inj := arr_inj _ _ _
  k_inj := fun a => a.elim
  ins := by
    rintro (a | a | a)
    · exact Or.inl (arr_in _ (has.ins (_, x) (by simp)) (by rw [hx.size, ex]) a)
    · exact Or.inr (arr_par _ (has.pars (_, w) (by simp)) (by rw [ew]) a)
    · exact Or.inr (arr_par _ (has.pars (_, vec nf) (by simp)) (by rw [size_vec]) a)
  outs := arr_out (s := y) _ (by rw [has.outs]; simp) (by rw [hy.main, ey])
  outsAll := arr_all _ (single has.outs (by rw [hy.main, ey]))
  own := fun a => a.elim
  fixed := fun a => a.elim
  loss := not_loss rfl
  over := by
    rintro (a | a | a) h
    · cases h
    · exact ⟨rfl, fun o ho hk => absurd hk (own o ho)⟩
    · exact ⟨rfl, fun o ho hk => absurd hk (own o ho)⟩

theorem avgPoolSlots_ok {g : Pool.Geom} {x y : Struct} (has : Has l [(str "default", x)] [(str "default", y)] [] [])
      (hx : Seq x) (hy : Seq y) (ex : x.featureSize = g.H * g.W * g.nc) (ey : y.featureSize = g.OH * g.OW * g.nc) :
    (avgPoolSlots g (T * B)).Ok layers data l T B (avgPoolLayer g (T * B)) where
  i_inj := arr_inj _ _ _
  o_inj := arr_inj _ _ _
  k_inj := fun a => a.elim
  ins := fun a => Or.inl (arr_in _ (has.ins (_, x) (by simp)) (by rw [hx.size, ex, mul_assoc g.H]) a)
  outs := arr_out (s := y) _ (by rw [has.outs]; simp) (by rw [hy.main, ey, mul_assoc g.OH])
  outsAll := arr_all _ (single has.outs (by rw [hy.main, ey, mul_assoc g.OH]))
  own := fun a => a.elim
  fixed := fun a => a.elim
  loss := not_loss rfl
  over := not_over fun _ => rfl

theorem maxPoolSlots_ok {g : Pool.Geom} {lo : ℝ} {store : ℤ → ℝ} {load : ℝ → ℤ} {x y k : Struct}
      (has : Has l [(str "default", x)] [(str "default", y)] [] [(str "argmax", k)])
      (hx : Seq x) (hy : Seq y) (hk : Seq k) (ex : x.featureSize = g.H * g.W * g.nc) (ey : y.featureSize = g.OH * g.OW * g.nc)
      (ek : k.featureSize = g.OH * g.OW * g.nc) (hb : k.backwardOnly = false) :
    (maxPoolSlots g (T * B)).Ok layers data l T B (maxPoolLayer g lo (T * B) store load) where
  i_inj := arr_inj _ _ _
  o_inj := arr_inj _ _ _
  k_inj := arr_inj _ _ _
  ins := fun a => Or.inl (arr_in _ (has.ins (_, x) (by simp)) (by rw [hx.size, ex, mul_assoc g.H]) a)
  outs := arr_out (s := y) _ (by rw [has.outs]; simp) (by rw [hy.main, ey, mul_assoc g.OH])
  outsAll := arr_all _ (single has.outs (by rw [hy.main, ey, mul_assoc g.OH]))
  own := fun a => Or.inl (arr_int _ (has.ints (_, k) (by simp)) (by rw [hk.main, ek, mul_assoc g.OH]) hb a)
  fixed := fun a => a.elim
  loss := not_loss rfl
  over := not_over fun _ => rfl

end

end Verif.Memory
