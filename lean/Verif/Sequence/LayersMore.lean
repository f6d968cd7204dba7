import Verif.Sequence.Layers

/-!
# C78: layers with rows of several parts, images
-/

namespace Verif.Sequence

open Verif.Structure Verif.Layout Verif.Buffers Verif.Network Verif.Layers Verif.Memory Verif.EndToEnd

section
variable {layers : List LayerInfo} {data l : LayerInfo} {M : Mode} {ty : Name} {kw : Setup.Kwargs} {A : Align} {v v' : Slot → ℝ}

/-! ### Sizes -/

theorem rows_size (s : Struct) (T B : ℕ) : size s T B = rows s T B * s.featureSize := by
  have h := typeOf_le s.shape
  unfold size rows structShape
  rw [featureSize_prod]
  rcases hb : s.bufferType with _ | _ | _ | n
  · simp
  · simp
  · simp [mul_assoc]
  · exact absurd hb (by show typeOf s.shape ≠ _; omega)

theorem Align.lt_rows {s : Struct} {r r' : ℕ} (h : A.Rows s r r') : r < rows s A.T A.B ∧ r' < rows s A.T' A.B' := by
  have h2 := typeOf_le s.shape
  have s1 := A.steps
  have s2 := A.steps'
  unfold Align.Rows at h
  unfold rows
  rcases hb : s.bufferType with _ | _ | _ | n
  · rw [hb] at h; simp only at h ⊢; omega
  · rw [hb] at h; simp only at h ⊢; have := A.seq; have := A.seq'; omega
  · rw [hb] at h
    obtain ⟨t, ht, rfl, rfl⟩ := h
    exact ⟨row_lt (by omega) A.seq, row_lt (by omega) A.seq'⟩
  · exact absurd hb (by show typeOf s.shape ≠ _; omega)

theorem featureSize_snoc {s : Struct} {p : List Tok} {m : ℕ} (h : s.featureShape = p ++ [.n m]) :
    s.featureSize = (p.map Tok.size).prod * m := by
  rw [featureSize_prod, h]
  simp [Tok.size]

/-- Position `k` in a row of `Q` parts of `n` entries. -/
theorem part_of {k Q n : ℕ} (h : k < Q * n) : ∃ u < Q, ∃ i < n, k = u * n + i := by
  have hn : 0 < n := Nat.pos_of_ne_zero (by rintro rfl; simp at h)
  exact ⟨k / n, Nat.div_lt_of_lt_mul (by rw [Nat.mul_comm]; exact h), k % n, Nat.mod_lt _ hn, (Nat.div_add_mod' k n).symm⟩

theorem parts_idx (r Q n u i : ℕ) : r * (Q * n) + (u * n + i) = (r * Q + u) * n + i := by ring

/-! ### Merge -/

theorem merge_row {T B R m n Q : ℕ} {z : Struct} (hz : size z T B = R * (m + n)) (fz : z.featureSize = Q * (m + n)) {r u : ℕ}
    (hr : r < rows z T B) (hu : u < Q) (hp : 0 < m + n) : r * Q + u < R := by
  rw [rows_size, fz, ← Nat.mul_assoc] at hz
  rw [← Nat.eq_of_mul_eq_mul_right hp hz]
  exact row_lt hr hu

theorem merge_same {R R' m n m' n' : ℕ} {x y z x' y' z' : Struct} {has has' hx hy hz hc hx' hy' hz' hc'} {rnd rnd' : ℕ → ℝ}
    (nd : (l.inShapes.map Prod.fst).Nodup)
    (C : (LibLayer.merge (layers := layers) (data := data) (l := l) (T := A.T) (B := A.B) R m n x y z has hx hy hz hc).Computes (read v) rnd)
    (C' : (LibLayer.merge (layers := layers) (data := data) (l := l) (T := A.T') (B := A.B') R' m' n' x' y' z' has' hx' hy' hz' hc').Computes
      (read v') rnd')
    (d : Describes M ty kw (LibLayer.merge (layers := layers) (data := data) (l := l) (T := A.T) (B := A.B) R m n x y z has hx hy hz hc))
    (d' : Describes M ty kw
      (LibLayer.merge (layers := layers) (data := data) (l := l) (T := A.T') (B := A.B') R' m' n' x' y' z' has' hx' hy' hz' hc'))
    (H : Reads A l v v') : A.Same z (read v "outputs" "default") (read v' "outputs" "default") := by
  obtain rfl := one_struct has.outs has'.outs
  obtain rfl := same_struct nd (has.ins (str "inputs_1", x) (by simp)) (has'.ins (str "inputs_1", x') (by simp))
  obtain rfl := same_struct nd (has.ins (str "inputs_2", y) (by simp)) (has'.ins (str "inputs_2", y') (by simp))
  obtain ⟨-, bx, by', p, h1, h2, h3⟩ := d
  obtain ⟨-, -, -, p', g1, g2, g3⟩ := d'
  have e1 := h1.symm.trans g1
  have e2 := h2.symm.trans g2
  obtain ⟨rfl, e3⟩ := List.append_inj' e1 rfl
  obtain ⟨-, e4⟩ := List.append_inj' e2 rfl
  simp only [List.cons.injEq, Tok.n.injEq, and_true] at e3 e4
  subst e3 e4
  have f1 := featureSize_snoc h1
  have f2 := featureSize_snoc h2
  have f3 := featureSize_snoc h3
  generalize (p.map Tok.size).prod = Q at f1 f2 f3
  intro r r' hr k hk
  have hr2 := Align.lt_rows hr
  rw [f3] at hk ⊢
  obtain ⟨u, hu, i, hi, rfl⟩ := part_of hk
  rw [parts_idx, parts_idx]
  have c := C ⟨_, merge_row hz f3 hr2.1 hu (by omega)⟩
  have c' := C' ⟨_, merge_row hz' f3 hr2.2 hu (by omega)⟩
  by_cases him : i < m
  · have := H.inp (has.ins (str "inputs_1", x) (by simp)) bx.symm hr (k := u * m + i) (by rw [f1]; exact pos_lt hu him)
    rw [f1, parts_idx, parts_idx] at this
    exact (c.1 ⟨i, him⟩).trans (this.trans (c'.1 ⟨i, him⟩).symm)
  · have hin : i - m < n := by omega
    have := H.inp (has.ins (str "inputs_2", y) (by simp)) by'.symm hr (k := u * n + (i - m)) (by rw [f2]; exact pos_lt hu hin)
    rw [f2, parts_idx, parts_idx] at this
    have q := (c.2 ⟨i - m, hin⟩).trans (this.trans (c'.2 ⟨i - m, hin⟩).symm)
    rw [show m + (i - m) = i by omega] at q
    exact q

/-! ### Mask -/

/-- A row of a masked array. -/
def MaskRow (T B : ℕ) (x k : Struct) (e : String → String → ℕ → ℝ) : Prop :=
  ∀ r < T * B, ∀ j < x.featureSize, e "outputs" "default" (r * x.featureSize + j) =
    e "inputs" "default" (r * x.featureSize + j) * e "inputs" "mask" (r * k.featureSize + j / (x.featureSize / k.featureSize)) ∧
    j / (x.featureSize / k.featureSize) < k.featureSize

theorem mask_row {T B R n : ℕ} {x k : Struct} {has hx hxs hks hdata} {rnd : ℕ → ℝ} {e : String → String → ℕ → ℝ} (hk : Seq k)
    (C : (LibLayer.mask (layers := layers) (data := data) (l := l) (T := T) (B := B) R n x k has hx hxs hks hdata).Computes e rnd) :
    MaskRow T B x k e := by
  intro r hr j hj
  rw [hk.size] at hks
  rw [hx.size] at hxs
  have hTB : 0 < T * B := by omega
  have f : x.featureSize = k.featureSize * n := by
    rw [← hks, Nat.mul_assoc _ _ n] at hxs
    exact Nat.eq_of_mul_eq_mul_left hTB hxs
  rw [f] at hj
  obtain ⟨u, hu, i, hi, rfl⟩ := part_of hj
  have hq : x.featureSize / k.featureSize = n := by rw [f]; exact Nat.mul_div_cancel_left _ (by omega)
  have hd : (u * n + i) / n = u := by
    rw [Nat.add_comm, Nat.add_mul_div_right _ _ (by omega), Nat.div_eq_of_lt hi, Nat.zero_add]
  rw [hq, hd]
  refine ⟨?_, hu⟩
  rw [f, parts_idx]
  exact C ⟨r * k.featureSize + u, by rw [← hks]; exact row_lt hr hu⟩ ⟨i, hi⟩

theorem maskFull_row {T B : ℕ} {x k : Struct} {has hx hk ek hdata} {rnd : ℕ → ℝ} {e : String → String → ℕ → ℝ}
    (C : (LibLayer.maskFull (layers := layers) (data := data) (l := l) (T := T) (B := B) x k has hx hk ek hdata).Computes e rnd) :
    MaskRow T B x k e := by
  intro r hr j hj
  rw [ek, Nat.div_self (by omega), Nat.div_one]
  exact ⟨C _ (pos_lt hr hj), hj⟩

theorem mask_same {x k : Struct} (hx : Seq x) (hk : Seq k) (mx : (str "default", x) ∈ l.inShapes) (mk : (str "mask", k) ∈ l.inShapes)
    (C : MaskRow A.T A.B x k (read v)) (C' : MaskRow A.T' A.B' x k (read v')) (H : Reads A l v v') :
    A.Same x (read v "outputs" "default") (read v' "outputs" "default") := by
  intro r r' hr j hj
  have hr2 := Align.lt hx.1 hr
  obtain ⟨c, cl⟩ := C r hr2.1 j hj
  obtain ⟨c', -⟩ := C' r' hr2.2 j hj
  rw [c, c', H.inp mx rfl hr hj, H.inp mk (hx.1.trans hk.1.symm) hr cl]

/-! ### SoftmaxCE -/

theorem dec_eq {n : ℕ} {dec dec' : ℝ → Fin n} (h : (∀ j : Fin n, dec (j : ℕ) = j) ∧ ∀ r : ℝ, (∀ j : Fin n, r ≠ (j : ℕ)) → (dec r : ℕ) = 0)
    (h' : (∀ j : Fin n, dec' (j : ℕ) = j) ∧ ∀ r : ℝ, (∀ j : Fin n, r ≠ (j : ℕ)) → (dec' r : ℕ) = 0) : dec = dec' := by
  funext r
  by_cases hr : ∃ j : Fin n, r = (j : ℕ)
  · obtain ⟨j, rfl⟩ := hr
    rw [h.1, h'.1]
  · push Not at hr
    exact Fin.ext ((h.2 r hr).trans (h'.2 r hr).symm)

theorem softmax_same {R R' n n' : ℕ} {dec : ℝ → Fin n} {dec' : ℝ → Fin n'} {x t p z x' t' p' z' : Struct}
    {has hx ht hp hz sx st sp sz hdata loose has' hx' ht' hp' hz' sx' st' sp' sz' hdata' loose'} {rnd rnd' : ℕ → ℝ}
    (nd : (l.inShapes.map Prod.fst).Nodup)
    (C : (LibLayer.softmaxCE (layers := layers) (data := data) (l := l) (T := A.T) (B := A.B) R n dec x t p z has hx ht hp hz sx st sp sz
      hdata loose).Computes (read v) rnd)
    (C' : (LibLayer.softmaxCE (layers := layers) (data := data) (l := l) (T := A.T') (B := A.B') R' n' dec' x' t' p' z' has' hx' ht' hp'
      hz' sx' st' sp' sz' hdata' loose').Computes (read v') rnd')
    (d : Describes M ty kw (LibLayer.softmaxCE (layers := layers) (data := data) (l := l) (T := A.T) (B := A.B) R n dec x t p z has hx ht
      hp hz sx st sp sz hdata loose))
    (d' : Describes M ty kw (LibLayer.softmaxCE (layers := layers) (data := data) (l := l) (T := A.T') (B := A.B') R' n' dec' x' t' p' z'
      has' hx' ht' hp' hz' sx' st' sp' sz' hdata' loose'))
    (H : Reads A l v v') : A.Same p (read v "outputs" "predictions") (read v' "outputs" "predictions") ∧
      A.Same z (read v "outputs" "loss") (read v' "outputs" "loss") := by
  obtain ⟨rfl, rfl⟩ := two_structs has.outs has'.outs
  obtain rfl := same_struct nd (has.ins (str "default", x) (by simp)) (has'.ins (str "default", x') (by simp))
  obtain rfl := same_struct nd (has.ins (str "targets", t) (by simp)) (has'.ins (str "targets", t') (by simp))
  obtain ⟨-, h1, h2⟩ := d
  obtain ⟨-, g1, g2⟩ := d'
  have en : n = n' := by simpa using h1.symm.trans g1
  subst en
  obtain rfl := dec_eq h2 g2
  have hn : 0 < n := by have := (dec 0).2; omega
  -- the rows of the arrays have as many parts as the targets have entries
  have sizes : ∀ {T B R : ℕ}, 0 < T * B → size x T B = R * n → size t T B = R → size p T B = R * n → size z T B = R →
      R = T * B * t.featureSize ∧ x.featureSize = t.featureSize * n ∧ p.featureSize = t.featureSize * n ∧ z.featureSize = t.featureSize := by
    intro T B R hTB a1 a2 a3 a4
    rw [hx.size] at a1
    rw [ht.size] at a2
    rw [hp.size] at a3
    rw [hz.size] at a4
    subst a2
    rw [Nat.mul_assoc _ _ n] at a1 a3
    exact ⟨rfl, Nat.eq_of_mul_eq_mul_left hTB a1, Nat.eq_of_mul_eq_mul_left hTB a3, Nat.eq_of_mul_eq_mul_left hTB a4⟩
  have key : ∀ r r', A.Rows x r r' → ∀ u < t.featureSize,
      (∀ k < n, read v "outputs" "predictions" ((r * t.featureSize + u) * n + k) =
        read v' "outputs" "predictions" ((r' * t.featureSize + u) * n + k)) ∧
      read v "outputs" "loss" (r * t.featureSize + u) = read v' "outputs" "loss" (r' * t.featureSize + u) := by
    intro r r' hr u hu
    have hr2 := Align.lt hx.1 hr
    obtain ⟨q, fx, -⟩ := sizes (by omega) sx st sp sz
    obtain ⟨q', -⟩ := sizes (by omega) sx' st' sp' sz'
    have c := C ⟨r * t.featureSize + u, by rw [q]; exact row_lt hr2.1 hu⟩
    have c' := C' ⟨r' * t.featureSize + u, by rw [q']; exact row_lt hr2.2 hu⟩
    have ex : ∀ j : Fin n, read v "inputs" "default" ((r * t.featureSize + u) * n + j) =
        read v' "inputs" "default" ((r' * t.featureSize + u) * n + j) := by
      intro j
      have := H.inp (has.ins (str "default", x) (by simp)) rfl hr (k := u * n + j) (by rw [fx]; exact pos_lt hu j.2)
      rw [fx, parts_idx, parts_idx] at this
      exact this
    have et : read v "inputs" "targets" (r * t.featureSize + u) = read v' "inputs" "targets" (r' * t.featureSize + u) :=
      H.inp (has.ins (str "targets", t) (by simp)) (hx.1.trans ht.1.symm) hr hu
    simp only at c c'
    simp only [ex, et] at c
    exact ⟨fun k hk => (c.1 ⟨k, hk⟩).trans (c'.1 ⟨k, hk⟩).symm, c.2.trans c'.2.symm⟩
  constructor
  · intro r r' hr k hk
    have hr2 := Align.lt hp.1 hr
    obtain ⟨-, -, fp, -⟩ := sizes (by omega) sx st sp sz
    rw [fp] at hk ⊢
    obtain ⟨u, hu, i, hi, rfl⟩ := part_of hk
    rw [parts_idx, parts_idx]
    exact (key r r' (Align.rows_congr (hp.1.trans hx.1.symm) hr) u hu).1 i hi
  · intro r r' hr k hk
    have hr2 := Align.lt hz.1 hr
    obtain ⟨-, -, -, fz⟩ := sizes (by omega) sx st sp sz
    rw [fz] at hk ⊢
    exact (key r r' (Align.rows_congr (hz.1.trans hx.1.symm) hr) k hk).2

/-! ### BinomialCrossEntropy -/

theorem binomial_row {ρ φ : Type} [Fintype φ] (y t cee : Layers.M ρ φ) (s : Layers.V ρ) (r : ρ) :
    (binomialCEForward y t cee s).2 r = -1 * ∑ k, ((1 - t r k) * Real.log (min (max (1 - y r k) 1e-6) 1) +
      t r k * Real.log (min (max (y r k) 1e-6) 1)) := rfl

theorem binomial_same {x t z c x' t' z' c' : Struct} {has hx ht hz hc et ez ec hb hdata has' hx' ht' hz' hc' et' ez' ec' hb' hdata'}
    {rnd rnd' : ℕ → ℝ} (nd : (l.inShapes.map Prod.fst).Nodup)
    (C : (LibLayer.binomialCE (layers := layers) (data := data) (l := l) (T := A.T) (B := A.B) x t z c has hx ht hz hc et ez ec hb
      hdata).placed.Holds v rnd)
    (C' : (LibLayer.binomialCE (layers := layers) (data := data) (l := l) (T := A.T') (B := A.B') x' t' z' c' has' hx' ht' hz' hc' et' ez'
      ec' hb' hdata').placed.Holds v' rnd')
    (H : Reads A l v v') : A.Same z (read v "outputs" "default") (read v' "outputs" "default") := by
  obtain rfl := one_struct has.outs has'.outs
  obtain rfl := same_struct nd (has.ins (str "default", x) (by simp)) (has'.ins (str "default", x') (by simp))
  obtain rfl := same_struct nd (has.ins (str "targets", t) (by simp)) (has'.ins (str "targets", t') (by simp))
  obtain ⟨o, k, h1, -⟩ := C
  obtain ⟨o', k', h1', -⟩ := C'
  intro r r' hr j hj
  have hr2 := Align.lt hz.1 hr
  rw [ez] at hj ⊢
  obtain rfl : j = 0 := by omega
  rw [Nat.mul_one, Nat.mul_one, Nat.add_zero, Nat.add_zero]
  refine (h1 ⟨r, hr2.1⟩).trans (Eq.trans ?_ (h1' ⟨r', hr2.2⟩).symm)
  refine (binomial_row _ _ _ _ _).trans (Eq.trans ?_ (binomial_row _ _ _ _ _).symm)
  congr 1
  refine Finset.sum_congr rfl fun i _ => ?_
  have e1 : mt (fun a => v (inArr "default" (mat (A.T * A.B) x.featureSize) a)) ⟨r, hr2.1⟩ i =
      mt (fun a => v' (inArr "default" (mat (A.T' * A.B') x.featureSize) a)) ⟨r', hr2.2⟩ i := by
    refine (read_mat v "inputs" "default" (⟨r, hr2.1⟩ : Fin (A.T * A.B)) i).trans
      (Eq.trans ?_ (read_mat v' "inputs" "default" (⟨r', hr2.2⟩ : Fin (A.T' * A.B')) i).symm)
    exact H.inp (has.ins (str "default", x) (by simp)) (hz.1.trans hx.1.symm) hr i.2
  have e2 : mt (fun a => v (inArr "targets" (mat (A.T * A.B) x.featureSize) a)) ⟨r, hr2.1⟩ i =
      mt (fun a => v' (inArr "targets" (mat (A.T' * A.B') x.featureSize) a)) ⟨r', hr2.2⟩ i := by
    refine (read_mat v "inputs" "targets" (⟨r, hr2.1⟩ : Fin (A.T * A.B)) i).trans
      (Eq.trans ?_ (read_mat v' "inputs" "targets" (⟨r', hr2.2⟩ : Fin (A.T' * A.B')) i).symm)
    have := H.inp (has.ins (str "targets", t) (by simp)) (hz.1.trans ht.1.symm) hr (k := i) (by rw [et]; exact i.2)
    rw [et] at this
    exact this
  exact congrArg₂ (fun y t : ℝ => (1 - t) * Real.log (min (max (1 - y) 1e-6) 1) + t * Real.log (min (max y 1e-6) 1)) e1 e2

/-! ### Pooling2D -/

theorem pool_geom {x y : Struct} {b : Bool} {g g' : Pool.Geom} (h : PoolArgs kw x y g b) (h' : PoolArgs kw x y g' b) :
    g' = { g with c := g'.c } := by
  obtain ⟨H, W, nc, c, KH, KW, p, sy, sx, OH, OW⟩ := g
  obtain ⟨H', W', nc', c', KH', KW', p', sy', sx', OH', OW'⟩ := g'
  have e1 := h.image.symm.trans h'.image
  have e2 := h.outputs.symm.trans h'.outputs
  have e3 := h.kernel.symm.trans h'.kernel
  have e4 := h.stride.symm.trans h'.stride
  have e5 := h.padding.symm.trans h'.padding
  simp only [List.cons.injEq, Tok.n.injEq, Option.some.injEq, Prod.mk.injEq, and_true] at e1 e2 e3 e4 e5
  obtain ⟨rfl, rfl, rfl⟩ := e1
  obtain ⟨rfl, rfl, -⟩ := e2
  obtain ⟨rfl, rfl⟩ := e3
  obtain ⟨rfl, rfl⟩ := e4
  subst e5
  rfl

theorem pixels_lt {h w c y u k : ℕ} (hy : y < h) (hu : u < w) (hk : k < c) : y * (w * c) + (u * c + k) < h * w * c := by
  rw [Nat.mul_assoc]
  exact pos_lt hy (pos_lt hu hk)

theorem pixel_of {h w c j : ℕ} (hj : j < h * w * c) : ∃ y < h, ∃ u < w, ∃ k < c, j = y * (w * c) + (u * c + k) := by
  rw [Nat.mul_assoc] at hj
  obtain ⟨y, hy, i, hi, rfl⟩ := part_of hj
  obtain ⟨u, hu, k, hk, rfl⟩ := part_of hi
  exact ⟨y, hy, u, hu, k, hk, rfl⟩

theorem plane_same {x s : Struct} {h w c N N' : ℕ} (hx : Seq x) (ex : x.featureSize = h * w * c) (mx : (str "default", x) ∈ l.inShapes)
    (hs : s.bufferType = 2) (H : Reads A l v v') {r r' : ℕ} (hr : A.Rows s r r') (hN : r < N) (hN' : r' < N') (k : Fin c) :
    plane (fun q => v (inArr "default" (pixels N h w c) q)) ⟨r, hN⟩ k = plane (fun q => v' (inArr "default" (pixels N' h w c) q)) ⟨r', hN'⟩ k := by
  funext y u
  unfold plane
  split
  · rename_i hh
    refine (read_pixels v "inputs" "default" (⟨r, hN⟩ : Fin N) (⟨y, hh.1⟩ : Fin h) (⟨u, hh.2⟩ : Fin w) k).trans
      (Eq.trans ?_ (read_pixels v' "inputs" "default" (⟨r', hN'⟩ : Fin N') (⟨y, hh.1⟩ : Fin h) (⟨u, hh.2⟩ : Fin w) k).symm)
    have := H.inp mx (hs.trans hx.1.symm) hr (k := y * (w * c) + (u * c + k)) (by rw [ex]; exact pixels_lt hh.1 hh.2 k.2)
    rw [ex, Nat.mul_assoc] at this
    exact this
  · rfl

theorem avg_same {g g' : Pool.Geom} {x y x' y' : Struct} {has hx hy ex ey has' hx' hy' ex' ey'} {rnd rnd' : ℕ → ℝ}
    (nd : (l.inShapes.map Prod.fst).Nodup)
    (C : (LibLayer.avgPooling2D (layers := layers) (data := data) (l := l) (T := A.T) (B := A.B) g x y has hx hy ex ey).placed.Holds v rnd)
    (C' : (LibLayer.avgPooling2D (layers := layers) (data := data) (l := l) (T := A.T') (B := A.B') g' x' y' has' hx' hy' ex'
      ey').placed.Holds v' rnd')
    (d : Describes M ty kw (LibLayer.avgPooling2D (layers := layers) (data := data) (l := l) (T := A.T) (B := A.B) g x y has hx hy ex ey))
    (d' : Describes M ty kw (LibLayer.avgPooling2D (layers := layers) (data := data) (l := l) (T := A.T') (B := A.B') g' x' y' has' hx' hy'
      ex' ey')) (H : Reads A l v v') : A.Same y (read v "outputs" "default") (read v' "outputs" "default") := by
  obtain rfl := one_struct has.outs has'.outs
  obtain rfl := same_struct nd (has.ins (str "default", x) (by simp)) (has'.ins (str "default", x') (by simp))
  obtain ⟨c', rfl⟩ : ∃ c', g' = { g with c := c' } := ⟨_, pool_geom d.2 d'.2⟩
  obtain ⟨o, k, h1, -⟩ := C
  obtain ⟨o', k', h1', -⟩ := C'
  intro r r' hr j hj
  have hr2 := Align.lt hy.1 hr
  rw [ey] at hj ⊢
  obtain ⟨y1, hy1, u, hu, c, hc, rfl⟩ := pixel_of hj
  rw [Nat.mul_assoc]
  have e := (read_pixels v "outputs" "default" (⟨r, hr2.1⟩ : Fin (A.T * A.B)) (⟨y1, hy1⟩ : Fin g.OH) (⟨u, hu⟩ : Fin g.OW)
    (⟨c, hc⟩ : Fin g.nc)).symm.trans (h1 (⟨r, hr2.1⟩, ⟨y1, hy1⟩, ⟨u, hu⟩, ⟨c, hc⟩))
  have e' := (read_pixels v' "outputs" "default" (⟨r', hr2.2⟩ : Fin (A.T' * A.B')) (⟨y1, hy1⟩ : Fin g.OH) (⟨u, hu⟩ : Fin g.OW)
    (⟨c, hc⟩ : Fin g.nc)).symm.trans (h1' (⟨r', hr2.2⟩, ⟨y1, hy1⟩, ⟨u, hu⟩, ⟨c, hc⟩))
  refine e.trans (Eq.trans ?_ e'.symm)
  show Pool.avgCell (chan g ⟨c, hc⟩) (plane (fun q => v (inArr "default" (pixels (A.T * A.B) g.H g.W g.nc) q)) ⟨r, hr2.1⟩ ⟨c, hc⟩) y1 u =
    Pool.avgCell (chan g ⟨c, hc⟩) (plane (fun q => v' (inArr "default" (pixels (A.T' * A.B') g.H g.W g.nc) q)) ⟨r', hr2.2⟩ ⟨c, hc⟩) y1 u
  rw [plane_same hx ex (has.ins (str "default", x) (by simp)) hy.1 H hr]

theorem max_same {g g' : Pool.Geom} {lo lo' : ℝ} {store store' : ℤ → ℝ} {load load' : ℝ → ℤ} {x y i x' y' i' : Struct}
    {has hx hy hk ex ey ek hb has' hx' hy' hk' ex' ey' ek' hb'} {rnd rnd' : ℕ → ℝ} (nd : (l.inShapes.map Prod.fst).Nodup)
    (C : (LibLayer.maxPooling2D (layers := layers) (data := data) (l := l) (T := A.T) (B := A.B) g lo store load x y i has hx hy hk ex ey ek
      hb).placed.Holds v rnd)
    (C' : (LibLayer.maxPooling2D (layers := layers) (data := data) (l := l) (T := A.T') (B := A.B') g' lo' store' load' x' y' i' has' hx' hy'
      hk' ex' ey' ek' hb').placed.Holds v' rnd')
    (d : Describes M ty kw (LibLayer.maxPooling2D (layers := layers) (data := data) (l := l) (T := A.T) (B := A.B) g lo store load x y i has
      hx hy hk ex ey ek hb))
    (d' : Describes M ty kw (LibLayer.maxPooling2D (layers := layers) (data := data) (l := l) (T := A.T') (B := A.B') g' lo' store' load' x'
      y' i' has' hx' hy' hk' ex' ey' ek' hb')) (H : Reads A l v v') :
    A.Same y (read v "outputs" "default") (read v' "outputs" "default") := by
  obtain rfl := one_struct has.outs has'.outs
  obtain rfl := same_struct nd (has.ins (str "default", x) (by simp)) (has'.ins (str "default", x') (by simp))
  obtain ⟨c', rfl⟩ : ∃ c', g' = { g with c := c' } := ⟨_, pool_geom d.2.1 d'.2.1⟩
  obtain rfl : lo = lo' := d.2.2.1.trans d'.2.2.1.symm
  obtain ⟨o, k, h1, -⟩ := C
  obtain ⟨o', k', h1', -⟩ := C'
  intro r r' hr j hj
  have hr2 := Align.lt hy.1 hr
  rw [ey] at hj ⊢
  obtain ⟨y1, hy1, u, hu, c, hc, rfl⟩ := pixel_of hj
  rw [Nat.mul_assoc]
  have e := (read_pixels v "outputs" "default" (⟨r, hr2.1⟩ : Fin (A.T * A.B)) (⟨y1, hy1⟩ : Fin g.OH) (⟨u, hu⟩ : Fin g.OW)
    (⟨c, hc⟩ : Fin g.nc)).symm.trans (h1 (⟨r, hr2.1⟩, ⟨y1, hy1⟩, ⟨u, hu⟩, ⟨c, hc⟩))
  have e' := (read_pixels v' "outputs" "default" (⟨r', hr2.2⟩ : Fin (A.T' * A.B')) (⟨y1, hy1⟩ : Fin g.OH) (⟨u, hu⟩ : Fin g.OW)
    (⟨c, hc⟩ : Fin g.nc)).symm.trans (h1' (⟨r', hr2.2⟩, ⟨y1, hy1⟩, ⟨u, hu⟩, ⟨c, hc⟩))
  refine e.trans (Eq.trans ?_ e'.symm)
  show (Pool.maxCell (chan g ⟨c, hc⟩) lo (plane (fun q => v (inArr "default" (pixels (A.T * A.B) g.H g.W g.nc) q)) ⟨r, hr2.1⟩ ⟨c, hc⟩)
      y1 u).1 =
    (Pool.maxCell (chan g ⟨c, hc⟩) lo (plane (fun q => v' (inArr "default" (pixels (A.T' * A.B') g.H g.W g.nc) q)) ⟨r', hr2.2⟩ ⟨c, hc⟩)
      y1 u).1
  rw [plane_same hx ex (has.ins (str "default", x) (by simp)) hy.1 H hr]

/-! ### Convolution2D -/

theorem conv_geom {x : Struct} {g g' : Conv.Geom} {nf nf' : ℕ} (h : ConvArgs kw x g nf) (h' : ConvArgs kw x g' nf') : g = g' ∧ nf = nf' := by
  obtain ⟨H, W, C, KH, KW, pt, pl, pb, pr, sh, sw⟩ := g
  obtain ⟨H', W', C', KH', KW', pt', pl', pb', pr', sh', sw'⟩ := g'
  have e1 := h.image.symm.trans h'.image
  have e2 := h.filters.symm.trans h'.filters
  have e3 := h.kernel.symm.trans h'.kernel
  have e4 := h.stride.symm.trans h'.stride
  have e5 := h.top.symm.trans h'.top
  have e6 := h.bottom.symm.trans h'.bottom
  have e7 := h.left.symm.trans h'.left
  have e8 := h.right.symm.trans h'.right
  simp only [List.cons.injEq, Tok.n.injEq, Option.some.injEq, Prod.mk.injEq, and_true] at e1 e2 e3 e4 e5 e6 e7 e8
  obtain ⟨rfl, rfl, rfl⟩ := e1
  obtain ⟨rfl, rfl⟩ := e3
  obtain ⟨rfl, rfl⟩ := e4
  subst e2 e5 e6 e7 e8
  exact ⟨rfl, rfl⟩

theorem conv_same {a a' : Act} {g g' : Conv.Geom} {hs : g.sh ≠ 0 ∧ g.sw ≠ 0} {hs' : g'.sh ≠ 0 ∧ g'.sw ≠ 0} {nf nf' : ℕ}
    {x y w x' y' w' : Struct} {has hx hy ex ey ew own has' hx' hy' ex' ey' ew' own'} {rnd rnd' : ℕ → ℝ}
    (nd : (l.inShapes.map Prod.fst).Nodup) (hp : ∀ e ∈ l.paramShapes, e.2.bufferType = 0)
    (C : (LibLayer.convolution2D (layers := layers) (data := data) (l := l) (T := A.T) (B := A.B) a g hs nf x y w has hx hy ex ey ew
      own).Computes (read v) rnd)
    (C' : (LibLayer.convolution2D (layers := layers) (data := data) (l := l) (T := A.T') (B := A.B') a' g' hs' nf' x' y' w' has' hx' hy' ex'
      ey' ew' own').Computes (read v') rnd')
    (d : Describes M ty kw (LibLayer.convolution2D (layers := layers) (data := data) (l := l) (T := A.T) (B := A.B) a g hs nf x y w has hx
      hy ex ey ew own))
    (d' : Describes M ty kw (LibLayer.convolution2D (layers := layers) (data := data) (l := l) (T := A.T') (B := A.B') a' g' hs' nf' x' y'
      w' has' hx' hy' ex' ey' ew' own')) (H : Reads A l v v') : A.Same y (read v "outputs" "default") (read v' "outputs" "default") := by
  obtain rfl := one_struct has.outs has'.outs
  obtain rfl := same_struct nd (has.ins (str "default", x) (by simp)) (has'.ins (str "default", x') (by simp))
  obtain ⟨rfl, rfl⟩ := conv_geom d.2.2 d'.2.2
  obtain rfl := act_inj d.2.1 d'.2.1
  have hw : w.featureSize = nf * g.kp := by
    rw [← size_feat (hp _ (has.pars (str "W", w) (by simp))) A.T A.B]
    exact ew
  intro r r' hr j hj
  have hr2 := Align.lt hy.1 hr
  rw [ey] at hj ⊢
  obtain ⟨p, hp1, f, hf, rfl⟩ := part_of hj
  obtain ⟨h, hh, u, hu, rfl⟩ := part_of hp1
  refine (C ⟨r, hr2.1⟩ ⟨h, hh⟩ ⟨u, hu⟩ ⟨f, hf⟩).trans (Eq.trans ?_ (C' ⟨r', hr2.2⟩ ⟨h, hh⟩ ⟨u, hu⟩ ⟨f, hf⟩).symm)
  congr 1
  congr 1
  · refine Finset.sum_congr rfl fun kh _ => Finset.sum_congr rfl fun kw _ => Finset.sum_congr rfl fun c _ => ?_
    congr 1
    · refine H.pars _ _ (has.pars (str "W", w) (by simp)) _ ?_
      rw [hw]
      have : f * (g.KH * g.KW * g.C) + (((kh : ℕ) * g.KW + kw) * g.C + c) < nf * (g.KH * g.KW * g.C) :=
        pos_lt hf (pos_lt (pos_lt kh.2 kw.2) c.2)
      show ((f * g.KH + kh) * g.KW + kw) * g.C + c < nf * g.kp
      calc ((f * g.KH + kh) * g.KW + kw) * g.C + c = f * (g.KH * g.KW * g.C) + (((kh : ℕ) * g.KW + kw) * g.C + c) := by ring
        _ < _ := this
    · unfold padded
      split
      · rename_i hb
        simp only at hb
        have := H.inp (has.ins (str "default", x) (by simp)) (hy.1.trans hx.1.symm) hr
          (k := ((((h : ℕ) : ℤ) * g.sh - g.pt + (kh : ℕ)).toNat * g.W + (((u : ℕ) : ℤ) * g.sw - g.pl + (kw : ℕ)).toNat) * g.C + c)
          (by rw [ex]; exact pos_lt (pos_lt (by omega) (by omega)) c.2)
        rw [ex] at this
        exact this
      · rfl
  · exact H.vec (has.pars (str "bias", vec nf) (by simp)) ⟨f, hf⟩

end

end Verif.Sequence
