import Verif.Buffers.NetworkProps

/-!
# Handing over the context (C19, memory level)

`get_context` after one forward pass and `apply_context` before the next: the context steps of every array
hold what its last steps held.
-/

namespace Verif.Buffers

open Verif.Structure Verif.Layout

variable {V : Type} [Zero V]

/-- The value at step `t`, sequence `b`, feature `f` of an array with `B` sequences and `w` features in row-major order. -/
def entry (R : List V) (B w t b f : Nat) : Option V := R[(t * B + b) * w + f]?

theorem getElem?_flatMap_range {α : Type} (F : Nat → List α) (n : Nat) (hF : ∀ t, (F t).length = n) :
    ∀ (a t r : Nat), t < a → r < n → ((List.range a).flatMap F)[t * n + r]? = (F t)[r]?
  | 0, t, r, ht, _ => by omega
  | a + 1, t, r, ht, hr => by
    rw [List.range_succ, List.flatMap_append]
    have hlen : ((List.range a).flatMap F).length = a * n := by
      rw [length_flatMap_const _ _ n hF, List.length_range]
    by_cases h : t < a
    · have : (t + 1) * n ≤ a * n := Nat.mul_le_mul_right _ h
      have e : (t + 1) * n = t * n + n := by ring
      rw [List.getElem?_append_left (by rw [hlen]; omega)]
      exact getElem?_flatMap_range F n hF a t r h hr
    · have : t = a := by omega
      subst this
      rw [List.getElem?_append_right (by rw [hlen]; omega), hlen]
      simp

theorem getElem?_rows {α : Type} (g : Nat → Nat → Nat → α) (R B w t b f : Nat) (ht : t < R) (hb : b < B) (hf : f < w) :
    ((List.range R).flatMap (fun t => (List.range B).flatMap (fun b => (List.range w).map (g t b))))[(t * B + b) * w + f]? =
      some (g t b f) := by
  have e : (t * B + b) * w + f = t * (B * w) + (b * w + f) := by ring
  have hr : b * w + f < B * w := by
    have : (b + 1) * w ≤ B * w := Nat.mul_le_mul_right _ hb
    have e : (b + 1) * w = b * w + w := by ring
    omega
  rw [e, getElem?_flatMap_range _ (B * w) (fun t => by
      rw [length_flatMap_const _ _ w (fun b => by simp), List.length_range]) R t _ ht hr,
    getElem?_flatMap_range _ w (fun b => by simp) B b f hb hf]
  simp [hf]

theorem cellsOf_rows (base R B N a z : Nat) (hz : z ≤ R) :
    cellsOf base [R, B, N] [(a, z)] = (List.range (z - a)).flatMap (fun i => (List.range B).flatMap (fun b =>
      (List.range N).map (fun f => base + (a + i) * (B * N) + b * N + f))) := by
  rw [cellsOf]
  simp only [Nat.min_eq_left hz, List.prod_cons, List.prod_nil, Nat.mul_one]
  congr 1
  funext i
  rw [cellsOf]
  simp only [List.prod_cons, List.prod_nil, Nat.mul_one]
  congr 1
  funext b
  rw [cellsOf]
  simp only [List.prod_nil, Nat.mul_one, cellsOf]
  induction List.range N with
  | nil => rfl
  | cons x l ih => simp [ih]

theorem mapM_get {α β : Type} (f : α → Option β) : ∀ (l : List α) (r : List β), l.mapM f = some r →
    ∀ (k : Nat) (x : α), l[k]? = some x → ∃ y, f x = some y ∧ r[k]? = some y
  | [], r, _, k, x, hx => by simp at hx
  | a :: l, r, h, k, x, hx => by
    rw [List.mapM_cons] at h
    cases ha : f a with
    | none => simp [ha] at h
    | some y =>
      cases hl : l.mapM f with
      | none => simp [ha, hl] at h
      | some ys =>
        simp only [ha, hl, Option.pure_def, Option.bind_eq_bind, Option.bind_some, Option.some.injEq] at h
        subst h
        cases k with
        | zero => simp only [List.getElem?_cons_zero, Option.some.injEq] at hx; subst hx; exact ⟨y, ha, rfl⟩
        | succ k => exact mapM_get f l ys hl k x (by simpa using hx)

theorem map_snd_zip_sublist {α β : Type} : ∀ (l : List α) (r : List β), ((l.zip r).map (fun x => x.2)).Sublist r
  | [], r => by simp
  | _ :: _, [] => by simp
  | _ :: l, b :: r => by simpa using map_snd_zip_sublist l r

/-- What the loop of `apply_context` does. -/
theorem applyLoop_spec (net : Net) (T B : Nat) : ∀ (l : List (Option (List V) × HubInfo × Nat)) (m m' : List V),
    (∀ x ∈ l, ∃ h : x.2.2 < net.hubs.length, net.hubs[x.2.2] = x.2.1) → (l.map (fun x => x.2.2)).Nodup →
    (totalSizeSlicesShapes net.hubs T B).1 ≤ m.length → applyLoop net T B l m = some m' →
    m'.length = m.length ∧
    (∀ c h k, (some c, h, k) ∈ l → readCells m' (hubCells net T B k [(T, T + h.ctx)]) = c) ∧
    ∀ c, (∀ x ∈ l, c ∉ hubCells net T B x.2.2 [(T, T + x.2.1.ctx)]) → m'.getD c 0 = m.getD c 0
  | [], m, m', _, _, _, h => by
    simp only [applyLoop, Option.some.injEq] at h
    subst h
    exact ⟨rfl, by simp, fun _ _ => rfl⟩
  | (none, h', k) :: l, m, m', hx, hn, hm, h => by
    obtain ⟨i1, i2, i3⟩ := applyLoop_spec net T B l m m' (fun y hy => hx y (by simp [hy])) (List.nodup_cons.1 hn).2 hm h
    exact ⟨i1, fun c h k hc => i2 c h k (by simpa using hc), fun c hc => i3 c fun x hx => hc x (by simp [hx])⟩
  | (some c, h', k) :: l, m, m', hx, hn, hm, h => by
    simp only [applyLoop] at h
    split at h
    · simp at h
    · rename_i m₁ hm₁
      simp only [applyOne] at hm₁
      split at hm₁
      · rename_i hlen
        simp only [Option.some.injEq] at hm₁
        subst hm₁
        obtain ⟨i1, i2, i3⟩ := applyLoop_spec net T B l _ m' (fun y hy => hx y (by simp [hy])) (List.nodup_cons.1 hn).2
          (by simpa using hm) h
        obtain ⟨hk, hh⟩ := hx _ List.mem_cons_self
        simp only at hk hh
        refine ⟨by simpa using i1, ?_, ?_⟩
        · intro c' h'' k' hc'
          rcases List.mem_cons.1 hc' with he | hc'
          · simp only [Prod.mk.injEq, Option.some.injEq] at he
            obtain ⟨rfl, rfl, rfl⟩ := he
            have hkeep : readCells m' (hubCells net T B k' [(T, T + h''.ctx)]) =
                readCells (writeCells m (hubCells net T B k' [(T, T + h''.ctx)]) c') (hubCells net T B k' [(T, T + h''.ctx)]) := by
              unfold readCells
              refine List.map_congr_left fun a ha => i3 a fun x hxl hax => ?_
              obtain ⟨hkx, -⟩ := hx x (List.mem_cons_of_mem _ hxl)
              rw [hubCells_eq net T B _ hk] at ha
              rw [hubCells_eq net T B _ hkx] at hax
              have b1 := cellsOf_bounds _ _ _ a ha
              have b2 := cellsOf_bounds _ _ _ a hax
              rw [← hubBase_succ _ _ _ _ hk] at b1
              rw [← hubBase_succ _ _ _ _ hkx] at b2
              have : x.2.2 = k' := offset_unique b2 b1
              exact (List.nodup_cons.1 hn).1 (List.mem_map.2 ⟨x, hxl, this⟩)
            rw [hkeep]
            refine readCells_write_self m ?_ ?_ hlen
            · rw [hubCells_eq net T B _ hk]; exact cellsOf_nodup _ _ _
            · intro a ha
              rw [hubCells_eq net T B _ hk] at ha
              have b1 := cellsOf_bounds _ _ _ a ha
              rw [← hubBase_succ _ _ _ _ hk] at b1
              rw [total_eq] at hm
              have := hubBase_mono net.hubs T B (show k' + 1 ≤ net.hubs.length from hk)
              omega
          · exact i2 c' h'' k' hc'
        · intro a ha
          rw [i3 a fun x hxl => ha x (List.mem_cons_of_mem _ hxl)]
          exact getD_writeCells_of_not _ _ (ha _ List.mem_cons_self)
      · simp at hm₁

/-- **C19** (memory level): the context taken after a forward pass over `T` steps and applied before one over `T'` steps puts
the last steps of every array that keeps a context where the layers look for the steps before the first one; the `T'` steps
themselves stay as they are. -/
theorem C19_handover (net : Net) (hw : WellLaid net) (st₀ st st₁ st₂ : State V) (ops ops' : List (Op V))
    (hc : create net = some st₀) (hr : run net st₀ ops = some st) (hr' : run net st ops' = some st₁)
    (T T' B : Nat) (hT : st.timeSize = some T) (hB : st.batchSize = some B) (hT' : st₁.timeSize = some T')
    (hB' : st₁.batchSize = some B) (ctx : List (Option (List V))) (hg : getContext net st = some ctx)
    (ha : prepareForward net st₁ (some ctx) = some st₂)
    (n : Name) (e : ArrayEntry) (he : Dict.get? net.layout n = some e) (h : HubInfo) (hh : net.hubs[e.hub]? = some h)
    (het : e.struct.bufferType = 2) (hctx : e.struct.contextSize = h.ctx) (hpos : 0 < h.ctx) :
    ∃ old mid new w, st.read n = some old ∧ st₁.read n = some mid ∧ st₂.read n = some new ∧ w = e.slice.2 - e.slice.1 ∧
      h.ctx ≤ T ∧
      (∀ i < h.ctx, ∀ b < B, ∀ f < w, ∃ x, entry old B w (T - h.ctx + i) b f = some x ∧ entry new B w (T' + i) b f = some x) ∧
      ∀ t < T', ∀ b < B, ∀ f < w, ∃ x, entry mid B w t b f = some x ∧ entry new B w t b f = some x := by
  obtain ⟨blk, vs, hi⟩ := run_inv hw hc hr
  obtain ⟨blk', vs', hi'⟩ := run_inv (st₀ := st₀) (ops := ops ++ ops') hw hc (by rw [run_append, hr]; exact hr')
  have e1 : (lastRequest ops).1 = T := by have := hi.time; rw [hT] at this; simpa using this.symm
  have e2 : (lastRequest ops).2 = B := by have := hi.batch; rw [hB] at this; simpa using this.symm
  have e3 : (lastRequest (ops ++ ops')).1 = T' := by have := hi'.time; rw [hT'] at this; simpa using this.symm
  have e4 : (lastRequest (ops ++ ops')).2 = B := by have := hi'.batch; rw [hB'] at this; simpa using this.symm
  rw [e1, e2] at hi
  rw [e3, e4] at hi'
  obtain ⟨hk, rfl⟩ := List.getElem?_eq_some_iff.1 hh
  have hf : Fits net.hubs e := hw.fits _ (Dict.mem_of_get? he)
  obtain ⟨v, hv, -, -, -, h2⟩ := viewOf_fits hf T B
  obtain ⟨v', hv', -, -, -, h2'⟩ := viewOf_fits hf T' B
  have hst2 : net.hubs[e.hub].btype = 2 ∧ e.slice.2 ≤ net.hubs[e.hub].size ∧ e.slice.1 ≤ e.slice.2 := by
    obtain ⟨_, ⟨q1, -, q3, q4, -, -⟩ | ⟨q1, -⟩⟩ := hf
    · exact ⟨q1 ▸ het, q4, q3⟩
    · exact absurd (het.symm.trans q1) (by decide)
  have hb := hst2.1
  have hcells := h2 hk het
  have hcells' := h2' hk het
  -- the context taken
  unfold getContext at hg
  simp only [hi.full, hi.time, hi.batch] at hg
  have hzi : net.hubs.zipIdx[e.hub]? = some (net.hubs[e.hub], e.hub) := by
    rw [List.getElem?_zipIdx, List.getElem?_eq_getElem hk]; simp
  obtain ⟨y, hy, hyk⟩ := mapM_get _ _ _ hg e.hub _ hzi
  simp only [hb, ne_eq, not_true_eq_false, false_or, if_neg (show ¬ net.hubs[e.hub].ctx = 0 by omega)] at hy
  split at hy
  · simp at hy
  · rename_i hTc
    simp only [Option.some.injEq] at hy
    -- applying it
    simp only [prepareForward, applyContext, hi'.full, hi'.time, hi'.batch] at ha
    split at ha
    · simp at ha
    · rename_i m' hm'
      simp only [Option.some.injEq] at ha
      subst ha
      have hnd : ((ctx.zip net.hubs.zipIdx).map (fun x => x.2.2)).Nodup := by
        have hsub : ((ctx.zip net.hubs.zipIdx).map (fun x => x.2)).Sublist net.hubs.zipIdx := map_snd_zip_sublist _ _
        have := (hsub.map Prod.snd).nodup (by
          rw [List.zipIdx_map_snd]
          exact List.nodup_range')
        rw [List.map_map] at this
        exact this
      obtain ⟨j1, j2, j3⟩ := applyLoop_spec net T' B _ _ _ (fun x hx => mem_zipIdx_hubs.1
        (List.of_mem_zip (show (x.1, x.2) ∈ _ from hx)).2) hnd (by rw [hi'.len]; exact hi'.enough) hm'
      have hmem : (y, net.hubs[e.hub], e.hub) ∈ ctx.zip net.hubs.zipIdx := by
        refine List.mem_of_getElem? (i := e.hub) ?_
        rw [List.getElem?_zip_eq_some]
        exact ⟨hyk, hzi⟩
      rw [← hy] at hmem
      have hput := j2 _ _ _ hmem
      rw [hubCells_eq net T' B _ hk, hubCells_eq net T B _ hk, drop2_shape _ T B hb, drop2_shape _ T' B hb,
        cellsOf_rows _ _ _ _ _ _ (by omega), cellsOf_rows _ _ _ _ _ _ (by omega)] at hput
      refine ⟨_, _, readCells m' v'.cells, e.slice.2 - e.slice.1, by rw [hi.read, he, Option.bind_some, hv, Option.map_some],
        by rw [hi'.read, he, Option.bind_some, hv', Option.map_some], ?_, rfl, by omega, ?_, ?_⟩
      · have := (hi'.withHeap (m := m') (by rw [j1, hi'.len])).read n
        rw [he, Option.bind_some, hv', Option.map_some, block_set hi'.alloc] at this
        simpa only [hi'.full, hi'.time, hi'.batch] using this
      · intro i hi0 b hb0 f hf0
        refine ⟨(block st.heap blk).getD (hubBase net.hubs T B e.hub + (T - net.hubs[e.hub].ctx + i) * (B * net.hubs[e.hub].size) +
          b * net.hubs[e.hub].size + (e.slice.1 + f)) 0, ?_, ?_⟩
        · unfold entry readCells
          rw [hcells, List.getElem?_map, getElem?_rows _ _ _ _ _ _ _ (by omega) hb0 hf0]
          rfl
        · unfold entry readCells
          rw [hcells', List.getElem?_map, getElem?_rows _ _ _ _ _ _ _ (by omega) hb0 hf0]
          simp only [Option.map_some, Option.some.injEq]
          have := congrArg (fun l : List V => l[(i * B + b) * net.hubs[e.hub].size + (e.slice.1 + f)]?) hput
          simp only [readCells, List.getElem?_map] at this
          rw [getElem?_rows _ _ _ _ _ _ _ (by omega) hb0 (by omega), getElem?_rows _ _ _ _ _ _ _ (by omega) hb0 (by omega)] at this
          simpa using this
      · intro t ht b hb0 f hf0
        refine ⟨(block st₁.heap blk').getD (hubBase net.hubs T' B e.hub + t * (B * net.hubs[e.hub].size) +
          b * net.hubs[e.hub].size + (e.slice.1 + f)) 0, ?_, ?_⟩
        · unfold entry readCells
          rw [hcells', List.getElem?_map, getElem?_rows _ _ _ _ _ _ _ (by omega) hb0 hf0]
          rfl
        · unfold entry readCells
          rw [hcells', List.getElem?_map, getElem?_rows _ _ _ _ _ _ _ (by omega) hb0 hf0]
          simp only [Option.map_some, Option.some.injEq]
          apply j3
          intro x hx hcx
          obtain ⟨hkx, hxe⟩ := mem_zipIdx_hubs.1 (List.of_mem_zip (show (x.1, x.2) ∈ _ from hx)).2
          have hrow := row_bounds (base := hubBase net.hubs T' B e.hub) (t := t) (B := B) (N := net.hubs[e.hub].size) (b := b)
            (lo := e.slice.1) (f := f) hb0 (by omega)
          have hle : (t + 1) * (B * net.hubs[e.hub].size) ≤ (T' + net.hubs[e.hub].ctx) * (B * net.hubs[e.hub].size) :=
            Nat.mul_le_mul_right _ (by omega)
          have hex : (t + 1) * (B * net.hubs[e.hub].size) = t * (B * net.hubs[e.hub].size) + B * net.hubs[e.hub].size := by ring
          have hsucc := hubBase_succ net.hubs T' B e.hub hk
          rw [drop2_shape _ T' B hb] at hsucc
          simp only [List.prod_cons, List.prod_nil, Nat.mul_one] at hsucc
          have hcx' := hcx
          rw [hubCells_eq net T' B _ hkx] at hcx'
          have b2 := cellsOf_bounds _ _ _ _ hcx'
          rw [← hubBase_succ _ _ _ _ hkx] at b2
          have hin : hubBase net.hubs T' B e.hub ≤ hubBase net.hubs T' B e.hub + t * (B * net.hubs[e.hub].size) +
              b * net.hubs[e.hub].size + (e.slice.1 + f) ∧
              hubBase net.hubs T' B e.hub + t * (B * net.hubs[e.hub].size) + b * net.hubs[e.hub].size + (e.slice.1 + f) <
                hubBase net.hubs T' B (e.hub + 1) := by omega
          have hxh : x.2.2 = e.hub := offset_unique b2 hin
          have hxe' : x.2.1 = net.hubs[e.hub] := by rw [← hxe]; simp only [hxh]
          rw [hxh, hxe', hubCells_eq net T' B _ hk, drop2_shape _ T' B hb, mem_rows (by omega)] at hcx
          obtain ⟨t', q1, q2, q3, q4⟩ := hcx
          have : (t + 1) * (B * net.hubs[e.hub].size) ≤ t' * (B * net.hubs[e.hub].size) := Nat.mul_le_mul_right _ (by omega)
          omega

/-- Two passes over the network of `sharedLayers`: after the first the recurrent outputs are 7, 8 and the step before the
first one is 9; the second has three steps. -/
def handedOver : Option (Option (List Nat) × Option (List Nat)) := do
  let net ← sharedNet
  let st₀ ← create (V := Nat) net
  let st₁ ← provideExternalData net st₀ 2 1 [(path (str "Input") (str "outputs") (str "default"), [1, 2, 3, 4])]
  let st₂ ← st₁.write (path (str "Rnn") (str "outputs") (str "default")) [7, 8, 9]
  let ctx ← getContext net st₂
  let st₃ ← provideExternalData net st₂ 3 1 [(path (str "Input") (str "outputs") (str "default"), [1, 2, 3, 4, 5, 6])]
  let st₄ ← prepareForward net st₃ (some ctx)
  some (st₂.read (path (str "Rnn") (str "outputs") (str "default")), (st₄.read (path (str "Rnn") (str "outputs") (str "default"))).map
    (fun l => l.drop 3))

example : (handedOver == some (some [7, 8, 9], some [8])) = true := by decide +kernel

end Verif.Buffers
