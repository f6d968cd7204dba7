import Verif.Gpu.Conv
import Verif.Pool.Props

/-!
# The CUDA kernels for pooling (brainstorm/handlers/pycuda_handler.py:764-905)

`Verif.Pool.Geom` has a field for the channel at hand; the kernels find the channel from the index
and do not use the field.
-/

namespace Verif.Gpu

open Verif.Numeric Verif.Conv Verif.Pool Finset

variable {α : Type}

/-! ## Specification -/

/-- Channel `c` of image `b` in a batch of images with `H` rows, `W` columns and `nc` channels. -/
def plane (H W nc : Nat) (a : Arr α) (b c : Nat) : Nat → Nat → α := fun y x => a.at' (((b * H + y) * W + x) * nc + c)

/-- The CPU's view of channel `c`. -/
abbrev chan (g : Pool.Geom) (c : Nat) : Pool.Geom := { g with c := c }

/-! ## Model -/

/-- The two arrays that `max_pool_fwd` writes. -/
inductive PoolArr where
  | top
  | mask
  deriving DecidableEq

/-- The statements of `max_pool_fwd` for an index (pycuda_handler.py:775-802).  `base` is how far
`bottom_data` has been moved so far: the kernel moves the pointer in every turn of the
grid-stride loop (788). -/
def maxFwdStep [LinearOrder α] [Zero α] (g : Pool.Geom) (lo : α) (store : Int → α) (bottom : Arr α) (base : Int)
    (index : Nat) : Option (Int × List (Op PoolArr α)) :=
  let c := index % g.nc
  let n1 := index / g.nc
  let wstart0 := ((n1 % g.OW : Nat) : Int) * g.sx - g.p
  let n2 := n1 / g.OW
  let hstart0 := ((n2 % g.OH : Nat) : Int) * g.sy - g.p
  let n3 := n2 / g.OH
  let hend := min (hstart0 + g.KH) g.H
  let wend := min (wstart0 + g.KW) g.W
  let hstart := max hstart0 0
  let wstart := max wstart0 0
  let base' := base + n3 * g.H * g.W * g.nc
  ((irange hstart hend).foldlM (fun s h => (irange wstart wend).foldlM (fun (s : α × Int) w =>
      (bottom.read (base' + ((h * g.W + w) * g.nc + c))).map (fun v =>
        if v > s.1 then (v, (h * g.W + w) * g.nc + c) else s)) s) (lo, -1)).map (fun r =>
    (base', [Op.set .top index r.1, Op.set .mask index (store r.2)] ++
      if r.2 = -1 then [Op.set .top index 0] else []))

/-- The grid-stride loop of a kernel that moves a pointer in every turn. -/
def movingLoop {ι : Type} (step : Int → Nat → Option (Int × List (Op ι α))) (indices : List Nat) :
    Option (List (Op ι α)) :=
  (indices.foldlM (fun (s : Int × List (Op ι α)) index =>
    (step s.1 index).map (fun r => (r.1, s.2 ++ r.2))) (0, [])).map (fun s => s.2)

/-- The launch of `max_pool_fwd` (pycuda_handler.py:302-315) for `N` images. -/
def maxFwdLaunch [LinearOrder α] [Zero α] [Add α] (g : Pool.Geom) (N : Nat) (lo : α) (store : Int → α) (bottom : Arr α) :
    Option (List (List (Instr PoolArr α))) :=
  let n := N * g.OH * g.OW * g.nc
  launch (numThreads n) (fun t => movingLoop (maxFwdStep g lo store bottom) (gridStride t (numThreads n) n))

/-- The statements of `max_pool_bwd` for an index (pycuda_handler.py:816-820).  `neg` is the test
`mask[index] < 0.0`, `load` the cast `(int)`. -/
def maxBwdBody {F : Type} (g : Pool.Geom) (neg : F → Bool) (load : F → Int) (topDiff : Arr α) (mask : Arr F)
    (index : Nat) : Option (List (Op Unit α)) :=
  (mask.read index).bind (fun m =>
    if !(neg m) then
      (topDiff.read index).map (fun v =>
        [Op.atomicAdd () (((index / (g.OH * g.OW * g.nc) : Nat) : Int) * (g.H * g.W * g.nc : Nat) + load m) v])
    else some [])

/-- The launch of `max_pool_bwd` (pycuda_handler.py:290-300). -/
def maxBwdLaunch {F : Type} [Zero α] [Add α] (g : Pool.Geom) (N : Nat) (neg : F → Bool) (load : F → Int) (topDiff : Arr α)
    (mask : Arr F) : Option (List (List (Instr Unit α))) :=
  gridLaunch (N * g.OH * g.OW * g.nc) (maxBwdBody g neg load topDiff mask)

/-- The statements of `ave_pool_fwd` for an index (pycuda_handler.py:837-856); it moves
`bottom_data` like `max_pool_fwd`. -/
def avgFwdStep [Field α] (g : Pool.Geom) (bottom : Arr α) (base : Int) (index : Nat) :
    Option (Int × List (Op Unit α)) :=
  let c := index % g.nc
  let pw := (index / g.nc) % g.OW
  let ph := (index / g.nc / g.OW) % g.OH
  let n := index / g.nc / g.OW / g.OH
  let hstart0 := (ph : Int) * g.sy - g.p
  let wstart0 := (pw : Int) * g.sx - g.p
  let hend := min (hstart0 + g.KH) g.H
  let wend := min (wstart0 + g.KW) g.W
  let hstart := max hstart0 0
  let wstart := max wstart0 0
  let base' := base + n * g.H * g.W * g.nc
  ((irange hstart hend).foldlM (fun s h => (irange wstart wend).foldlM (fun s w =>
      (bottom.read (base' + ((h * g.W + w) * g.nc + c))).map (fun v => s + v)) s) 0).map (fun r =>
    (base', [Op.set () index (r / ((max ((hend - hstart) * (wend - wstart)) 1 : Int) : α))]))

/-- The launch of `ave_pool_fwd` (pycuda_handler.py:148-161). -/
def avgFwdLaunch [Field α] (g : Pool.Geom) (N : Nat) (bottom : Arr α) : Option (List (List (Instr Unit α))) :=
  let n := N * g.OH * g.OW * g.nc
  launch (numThreads n) (fun t => movingLoop (avgFwdStep g bottom) (gridStride t (numThreads n) n))

/-- The statements of `ave_pool_bwd` for an index (pycuda_handler.py:875-900). -/
def avgBwdBody [Field α] (g : Pool.Geom) (topDiff : Arr α) (index : Nat) : Option (List (Op Unit α)) :=
  let c := index % g.nc
  let w := index / g.nc % g.W + g.p
  let h := (index / g.nc / g.W) % g.H + g.p
  let n := index / g.nc / g.W / g.H
  let phstart := gatherStart h g.KH g.sy
  let phend := gatherEnd h g.sy g.OH
  let pwstart := gatherStart w g.KW g.sx
  let pwend := gatherEnd w g.sx g.OW
  let slice : Int := n * g.OH * g.OW * g.nc + c
  ((List.range' phstart (phend - phstart)).foldlM (fun s (ph : Nat) =>
    (List.range' pwstart (pwend - pwstart)).foldlM (fun s (pw : Nat) =>
      let hstart0 := (ph : Int) * g.sy - g.p
      let wstart0 := (pw : Int) * g.sx - g.p
      let hend := min (hstart0 + g.KH) g.H
      let wend := min (wstart0 + g.KW) g.W
      let hstart := max hstart0 0
      let wstart := max wstart0 0
      let poolSize := (hend - hstart) * (wend - wstart)
      ((topDiff.read (slice + (ph * g.OW + pw) * g.nc)).map (fun v => v / (poolSize : α))).map (fun v => s + v)) s)
    0).map (fun v => [Op.add () index v])

/-- The launch of `ave_pool_bwd` (pycuda_handler.py:133-146). -/
def avgBwdLaunch [Field α] (g : Pool.Geom) (N : Nat) (topDiff : Arr α) : Option (List (List (Instr Unit α))) :=
  gridLaunch (N * g.H * g.W * g.nc) (avgBwdBody g topDiff)

/-! ## Lemmas -/

theorem foldlM_some {σ β : Type} (L : List β) (f : σ → β → Option σ) (f' : σ → β → σ)
    (h : ∀ x ∈ L, ∀ s, f s x = some (f' s x)) (s : σ) : L.foldlM f s = some (L.foldl f' s) := by
  induction L generalizing s with
  | nil => rfl
  | cons x L ih =>
    rw [List.foldlM_cons, h x (by simp), List.foldl_cons]
    exact ih (fun y hy => h y (by simp [hy])) _

theorem loop_congr {σ : Type} (f f' : Nat → σ → Option σ) {n : Nat} (h : ∀ k < n, ∀ s, f k s = f' k s) (s : σ) :
    loop f n s = loop f' n s := by
  induction n with
  | zero => rfl
  | succ n ih =>
    simp only [loop]
    rw [ih (fun k hk => h k (by omega))]
    cases loop f' n s with
    | none => rfl
    | some s' => exact h n (by omega) s'

/-- Position of an element in a batch of images. -/
theorem flat_lt {b y x c N H W nc : Nat} (hb : b < N) (hy : y < H) (hx : x < W) (hc : c < nc) :
    ((b * H + y) * W + x) * nc + c < N * H * W * nc := lt_mul (lt_mul (lt_mul hb hy) hx) hc

theorem flat_div {b y x c H W nc : Nat} (hy : y < H) (hx : x < W) (hc : c < nc) :
    (((b * H + y) * W + x) * nc + c) % nc = c ∧ (((b * H + y) * W + x) * nc + c) / nc % W = x ∧
    (((b * H + y) * W + x) * nc + c) / nc / W % H = y ∧ (((b * H + y) * W + x) * nc + c) / nc / W / H = b := by
  rw [mod_of hc, div_of hc, mod_of hx, div_of hx, mod_of hy, div_of hy]
  exact ⟨rfl, rfl, rfl, rfl⟩

/-- Every index is the position of an element. -/
theorem flat_surj {i N H W nc : Nat} (hi : i < N * H * W * nc) :
    ∃ b y x c, b < N ∧ y < H ∧ x < W ∧ c < nc ∧ i = ((b * H + y) * W + x) * nc + c := by
  have p0 : 0 < N * H * W * nc := by omega
  have p1 : 0 < N * H * W := Nat.pos_of_mul_pos_right p0
  have hnc : 0 < nc := Nat.pos_of_mul_pos_left p0
  have p2 : 0 < N * H := Nat.pos_of_mul_pos_right p1
  have hW : 0 < W := Nat.pos_of_mul_pos_left p1
  have hH : 0 < H := Nat.pos_of_mul_pos_left p2
  have h1 : i / nc < N * H * W := (Nat.div_lt_iff_lt_mul hnc).2 hi
  have h2 : i / nc / W < N * H := (Nat.div_lt_iff_lt_mul hW).2 h1
  have h3 : i / nc / W / H < N := (Nat.div_lt_iff_lt_mul hH).2 h2
  refine ⟨i / nc / W / H, i / nc / W % H, i / nc % W, i % nc, h3, Nat.mod_lt _ hH, Nat.mod_lt _ hW, Nat.mod_lt _ hnc, ?_⟩
  rw [Nat.div_add_mod', Nat.div_add_mod', Nat.div_add_mod']

theorem flat_inj {b y x c b' y' x' c' H W nc : Nat} (hy : y < H) (hx : x < W) (hc : c < nc) (hy' : y' < H) (hx' : x' < W)
    (hc' : c' < nc) (h : ((b * H + y) * W + x) * nc + c = ((b' * H + y') * W + x') * nc + c') :
    b = b' ∧ y = y' ∧ x = x' ∧ c = c' := by
  obtain ⟨a1, a2, a3, a4⟩ := flat_div (b := b) hy hx hc
  obtain ⟨b1, b2, b3, b4⟩ := flat_div (b := b') hy' hx' hc'
  rw [h] at a1 a2 a3 a4
  exact ⟨a4.symm.trans b4, a3.symm.trans b3, a2.symm.trans b2, a1.symm.trans b1⟩

theorem movingLoop_one {ι : Type} (step : Int → Nat → Option (Int × List (Op ι α))) (t : Nat) (r : Int × List (Op ι α))
    (h : step 0 t = some r) : movingLoop step [t] = some r.2 := by
  unfold movingLoop
  rw [List.foldlM_cons, h]
  simp

theorem read_window (g : Pool.Geom) (N : Nat) (bottom : Arr α) (hsz : bottom.size = N * g.H * g.W * g.nc) {b c yo xo : Nat}
    (hb : b < N) (hc : c < g.nc) {h w : Int} (hh : h ∈ irange (g.yMin yo) (g.yMax yo))
    (hw : w ∈ irange (g.xMin xo) (g.xMax xo)) :
    bottom.read (0 + (b : Int) * g.H * g.W * g.nc + ((h * g.W + w) * g.nc + c)) =
      some (plane g.H g.W g.nc bottom b c h.toNat w.toNat) := by
  rw [mem_irange] at hh hw
  unfold Pool.Geom.yMin Pool.Geom.yMax at hh
  unfold Pool.Geom.xMin Pool.Geom.xMax at hw
  obtain ⟨y, rfl⟩ := Int.eq_ofNat_of_zero_le (show 0 ≤ h by omega)
  obtain ⟨x, rfl⟩ := Int.eq_ofNat_of_zero_le (show 0 ≤ w by omega)
  have hy : y < g.H := by omega
  have hx : x < g.W := by omega
  refine Arr.read_nat bottom ?_ ?_
  · rw [Int.toNat_natCast, Int.toNat_natCast]; push_cast; ring
  · rw [Int.toNat_natCast, Int.toNat_natCast, hsz]; exact flat_lt hb hy hx hc

/-- The two loops over a window, before the test for an empty window. -/
def rawMax [LinearOrder α] (g : Pool.Geom) (lo : α) (inp : Nat → Nat → α) (c yo xo : Nat) : α × Int :=
  (irange (g.yMin yo) (g.yMax yo)).foldl (fun s iy => (irange (g.xMin xo) (g.xMax xo)).foldl (fun (s : α × Int) ix =>
    if inp iy.toNat ix.toNat > s.1 then (inp iy.toNat ix.toNat, (iy * g.W + ix) * g.nc + c) else s) s) (lo, -1)

theorem maxCell_raw [LinearOrder α] [Zero α] (g : Pool.Geom) (lo : α) (inp : Nat → Nat → α) (c yo xo : Nat) :
    maxCell (chan g c) lo inp yo xo = if (rawMax g lo inp c yo xo).2 = -1 then (0, -1) else rawMax g lo inp c yo xo := rfl

/-- The statements of `max_pool_fwd`, with what the CPU computes. -/
def maxFwdOps [LinearOrder α] [Zero α] (g : Pool.Geom) (lo : α) (store : Int → α) (bottom : Arr α) (index : Nat) :
    List (Op PoolArr α) :=
  let r := rawMax g lo (plane g.H g.W g.nc bottom (index / g.nc / g.OW / g.OH) (index % g.nc)) (index % g.nc)
    (index / g.nc / g.OW % g.OH) (index / g.nc % g.OW)
  [Op.set .top index r.1, Op.set .mask index (store r.2)] ++ if r.2 = -1 then [Op.set .top index 0] else []

theorem maxFwdStep_spec [LinearOrder α] [Zero α] (g : Pool.Geom) (N : Nat) (lo : α) (store : Int → α) (bottom : Arr α)
    (hsz : bottom.size = N * g.H * g.W * g.nc) (index : Nat) (hi : index < N * g.OH * g.OW * g.nc) :
    ∃ base, maxFwdStep g lo store bottom 0 index = some (base, maxFwdOps g lo store bottom index) := by
  obtain ⟨b, yo, xo, c, hb, hy, hx, hc, rfl⟩ := flat_surj hi
  obtain ⟨e1, e2, e3, e4⟩ := flat_div (b := b) hy hx hc
  refine ⟨0 + (b : Int) * g.H * g.W * g.nc, ?_⟩
  unfold maxFwdStep maxFwdOps rawMax
  dsimp only
  rw [e1, e2, e3, e4]
  rw [foldlM_some _ _ (fun (s : α × Int) iy => (irange (g.xMin xo) (g.xMax xo)).foldl (fun (s : α × Int) ix =>
      if plane g.H g.W g.nc bottom b c iy.toNat ix.toNat > s.1 then
        (plane g.H g.W g.nc bottom b c iy.toNat ix.toNat, (iy * g.W + ix) * g.nc + c)
      else s) s)]
  · rfl
  · intro h hh s
    refine foldlM_some _ _ _ ?_ s
    intro w hw s
    have := read_window g N bottom hsz (yo := yo) (xo := xo) hb hc hh hw
    rw [this]
    rfl

theorem cell_maxFwdOps [LinearOrder α] [Zero α] (g : Pool.Geom) (lo : α) (store : Int → α) (bottom : Arr α) (index : Nat) :
    ∀ p ∈ maxFwdOps g lo store bottom index, p.cell.2 = index := by
  intro p hp
  unfold maxFwdOps at hp
  dsimp only at hp
  split_ifs at hp
  · simp only [List.cons_append, List.nil_append, List.mem_cons, List.not_mem_nil, or_false] at hp
    rcases hp with rfl | rfl | rfl <;> rfl
  · simp only [List.append_nil, List.mem_cons, List.not_mem_nil, or_false] at hp
    rcases hp with rfl | rfl <;> rfl

/-! ## Properties -/

/-- **C65.**  Every execution of the GPU's max pooling gives each output and remembers the pixel that
the CPU's `maxpool_forward` gives and remembers, for all images and channels of the batch. -/
theorem C65_maxpool_forward [LinearOrder α] [AddCommMonoid α] (g : Pool.Geom) (N : Nat) (lo : α) (store : Int → α)
    (bottom top mask : Arr α) (hsz : bottom.size = N * g.H * g.W * g.nc) (ht : top.size = N * g.OH * g.OW * g.nc)
    (hm : mask.size = N * g.OH * g.OW * g.nc) :
    ∃ P, maxFwdLaunch g N lo store bottom = some P ∧ ∀ l, Interleaves P l →
      ∃ out, runOn (fun | PoolArr.top => top | .mask => mask) l = some out ∧
        ∀ b yo xo c, b < N → yo < g.OH → xo < g.OW → c < g.nc →
          plane g.OH g.OW g.nc (out .top) b c yo xo =
            (maxCell (chan g c) lo (plane g.H g.W g.nc bottom b c) yo xo).1 ∧
          plane g.OH g.OW g.nc (out .mask) b c yo xo =
            store (maxCell (chan g c) lo (plane g.H g.W g.nc bottom b c) yo xo).2 := by
  unfold maxFwdLaunch
  obtain ⟨P, h1, h2⟩ := launch_one (fun | PoolArr.top => top | .mask => mask) (numThreads (N * g.OH * g.OW * g.nc))
    (N * g.OH * g.OW * g.nc) (le_numThreads _)
    (fun t => movingLoop (maxFwdStep g lo store bottom)
      (gridStride t (numThreads (N * g.OH * g.OW * g.nc)) (N * g.OH * g.OW * g.nc)))
    (maxFwdOps g lo store bottom)
    (by
      intro t _
      rw [gridStride_of_le (le_numThreads _)]
      by_cases h : t < N * g.OH * g.OW * g.nc
      · rw [if_pos h, if_pos h]
        obtain ⟨base, e⟩ := maxFwdStep_spec g N lo store bottom hsz t h
        exact movingLoop_one _ _ _ e
      · rw [if_neg h, if_neg h]; rfl)
    (by
      intro t ht' p hp
      rw [cell_maxFwdOps g lo store bottom t p hp]
      refine ⟨by omega, ?_⟩
      cases p.cell.1
      · simp only [ht]; exact_mod_cast ht'
      · simp only [hm]; exact_mod_cast ht')
    (by
      intro s t hst ht' p hp q hq
      left
      intro e
      have e1 := cell_maxFwdOps g lo store bottom s p hp
      have e2 := cell_maxFwdOps g lo store bottom t q hq
      rw [e, e2] at e1
      omega)
  refine ⟨P, h1, fun l hl => ?_⟩
  obtain ⟨out, o1, o2⟩ := h2 l hl
  refine ⟨out, o1, fun b yo xo c hb hy hx hc => ?_⟩
  have hi := flat_lt hb hy hx hc
  obtain ⟨e1, e2, e3, e4⟩ := flat_div (b := b) hy hx hc
  have hother : ∀ a : PoolArr, ∀ t < N * g.OH * g.OW * g.nc, t ≠ ((b * g.OH + yo) * g.OW + xo) * g.nc + c →
      ∀ p ∈ maxFwdOps g lo store bottom t, p.cell ≠ (a, ((((b * g.OH + yo) * g.OW + xo) * g.nc + c : Nat) : Int)) := by
    intro a t _ hne p hp e
    have := cell_maxFwdOps g lo store bottom t p hp
    rw [e] at this
    simp only at this
    exact hne (by exact_mod_cast this.symm)
  have ht' : plane g.OH g.OW g.nc (out .top) b c yo xo = _ := (o2 .top).2 _
  have hm' : plane g.OH g.OW g.nc (out .mask) b c yo xo = _ := (o2 .mask).2 _
  rw [ht', hm', filter_flatMap _ hi _ (hother .top), filter_flatMap _ hi _ (hother .mask), maxCell_raw]
  unfold maxFwdOps
  dsimp only
  rw [e1, e2, e3, e4]
  generalize rawMax g lo (plane g.H g.W g.nc bottom b c) c yo xo = r
  split_ifs with h
  · simp [Op.cell, Op.newVal, h]
  · simp [Op.cell, Op.newVal]

/-- A sum over all elements of a batch, image by image. -/
theorem sum_flat [AddCommMonoid α] (N H W nc : Nat) (F : Nat → α) :
    ∑ i ∈ range (N * H * W * nc), F i = ∑ b ∈ range N, ∑ y ∈ range H, ∑ x ∈ range W, ∑ c ∈ range nc,
      F (((b * H + y) * W + x) * nc + c) := by
  rw [sum_range_mul, sum_range_mul, sum_range_mul]

theorem image_id {b y x c OH OW nc : Nat} (hy : y < OH) (hx : x < OW) (hc : c < nc) :
    (((b * OH + y) * OW + x) * nc + c) / (OH * OW * nc) = b := by
  have e : ((b * OH + y) * OW + x) * nc + c = b * (OH * OW * nc) + ((y * OW + x) * nc + c) := by ring
  rw [e, div_of (lt_mul (lt_mul hy hx) hc)]

open Classical in
/-- **C65.**  Every execution of the GPU's backward pass of max pooling, given the pixels that the forward pass
remembered, adds to the input deltas what the CPU's `maxpool_backward` adds, for all images and
channels.  The additions may collide on a pixel; they are atomic.  The index has to survive being stored as a
float. -/
theorem C65_maxpool_backward [LinearOrder α] [AddCommMonoid α] {F : Type} (g : Pool.Geom) (N : Nat) (lo : α)
    (inp : Arr α) (store : Int → F) (load : F → Int) (neg : F → Bool)
    (hexact : ∀ i : Int, -1 ≤ i → i < g.H * g.W * g.nc → load (store i) = i ∧ (neg (store i) = decide (i < 0)))
    (topDiff bottomDiff : Arr α) (mask : Arr F) (ht : topDiff.size = N * g.OH * g.OW * g.nc)
    (hm : mask.size = N * g.OH * g.OW * g.nc) (hb : bottomDiff.size = N * g.H * g.W * g.nc)
    (hmask : ∀ b yo xo c, b < N → yo < g.OH → xo < g.OW → c < g.nc →
      plane g.OH g.OW g.nc mask b c yo xo = store (maxCell (chan g c) lo (plane g.H g.W g.nc inp b c) yo xo).2) :
    ∃ P, maxBwdLaunch g N neg load topDiff mask = some P ∧ ∀ l, Interleaves P l →
      ∃ out, runOn (fun _ : Unit => bottomDiff) l = some out ∧
        ∀ b c, b < N → c < g.nc →
          ∃ cpu, maxBackward (chan g c) load (plane g.OH g.OW g.nc mask b c) (plane g.OH g.OW g.nc topDiff b c)
              ⟨g.H, g.W, plane g.H g.W g.nc bottomDiff b c⟩ = some cpu ∧
            ∀ y x, y < g.H → x < g.W → plane g.H g.W g.nc (out ()) b c y x = cpu.at' y x := by
  let ops : Nat → List (Op Unit α) := fun t => if neg (mask.at' t) then [] else
    [Op.atomicAdd () (((t / (g.OH * g.OW * g.nc) : Nat) : Int) * (g.H * g.W * g.nc : Nat) + load (mask.at' t)) (topDiff.at' t)]
  -- what an index does, in terms of the first maximum
  have hcase : ∀ b yo xo c, b < N → yo < g.OH → xo < g.OW → c < g.nc →
      (ops (((b * g.OH + yo) * g.OW + xo) * g.nc + c) = [] ∧
        ∀ y x, ¬ FirstMax (chan g c) lo (plane g.H g.W g.nc inp b c) yo xo y x) ∨
      ∃ y x, y < g.H ∧ x < g.W ∧ FirstMax (chan g c) lo (plane g.H g.W g.nc inp b c) yo xo y x ∧
        ops (((b * g.OH + yo) * g.OW + xo) * g.nc + c) =
          [Op.atomicAdd () ((((b * g.H + y) * g.W + x) * g.nc + c : Nat) : Int) (plane g.OH g.OW g.nc topDiff b c yo xo)] := by
    intro b yo xo c hb' hy hx hc
    have hmk := hmask b yo xo c hb' hy hx hc
    unfold plane at hmk
    rcases maxCell_cases (chan g c) lo (plane g.H g.W g.nc inp b c) yo xo with ⟨e, h⟩ | ⟨y, x, hf, e⟩
    · left
      have hK : (-1 : Int) < g.H * g.W * g.nc := by
        have : (0 : Int) ≤ ((g.H * g.W * g.nc : Nat) : Int) := Int.natCast_nonneg _
        push_cast at this; omega
      have hn := (hexact (-1) (le_refl _) hK).2
      constructor
      · simp only [ops]
        rw [hmk]
        unfold plane at e
        rw [e, hn]
        simp
      · intro y x hf
        exact absurd (h y x hf.1) (not_le.2 hf.2.1)
    · right
      have hyx : y < g.H ∧ x < g.W := ⟨hf.1.1, hf.1.2.1⟩
      have hlt : (y * g.W + x) * g.nc + c < g.H * g.W * g.nc := lt_mul (lt_mul hyx.1 hyx.2) hc
      obtain ⟨hl, hn⟩ := hexact (((y * g.W + x) * g.nc + c : Nat) : Int) (by omega) (by exact_mod_cast hlt)
      refine ⟨y, x, hyx.1, hyx.2, hf, ?_⟩
      simp only [ops]
      rw [hmk]
      unfold plane at e
      rw [e]
      dsimp only
      rw [hn, hl, image_id hy hx hc]
      rw [if_neg (by rw [decide_eq_true_eq]; exact not_lt.2 (Int.natCast_nonneg _))]
      congr 2
      push_cast
      ring
  obtain ⟨P, h1, h2⟩ := gridLaunch_spec (fun _ : Unit => bottomDiff) (N * g.OH * g.OW * g.nc)
    (maxBwdBody g neg load topDiff mask) ops
    (by
      intro t ht'
      unfold maxBwdBody
      rw [Arr.read_nat mask rfl (by rw [hm]; exact ht'), Arr.read_nat topDiff rfl (by rw [ht]; exact ht')]
      simp only [ops, Option.bind_some, Option.map_some]
      cases neg (mask.at' t) <;> simp)
    (by
      intro t ht' p hp
      obtain ⟨b, yo, xo, c, hb', hy, hx, hc, rfl⟩ := flat_surj ht'
      rcases hcase b yo xo c hb' hy hx hc with ⟨e, _⟩ | ⟨y, x, hy', hx', _, e⟩
      · rw [e] at hp; simp at hp
      · rw [e, List.mem_singleton] at hp
        subst hp
        simp only [Op.cell, hb]
        exact ⟨by omega, by exact_mod_cast flat_lt hb' hy' hx' hc⟩)
    (by
      intro s t _ _ p hp q hq
      right
      simp only [ops] at hp hq
      split_ifs at hp hq <;> simp_all [Op.isAtomic])
  refine ⟨P, h1, fun l hl => ?_⟩
  obtain ⟨out, o1, o2⟩ := h2 l hl
  refine ⟨out, o1, fun b c hb' hc => ?_⟩
  have hcpu := C48_max_backward (chan g c) hc lo (plane g.H g.W g.nc inp b c) store load
    (fun i h h' => (hexact i h h').1) (plane g.OH g.OW g.nc topDiff b c)
    ⟨g.H, g.W, plane g.H g.W g.nc bottomDiff b c⟩ rfl rfl
  obtain ⟨cpu, k1, k2⟩ := hcpu
  have hsame : maxBackward (chan g c) load (plane g.OH g.OW g.nc mask b c) (plane g.OH g.OW g.nc topDiff b c)
      ⟨g.H, g.W, plane g.H g.W g.nc bottomDiff b c⟩ = some cpu := by
    rw [← k1]
    unfold maxBackward
    refine loop_congr _ _ (fun yo hy d => loop_congr _ _ (fun xo hx d => ?_) d) _
    rw [hmask b yo xo c hb' hy hx hc]
  refine ⟨cpu, hsame, fun y x hy hx => ?_⟩
  have hmain : plane g.H g.W g.nc (out ()) b c y x = _ := (o2 ()).2 _
  rw [hmain, foldl_add, sum_flatMap, sum_flat, k2 y x]
  · show plane g.H g.W g.nc bottomDiff b c y x + _ = plane g.H g.W g.nc bottomDiff b c y x + _
    congr 1
    rw [Finset.sum_eq_single b]
    · refine Finset.sum_congr rfl (fun yo hyo => Finset.sum_congr rfl (fun xo hxo => ?_))
      rw [mem_range] at hyo hxo
      rw [Finset.sum_eq_single c]
      · rcases hcase b yo xo c hb' hyo hxo hc with ⟨e, hno⟩ | ⟨y', x', hy', hx', hf, e⟩
        · rw [e, if_neg (hno y x)]; rfl
        · rw [e]
          simp only [List.map_cons, List.map_nil, List.sum_cons, List.sum_nil, add_zero, Op.cell, Op.addend,
            Prod.mk.injEq, true_and]
          by_cases hyx : y' = y ∧ x' = x
          · obtain ⟨rfl, rfl⟩ := hyx
            rw [if_pos rfl, if_pos hf]
          · rw [if_neg, if_neg]
            · intro hf'; exact hyx (hf.unique hf')
            · intro h
              obtain ⟨_, e1, e2, _⟩ := flat_inj hy' hx' hc hy hx hc (by exact_mod_cast h)
              exact hyx ⟨e1, e2⟩
      · intro c' hc' hne
        rw [mem_range] at hc'
        rcases hcase b yo xo c' hb' hyo hxo hc' with ⟨e, _⟩ | ⟨y', x', hy', hx', _, e⟩
        · rw [e]; rfl
        · rw [e]
          simp only [List.map_cons, List.map_nil, List.sum_cons, List.sum_nil, add_zero, Op.cell, Op.addend,
            Prod.mk.injEq, true_and]
          rw [if_neg]
          intro h
          obtain ⟨_, _, _, e1⟩ := flat_inj hy' hx' hc' hy hx hc (by exact_mod_cast h)
          exact hne e1
      · intro h; exact absurd (mem_range.2 hc) h
    · intro b' hb'' hne
      rw [mem_range] at hb''
      refine Finset.sum_eq_zero (fun yo hyo => Finset.sum_eq_zero (fun xo hxo => Finset.sum_eq_zero (fun c' hc' => ?_)))
      rw [mem_range] at hyo hxo hc'
      rcases hcase b' yo xo c' hb'' hyo hxo hc' with ⟨e, _⟩ | ⟨y', x', hy', hx', _, e⟩
      · rw [e]; rfl
      · rw [e]
        simp only [List.map_cons, List.map_nil, List.sum_cons, List.sum_nil, add_zero, Op.cell, Op.addend,
          Prod.mk.injEq, true_and]
        rw [if_neg]
        intro h
        obtain ⟨e1, _, _, _⟩ := flat_inj hy' hx' hc' hy hx hc (by exact_mod_cast h)
        exact hne e1
    · intro h; exact absurd (mem_range.2 hb') h
  · intro p hp _
    obtain ⟨t, _, hp⟩ := List.mem_flatMap.1 hp
    simp only [ops] at hp
    split_ifs at hp
    · simp at hp
    · rw [List.mem_singleton] at hp; subst hp; rfl

/-- **C65.**  Every execution of the GPU's average pooling gives each output that the CPU's
`avgpool_forward` gives. -/
theorem C65_avgpool_forward [Field α] (g : Pool.Geom) (N : Nat) (bottom top : Arr α)
    (hsz : bottom.size = N * g.H * g.W * g.nc) (ht : top.size = N * g.OH * g.OW * g.nc) :
    ∃ P, avgFwdLaunch g N bottom = some P ∧ ∀ l, Interleaves P l →
      ∃ out, runOn (fun _ : Unit => top) l = some out ∧
        ∀ b yo xo c, b < N → yo < g.OH → xo < g.OW → c < g.nc →
          plane g.OH g.OW g.nc (out ()) b c yo xo = avgCell (chan g c) (plane g.H g.W g.nc bottom b c) yo xo := by
  unfold avgFwdLaunch
  let val : Nat → α := fun t => avgCell (chan g (t % g.nc)) (plane g.H g.W g.nc bottom (t / g.nc / g.OW / g.OH) (t % g.nc))
    (t / g.nc / g.OW % g.OH) (t / g.nc % g.OW)
  obtain ⟨P, h1, h2⟩ := launch_one (fun _ : Unit => top) (numThreads (N * g.OH * g.OW * g.nc))
    (N * g.OH * g.OW * g.nc) (le_numThreads _)
    (fun t => movingLoop (avgFwdStep g bottom)
      (gridStride t (numThreads (N * g.OH * g.OW * g.nc)) (N * g.OH * g.OW * g.nc)))
    (fun t => [Op.set () t (val t)])
    (by
      intro t _
      rw [gridStride_of_le (le_numThreads _)]
      by_cases h : t < N * g.OH * g.OW * g.nc
      · rw [if_pos h, if_pos h]
        obtain ⟨b, yo, xo, c, hb, hy, hx, hc, rfl⟩ := flat_surj h
        obtain ⟨e1, e2, e3, e4⟩ := flat_div (b := b) hy hx hc
        refine movingLoop_one _ _ (0 + (b : Int) * g.H * g.W * g.nc, _) ?_
        unfold avgFwdStep
        simp only [val]
        rw [e1, e2, e3, e4]
        rw [foldlM_some _ _ (fun (s : α) iy => (irange (g.xMin xo) (g.xMax xo)).foldl (fun (s : α) ix =>
          s + plane g.H g.W g.nc bottom b c iy.toNat ix.toNat) s)]
        · rfl
        · intro h hh s
          refine foldlM_some _ _ _ ?_ s
          intro w hw s
          have := read_window g N bottom hsz (yo := yo) (xo := xo) hb hc hh hw
          rw [this]
          rfl
      · rw [if_neg h, if_neg h]; rfl)
    (by
      intro t ht' p hp
      rw [List.mem_singleton] at hp
      subst hp
      simp only [Op.cell, ht]
      exact ⟨by omega, by exact_mod_cast ht'⟩)
    (by
      intro s t hst ht' p hp q hq
      rw [List.mem_singleton] at hp hq
      subst hp hq
      left
      simp only [Op.cell, ne_eq, Prod.mk.injEq, true_and]
      omega)
  refine ⟨P, h1, fun l hl => ?_⟩
  obtain ⟨out, o1, o2⟩ := h2 l hl
  refine ⟨out, o1, fun b yo xo c hb hy hx hc => ?_⟩
  have hi := flat_lt hb hy hx hc
  obtain ⟨e1, e2, e3, e4⟩ := flat_div (b := b) hy hx hc
  have hm : plane g.OH g.OW g.nc (out ()) b c yo xo = _ := (o2 ()).2 _
  rw [hm, filter_flatMap _ hi]
  · simp only [val, e1, e2, e3, e4]
    simp [Op.cell, Op.newVal]
  · intro t _ hne p hp
    rw [List.mem_singleton] at hp
    subst hp
    simp only [Op.cell, ne_eq, Prod.mk.injEq, true_and]
    intro h
    exact hne (by exact_mod_cast h)

/-- What a thread of `ave_pool_bwd` adds. -/
def avgBwdVal [Field α] (g : Pool.Geom) (topDiff : Arr α) (b y x c : Nat) : α :=
  ∑ yo ∈ Ico (gatherStart (y + g.p) g.KH g.sy) (gatherEnd (y + g.p) g.sy g.OH),
    ∑ xo ∈ Ico (gatherStart (x + g.p) g.KW g.sx) (gatherEnd (x + g.p) g.sx g.OW),
      plane g.OH g.OW g.nc topDiff b c yo xo / (((window (chan g c) yo xo).card : Nat) : α)

theorem inWindow_iff (g : Pool.Geom) (hs : g.sy ≠ 0 ∧ g.sx ≠ 0) (c : Nat) {yo xo y x : Nat} (hy : y < g.H) (hx : x < g.W) :
    (yo < g.OH ∧ xo < g.OW ∧ InWindow (chan g c) yo xo y x) ↔
      ((gatherStart (y + g.p) g.KH g.sy ≤ yo ∧ yo < gatherEnd (y + g.p) g.sy g.OH) ∧
       (gatherStart (x + g.p) g.KW g.sx ≤ xo ∧ xo < gatherEnd (x + g.p) g.sx g.OW)) := by
  rw [gather_mem hs.1, gather_mem hs.2]
  unfold InWindow
  tauto

theorem avgBwdVal_eq [Field α] (g : Pool.Geom) (hs : g.sy ≠ 0 ∧ g.sx ≠ 0) (topDiff : Arr α) (b c : Nat) {y x : Nat}
    (hy : y < g.H) (hx : x < g.W) :
    ∑ yo ∈ range g.OH, ∑ xo ∈ range g.OW, (if InWindow (chan g c) yo xo y x then
      plane g.OH g.OW g.nc topDiff b c yo xo / (((window (chan g c) yo xo).card : Nat) : α) else 0) =
      avgBwdVal g topDiff b y x c := by
  unfold avgBwdVal
  rw [← Finset.sum_product', ← Finset.sum_product', ← Finset.sum_filter]
  refine Finset.sum_congr ?_ (fun _ _ => rfl)
  ext ⟨yo, xo⟩
  rw [mem_filter, mem_product, mem_product, mem_range, mem_range, mem_Ico, mem_Ico, ← inWindow_iff g hs c hy hx, and_assoc]

theorem avgBwdBody_spec [Field α] (g : Pool.Geom) (hs : g.sy ≠ 0 ∧ g.sx ≠ 0) (N : Nat) (topDiff : Arr α)
    (ht : topDiff.size = N * g.OH * g.OW * g.nc) {b y x c : Nat} (hb : b < N) (hy : y < g.H) (hx : x < g.W) (hc : c < g.nc) :
    avgBwdBody g topDiff (((b * g.H + y) * g.W + x) * g.nc + c) =
      some [Op.add () ((((b * g.H + y) * g.W + x) * g.nc + c : Nat) : Int) (avgBwdVal g topDiff b y x c)] := by
  obtain ⟨e1, e2, e3, e4⟩ := flat_div (b := b) hy hx hc
  unfold avgBwdBody
  dsimp only
  rw [e1, e2, e3, e4]
  rw [foldlM_sum2 _ _ _ _ (fun ph pw => (topDiff.read ((b : Int) * g.OH * g.OW * g.nc + c + ((ph : Int) * g.OW + pw) * g.nc)).map
    (fun v => v / (((min ((ph : Int) * g.sy - g.p + g.KH) g.H - max ((ph : Int) * g.sy - g.p) 0) *
      (min ((pw : Int) * g.sx - g.p + g.KW) g.W - max ((pw : Int) * g.sx - g.p) 0) : Int) : α)))
    (fun ph pw => plane g.OH g.OW g.nc topDiff b c ph pw / (((window (chan g c) ph pw).card : Nat) : α)) ?_ 0]
  · rw [zero_add]; rfl
  · intro yo hy1 hy2 xo hx1 hx2
    obtain ⟨hyo, hxo, hw⟩ := (inWindow_iff g hs c hy hx).2 ⟨⟨hy1, hy2⟩, hx1, hx2⟩
    obtain ⟨hcard, _⟩ := card_window (g := chan g c) (yo := yo) (xo := xo) ⟨(y, x), mem_window.2 hw⟩
    rw [Arr.read_nat topDiff (k := ((b * g.OH + yo) * g.OW + xo) * g.nc + c) (by push_cast; ring)
      (by rw [ht]; exact flat_lt hb hyo hxo hc)]
    have hcast : (((min ((yo : Int) * g.sy - g.p + g.KH) g.H - max ((yo : Int) * g.sy - g.p) 0) *
      (min ((xo : Int) * g.sx - g.p + g.KW) g.W - max ((xo : Int) * g.sx - g.p) 0) : Int) : α) =
        (((window (chan g c) yo xo).card : Nat) : α) := by
      have : (min ((yo : Int) * g.sy - g.p + g.KH) g.H - max ((yo : Int) * g.sy - g.p) 0) *
        (min ((xo : Int) * g.sx - g.p + g.KW) g.W - max ((xo : Int) * g.sx - g.p) 0) =
          (((window (chan g c) yo xo).card : Nat) : Int) := hcard
      rw [this]
      norm_cast
    rw [Option.map_some, hcast]
    rfl

/-- **C65.**  Every execution of the GPU's backward pass of average pooling adds to the input deltas what the
CPU's `avgpool_backward` adds. -/
theorem C65_avgpool_backward [Field α] (g : Pool.Geom) (hs : g.sy ≠ 0 ∧ g.sx ≠ 0) (N : Nat)
    (topDiff bottomDiff : Arr α) (ht : topDiff.size = N * g.OH * g.OW * g.nc)
    (hb : bottomDiff.size = N * g.H * g.W * g.nc) :
    ∃ P, avgBwdLaunch g N topDiff = some P ∧ ∀ l, Interleaves P l →
      ∃ out, runOn (fun _ : Unit => bottomDiff) l = some out ∧
        ∀ b c, b < N → c < g.nc →
          ∃ cpu, avgBackward (chan g c) (plane g.OH g.OW g.nc topDiff b c)
              ⟨g.H, g.W, plane g.H g.W g.nc bottomDiff b c⟩ = some cpu ∧
            ∀ y x, y < g.H → x < g.W → plane g.H g.W g.nc (out ()) b c y x = cpu.at' y x := by
  obtain ⟨P, h1, h2⟩ := gridLaunch_spec (fun _ : Unit => bottomDiff) (N * g.H * g.W * g.nc)
    (avgBwdBody g topDiff) (fun t => [Op.add () (t : Int) (avgBwdVal g topDiff (t / g.nc / g.W / g.H) (t / g.nc / g.W % g.H)
      (t / g.nc % g.W) (t % g.nc))])
    (by
      intro t ht'
      obtain ⟨b, y, x, c, hb', hy, hx, hc, rfl⟩ := flat_surj ht'
      obtain ⟨e1, e2, e3, e4⟩ := flat_div (b := b) hy hx hc
      rw [avgBwdBody_spec g hs N topDiff ht hb' hy hx hc, e1, e2, e3, e4])
    (by
      intro t ht' p hp
      rw [List.mem_singleton] at hp
      subst hp
      simp only [Op.cell, hb]
      exact ⟨by omega, by exact_mod_cast ht'⟩)
    (by
      intro s t hst _ p hp q hq
      rw [List.mem_singleton] at hp hq
      subst hp hq
      left
      simp only [Op.cell, ne_eq, Prod.mk.injEq, true_and]
      omega)
  refine ⟨P, h1, fun l hl => ?_⟩
  obtain ⟨out, o1, o2⟩ := h2 l hl
  refine ⟨out, o1, fun b c hb' hc => ?_⟩
  obtain ⟨cpu, k1, k2⟩ := C48_avg_backward (chan g c) (plane g.OH g.OW g.nc topDiff b c)
    ⟨g.H, g.W, plane g.H g.W g.nc bottomDiff b c⟩ rfl rfl
  refine ⟨cpu, k1, fun y x hy hx => ?_⟩
  obtain ⟨e1, e2, e3, e4⟩ := flat_div (b := b) hy hx hc
  have hm : plane g.H g.W g.nc (out ()) b c y x = _ := (o2 ()).2 _
  rw [hm, filter_flatMap _ (flat_lt hb' hy hx hc), k2]
  · rw [e1, e2, e3, e4, avgBwdVal_eq g hs topDiff b c hy hx]
    simp [Op.cell, Op.newVal, plane]
  · intro t _ hne p hp
    rw [List.mem_singleton] at hp
    subst hp
    simp only [Op.cell, ne_eq, Prod.mk.injEq, true_and]
    intro h
    exact hne (by exact_mod_cast h)

/-! ## Examples -/

/-- Two images of 2 x 3 pixels with 2 channels, windows of 2 x 2 pixels that overlap. -/
def poolDemo : Pool.Geom := ⟨2, 3, 2, 0, 2, 2, 0, 1, 1, 1, 2⟩

/-- Max pooling of both images. -/
example : (maxFwdLaunch poolDemo 2 (-100 : Int) id ⟨24, fun i => if i % 5 = 0 then 7 else (i : Int)⟩).map (fun P =>
      (runOn (fun _ : PoolArr => (⟨8, fun _ => 0⟩ : Arr Int)) P.flatten).map (fun r =>
        ((List.range 8).map (r .top).at', (List.range 8).map (r .mask).at'))) =
    some (some ([8, 9, 8, 11, 18, 21, 22, 23], [8, 9, 8, 11, 6, 9, 10, 11])) := by decide +kernel

/-- The backward pass: pixel 3 gets two deltas. -/
example : (maxBwdLaunch poolDemo 1 (fun m : Int => m < 0) id (⟨4, fun i => 10 + (i : Int)⟩) ⟨4, fun i => if i = 0 then -1 else 3⟩).map (fun P =>
      (runOn (fun _ : Unit => (⟨12, fun _ => 1⟩ : Arr Int)) P.flatten).map (fun r => (List.range 12).map (r ()).at')) =
    some (some [1, 1, 1, 37, 1, 1, 1, 1, 1, 1, 1, 1]) := by decide +kernel

example : (avgFwdLaunch poolDemo 1 (⟨12, fun i => (i : ℚ)⟩)).map (fun P =>
      (runOn (fun _ : Unit => (⟨4, fun _ => 0⟩ : Arr ℚ)) P.flatten).map (fun r => (List.range 4).map (r ()).at')) =
    some (some [4, 5, 6, 7]) := by decide +kernel

example : (avgBwdLaunch poolDemo 1 (⟨4, fun i => 4 * (i : ℚ)⟩)).map (fun P =>
      (runOn (fun _ : Unit => (⟨12, fun _ => 0⟩ : Arr ℚ)) P.flatten).map (fun r => (List.range 12).map (r ()).at')) =
    some (some [0, 1, 2, 4, 2, 3, 0, 1, 2, 4, 2, 3]) := by decide +kernel

/-- The hypothesis on the stored indices, for exact storage. -/
example : ∀ i : Int, -1 ≤ i → i < poolDemo.H * poolDemo.W * poolDemo.nc → id (id i) = i ∧ (decide (id i < 0) = decide (i < 0)) :=
  fun _ _ _ => ⟨rfl, rfl⟩

end Verif.Gpu
