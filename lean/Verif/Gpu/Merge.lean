import Verif.Gpu.Launch
import Verif.Layers.Merge

/-!
# The CUDA kernels of `merge_tt` and `split_add_tt` (brainstorm/handlers/pycuda_handler.py:46-66, 317-323, 357-364, 582-625)
-/

namespace Verif.Gpu

open Verif.Numeric Verif.Layers.Merge

variable {α : Type}

/-! ## Model -/

/-- Number of threads (blocks times threads per block) that `_get_gridsize` chooses
(pycuda_handler.py:46-66). -/
def gridThreads (n : Nat) : Nat :=
  if n < 32 then 1 * 32
  else if n < 384 * 32 then ((n + 32 - 1) / 32) * 32
  else if n < 384 * 256 then 384 * ((((n + 32 - 1) / 32) + 384 - 1) / 384 * 32)
  else 384 * 256

/-- The statements of `merge_kernel` for a row (pycuda_handler.py:592-598). -/
def mergeRow (sa sb : Nat) (a b : Arr α) (row : Nat) : Option (List (Op Unit α)) :=
  (List.range (sa + sb)).mapM (fun i =>
    if i < sa then (a.read ((row : Int) * sa + i)).map (fun v => Op.set () ((row : Int) * (sa + sb : Nat) + i) v)
    else (b.read ((row : Int) * sb + i - sa)).map (fun v => Op.set () ((row : Int) * (sa + sb : Nat) + i) v))

/-- A thread of `merge_kernel` (pycuda_handler.py:588-598): rows from `n` on have no work. -/
def mergeThread (n sa sb : Nat) (a b : Arr α) (row : Nat) : Option (List (Op Unit α)) :=
  if row ≥ n then some [] else mergeRow sa sb a b row

/-- The launch of `merge_tt` (pycuda_handler.py:317-323). -/
def mergeLaunch [Add α] [Zero α] (n sa sb : Nat) (a b : Arr α) : Option (List (List (Instr Unit α))) :=
  launch (gridThreads n) (mergeThread n sa sb a b)

/-- The arrays that `split_kernel` writes. -/
inductive Part where
  | a
  | b
  deriving DecidableEq

/-- The statements of `split_kernel` for a row (pycuda_handler.py:615-621). -/
def splitRow (sa sb : Nat) (x : Arr α) (row : Nat) : Option (List (Op Part α)) :=
  (List.range (sa + sb)).mapM (fun i =>
    if i < sa then (x.read ((row : Int) * (sa + sb : Nat) + i)).map (fun v => Op.add .a ((row : Int) * sa + i) v)
    else (x.read ((row : Int) * (sa + sb : Nat) + i)).map (fun v => Op.add .b ((row : Int) * sb + i - sa) v))

/-- A thread of `split_kernel` (pycuda_handler.py:611-621). -/
def splitThread (n sa sb : Nat) (x : Arr α) (row : Nat) : Option (List (Op Part α)) :=
  if row ≥ n then some [] else splitRow sa sb x row

/-- The launch of `split_add_tt` (pycuda_handler.py:357-364). -/
def splitLaunch [Add α] [Zero α] (n sa sb : Nat) (x : Arr α) : Option (List (List (Instr Part α))) :=
  launch (gridThreads n) (splitThread n sa sb x)

/-! ## Lemmas -/

theorem le_gridThreads {n : Nat} (h : n ≤ 98304) : n ≤ gridThreads n := by
  unfold gridThreads; split_ifs <;> omega

theorem gridThreads_big {n : Nat} (h : 98304 ≤ n) : gridThreads n = 98304 := by
  unfold gridThreads; split_ifs <;> omega

theorem mapM_some' {A B : Type} (f : A → Option B) (g : A → B) (l : List A) (h : ∀ x ∈ l, f x = some (g x)) :
    l.mapM f = some (l.map g) := by
  induction l with
  | nil => rfl
  | cons x l ih =>
    rw [List.mapM_cons, h x (by simp), ih (fun y hy => h y (by simp [hy]))]
    rfl

/-- The only statement about a cell. -/
theorem filter_map_one {ι : Type} [DecidableEq ι] [AddCommMonoid α] {w i : Nat} (f : Nat → Op ι α) (hi : i < w) (c : ι × Int)
    (hc : (f i).cell = c) (h : ∀ j < w, j ≠ i → (f j).cell ≠ c) :
    ((List.range w).map f).filter (fun p => p.cell = c) = [f i] := by
  have e : (List.range w).map f = (List.range w).flatMap (fun j => [f j]) := by
    rw [List.map_eq_flatMap]
  rw [e, filter_flatMap (fun j => [f j]) hi c]
  · simp [hc]
  · intro t ht hne p hp
    rw [List.mem_singleton] at hp
    subst hp
    exact h t ht hne

theorem row_lt {r n w i : Nat} (hr : r < n) (hi : i < w) : r * w + i < n * w := by
  calc r * w + i < r * w + w := by omega
    _ = (r + 1) * w := by ring
    _ ≤ n * w := Nat.mul_le_mul_right _ hr

theorem row_inj {r r' w i i' : Nat} (hi : i < w) (hi' : i' < w) (h : r * w + i = r' * w + i') : r = r' ∧ i = i' := by
  have e1 : (r * w + i) / w = r := by rw [mul_comm, Nat.mul_add_div (by omega), Nat.div_eq_of_lt hi, Nat.add_zero]
  have e2 : (r' * w + i') / w = r' := by rw [mul_comm, Nat.mul_add_div (by omega), Nat.div_eq_of_lt hi', Nat.add_zero]
  rw [h, e2] at e1
  subst e1
  exact ⟨rfl, by omega⟩

/-- What a row of the merged array gets. -/
def mergeVal (sa sb : Nat) (a b : Arr α) (row i : Nat) : α :=
  if i < sa then a.at' (row * sa + i) else b.at' (row * sb + (i - sa))

theorem mergeRow_spec (n sa sb : Nat) (a b : Arr α) (ha : a.size = n * sa) (hb : b.size = n * sb) {row : Nat} (hr : row < n) :
    mergeRow sa sb a b row = some ((List.range (sa + sb)).map (fun i =>
      Op.set () ((row * (sa + sb) + i : Nat) : Int) (mergeVal sa sb a b row i))) := by
  refine mapM_some' _ _ _ (fun i hi => ?_)
  rw [List.mem_range] at hi
  unfold mergeVal
  by_cases h : i < sa
  · rw [if_pos h, if_pos h, Arr.read_nat a (k := row * sa + i) (by push_cast; ring) (by rw [ha]; exact row_lt hr h)]
    simp
  · rw [if_neg h, if_neg h, Arr.read_nat b (k := row * sb + (i - sa)) (by rw [Nat.cast_add, Nat.cast_sub (by omega)]; push_cast; ring)
      (by rw [hb]; exact row_lt hr (by omega))]
    simp

/-- All executions of the merge kernel. -/
theorem merge_all [AddCommMonoid α] (n sa sb : Nat) (a b out : Arr α) (ha : a.size = n * sa) (hb : b.size = n * sb)
    (ho : out.size = n * (sa + sb)) :
    ∃ P, mergeLaunch n sa sb a b = some P ∧ ∀ l, Interleaves P l →
      ∃ res, runOn (fun _ : Unit => out) l = some res ∧
        (∀ row i, row < n → row < gridThreads n → i < sa + sb →
          (res ()).at' (row * (sa + sb) + i) = mergeVal sa sb a b row i) ∧
        (∀ row i, gridThreads n ≤ row → i < sa + sb →
          (res ()).at' (row * (sa + sb) + i) = out.at' (row * (sa + sb) + i)) := by
  obtain ⟨P, h1, h2⟩ := launch_one (fun _ : Unit => out) (gridThreads n) (min n (gridThreads n)) (min_le_right _ _)
    (mergeThread n sa sb a b)
    (fun row => (List.range (sa + sb)).map (fun i =>
      Op.set () ((row * (sa + sb) + i : Nat) : Int) (mergeVal sa sb a b row i)))
    (by
      intro t ht
      unfold mergeThread
      by_cases h : t < n
      · rw [if_neg (by omega), if_pos (by omega), mergeRow_spec n sa sb a b ha hb h]
      · rw [if_pos (by omega), if_neg (by omega)])
    (by
      intro t ht p hp
      obtain ⟨i, hi, rfl⟩ := List.mem_map.1 hp
      rw [List.mem_range] at hi
      simp only [Op.cell, ho]
      exact ⟨by omega, by exact_mod_cast row_lt (by omega) hi⟩)
    (by
      intro s t hst ht p hp q hq
      obtain ⟨i, hi, rfl⟩ := List.mem_map.1 hp
      obtain ⟨j, hj, rfl⟩ := List.mem_map.1 hq
      rw [List.mem_range] at hi hj
      left
      simp only [Op.cell, ne_eq, Prod.mk.injEq, true_and]
      intro h
      have := (row_inj hi hj (by exact_mod_cast h)).1
      omega)
  refine ⟨P, h1, fun l hl => ?_⟩
  obtain ⟨res, o1, o2⟩ := h2 l hl
  refine ⟨res, o1, ?_, ?_⟩
  · intro row i hr hr' hi
    rw [(o2 ()).2, filter_flatMap _ (i := row) (by omega), filter_map_one _ hi]
    · rfl
    · rfl
    · intro j hj hne
      simp only [Op.cell, ne_eq, Prod.mk.injEq, true_and]
      intro h
      exact hne (row_inj hj hi (by exact_mod_cast h)).2
    · intro t _ hne p hp
      obtain ⟨j, hj, rfl⟩ := List.mem_map.1 hp
      rw [List.mem_range] at hj
      simp only [Op.cell, ne_eq, Prod.mk.injEq, true_and]
      intro h
      exact hne (row_inj hj hi (by exact_mod_cast h)).1
  · intro row i hr hi
    rw [(o2 ()).2, foldl_none]
    intro p hp
    obtain ⟨t, ht, hp⟩ := List.mem_flatMap.1 hp
    obtain ⟨j, hj, rfl⟩ := List.mem_map.1 hp
    rw [List.mem_range] at hj ht
    simp only [Op.cell, ne_eq, Prod.mk.injEq, true_and]
    intro h
    have := (row_inj hj hi (by exact_mod_cast h)).1
    omega

theorem mergeTT_row (n sa sb : Nat) (a b : Arr α) (out : Nat → α) {row i : Nat} (hr : row < n) (hi : i < sa + sb) :
    mergeTT n sa sb a.at' b.at' out (row * (sa + sb) + i) = mergeVal sa sb a b row i := by
  have hlt := row_lt hr hi
  have e1 : (row * (sa + sb) + i) / (sa + sb) = row := by
    rw [mul_comm, Nat.mul_add_div (by omega), Nat.div_eq_of_lt hi, Nat.add_zero]
  have e2 : (row * (sa + sb) + i) % (sa + sb) = i := by
    rw [mul_comm, Nat.mul_add_mod, Nat.mod_eq_of_lt hi]
  unfold mergeTT assignCols mergeVal
  dsimp only
  rw [e1, e2]
  by_cases h : i < sa
  · rw [if_neg (by omega), if_pos ⟨hlt, by omega, h⟩, if_pos h, Nat.sub_zero]
  · rw [if_pos ⟨hlt, by omega, hi⟩, if_neg h]

/-- **C65.**  For arrays of at most 98304 rows every execution of the GPU's `merge_tt` gives what the CPU's
gives.  (Partial: for more rows it does not, see `C65_merge_rows_lost`.) -/
theorem C65_merge_partial [AddCommMonoid α] (n sa sb : Nat) (hn : n ≤ 98304) (a b out : Arr α) (ha : a.size = n * sa)
    (hb : b.size = n * sb) (ho : out.size = n * (sa + sb)) :
    ∃ P, mergeLaunch n sa sb a b = some P ∧ ∀ l, Interleaves P l →
      ∃ res, runOn (fun _ : Unit => out) l = some res ∧
        ∀ k < n * (sa + sb), (res ()).at' k = mergeTT n sa sb a.at' b.at' out.at' k := by
  obtain ⟨P, h1, h2⟩ := merge_all n sa sb a b out ha hb ho
  refine ⟨P, h1, fun l hl => ?_⟩
  obtain ⟨res, o1, o2, _⟩ := h2 l hl
  refine ⟨res, o1, fun k hk => ?_⟩
  have hw : 0 < sa + sb := by
    rcases Nat.eq_zero_or_pos (sa + sb) with h | h
    · rw [h, Nat.mul_zero] at hk; exact absurd hk (Nat.not_lt_zero _)
    · exact h
  have hrow : k / (sa + sb) < n := (Nat.div_lt_iff_lt_mul hw).2 hk
  have hk' : k / (sa + sb) * (sa + sb) + k % (sa + sb) = k := by rw [mul_comm]; exact Nat.div_add_mod _ _
  have := o2 (k / (sa + sb)) (k % (sa + sb)) hrow (lt_of_lt_of_le hrow (le_gridThreads hn)) (Nat.mod_lt _ hw)
  rw [← mergeTT_row n sa sb a b out.at' hrow (Nat.mod_lt _ hw), hk'] at this
  exact this

/-- **C65.**  The GPU's `merge_tt` never writes the rows from 98304 on: its kernel has one row per thread and
`_get_gridsize` never asks for more than 384 · 256 threads. -/
theorem C65_merge_rows_lost [AddCommMonoid α] (n sa sb : Nat) (hn : 98304 < n) (a b out : Arr α) (ha : a.size = n * sa)
    (hb : b.size = n * sb) (ho : out.size = n * (sa + sb)) :
    ∃ P, mergeLaunch n sa sb a b = some P ∧ ∀ l, Interleaves P l →
      ∃ res, runOn (fun _ : Unit => out) l = some res ∧
        ∀ row i, 98304 ≤ row → i < sa + sb → (res ()).at' (row * (sa + sb) + i) = out.at' (row * (sa + sb) + i) := by
  obtain ⟨P, h1, h2⟩ := merge_all n sa sb a b out ha hb ho
  refine ⟨P, h1, fun l hl => ?_⟩
  obtain ⟨res, o1, _, o2⟩ := h2 l hl
  refine ⟨res, o1, fun row i hr hi => o2 row i ?_ hi⟩
  rw [gridThreads_big (by omega)]
  exact hr

/-! ### Splitting -/

/-- The statement for a column of a row. -/
def splitOp (sa sb : Nat) (x : Arr α) (row i : Nat) : Op Part α :=
  if i < sa then .add .a ((row * sa + i : Nat) : Int) (x.at' (row * (sa + sb) + i))
  else .add .b ((row * sb + (i - sa) : Nat) : Int) (x.at' (row * (sa + sb) + i))

theorem splitRow_spec (n sa sb : Nat) (x : Arr α) (hx : x.size = n * (sa + sb)) {row : Nat} (hr : row < n) :
    splitRow sa sb x row = some ((List.range (sa + sb)).map (splitOp sa sb x row)) := by
  refine mapM_some' _ _ _ (fun i hi => ?_)
  rw [List.mem_range] at hi
  unfold splitOp
  rw [Arr.read_nat x (k := row * (sa + sb) + i) (by push_cast; ring) (by rw [hx]; exact row_lt hr hi)]
  by_cases h : i < sa
  · rw [if_pos h, if_pos h]
    simp
  · rw [if_neg h, if_neg h]
    simp only [Option.map_some, Option.some.injEq, Op.add.injEq, true_and, and_true]
    rw [Nat.cast_add, Nat.cast_sub (by omega)]
    push_cast
    ring

theorem splitOp_cell_inj [AddCommMonoid α] (sa sb : Nat) (x : Arr α) {r r' i i' : Nat} (hi : i < sa + sb) (hi' : i' < sa + sb)
    (h : (splitOp sa sb x r i).cell = (splitOp sa sb x r' i').cell) : r = r' ∧ i = i' := by
  unfold splitOp at h
  by_cases h1 : i < sa <;> by_cases h2 : i' < sa
  · rw [if_pos h1, if_pos h2] at h
    simp only [Op.cell, Prod.mk.injEq, true_and] at h
    exact row_inj h1 h2 (by exact_mod_cast h)
  · rw [if_pos h1, if_neg h2] at h
    simp [Op.cell] at h
  · rw [if_neg h1, if_pos h2] at h
    simp [Op.cell] at h
  · rw [if_neg h1, if_neg h2] at h
    simp only [Op.cell, Prod.mk.injEq, true_and] at h
    obtain ⟨e1, e2⟩ := row_inj (w := sb) (i := i - sa) (i' := i' - sa) (by omega) (by omega) (by exact_mod_cast h)
    exact ⟨e1, by omega⟩

theorem split_all [AddCommMonoid α] (n sa sb : Nat) (x outA outB : Arr α) (hx : x.size = n * (sa + sb))
    (ha : outA.size = n * sa) (hb : outB.size = n * sb) :
    ∃ P, splitLaunch n sa sb x = some P ∧ ∀ l, Interleaves P l →
      ∃ res, runOn (fun p : Part => match p with | .a => outA | .b => outB) l = some res ∧
        (∀ row i, row < n → row < gridThreads n →
          (i < sa → (res .a).at' (row * sa + i) = outA.at' (row * sa + i) + x.at' (row * (sa + sb) + i)) ∧
          (i < sb → (res .b).at' (row * sb + i) = outB.at' (row * sb + i) + x.at' (row * (sa + sb) + (sa + i)))) ∧
        (∀ row i, gridThreads n ≤ row →
          (i < sa → (res .a).at' (row * sa + i) = outA.at' (row * sa + i)) ∧
          (i < sb → (res .b).at' (row * sb + i) = outB.at' (row * sb + i))) := by
  obtain ⟨P, h1, h2⟩ := launch_one (fun p : Part => match p with | .a => outA | .b => outB) (gridThreads n)
    (min n (gridThreads n)) (min_le_right _ _) (splitThread n sa sb x)
    (fun row => (List.range (sa + sb)).map (splitOp sa sb x row))
    (by
      intro t ht
      unfold splitThread
      by_cases h : t < n
      · rw [if_neg (by omega), if_pos (by omega), splitRow_spec n sa sb x hx h]
      · rw [if_pos (by omega), if_neg (by omega)])
    (by
      intro t ht p hp
      obtain ⟨i, hi, rfl⟩ := List.mem_map.1 hp
      rw [List.mem_range] at hi
      unfold splitOp
      by_cases h : i < sa
      · rw [if_pos h]
        simp only [Op.cell, ha]
        exact ⟨by omega, by exact_mod_cast row_lt (by omega) h⟩
      · rw [if_neg h]
        simp only [Op.cell, hb]
        exact ⟨by omega, by exact_mod_cast row_lt (by omega) (by omega)⟩)
    (by
      intro s t hst ht p hp q hq
      obtain ⟨i, hi, rfl⟩ := List.mem_map.1 hp
      obtain ⟨j, hj, rfl⟩ := List.mem_map.1 hq
      rw [List.mem_range] at hi hj
      left
      intro h
      have := (splitOp_cell_inj sa sb x hi hj h).1
      omega)
  refine ⟨P, h1, fun l hl => ?_⟩
  obtain ⟨res, o1, o2⟩ := h2 l hl
  have main : ∀ row i, row < n → row < gridThreads n → i < sa + sb → ∀ (p : Part) (k : Nat), (splitOp sa sb x row i).cell = (p, (k : Int)) →
      (res p).at' k = (splitOp sa sb x row i).newVal ((match p with | .a => outA | .b => outB : Arr α).at' k) := by
    intro row i hr hr' hi p k hc
    rw [(o2 p).2, filter_flatMap _ (i := row) (by omega), filter_map_one _ hi _ hc]
    · rfl
    · intro j hj hne h
      exact hne (splitOp_cell_inj sa sb x hj hi (h.trans hc.symm)).2
    · intro t _ hne q hq h
      obtain ⟨j, hj, rfl⟩ := List.mem_map.1 hq
      rw [List.mem_range] at hj
      exact hne (splitOp_cell_inj sa sb x hj hi (h.trans hc.symm)).1
  have rest : ∀ row i, gridThreads n ≤ row → i < sa + sb → ∀ (p : Part) (k : Nat), (splitOp sa sb x row i).cell = (p, (k : Int)) →
      (res p).at' k = (match p with | .a => outA | .b => outB : Arr α).at' k := by
    intro row i hr hi p k hc
    rw [(o2 p).2, foldl_none]
    intro q hq h
    obtain ⟨t, ht, hq⟩ := List.mem_flatMap.1 hq
    obtain ⟨j, hj, rfl⟩ := List.mem_map.1 hq
    rw [List.mem_range] at hj ht
    have := (splitOp_cell_inj sa sb x hj hi (h.trans hc.symm)).1
    omega
  have ea : ∀ row i, i < sa → splitOp sa sb x row i = .add .a ((row * sa + i : Nat) : Int) (x.at' (row * (sa + sb) + i)) := by
    intro row i hi
    unfold splitOp
    rw [if_pos hi]
  have eb : ∀ row i, splitOp sa sb x row (sa + i) = .add .b ((row * sb + i : Nat) : Int) (x.at' (row * (sa + sb) + (sa + i))) := by
    intro row i
    unfold splitOp
    rw [if_neg (by omega), Nat.add_sub_cancel_left]
  refine ⟨res, o1, fun row i hr hr' => ⟨fun hi => ?_, fun hi => ?_⟩, fun row i hr => ⟨fun hi => ?_, fun hi => ?_⟩⟩
  · rw [main row i hr hr' (by omega) .a (row * sa + i) (by rw [ea row i hi]; rfl), ea row i hi]; rfl
  · rw [main row (sa + i) hr hr' (by omega) .b (row * sb + i) (by rw [eb]; rfl), eb]; rfl
  · rw [rest row i hr (by omega) .a (row * sa + i) (by rw [ea row i hi]; rfl)]
  · rw [rest row (sa + i) hr (by omega) .b (row * sb + i) (by rw [eb]; rfl)]

/-- **C65.**  For arrays of at most 98304 rows every execution of the GPU's `split_add_tt` gives what the
CPU's gives.  (Partial: for more rows it does not, see `C65_split_rows_lost`.) -/
theorem C65_split_partial [AddCommMonoid α] (n sa sb : Nat) (hn : n ≤ 98304) (x outA outB : Arr α)
    (hx : x.size = n * (sa + sb)) (ha : outA.size = n * sa) (hb : outB.size = n * sb) :
    ∃ P, splitLaunch n sa sb x = some P ∧ ∀ l, Interleaves P l →
      ∃ res, runOn (fun p : Part => match p with | .a => outA | .b => outB) l = some res ∧
        (∀ k < n * sa, (res .a).at' k = (splitAddTT n sa sb x.at' outA.at' outB.at').1 k) ∧
        (∀ k < n * sb, (res .b).at' k = (splitAddTT n sa sb x.at' outA.at' outB.at').2 k) := by
  obtain ⟨P, h1, h2⟩ := split_all n sa sb x outA outB hx ha hb
  refine ⟨P, h1, fun l hl => ?_⟩
  obtain ⟨res, o1, o2, _⟩ := h2 l hl
  have pos : ∀ {k w : Nat}, k < n * w → 0 < w := by
    intro k w hk
    rcases Nat.eq_zero_or_pos w with h | h
    · rw [h, Nat.mul_zero] at hk; exact absurd hk (Nat.not_lt_zero _)
    · exact h
  refine ⟨res, o1, fun k hk => ?_, fun k hk => ?_⟩
  · have hw := pos hk
    have hrow : k / sa < n := (Nat.div_lt_iff_lt_mul hw).2 hk
    have hk' : k / sa * sa + k % sa = k := by rw [mul_comm]; exact Nat.div_add_mod _ _
    have := (o2 (k / sa) (k % sa) hrow (lt_of_lt_of_le hrow (le_gridThreads hn))).1 (Nat.mod_lt _ hw)
    rw [hk'] at this
    rw [this]
    unfold splitAddTT assignCols
    dsimp only
    rw [if_pos ⟨hk, Nat.zero_le _, Nat.mod_lt _ hw⟩, Nat.sub_zero, hk']
  · have hw := pos hk
    have hrow : k / sb < n := (Nat.div_lt_iff_lt_mul hw).2 hk
    have hk' : k / sb * sb + k % sb = k := by rw [mul_comm]; exact Nat.div_add_mod _ _
    have := (o2 (k / sb) (k % sb) hrow (lt_of_lt_of_le hrow (le_gridThreads hn))).2 (Nat.mod_lt _ hw)
    rw [hk'] at this
    rw [this]
    unfold splitAddTT assignCols
    dsimp only
    rw [if_pos ⟨hk, Nat.zero_le _, Nat.mod_lt _ hw⟩, Nat.sub_zero, hk']

/-- **C65.**  The GPU's `split_add_tt` never adds the rows from 98304 on. -/
theorem C65_split_rows_lost [AddCommMonoid α] (n sa sb : Nat) (hn : 98304 < n) (x outA outB : Arr α)
    (hx : x.size = n * (sa + sb)) (ha : outA.size = n * sa) (hb : outB.size = n * sb) :
    ∃ P, splitLaunch n sa sb x = some P ∧ ∀ l, Interleaves P l →
      ∃ res, runOn (fun p : Part => match p with | .a => outA | .b => outB) l = some res ∧
        ∀ row i, 98304 ≤ row →
          (i < sa → (res .a).at' (row * sa + i) = outA.at' (row * sa + i)) ∧
          (i < sb → (res .b).at' (row * sb + i) = outB.at' (row * sb + i)) := by
  obtain ⟨P, h1, h2⟩ := split_all n sa sb x outA outB hx ha hb
  refine ⟨P, h1, fun l hl => ?_⟩
  obtain ⟨res, o1, _, o2⟩ := h2 l hl
  refine ⟨res, o1, fun row i hr => o2 row i ?_⟩
  rw [gridThreads_big (by omega)]
  exact hr

/-! ## Examples -/

/-- Three rows of two and one columns: some execution exists, and reading past the input is an error. -/
example : (mergeLaunch (α := Nat) 3 2 1 ⟨6, fun i => i⟩ ⟨3, fun i => 10 + i⟩).map (fun P =>
      (runOn (fun _ : Unit => (⟨9, fun _ => 0⟩ : Arr Nat)) P.flatten).map (fun r => (List.range 9).map (r ()).at')) =
    some (some [0, 1, 10, 2, 3, 11, 4, 5, 12]) := by decide +kernel

example : (mergeLaunch (α := Nat) 3 2 1 ⟨5, fun i => i⟩ ⟨3, fun i => 10 + i⟩).isNone = true := by decide +kernel

/-- With 98305 rows the last one stays as it was, but the CPU writes it. -/
example : mergeTT (α := Nat) 98305 1 1 (fun _ => 5) (fun _ => 6) (fun _ => 0) (98304 * 2) = 5 := by decide +kernel

/-- Splitting 2 rows of 1 + 2 columns onto ones. -/
example : (splitLaunch (α := Nat) 2 1 2 ⟨6, fun i => i⟩).map (fun P =>
      (runOn (fun p : Part => match p with | .a => (⟨2, fun _ => 100⟩ : Arr Nat) | .b => ⟨4, fun _ => 200⟩) P.flatten).map
        (fun r => ((List.range 2).map (r .a).at', (List.range 4).map (r .b).at'))) =
    some (some ([100, 103], [201, 202, 204, 205])) := by decide +kernel

end Verif.Gpu
