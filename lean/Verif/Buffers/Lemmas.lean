import Verif.Buffers.Model
import Verif.Layout.HubLemmas
import Mathlib.Tactic.Ring
import Mathlib.Tactic.Linarith
import Mathlib.Algebra.BigOperators.Group.List.Basic
import Mathlib.Data.List.Range
import Mathlib.Data.List.Nodup

namespace Verif.Buffers

open Verif.Structure Verif.Layout

/-! ### Selected addresses -/

theorem mul_range {i j p x y : Nat} (hx : x < p) (hy : y < p) (h : i * p + x = j * p + y) : i = j := by
  have h1 : (i * p + x) / p = i := by
    rw [Nat.mul_comm, Nat.mul_add_div (by omega)]; simp [Nat.div_eq_of_lt hx]
  have h2 : (j * p + y) / p = j := by
    rw [Nat.mul_comm, Nat.mul_add_div (by omega)]; simp [Nat.div_eq_of_lt hy]
  rw [← h1, h, h2]

theorem cellsOf_bounds : ∀ (base : Nat) (shape : List Nat) (rs : List (Nat × Nat)),
    ∀ c ∈ cellsOf base shape rs, base ≤ c ∧ c < base + shape.prod
  | base, [], _ => by intro c hc; simp [cellsOf] at hc; simp [hc]
  | base, d :: ds, [] => by
    intro c hc
    simp only [cellsOf, List.mem_flatMap, List.mem_range] at hc
    obtain ⟨i, hi, hc⟩ := hc
    have := cellsOf_bounds _ ds [] c hc
    have h2 : (i + 1) * ds.prod ≤ d * ds.prod := Nat.mul_le_mul_right _ hi
    rw [List.prod_cons]
    have : i * ds.prod + ds.prod = (i + 1) * ds.prod := by ring
    omega
  | base, d :: ds, (a, b) :: rs => by
    intro c hc
    simp only [cellsOf, List.mem_flatMap, List.mem_range] at hc
    obtain ⟨i, hi, hc⟩ := hc
    have := cellsOf_bounds _ ds rs c hc
    have h2 : (a + i + 1) * ds.prod ≤ d * ds.prod := Nat.mul_le_mul_right _ (by omega)
    rw [List.prod_cons]
    have : (a + i) * ds.prod + ds.prod = (a + i + 1) * ds.prod := by ring
    omega

theorem cellsOf_nodup : ∀ (base : Nat) (shape : List Nat) (rs : List (Nat × Nat)),
    (cellsOf base shape rs).Nodup
  | base, [], _ => by simp [cellsOf]
  | base, d :: ds, [] => by
    simp only [cellsOf]
    rw [List.nodup_flatMap]
    refine ⟨fun i _ => cellsOf_nodup _ ds [], ?_⟩
    refine (List.nodup_range (n := d)).imp ?_
    intro i j hij c h1 h2
    have b1 := cellsOf_bounds _ _ _ c h1
    have b2 := cellsOf_bounds _ _ _ c h2
    exact hij (mul_range (p := ds.prod) (x := c - base - i * ds.prod) (y := c - base - j * ds.prod)
      (by omega) (by omega) (by omega))
  | base, d :: ds, (a, b) :: rs => by
    simp only [cellsOf]
    rw [List.nodup_flatMap]
    refine ⟨fun i _ => cellsOf_nodup _ ds rs, ?_⟩
    refine (List.nodup_range (n := min b d - a)).imp ?_
    intro i j hij c h1 h2
    have b1 := cellsOf_bounds _ _ _ c h1
    have b2 := cellsOf_bounds _ _ _ c h2
    have := mul_range (i := a + i) (j := a + j) (p := ds.prod) (x := c - base - (a + i) * ds.prod)
      (y := c - base - (a + j) * ds.prod) (by omega) (by omega) (by omega)
    exact hij (by omega)

theorem mem_cellsOf_all : ∀ (base : Nat) (shape : List Nat) (c : Nat),
    c ∈ cellsOf base shape [] ↔ base ≤ c ∧ c < base + shape.prod
  | base, [], c => by simp [cellsOf]; omega
  | base, d :: ds, c => by
    refine ⟨cellsOf_bounds _ _ _ c, ?_⟩
    rintro ⟨h1, h2⟩
    simp only [cellsOf, List.mem_flatMap, List.mem_range]
    rw [List.prod_cons] at h2
    have hp : 0 < ds.prod := by
      rcases Nat.eq_zero_or_pos ds.prod with h | h
      · rw [h] at h2; omega
      · exact h
    refine ⟨(c - base) / ds.prod, ?_, ?_⟩
    · rw [Nat.div_lt_iff_lt_mul hp]; omega
    · rw [mem_cellsOf_all]
      have e1 := Nat.div_add_mod (c - base) ds.prod
      have e2 := Nat.mod_lt (c - base) hp
      rw [Nat.mul_comm] at e1
      omega

theorem cellsOf_one (base N lo hi : Nat) (h : hi ≤ N) :
    cellsOf base [N] [(lo, hi)] = (List.range (hi - lo)).map (fun f => base + (lo + f)) := by
  simp only [cellsOf, Nat.min_eq_left h, List.prod_nil, Nat.mul_one]
  induction List.range (hi - lo) with
  | nil => rfl
  | cons a l ih => simp [ih]

theorem cellsOf_two (base B N lo hi : Nat) (h : hi ≤ N) :
    cellsOf base [B, N] [(0, B), (lo, hi)] =
      (List.range B).flatMap (fun b => (List.range (hi - lo)).map (fun f => base + b * N + (lo + f))) := by
  rw [cellsOf]
  simp only [Nat.min_self, Nat.sub_zero, Nat.zero_add, List.prod_cons, List.prod_nil, Nat.mul_one]
  congr 1
  funext b
  rw [cellsOf_one _ _ _ _ h]

theorem cellsOf_three (base R B N r lo hi : Nat) (hr : r ≤ R) (h : hi ≤ N) :
    cellsOf base [R, B, N] [(0, r), (0, B), (lo, hi)] =
      (List.range r).flatMap (fun t => (List.range B).flatMap (fun b =>
        (List.range (hi - lo)).map (fun f => base + t * (B * N) + b * N + (lo + f)))) := by
  rw [cellsOf]
  simp only [Nat.min_eq_left hr, Nat.sub_zero, Nat.zero_add, List.prod_cons, List.prod_nil, Nat.mul_one]
  congr 1
  funext t
  rw [cellsOf_two _ _ _ _ _ h]

/-! ### Reading and writing cells -/

section
variable {V : Type} [Zero V]

@[simp] theorem length_writeCells (m : List V) (cells : List Nat) (vals : List V) :
    (writeCells m cells vals).length = m.length := by
  unfold writeCells
  generalize cells.zip vals = z
  induction z generalizing m with
  | nil => rfl
  | cons p z ih => simp [ih]

theorem getD_writeCells_of_not (m : List V) {cells : List Nat} (vals : List V) {c : Nat} (h : c ∉ cells) :
    (writeCells m cells vals).getD c 0 = m.getD c 0 := by
  induction cells generalizing m vals with
  | nil => rfl
  | cons x xs ih =>
    cases vals with
    | nil => rfl
    | cons v vs =>
      simp only [List.mem_cons, not_or] at h
      simp only [writeCells, List.zip_cons_cons, List.foldl_cons] at ih ⊢
      rw [ih _ _ h.2]
      have hx : ¬ x = c := fun e => h.1 e.symm
      simp [List.getD, List.getElem?_set, hx]

theorem readCells_write_disjoint (m : List V) {cells cells' : List Nat} (vals : List V)
    (h : ∀ c ∈ cells', c ∉ cells) : readCells (writeCells m cells vals) cells' = readCells m cells' := by
  unfold readCells
  exact List.map_congr_left (fun c hc => getD_writeCells_of_not m vals (h c hc))

theorem readCells_write_self (m : List V) {cells : List Nat} {vals : List V} (hnd : cells.Nodup)
    (hb : ∀ c ∈ cells, c < m.length) (hl : cells.length = vals.length) :
    readCells (writeCells m cells vals) cells = vals := by
  induction cells generalizing m vals with
  | nil => cases vals with
    | nil => rfl
    | cons v vs => simp at hl
  | cons x xs ih =>
    cases vals with
    | nil => simp at hl
    | cons v vs =>
      rw [List.nodup_cons] at hnd
      have hw : writeCells m (x :: xs) (v :: vs) = writeCells (m.set x v) xs vs := rfl
      rw [hw]
      have := ih (m := m.set x v) (vals := vs) hnd.2 (by simpa using fun c hc => hb c (by simp [hc])) (by simpa using hl)
      simp only [readCells, List.map_cons] at this ⊢
      rw [this, getD_writeCells_of_not _ _ hnd.1]
      have hx := hb x (by simp)
      simp [List.getD, hx]

theorem getD_zeroCells (m : List V) (cells : List Nat) (c : Nat) :
    (zeroCells m cells).getD c 0 = if c ∈ cells then 0 else m.getD c 0 := by
  induction cells generalizing m with
  | nil => rfl
  | cons x xs ih =>
    have hw : zeroCells m (x :: xs) = zeroCells (m.set x 0) xs := rfl
    rw [hw, ih]
    by_cases h1 : c ∈ xs
    · simp [h1]
    · by_cases h2 : c = x
      · subst h2
        by_cases h3 : c < m.length
        · simp [h1, List.getD, h3]
        · simp [List.getD, h3]
      · have h2' : ¬ x = c := fun e => h2 e.symm
        simp [h1, h2, List.getD, List.getElem?_set, h2']

@[simp] theorem length_zeroCells (m : List V) (cells : List Nat) : (zeroCells m cells).length = m.length :=
  length_writeCells _ _ _

end

/-! ### Regions of the hubs -/

/-- Number of cells of a hub. -/
def HubInfo.cells (h : HubInfo) (T B : Nat) : Nat := (h.shape T B).prod

/-- Start of the region of hub `k`. -/
def hubBase (hubs : List HubInfo) (T B k : Nat) : Nat := offset (hubs.map (fun h => h.cells T B)) k

theorem cumsum_eq (a : Nat) (l : List Nat) :
    cumsum a l = (List.range (l.length + 1)).map (fun i => a + offset l i) := by
  induction l generalizing a with
  | nil => simp [cumsum, offset]
  | cons x xs ih =>
    rw [cumsum, ih]
    rw [List.length_cons, List.range_succ_eq_map (n := xs.length + 1)]
    simp [offset, Function.comp_def, Nat.add_assoc]

theorem length_cumsum (a : Nat) (l : List Nat) : (cumsum a l).length = l.length + 1 := by
  rw [cumsum_eq]; simp

theorem total_eq (hubs : List HubInfo) (T B : Nat) :
    (totalSizeSlicesShapes hubs T B).1 = hubBase hubs T B hubs.length := by
  simp only [totalSizeSlicesShapes, cumsum_eq, List.getLastD_eq_getLast?, List.getLast?_map,
    List.getLast?_range]
  simp [hubBase, HubInfo.cells, Function.comp_def]

theorem slices_eq (hubs : List HubInfo) (T B k : Nat) (hk : k < hubs.length) :
    (totalSizeSlicesShapes hubs T B).2.1[k]? = some (hubBase hubs T B k, hubBase hubs T B (k + 1)) := by
  simp only [totalSizeSlicesShapes, cumsum_eq]
  rw [List.getElem?_eq_getElem (by simpa using hk)]
  simp [hubBase, HubInfo.cells, Function.comp_def]

theorem slices_length (hubs : List HubInfo) (T B : Nat) :
    (totalSizeSlicesShapes hubs T B).2.1.length = hubs.length := by
  simp [totalSizeSlicesShapes, length_cumsum]

theorem slices_none (hubs : List HubInfo) (T B k : Nat) (hk : ¬ k < hubs.length) :
    (totalSizeSlicesShapes hubs T B).2.1[k]? = none := by
  rw [List.getElem?_eq_none_iff, slices_length]; omega

theorem hubBase_succ (hubs : List HubInfo) (T B k : Nat) (hk : k < hubs.length) :
    hubBase hubs T B (k + 1) = hubBase hubs T B k + (hubs[k].shape T B).prod := by
  unfold hubBase
  rw [offset_succ (by simpa using hk)]
  simp [HubInfo.cells]

theorem hubBase_mono (hubs : List HubInfo) (T B : Nat) {i j : Nat} (h : i ≤ j) :
    hubBase hubs T B i ≤ hubBase hubs T B j := offset_mono h

theorem hubCells_eq (net : Net) (T B k : Nat) (hk : k < net.hubs.length) (rs : List (Nat × Nat)) :
    hubCells net T B k rs = cellsOf (hubBase net.hubs T B k) (net.hubs[k].shape T B) rs := by
  simp [hubCells, slices_eq _ _ _ _ hk, hk]

theorem viewOf_eq (hubs : List HubInfo) (T B : Nat) (e : ArrayEntry) (hk : e.hub < hubs.length) :
    viewOf hubs T B e = createFromHub e.struct hubs[e.hub] (hubBase hubs T B e.hub) (hubs[e.hub].shape T B) e.slice := by
  simp [viewOf, slices_eq _ _ _ _ hk, hk]

theorem viewOf_lt {hubs : List HubInfo} {T B : Nat} {e : ArrayEntry} {v : View} (h : viewOf hubs T B e = some v) :
    e.hub < hubs.length := by
  by_contra hc
  unfold viewOf at h
  rw [List.getElem?_eq_none (by omega)] at h
  simp at h

/-- Every array is a selection of the region of its hub. -/
theorem viewOf_cells {hubs : List HubInfo} {T B : Nat} {e : ArrayEntry} {v : View} (h : viewOf hubs T B e = some v) :
    ∃ hk : e.hub < hubs.length, ∃ rs t b,
      v.cells = cellsOf (hubBase hubs T B e.hub) (hubs[e.hub].shape T B) rs ∧
      v.shape = structShape e.struct t b ∧ v.cells.length = v.shape.prod := by
  have hk := viewOf_lt h
  refine ⟨hk, ?_⟩
  rw [viewOf_eq _ _ _ _ hk] at h
  unfold createFromHub at h
  simp only at h
  split at h
  · simp at h
  · rename_i ranges t b _
    split at h
    · rename_i hl
      simp only [Option.some.injEq] at h
      subst h
      exact ⟨ranges, t, b, rfl, rfl, hl⟩
    · simp at h

theorem viewOf_bounds {hubs : List HubInfo} {T B : Nat} {e : ArrayEntry} {v : View} (h : viewOf hubs T B e = some v) :
    ∀ c ∈ v.cells, hubBase hubs T B e.hub ≤ c ∧ c < hubBase hubs T B (e.hub + 1) := by
  obtain ⟨hk, rs, t, b, hc, -, -⟩ := viewOf_cells h
  intro c hcm
  rw [hc] at hcm
  rw [hubBase_succ _ _ _ _ hk]
  exact cellsOf_bounds _ _ _ c hcm

theorem viewOf_nodup {hubs : List HubInfo} {T B : Nat} {e : ArrayEntry} {v : View} (h : viewOf hubs T B e = some v) :
    v.cells.Nodup := by
  obtain ⟨hk, rs, t, b, hc, -, -⟩ := viewOf_cells h
  rw [hc]; exact cellsOf_nodup _ _ _

theorem viewOf_lt_total {hubs : List HubInfo} {T B : Nat} {e : ArrayEntry} {v : View} (h : viewOf hubs T B e = some v) :
    ∀ c ∈ v.cells, c < (totalSizeSlicesShapes hubs T B).1 := by
  intro c hc
  have := viewOf_bounds h c hc
  have hk := viewOf_lt h
  rw [total_eq]
  have := hubBase_mono hubs T B (show e.hub + 1 ≤ hubs.length from hk)
  omega

/-! ### Which entries give arrays -/

/-- An entry that fits its hub: same type, the slice lies inside the hub and has
the feature size of the structure, and the hub has enough context rows; or an
empty slice of type 0 (the root entries of a network without parameters). -/
def Fits (hubs : List HubInfo) (e : ArrayEntry) : Prop :=
  ∃ hk : e.hub < hubs.length,
    (e.struct.bufferType = hubs[e.hub].btype ∧ hubs[e.hub].btype ≤ 2 ∧ e.slice.1 ≤ e.slice.2 ∧
      e.slice.2 ≤ hubs[e.hub].size ∧ (e.struct.featureShape.map Tok.size).prod = e.slice.2 - e.slice.1 ∧
      e.struct.contextSize ≤ hubs[e.hub].ctx) ∨
    (e.struct.bufferType = 0 ∧ hubs[e.hub].btype ≤ 2 ∧ e.slice.1 = e.slice.2 ∧
      (e.struct.featureShape.map Tok.size).prod = 0)

theorem length_flatMap_const {α β : Type} (l : List α) (f : α → List β) (n : Nat) (h : ∀ a, (f a).length = n) :
    (l.flatMap f).length = l.length * n := by
  induction l with
  | nil => simp
  | cons a l ih => rw [List.flatMap_cons, List.length_append, h, ih, List.length_cons]; ring

theorem drop2_shape (h : HubInfo) (T B : Nat) : h.btype = 2 → h.shape T B = [T + h.ctx, B, h.size] := by
  intro e; simp [HubInfo.shape, e]

theorem drop1_shape (h : HubInfo) (T B : Nat) : h.btype = 1 → h.shape T B = [B, h.size] := by
  intro e; simp [HubInfo.shape, e]

theorem drop0_shape (h : HubInfo) (T B : Nat) : h.btype = 0 → h.shape T B = [h.size] := by
  intro e; simp [HubInfo.shape, e]

/-- The view of an entry that fits, for the three types. -/
theorem viewOf_fits {hubs : List HubInfo} {e : ArrayEntry} (hf : Fits hubs e) (T B : Nat) :
    ∃ v, viewOf hubs T B e = some v ∧ v.shape = structShape e.struct T B ∧
      (e.struct.bufferType = 0 → v.cells = (List.range (e.slice.2 - e.slice.1)).map (fun f =>
        hubBase hubs T B e.hub + (e.slice.1 + f))) ∧
      (∀ h : e.hub < hubs.length, e.struct.bufferType = 1 → v.cells = (List.range B).flatMap (fun b =>
        (List.range (e.slice.2 - e.slice.1)).map (fun f =>
          hubBase hubs T B e.hub + b * hubs[e.hub].size + (e.slice.1 + f)))) ∧
      (∀ h : e.hub < hubs.length, e.struct.bufferType = 2 → v.cells =
        (List.range (T + e.struct.contextSize)).flatMap (fun t => (List.range B).flatMap (fun b =>
        (List.range (e.slice.2 - e.slice.1)).map (fun f =>
          hubBase hubs T B e.hub + t * (B * hubs[e.hub].size) + b * hubs[e.hub].size + (e.slice.1 + f))))) := by
  obtain ⟨hk, ⟨ht, h2, hlo, hhi, hsz, hctx⟩ | ⟨ht, h2, hlo, hsz⟩⟩ := hf
  · rw [viewOf_eq _ _ _ _ hk]
    set h := hubs[e.hub] with hh
    obtain hb | hb | hb : h.btype = 0 ∨ h.btype = 1 ∨ h.btype = 2 := by omega
    · rw [drop0_shape h T B hb]
      have hs : e.struct.bufferType = 0 := by omega
      unfold createFromHub
      simp only [hs]
      rw [cellsOf_one _ _ _ _ hhi]
      have hshape : ∀ t b, structShape e.struct t b = e.struct.featureShape.map Tok.size := by
        intro t b; simp [structShape, hs]
      refine ⟨⟨structShape e.struct T B, _⟩, ?_, rfl, fun _ => rfl, ?_, ?_⟩
      · rw [hshape, hshape]
        simp [hsz]
      · intro _ h'; omega
      · intro _ h'; omega
    · rw [drop1_shape h T B hb]
      have hs : e.struct.bufferType = 1 := by omega
      unfold createFromHub
      simp only [hs]
      rw [cellsOf_two _ _ _ _ _ hhi]
      have hshape : ∀ t b, structShape e.struct t b = b :: e.struct.featureShape.map Tok.size := by
        intro t b; simp [structShape, hs]
      refine ⟨⟨structShape e.struct T B, (List.range B).flatMap (fun b =>
        (List.range (e.slice.2 - e.slice.1)).map (fun f =>
          hubBase hubs T B e.hub + b * h.size + (e.slice.1 + f)))⟩, ?_, rfl, ?_, fun _ _ => rfl, ?_⟩
      · rw [hshape, hshape, length_flatMap_const _ _ (e.slice.2 - e.slice.1) (by simp)]
        simp [hsz]
      · intro h'; omega
      · intro _ h'; omega
    · rw [drop2_shape h T B hb]
      have hs : e.struct.bufferType = 2 := by omega
      have hstop : timeStop e.struct h (T + h.ctx) = T + e.struct.contextSize := by
        unfold timeStop
        split
        · omega
        · split <;> omega
      unfold createFromHub
      simp only [hs, hstop]
      rw [cellsOf_three _ _ _ _ _ _ _ (by omega) hhi]
      have hshape : ∀ t b, structShape e.struct t b = (t + e.struct.contextSize) :: b :: e.struct.featureShape.map Tok.size := by
        intro t b; simp [structShape, hs]
      refine ⟨⟨structShape e.struct T B, (List.range (T + e.struct.contextSize)).flatMap (fun t =>
        (List.range B).flatMap (fun b => (List.range (e.slice.2 - e.slice.1)).map (fun f =>
          hubBase hubs T B e.hub + t * (B * h.size) + b * h.size + (e.slice.1 + f))))⟩, ?_, rfl, ?_, ?_, fun _ _ => rfl⟩
      · rw [hshape, hshape, length_flatMap_const _ _ (B * (e.slice.2 - e.slice.1))
          (fun t => by rw [length_flatMap_const _ _ (e.slice.2 - e.slice.1) (by simp)]; simp)]
        simp [hsz]
      · intro h'; omega
      · intro _ h'; omega
  · rw [viewOf_eq _ _ _ _ hk]
    unfold createFromHub
    simp only [ht]
    have hcells : cellsOf (hubBase hubs T B e.hub) (hubs[e.hub].shape T B) [e.slice] = [] := by
      have : ∃ d ds, hubs[e.hub].shape T B = d :: ds := by
        obtain hb | hb | hb : hubs[e.hub].btype = 0 ∨ hubs[e.hub].btype = 1 ∨ hubs[e.hub].btype = 2 := by omega
        · exact ⟨_, _, drop0_shape _ T B hb⟩
        · exact ⟨_, _, drop1_shape _ T B hb⟩
        · exact ⟨_, _, drop2_shape _ T B hb⟩
      obtain ⟨d, ds, hd⟩ := this
      rw [hd]
      have : min e.slice.2 d - e.slice.1 = 0 := by omega
      rw [show e.slice = (e.slice.1, e.slice.2) from rfl, cellsOf, this]
      rfl
    have hshape : ∀ t b, structShape e.struct t b = e.struct.featureShape.map Tok.size := by
      intro t b; simp [structShape, ht]
    refine ⟨⟨structShape e.struct T B, []⟩, ?_, rfl, ?_, ?_, ?_⟩
    · rw [hshape, hshape, hcells]
      simp [hsz]
    · intro _; simp [hlo]
    · intro _ h'; omega
    · intro _ h'; omega

end Verif.Buffers
