import Verif.Pool.Model
import Mathlib.Data.Int.Interval
import Mathlib.Algebra.BigOperators.Field
import Mathlib.Tactic.Zify

namespace Verif.Pool

open Verif.Numeric

/-! ## Specification -/

/-- Pixel `(y, x)` of the image is covered by the window of output element `(yo, xo)`. -/
def InWindow (g : Geom) (yo xo y x : Nat) : Prop :=
  y < g.H ∧ x < g.W ∧
  yo * g.sy ≤ y + g.p ∧ y + g.p < yo * g.sy + g.KH ∧
  xo * g.sx ≤ x + g.p ∧ x + g.p < xo * g.sx + g.KW

instance (g : Geom) (yo xo y x : Nat) : Decidable (InWindow g yo xo y x) := by
  unfold InWindow; infer_instance

/-! ## The cells of a window in the order of the loops -/

def cells (g : Geom) (yo xo : Nat) : List (Int × Int) :=
  (irange (g.yMin yo) (g.yMax yo)).flatMap
    (fun iy => (irange (g.xMin xo) (g.xMax xo)).map (fun ix => (iy, ix)))

theorem mem_irange {a b i : Int} : i ∈ irange a b ↔ a ≤ i ∧ i < b := by
  simp only [irange, List.mem_map, List.mem_range]
  constructor
  · rintro ⟨k, hk, rfl⟩; omega
  · rintro ⟨h1, h2⟩; exact ⟨(i - a).toNat, by omega, by omega⟩

theorem mem_cells {g : Geom} {yo xo : Nat} {c : Int × Int} :
    c ∈ cells g yo xo ↔ ∃ y x : Nat, c = ((y : Int), (x : Int)) ∧ InWindow g yo xo y x := by
  obtain ⟨a, b⟩ := c
  simp only [cells, List.mem_flatMap, List.mem_map, mem_irange, Prod.mk.injEq,
    Geom.yMin, Geom.yMax, Geom.xMin, Geom.xMax, InWindow]
  constructor
  · rintro ⟨iy, ⟨h1, h2⟩, ix, ⟨h3, h4⟩, rfl, rfl⟩
    refine ⟨iy.toNat, ix.toNat, ⟨by omega, by omega⟩, ?_⟩
    push_cast at *
    refine ⟨by omega, by omega, ?_, ?_, ?_, ?_⟩ <;> (zify; omega)
  · rintro ⟨y, x, ⟨rfl, rfl⟩, h1, h2, h3, h4, h5, h6⟩
    zify at h1 h2 h3 h4 h5 h6
    exact ⟨y, ⟨by omega, by omega⟩, x, ⟨by omega, by omega⟩, rfl, rfl⟩

theorem irange_sorted (a b : Int) : (irange a b).Pairwise (· < ·) := by
  unfold irange
  rw [List.pairwise_map]
  exact List.Pairwise.imp (fun h => by omega) List.pairwise_lt_range

theorem cells_sorted (g : Geom) (yo xo : Nat) :
    (cells g yo xo).Pairwise (fun a b => a.1 < b.1 ∨ (a.1 = b.1 ∧ a.2 < b.2)) := by
  unfold cells
  generalize irange (g.xMin xo) (g.xMax xo) = lx, irange_sorted (g.xMin xo) (g.xMax xo) = hx
  have hy := irange_sorted (g.yMin yo) (g.yMax yo)
  generalize irange (g.yMin yo) (g.yMax yo) = ly at hy
  induction ly with
  | nil => exact List.Pairwise.nil
  | cons a l ih =>
    rw [List.flatMap_cons, List.pairwise_append]
    refine ⟨?_, ih hy.of_cons, ?_⟩
    · rw [List.pairwise_map]; exact hx.imp (fun h => Or.inr ⟨rfl, h⟩)
    · intro c hc d hd
      obtain ⟨_, _, rfl⟩ := List.mem_map.1 hc
      obtain ⟨e, he, hd⟩ := List.mem_flatMap.1 hd
      obtain ⟨_, _, rfl⟩ := List.mem_map.1 hd
      exact Or.inl (List.rel_of_pairwise_cons hy he)

theorem foldl_cells {σ : Type} (g : Geom) (yo xo : Nat) (f : σ → Int → Int → σ) (s : σ) :
    (irange (g.yMin yo) (g.yMax yo)).foldl (fun s iy =>
      (irange (g.xMin xo) (g.xMax xo)).foldl (fun s ix => f s iy ix) s) s
      = (cells g yo xo).foldl (fun s c => f s c.1 c.2) s := by
  unfold cells
  rw [List.foldl_flatMap]
  congr 1
  funext s iy
  rw [List.foldl_map]

theorem foldlM_cells {σ : Type} (g : Geom) (yo xo : Nat) (f : σ → Int → Int → Option σ) (s : σ) :
    (irange (g.yMin yo) (g.yMax yo)).foldlM (fun s iy =>
      (irange (g.xMin xo) (g.xMax xo)).foldlM (fun s ix => f s iy ix) s) s
      = (cells g yo xo).foldlM (fun s c => f s c.1 c.2) s := by
  unfold cells
  generalize irange (g.yMin yo) (g.yMax yo) = ly
  induction ly generalizing s with
  | nil => rfl
  | cons a l ih =>
    rw [List.flatMap_cons, List.foldlM_append, List.foldlM_cons, List.foldlM_map]
    congr 1
    funext s'
    exact ih s'

/-! ## The maximum -/

theorem foldl_max {α β : Type} [LinearOrder α] (val : β → α) (idx : β → Int) (lo : α) (i0 : Int)
    (l : List β) :
    (l.foldl (fun (s : α × Int) b => if val b > s.1 then (val b, idx b) else s) (lo, i0) = (lo, i0) ∧
      ∀ b ∈ l, val b ≤ lo) ∨
    ∃ l1 b l2, l = l1 ++ b :: l2 ∧
      l.foldl (fun (s : α × Int) b => if val b > s.1 then (val b, idx b) else s) (lo, i0)
        = (val b, idx b) ∧ lo < val b ∧ (∀ a ∈ l1, val a < val b) ∧ ∀ a ∈ l2, val a ≤ val b := by
  induction l using List.reverseRecOn with
  | nil => exact Or.inl ⟨rfl, by simp⟩
  | append_singleton l x ih =>
    rw [List.foldl_append]
    rcases ih with ⟨h, hle⟩ | ⟨l1, b, l2, rfl, h, hlo, h1, h2⟩
    · rw [h]
      by_cases hx : val x > lo
      · right
        refine ⟨l, x, [], rfl, ?_, hx, fun a ha => lt_of_le_of_lt (hle a ha) hx, by simp⟩
        simp only [List.foldl_cons, List.foldl_nil]
        rw [if_pos hx]
      · left
        refine ⟨by simp only [List.foldl_cons, List.foldl_nil]; rw [if_neg hx], ?_⟩
        intro b hb
        rcases List.mem_append.1 hb with hb | hb
        · exact hle b hb
        · rw [List.mem_singleton.1 hb]; exact not_lt.1 hx
    · right
      rw [h]
      by_cases hx : val x > val b
      · refine ⟨l1 ++ b :: l2, x, [], rfl, ?_, hlo.trans hx, ?_, by simp⟩
        · simp only [List.foldl_cons, List.foldl_nil]; rw [if_pos hx]
        · intro a ha
          rcases List.mem_append.1 ha with ha | ha
          · exact (h1 a ha).trans hx
          · rcases List.mem_cons.1 ha with rfl | ha
            · exact hx
            · exact lt_of_le_of_lt (h2 a ha) hx
      · refine ⟨l1, b, l2 ++ [x], by simp, ?_, hlo, h1, ?_⟩
        · simp only [List.foldl_cons, List.foldl_nil]; rw [if_neg hx]
        · intro a ha
          rcases List.mem_append.1 ha with ha | ha
          · exact h2 a ha
          · rw [List.mem_singleton.1 ha]; exact not_lt.1 hx

/-! ## Adding to a plane -/

theorem Plane.add_nat {α : Type} [Add α] (d : Plane α) {y x : Nat} (hy : y < d.h) (hx : x < d.w)
    (v : α) : d.add (y : Int) (x : Int) v =
      some ⟨d.h, d.w, fun y' x' => if y' = y ∧ x' = x then d.at' y' x' + v else d.at' y' x'⟩ := by
  rw [Plane.add, if_pos ⟨by omega, by omega, by omega, by omega⟩]
  simp only [Int.toNat_natCast]

/-- Adding a value at each of a list of cells. -/
theorem foldlM_add {α : Type} [AddCommMonoid α] (v : α) (l : List (Nat × Nat)) (hl : l.Nodup)
    (d : Plane α) (hin : ∀ c ∈ l, c.1 < d.h ∧ c.2 < d.w) :
    ∃ d', (l.map (fun c : Nat × Nat => ((c.1 : Int), (c.2 : Int)))).foldlM
        (fun (d : Plane α) (c : Int × Int) => d.add c.1 c.2 v) d = some d' ∧
      d'.h = d.h ∧ d'.w = d.w ∧
      ∀ a b, d'.at' a b = d.at' a b + if (a, b) ∈ l then v else 0 := by
  induction l generalizing d with
  | nil => exact ⟨d, rfl, rfl, rfl, by simp⟩
  | cons c l ih =>
    have hc := hin c (by simp)
    rw [List.nodup_cons] at hl
    obtain ⟨d', h1, h2, h3, h4⟩ := ih hl.2
      ⟨d.h, d.w, fun y' x' => if y' = c.1 ∧ x' = c.2 then d.at' y' x' + v else d.at' y' x'⟩
      (fun e he => hin e (by simp [he]))
    refine ⟨d', ?_, h2, h3, ?_⟩
    · rw [List.map_cons, List.foldlM_cons]
      dsimp only
      rw [Plane.add_nat d hc.1 hc.2]
      exact h1
    · intro a b
      rw [h4]
      dsimp only
      by_cases hab : a = c.1 ∧ b = c.2
      · have e : (a, b) = c := Prod.ext hab.1 hab.2
        have hn : (a, b) ∉ l := e ▸ hl.1
        rw [if_pos hab, if_neg hn, if_pos (by simp [e]), add_zero]
      · have e : (a, b) ≠ c := fun h => hab ⟨congrArg Prod.fst h, congrArg Prod.snd h⟩
        rw [if_neg hab]
        congr 1
        simp [e]

/-- Two nested loops each of whose steps adds something to a plane. -/
theorem loop_add {α : Type} [AddCommMonoid α] (m n : Nat)
    (f : Nat → Nat → Plane α → Option (Plane α)) (t : Nat → Nat → Nat → Nat → α) (H W : Nat)
    (hf : ∀ y x, y < m → x < n → ∀ d : Plane α, d.h = H → d.w = W →
      ∃ d', f y x d = some d' ∧ d'.h = H ∧ d'.w = W ∧ ∀ a b, d'.at' a b = d.at' a b + t y x a b)
    (d : Plane α) (hH : d.h = H) (hW : d.w = W) :
    ∃ d', loop (fun y d => loop (fun x d => f y x d) n d) m d = some d' ∧ d'.h = H ∧ d'.w = W ∧
      ∀ a b, d'.at' a b = d.at' a b + ∑ y ∈ Finset.range m, ∑ x ∈ Finset.range n, t y x a b := by
  refine loop_inv (fun k (e : Plane α) => e.h = H ∧ e.w = W ∧
      ∀ a b, e.at' a b = d.at' a b + ∑ y ∈ Finset.range k, ∑ x ∈ Finset.range n, t y x a b)
    ?_ ⟨hH, hW, by simp⟩
  intro y e hy ⟨e1, e2, e3⟩
  obtain ⟨e', h1, h2, h3, h4⟩ := loop_inv (f := fun x d => f y x d) (n := n)
    (fun k (e' : Plane α) => e'.h = H ∧ e'.w = W ∧
      ∀ a b, e'.at' a b = e.at' a b + ∑ x ∈ Finset.range k, t y x a b)
    (by
      intro x u hx ⟨u1, u2, u3⟩
      obtain ⟨u', v1, v2, v3, v4⟩ := hf y x hy hx u u1 u2
      refine ⟨u', v1, v2, v3, fun a b => ?_⟩
      rw [v4, u3, Finset.sum_range_succ, add_assoc]) (s := e) ⟨e1, e2, by simp⟩
  refine ⟨e', h1, h2, h3, fun a b => ?_⟩
  rw [h4, e3, Finset.sum_range_succ, add_assoc]

/-- The cells of a window as natural numbers. -/
def ncells (g : Geom) (yo xo : Nat) : List (Nat × Nat) :=
  (cells g yo xo).map (fun c => (c.1.toNat, c.2.toNat))

theorem mem_ncells {g : Geom} {yo xo y x : Nat} :
    (y, x) ∈ ncells g yo xo ↔ InWindow g yo xo y x := by
  simp only [ncells, List.mem_map]
  constructor
  · rintro ⟨c, hc, e⟩
    obtain ⟨y', x', rfl, h⟩ := mem_cells.1 hc
    simp only [Int.toNat_natCast, Prod.mk.injEq] at e
    rw [← e.1, ← e.2]; exact h
  · intro h
    exact ⟨((y : Int), (x : Int)), mem_cells.2 ⟨y, x, rfl, h⟩, by simp⟩

theorem cells_eq (g : Geom) (yo xo : Nat) :
    cells g yo xo = (ncells g yo xo).map (fun c : Nat × Nat => ((c.1 : Int), (c.2 : Int))) := by
  rw [ncells, List.map_map]
  conv_lhs => rw [← List.map_id (cells g yo xo)]
  refine List.map_congr_left ?_
  intro c hc
  obtain ⟨y, x, rfl, _⟩ := mem_cells.1 hc
  simp

theorem ncells_nodup (g : Geom) (yo xo : Nat) : (ncells g yo xo).Nodup := by
  have h : (cells g yo xo).Nodup := by
    refine (cells_sorted g yo xo).imp ?_
    rintro a b h rfl
    rcases h with h | h
    · exact lt_irrefl _ h
    · exact lt_irrefl _ h.2
  rw [cells_eq] at h
  exact List.Nodup.of_map _ h

theorem cells_length (g : Geom) (yo xo : Nat) : (ncells g yo xo).length =
    (g.yMax yo - g.yMin yo).toNat * (g.xMax xo - g.xMin xo).toNat := by
  simp [ncells, cells, List.length_flatMap, irange, Function.comp_def]

end Verif.Pool
