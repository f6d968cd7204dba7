import Verif.Pool.Lemmas
import Mathlib.Tactic.Ring
import Mathlib.Algebra.Order.Ring.Rat

namespace Verif.Pool

open Verif.Numeric

/-! ## Specification -/

/-- Pixel `(a, b)` is the first one, row by row, of the pixels of the window of `(yo, xo)` with
the largest value, and this value is above `lo`. -/
def FirstMax {α : Type} [LinearOrder α] (g : Geom) (lo : α) (inp : Nat → Nat → α) (yo xo a b : Nat) :
    Prop :=
  InWindow g yo xo a b ∧ lo < inp a b ∧
  (∀ y x, InWindow g yo xo y x → inp y x ≤ inp a b) ∧
  ∀ y x, InWindow g yo xo y x → inp y x = inp a b → a < y ∨ (a = y ∧ b ≤ x)

/-- The pixels under a window. -/
def window (g : Geom) (yo xo : Nat) : Finset (Nat × Nat) :=
  (Finset.range g.H ×ˢ Finset.range g.W).filter (fun c => InWindow g yo xo c.1 c.2)

theorem mem_window {g : Geom} {yo xo : Nat} {c : Nat × Nat} :
    c ∈ window g yo xo ↔ InWindow g yo xo c.1 c.2 := by
  simp only [window, Finset.mem_filter, Finset.mem_product, Finset.mem_range]
  exact ⟨fun h => h.2, fun h => ⟨⟨h.1, h.2.1⟩, h⟩⟩

theorem FirstMax.unique {α : Type} [LinearOrder α] {g : Geom} {lo : α} {inp : Nat → Nat → α}
    {yo xo a b a' b' : Nat} (h : FirstMax g lo inp yo xo a b) (h' : FirstMax g lo inp yo xo a' b') :
    a = a' ∧ b = b' := by
  have e : inp a b = inp a' b' := le_antisymm (h'.2.2.1 _ _ h.1) (h.2.2.1 _ _ h'.1)
  have h1 := h.2.2.2 _ _ h'.1 e.symm
  have h2 := h'.2.2.2 _ _ h.1 e
  omega

/-! ## Max pooling -/

section Max

variable {α : Type} [LinearOrder α]

theorem maxCell_cases [Zero α] (g : Geom) (lo : α) (inp : Nat → Nat → α) (yo xo : Nat) :
    (maxCell g lo inp yo xo = (0, -1) ∧ ∀ y x, InWindow g yo xo y x → inp y x ≤ lo) ∨
    ∃ a b, FirstMax g lo inp yo xo a b ∧
      maxCell g lo inp yo xo = (inp a b, (((a * g.W + b) * g.nc + g.c : Nat) : Int)) := by
  unfold maxCell
  have hf := foldl_cells g yo xo (fun (s : α × Int) iy ix =>
    if inp iy.toNat ix.toNat > s.1 then (inp iy.toNat ix.toNat, (iy * g.W + ix) * g.nc + g.c) else s)
    (lo, -1)
  have key := foldl_max (fun c : Int × Int => inp c.1.toNat c.2.toNat)
    (fun c => (c.1 * g.W + c.2) * g.nc + g.c) lo (-1) (cells g yo xo)
  dsimp only at hf key ⊢
  rw [hf]
  rcases key with ⟨h, hle⟩ | ⟨l1, c, l2, hl, h, hlo, h1, h2⟩
  · left
    rw [h]
    refine ⟨by simp, fun y x hyx => ?_⟩
    simpa using hle ((y : Int), (x : Int)) (mem_cells.2 ⟨y, x, rfl, hyx⟩)
  · right
    rw [h]
    have hc : c ∈ cells g yo xo := by rw [hl]; simp
    obtain ⟨a, b, rfl, hab⟩ := mem_cells.1 hc
    simp only [Int.toNat_natCast] at hlo h1 h2 ⊢
    refine ⟨a, b, ⟨hab, hlo, ?_, ?_⟩, ?_⟩
    · intro y x hyx
      have := mem_cells.2 ⟨y, x, rfl, hyx⟩
      rw [hl] at this
      rcases List.mem_append.1 this with hm | hm
      · simpa using (h1 _ hm).le
      · rcases List.mem_cons.1 hm with hm | hm
        · have e1 : y = a := by simpa using congrArg Prod.fst hm
          have e2 : x = b := by simpa using congrArg Prod.snd hm
          rw [e1, e2]
        · simpa using h2 _ hm
    · intro y x hyx e
      have := mem_cells.2 ⟨y, x, rfl, hyx⟩
      have hs := cells_sorted g yo xo
      rw [hl] at this hs
      rcases List.mem_append.1 this with hm | hm
      · have := h1 _ hm
        simp only [Int.toNat_natCast] at this
        exact absurd e this.ne
      · rcases List.mem_cons.1 hm with hm | hm
        · have e1 : y = a := by simpa using congrArg Prod.fst hm
          have e2 : x = b := by simpa using congrArg Prod.snd hm
          omega
        · have hs := (List.pairwise_append.1 hs).2.1
          have := List.rel_of_pairwise_cons hs hm
          simp only [Nat.cast_lt, Nat.cast_inj] at this
          omega
    · have hne : (((a : Int) * g.W + b) * g.nc + g.c) ≠ -1 := by
        have : (0 : Int) ≤ ((a : Int) * g.W + b) * g.nc + g.c := by positivity
        omega
      rw [if_neg hne]
      push_cast
      rfl

/-- Max pooling writes the largest value of the pixels under the window and remembers the
flat index of the first pixel, row by row, that has it. -/
theorem C48_max [Zero α] (g : Geom) (lo : α) (inp : Nat → Nat → α) (yo xo : Nat)
    (hne : ∃ y x, InWindow g yo xo y x) (hlo : ∀ y x, InWindow g yo xo y x → lo < inp y x) :
    ∃ a b, InWindow g yo xo a b ∧ (∀ y x, InWindow g yo xo y x → inp y x ≤ inp a b) ∧
      (∀ y x, InWindow g yo xo y x → inp y x = inp a b → a < y ∨ (a = y ∧ b ≤ x)) ∧
      (maxCell g lo inp yo xo).1 = inp a b ∧
      (maxCell g lo inp yo xo).2 = (((a * g.W + b) * g.nc + g.c : Nat) : Int) := by
  rcases maxCell_cases g lo inp yo xo with ⟨_, h⟩ | ⟨a, b, h, e⟩
  · obtain ⟨y, x, hyx⟩ := hne
    exact absurd (h y x hyx) (not_le.2 (hlo y x hyx))
  · exact ⟨a, b, h.1, h.2.2.1, h.2.2.2, by rw [e], by rw [e]⟩

/-- A window without pixels, and also one all of whose pixels hold the smallest number, gives
0 and remembers no pixel. -/
theorem C48_max_none [Zero α] (g : Geom) (lo : α) (inp : Nat → Nat → α) (yo xo : Nat)
    (h : ∀ y x, InWindow g yo xo y x → inp y x ≤ lo) : maxCell g lo inp yo xo = (0, -1) := by
  rcases maxCell_cases g lo inp yo xo with ⟨e, _⟩ | ⟨a, b, hf, _⟩
  · exact e
  · exact absurd (h a b hf.1) (not_le.2 hf.2.1)

open Classical in
/-- The backward pass of max pooling stays within the array and adds each output delta to the
input delta of exactly the remembered pixel, the first one with the largest value, provided that the index survives being
stored as a float. -/
theorem C48_max_backward [AddCommMonoid α] {F : Type} (g : Geom) (hc : g.c < g.nc) (lo : α)
    (inp : Nat → Nat → α) (store : Int → F) (load : F → Int)
    (hexact : ∀ i : Int, -1 ≤ i → i < g.H * g.W * g.nc → load (store i) = i)
    (outDelta : Nat → Nat → α) (inDelta : Plane α) (hh : inDelta.h = g.H) (hw : inDelta.w = g.W) :
    ∃ d, maxBackward g load (fun y x => store (maxCell g lo inp y x).2) outDelta inDelta = some d ∧
      ∀ a b, d.at' a b = inDelta.at' a b +
        ∑ y ∈ Finset.range g.OH, ∑ x ∈ Finset.range g.OW,
          if FirstMax g lo inp y x a b then outDelta y x else 0 := by
  have := loop_add g.OH g.OW (fun y x d =>
    let m := load (store (maxCell g lo inp y x).2)
    if m ≠ -1 then
      let loc := Int.fdiv m g.nc
      let iy := Int.fdiv loc g.W
      let ix := Int.fmod loc g.W
      if iy ≥ 0 ∧ ix ≥ 0 then Plane.add d iy ix (outDelta y x) else some d
    else some d)
    (fun y x a b => if FirstMax g lo inp y x a b then outDelta y x else 0) g.H g.W ?_ inDelta hh hw
  · obtain ⟨d, h1, _, _, h4⟩ := this
    exact ⟨d, h1, h4⟩
  intro y x _ _ d hdh hdw
  dsimp only
  rcases maxCell_cases g lo inp y x with ⟨e, h⟩ | ⟨a, b, hf, e⟩
  · have : load (store (maxCell g lo inp y x).2) = -1 := by
      rw [e]
      refine hexact (-1) le_rfl ?_
      have : (0 : Int) ≤ (g.H : Int) * g.W * g.nc := by positivity
      omega
    rw [this, if_neg (by simp)]
    refine ⟨d, rfl, hdh, hdw, fun a b => ?_⟩
    rw [if_neg, add_zero]
    intro hf
    exact absurd (h a b hf.1) (not_le.2 hf.2.1)
  · have ha : a < g.H := hf.1.1
    have hb : b < g.W := hf.1.2.1
    have hidx : (a * g.W + b) * g.nc + g.c < g.H * g.W * g.nc := by
      have h1 : a * g.W + b < g.H * g.W := by
        calc a * g.W + b < (a + 1) * g.W := by rw [Nat.add_mul, one_mul]; omega
          _ ≤ g.H * g.W := Nat.mul_le_mul_right _ ha
      calc (a * g.W + b) * g.nc + g.c < (a * g.W + b + 1) * g.nc := by
            rw [Nat.add_mul (a * g.W + b), one_mul]; omega
        _ ≤ g.H * g.W * g.nc := Nat.mul_le_mul_right _ h1
    have hl : load (store (maxCell g lo inp y x).2) = (((a * g.W + b) * g.nc + g.c : Nat) : Int) := by
      rw [e]
      exact hexact _ (by dsimp only; omega) (by dsimp only; exact_mod_cast hidx)
    have hd1 : ((a * g.W + b) * g.nc + g.c) / g.nc = a * g.W + b := by
      rw [Nat.mul_comm, Nat.mul_add_div (by omega), Nat.div_eq_of_lt hc, add_zero]
    have hd2 : (a * g.W + b) / g.W = a := by
      rw [Nat.mul_comm, Nat.mul_add_div (by omega), Nat.div_eq_of_lt hb, add_zero]
    have hd3 : (a * g.W + b) % g.W = b := by
      rw [Nat.mul_comm, Nat.mul_add_mod, Nat.mod_eq_of_lt hb]
    have f1 : Int.fdiv (((a * g.W + b) * g.nc + g.c : Nat) : Int) g.nc = ((a * g.W + b : Nat) : Int) := by
      rw [Int.fdiv_eq_ediv_of_nonneg _ (by omega), ← Int.natCast_ediv, hd1]
    have f2 : Int.fdiv ((a * g.W + b : Nat) : Int) g.W = (a : Int) := by
      rw [Int.fdiv_eq_ediv_of_nonneg _ (by omega), ← Int.natCast_ediv, hd2]
    have f3 : Int.fmod ((a * g.W + b : Nat) : Int) g.W = (b : Int) := by
      rw [Int.fmod_eq_emod_of_nonneg _ (by omega), ← Int.natCast_emod, hd3]
    rw [hl, if_pos (by omega), f1, f2, f3, if_pos ⟨by omega, by omega⟩,
      Plane.add_nat d (by omega) (by omega)]
    refine ⟨_, rfl, hdh, hdw, fun a' b' => ?_⟩
    dsimp only
    by_cases hab : a' = a ∧ b' = b
    · rw [if_pos hab, if_pos]; rw [hab.1, hab.2]; exact hf
    · rw [if_neg hab, if_neg, add_zero]
      intro h'
      exact hab (h'.unique hf)

end Max

/-! ## Average pooling -/

section Avg

variable {α : Type} [Field α]

theorem ncells_toFinset (g : Geom) (yo xo : Nat) : (ncells g yo xo).toFinset = window g yo xo := by
  ext ⟨y, x⟩
  rw [List.mem_toFinset, mem_ncells, mem_window]

theorem sum_cells (g : Geom) (yo xo : Nat) (f : Nat → Nat → α) (s : α) :
    (cells g yo xo).foldl (fun s c => s + f c.1.toNat c.2.toNat) s
      = s + ∑ c ∈ window g yo xo, f c.1 c.2 := by
  rw [cells_eq, List.foldl_map]
  simp only [Int.toNat_natCast]
  rw [← ncells_toFinset, List.sum_toFinset _ (ncells_nodup g yo xo)]
  generalize ncells g yo xo = l
  induction l generalizing s with
  | nil => simp
  | cons c l ih => rw [List.foldl_cons, ih, List.map_cons, List.sum_cons, add_assoc]

theorem card_window {g : Geom} {yo xo : Nat} (hne : (window g yo xo).Nonempty) :
    (g.yMax yo - g.yMin yo) * (g.xMax xo - g.xMin xo) = ((window g yo xo).card : Int) ∧
      0 < (window g yo xo).card := by
  have hpos := Finset.card_pos.2 hne
  refine ⟨?_, hpos⟩
  have h1 : (window g yo xo).card = (ncells g yo xo).length := by
    rw [← ncells_toFinset, List.toFinset_card_of_nodup (ncells_nodup g yo xo)]
  have h2 := cells_length g yo xo
  rw [h1] at hpos ⊢
  rw [h2] at hpos ⊢
  have hy := Nat.pos_of_mul_pos_right hpos
  have hx := Nat.pos_of_mul_pos_left hpos
  push_cast
  rw [Int.toNat_of_nonneg (by omega), Int.toNat_of_nonneg (by omega)]

/-- Average pooling divides the sum over the pixels under the window by their number; padding
counts neither for the sum nor for the number. -/
theorem C48_avg (g : Geom) (inp : Nat → Nat → α) (yo xo : Nat)
    (hne : ∃ y x, InWindow g yo xo y x) :
    avgCell g inp yo xo = (∑ c ∈ window g yo xo, inp c.1 c.2) / ((window g yo xo).card : α) := by
  obtain ⟨y, x, h⟩ := hne
  obtain ⟨hc, hpos⟩ := card_window (g := g) (yo := yo) (xo := xo) ⟨(y, x), mem_window.2 h⟩
  unfold avgCell
  have hf := foldl_cells g yo xo (fun (s : α) iy ix => s + inp iy.toNat ix.toNat) 0
  dsimp only at hf ⊢
  rw [hf, sum_cells g yo xo inp 0, zero_add, hc, max_eq_left (by omega)]
  norm_cast

/-- A window that covers no pixel gives 0. -/
theorem C48_avg_none (g : Geom) (inp : Nat → Nat → α) (yo xo : Nat)
    (hno : ∀ y x, ¬ InWindow g yo xo y x) : avgCell g inp yo xo = 0 := by
  unfold avgCell
  have hf := foldl_cells g yo xo (fun (s : α) iy ix => s + inp iy.toNat ix.toNat) 0
  have hw : window g yo xo = ∅ := by
    ext c; simp [mem_window, hno]
  dsimp only at hf ⊢
  rw [hf, sum_cells g yo xo inp 0, hw]
  simp

/-- The backward pass of average pooling stays within the array and adds to each input delta, for every
window over the pixel, the delta divided by the number of pixels under the window. -/
theorem C48_avg_backward (g : Geom) (outDelta : Nat → Nat → α) (inDelta : Plane α)
    (hh : inDelta.h = g.H) (hw : inDelta.w = g.W) :
    ∃ d, avgBackward g outDelta inDelta = some d ∧
      ∀ a b, d.at' a b = inDelta.at' a b +
        ∑ y ∈ Finset.range g.OH, ∑ x ∈ Finset.range g.OW,
          if InWindow g y x a b then outDelta y x / ((window g y x).card : α) else 0 := by
  have := loop_add g.OH g.OW (fun y x d => avgSpread g y x (outDelta y x) d)
    (fun y x a b => if InWindow g y x a b then outDelta y x / ((window g y x).card : α) else 0)
    g.H g.W ?_ inDelta hh hw
  · obtain ⟨d, h1, _, _, h4⟩ := this
    exact ⟨d, h1, h4⟩
  intro y x _ _ d hdh hdw
  unfold avgSpread
  rw [foldlM_cells g y x (fun (d : Plane α) iy ix => d.add iy ix (outDelta y x /
    (((g.yMax y - g.yMin y) * (g.xMax x - g.xMin x) : Int) : α))) d, cells_eq]
  obtain ⟨d', h1, h2, h3, h4⟩ := foldlM_add (outDelta y x /
    (((g.yMax y - g.yMin y) * (g.xMax x - g.xMin x) : Int) : α)) (ncells g y x) (ncells_nodup g y x) d
    (by
      rintro ⟨a, b⟩ hc
      have := mem_ncells.1 hc
      exact ⟨hdh ▸ this.1, hdw ▸ this.2.1⟩)
  refine ⟨d', h1, h2.trans hdh, h3.trans hdw, fun a b => ?_⟩
  rw [h4]
  congr 1
  simp only [mem_ncells]
  split
  · rename_i hab
    rw [(card_window ⟨(a, b), mem_window.2 hab⟩).1]
    norm_cast
  · rfl

/-- The backward pass of average pooling is the adjoint of the forward pass: the deltas times
the outputs equal what is added to the input deltas times the inputs. -/
theorem C48_avg_adjoint (g : Geom) (inp outDelta : Nat → Nat → α) (inDelta : Plane α)
    (hh : inDelta.h = g.H) (hw : inDelta.w = g.W) :
    ∃ d, avgBackward g outDelta inDelta = some d ∧
      ∑ y ∈ Finset.range g.OH, ∑ x ∈ Finset.range g.OW, outDelta y x * avgCell g inp y x
        = ∑ a ∈ Finset.range g.H, ∑ b ∈ Finset.range g.W,
            (d.at' a b - inDelta.at' a b) * inp a b := by
  obtain ⟨d, h1, h2⟩ := C48_avg_backward g outDelta inDelta hh hw
  refine ⟨d, h1, ?_⟩
  have e : ∀ a b, (d.at' a b - inDelta.at' a b) * inp a b =
      ∑ y ∈ Finset.range g.OH, ∑ x ∈ Finset.range g.OW,
        (if InWindow g y x a b then outDelta y x / ((window g y x).card : α) else 0) * inp a b := by
    intro a b
    rw [h2, add_sub_cancel_left, Finset.sum_mul]
    exact Finset.sum_congr rfl (fun y _ => by rw [Finset.sum_mul])
  have e2 : ∀ y x, outDelta y x * avgCell g inp y x =
      ∑ a ∈ Finset.range g.H, ∑ b ∈ Finset.range g.W,
        (if InWindow g y x a b then outDelta y x / ((window g y x).card : α) else 0) * inp a b := by
    intro y x
    have hs : ∑ a ∈ Finset.range g.H, ∑ b ∈ Finset.range g.W,
        (if InWindow g y x a b then outDelta y x / ((window g y x).card : α) else 0) * inp a b
        = ∑ c ∈ window g y x, outDelta y x / ((window g y x).card : α) * inp c.1 c.2 := by
      rw [← Finset.sum_product', window, Finset.sum_filter]
      refine Finset.sum_congr rfl (fun c _ => ?_)
      split <;> simp [window]
    rw [hs]
    by_cases hne : ∃ a b, InWindow g y x a b
    · rw [C48_avg g inp y x hne, ← Finset.mul_sum]
      ring
    · have hno : ∀ a b, ¬ InWindow g y x a b := fun a b h => hne ⟨a, b, h⟩
      have hw : window g y x = ∅ := by ext c; simp [mem_window, hno]
      rw [C48_avg_none g inp y x hno, hw]
      simp
  simp only [e, e2]
  calc _ = ∑ y ∈ Finset.range g.OH, ∑ a ∈ Finset.range g.H, ∑ b ∈ Finset.range g.W,
        ∑ x ∈ Finset.range g.OW,
          (if InWindow g y x a b then outDelta y x / ((window g y x).card : α) else 0) * inp a b := by
        refine Finset.sum_congr rfl (fun y _ => ?_)
        rw [Finset.sum_comm]
        refine Finset.sum_congr rfl (fun a _ => ?_)
        rw [Finset.sum_comm]
    _ = _ := by
        rw [Finset.sum_comm]
        refine Finset.sum_congr rfl (fun a _ => ?_)
        rw [Finset.sum_comm]

end Avg

/-! ## The hypotheses can be met

An image of 3 rows and 4 columns, channel 1 of 2, windows of 2x2 with padding 1 and stride 2:
2x3 outputs. -/

def demo : Geom := ⟨3, 4, 2, 1, 2, 2, 1, 2, 2, 2, 3⟩
def demoImg : Nat → Nat → Int := fun y x => if (y, x) = (2, 2) then 7 else -(5 * y) + x

example : demo.c < demo.nc ∧ InWindow demo 1 1 2 2 ∧ InWindow demo 0 0 0 0 ∧ ¬ InWindow demo 0 0 1 0 := by
  decide +kernel
example : ∀ y < 3, ∀ x < 4, InWindow demo 1 1 y x → (-1000 : Int) < demoImg y x := by decide +kernel
example : maxCell demo (-1000) demoImg 1 1 = (7, (2 * 4 + 2) * 2 + 1) ∧
    maxCell demo (-1000) demoImg 0 2 = (3, (0 * 4 + 3) * 2 + 1) := by decide +kernel
example : ((maxBackward demo id (fun y x => (maxCell demo (-1000) demoImg y x).2)
    (fun y x => (10 * y + x : Int)) ⟨3, 4, fun _ _ => 100⟩).map
      (fun d => [d.at' 0 0, d.at' 0 2, d.at' 2 2, d.at' 1 1])) = some [100, 101, 111, 100] := by
  decide +kernel
example : avgCell demo (fun y x => (y + x : Rat)) 1 1 = 3 ∧ (window demo 1 1).card = 4 ∧
    (window demo 0 0).card = 1 := by
  decide +kernel
example : ((avgBackward demo (fun y x => (10 * y + x : Rat)) ⟨3, 4, fun _ _ => 100⟩).map
      (fun d => [d.at' 0 0, d.at' 0 2, d.at' 2 2, d.at' 1 1])) = some [100, 201/2, 411/4, 411/4] := by
  decide +kernel

end Verif.Pool
