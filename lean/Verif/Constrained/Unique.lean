import Verif.Constrained.Keep
import Verif.Session.Loaded

/-! # Proofs for C80: the parts make up the whole -/

namespace Verif.Constrained

open Verif.Structure Verif.Layout Verif.Buffers Verif.Memory
open Verif.Session hiding sgdRun momentumRun nesterovRun backwardPass round train Stepper

section
variable {layers : List LayerInfo} {L : Layout}

/-- Each entry of the array of all parameters belongs to a parameter of a layer. -/
theorem part_cover (hL : Laid layers L) {i : ℕ} (hi : i < paramCount layers L) :
    ∃ l ∈ layers, ∃ e ∈ l.paramShapes, ∃ j, j < e.2.featureSize ∧ i = startOf L l.name e.1 + j := by
  obtain ⟨l, hl, x, hx, hc⟩ := hL.root_cover (T := 0) (B := 0) (List.getElem_mem hi)
  obtain ⟨s, hs⟩ := shape_of hx
  obtain ⟨h1, h2⟩ := cells_part (c := .par) hL (Or.inl rfl) hl hs 0 0
  have hc' := hc
  erw [h1] at hc'
  obtain ⟨j, hj, hej⟩ := List.mem_iff_getElem.1 hc'
  rw [List.getElem_take, List.getElem_drop] at hej
  have hj' : j < s.featureSize := by
    rw [List.length_take] at hj
    exact lt_of_lt_of_le hj (min_le_left _ _)
  exact ⟨l, hl, (x, s), hs, j, hj', ((List.Nodup.getElem_inj_iff params_nodup).1 hej).symm⟩

theorem part_getElem? (l : Name) (x : Name) (s : Struct) (θ : List ℝ) {j : ℕ} (hj : j < s.featureSize) :
    (part L l x s θ)[j]? = θ[startOf L l x + j]? := by
  rw [part, List.getElem?_take_of_lt hj, List.getElem?_drop]

/-- Arrays with the same parts are equal. -/
theorem parts_ext (hL : Laid layers L) {x y : List ℝ} (hx : x.length = paramCount layers L) (hy : y.length = paramCount layers L)
    (h : ∀ l ∈ layers, ∀ e ∈ l.paramShapes, part L l.name e.1 e.2 x = part L l.name e.1 e.2 y) : x = y := by
  refine List.ext_getElem? fun i => ?_
  by_cases hi : i < paramCount layers L
  · obtain ⟨l, hl, e, he, j, hj, rfl⟩ := part_cover hL hi
    rw [← part_getElem? l.name e.1 e.2 x hj, ← part_getElem? l.name e.1 e.2 y hj, h l hl e he]
  · rw [List.getElem?_eq_none (by omega), List.getElem?_eq_none (by omega)]

theorem modified_unique (hL : Laid layers L) {call : Call} {mods m₁ m₂ : Mods} {θ x y₁ y₂ : List ℝ}
    (l₁ : y₁.length = paramCount layers L) (l₂ : y₂.length = paramCount layers L)
    (h₁ : Modified call layers L mods θ x m₁ y₁) (h₂ : Modified call layers L mods θ x m₂ y₂) :
    y₁ = y₂ ∧ ∀ l ∈ layers, ∀ e ∈ l.paramShapes, m₁.at l.name e.1 = m₂.at l.name e.1 := by
  have key : ∀ l ∈ layers, ∀ e ∈ l.paramShapes, m₁.at l.name e.1 = m₂.at l.name e.1 ∧
      part L l.name e.1 e.2 y₁ = part L l.name e.1 e.2 y₂ := fun l hl e he => by
    have := (h₁ l hl e he).symm.trans (h₂ l hl e he)
    simpa using this
  exact ⟨parts_ext hL l₁ l₂ fun l hl e he => (key l hl e he).2, fun l hl e he => (key l hl e he).1⟩

/-- No modifiers change nothing. -/
theorem modified_nil {call : Call} {mods mods' : Mods} {θ x x' : List ℝ} (hL : Laid layers L) (hx : x.length = paramCount layers L)
    (hx' : x'.length = paramCount layers L) (hn : ∀ l ∈ layers, ∀ e ∈ l.paramShapes, mods.at l.name e.1 = [])
    (h : Modified call layers L mods θ x mods' x') :
    x' = x ∧ ∀ l ∈ layers, ∀ e ∈ l.paramShapes, mods'.at l.name e.1 = [] := by
  have key : ∀ l ∈ layers, ∀ e ∈ l.paramShapes, [] = mods'.at l.name e.1 ∧
      part L l.name e.1 e.2 x = part L l.name e.1 e.2 x' := fun l hl e he => by
    have := h l hl e he
    rw [hn l hl e he, inTurn_nil] at this
    simpa using this
  exact ⟨(parts_ext hL hx hx' fun l hl e he => (key l hl e he).2).symm, fun l hl e he => (key l hl e he).1.symm⟩

/-- The parts of entrywise combinations. -/
theorem part_zipWith (l x : Name) (s : Struct) (f : ℝ → ℝ → ℝ) (p q : List ℝ) :
    part L l x s (List.zipWith f p q) = List.zipWith f (part L l x s p) (part L l x s q) := by
  simp only [part, List.drop_zipWith, List.take_zipWith]

/-- Gradient modifiers that add a function of the parameters. -/
theorem modified_zip (hL : Laid layers L) {m : Modifier} {f : ℝ → ℝ → ℝ} (hm : ∀ shape p x, gradCall shape p x m = some (m, List.zipWith f p x))
    {mods mods' : Mods} {θ x x' : List ℝ} (hθ : θ.length = paramCount layers L) (hx : x.length = paramCount layers L)
    (hx' : x'.length = paramCount layers L) (hn : ∀ l ∈ layers, ∀ e ∈ l.paramShapes, mods.at l.name e.1 = [m])
    (h : Modified gradCall layers L mods θ x mods' x') :
    x' = List.zipWith f θ x ∧ ∀ l ∈ layers, ∀ e ∈ l.paramShapes, mods'.at l.name e.1 = [m] := by
  have key : ∀ l ∈ layers, ∀ e ∈ l.paramShapes, [m] = mods'.at l.name e.1 ∧
      part L l.name e.1 e.2 (List.zipWith f θ x) = part L l.name e.1 e.2 x' := fun l hl e he => by
    have := h l hl e he
    rw [hn l hl e he] at this
    simp only [inTurn, hm, Option.bind_some, Option.map_some, Option.some.injEq, Prod.mk.injEq] at this
    rw [part_zipWith]
    exact this
  exact ⟨(parts_ext hL (by simp [hθ, hx]) hx' fun l hl e he => (key l hl e he).2).symm, fun l hl e he => (key l hl e he).1.symm⟩

end

end Verif.Constrained
