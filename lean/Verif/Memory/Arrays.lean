import Verif.Memory.Bundle
import Mathlib.Logic.Equiv.Fin.Basic
import Verif.Setup.Model

/-!
# Entries of arrays of several dimensions
-/

namespace Verif.Memory

open Verif.Structure Verif.Layout Verif.Buffers Verif.Network

/-! ### Specification -/

/-- Entry `(r, k)` of an array with rows of `n` entries is at position `r * n + k`. -/
def mat (R n : ℕ) : Fin R × Fin n ≃ Fin (R * n) := finProdFinEquiv

/-- Entry `(t, b, k)` is at position `t * (B * n) + (b * n + k)`. -/
def cube (T B n : ℕ) : Fin T × Fin B × Fin n ≃ Fin (T * (B * n)) :=
  (Equiv.prodCongr (Equiv.refl _) (mat B n)).trans (mat T (B * n))

/-- Entries of the array `x` of category `cat` by index. -/
def arr {ι : Type} {n : ℕ} (cat x : Name) (e : ι ≃ Fin n) : ι → Slot := fun a => ⟨cat, x, e a⟩

/-- Entries behind the first `off` ones. -/
def tail {ι : Type} {n : ℕ} (cat x : Name) (off : ℕ) (e : ι ≃ Fin n) : ι → Slot := fun a => ⟨cat, x, off + e a⟩

/-- `T`, `B`, features, and no context rows. -/
def Seq (s : Struct) : Prop := s.bufferType = 2 ∧ s.contextSize = 0

/-- The arrays of the layer `l`: among its inputs, parameters and internals are those given, its outputs are those
given. -/
structure Has (l : LayerInfo) (ins outs pars ints : List (Name × Struct)) : Prop where
  ins : ∀ e ∈ ins, e ∈ l.inShapes
  outs : l.outShapes = outs
  pars : ∀ e ∈ pars, e ∈ l.paramShapes
  ints : ∀ e ∈ ints, e ∈ l.internalShapes

/-! ### Proofs -/

theorem mat_val {R n : ℕ} (r : Fin R) (k : Fin n) : (mat R n (r, k) : ℕ) = r * n + k := by
  simp only [mat, finProdFinEquiv, Equiv.coe_fn_mk]
  ring

theorem cube_val {T B n : ℕ} (t : Fin T) (b : Fin B) (k : Fin n) : (cube T B n (t, b, k) : ℕ) = t * (B * n) + (b * n + k) := by
  show (mat T (B * n) (t, mat B n (b, k)) : ℕ) = _
  rw [mat_val, mat_val]

theorem size_seq {s : Struct} (h : s.bufferType = 2) (T B : ℕ) : size s T B = (T + s.contextSize) * (B * s.featureSize) := by
  unfold size structShape Struct.featureSize
  rw [h, ← List.prod_eq_foldl]
  simp

theorem mainSize_seq {s : Struct} (h : s.bufferType = 2) (T B : ℕ) : mainSize s T B = T * (B * s.featureSize) :=
  (size_seq (s := { s with contextSize := 0 }) h T B).trans (by simp [Struct.featureSize, Struct.featureShape, Struct.bufferType])

theorem size_feat {s : Struct} (h : s.bufferType = 0) (T B : ℕ) : size s T B = s.featureSize := by
  unfold size structShape Struct.featureSize
  rw [h, ← List.prod_eq_foldl]
  simp

theorem mainSize_eq {s : Struct} (h : s.contextSize = 0) (T B : ℕ) : mainSize s T B = size s T B := by
  obtain ⟨a, b, c⟩ := s
  simp only at h
  subst h
  rfl

theorem Seq.size {s : Struct} (h : Seq s) (T B : ℕ) : size s T B = T * B * s.featureSize := by
  rw [size_seq h.1, h.2]
  ring

theorem Seq.main {s : Struct} (h : Seq s) (T B : ℕ) : mainSize s T B = T * B * s.featureSize := by
  rw [mainSize_eq h.2, h.size]

section
variable {layers : List LayerInfo} {data l : LayerInfo} {T B : ℕ} {ι : Type} {n : ℕ} {x : Name} {s : Struct} (e : ι ≃ Fin n)

theorem arr_inj (cat x : Name) : Function.Injective (arr cat x e) := by
  intro a b h
  simp only [arr, Slot.mk.injEq, true_and, Fin.val_inj, EmbeddingLike.apply_eq_iff_eq] at h
  exact h

theorem arr_ne {ι' : Type} {n' : ℕ} {cat cat' x x' : Name} {e : ι ≃ Fin n} {e' : ι' ≃ Fin n'} (h : cat ≠ cat' ∨ x ≠ x') (a : ι) (b : ι') :
    arr cat x e a ≠ arr cat' x' e' b := by
  intro he
  simp only [arr, Slot.mk.injEq] at he
  rcases h with h | h
  · exact h he.1
  · exact h he.2.1

theorem elim_inj {ι κ : Type} {f : ι → Slot} {g : κ → Slot} (hf : Function.Injective f) (hg : Function.Injective g)
    (h : ∀ a b, f a ≠ g b) : Function.Injective (Sum.elim f g) := hf.sumElim hg h

theorem ne_elim {ι κ κ' : Type} {f : ι → Slot} {g : κ → Slot} {g' : κ' → Slot} (h : ∀ a b, f a ≠ g b) (h' : ∀ a b, f a ≠ g' b) :
    ∀ a b, f a ≠ Sum.elim g g' b := by
  rintro a (b | b)
  · exact h a b
  · exact h' a b

theorem arr_in (h : (x, s) ∈ l.inShapes) (hn : n ≤ size s T B) (a : ι) :
    (arr (str "inputs") x e a).cat = str "inputs" ∧
      ∃ s, ((arr (str "inputs") x e a).array, s) ∈ l.inShapes ∧ (arr (str "inputs") x e a).pos < size s T B :=
  ⟨rfl, s, h, lt_of_lt_of_le (e a).2 hn⟩

theorem arr_par (h : (x, s) ∈ l.paramShapes) (hn : n ≤ size s T B) (a : ι) :
    (arr (str "parameters") x e a).cat = str "parameters" ∧
      ∃ s, ((arr (str "parameters") x e a).array, s) ∈ l.paramShapes ∧ (arr (str "parameters") x e a).pos < size s T B :=
  ⟨rfl, s, h, lt_of_lt_of_le (e a).2 hn⟩

theorem arr_out (h : (x, s) ∈ l.outShapes) (hn : n ≤ mainSize s T B) (a : ι) :
    (arr (str "outputs") x e a).cat = str "outputs" ∧
      ∃ s, ((arr (str "outputs") x e a).array, s) ∈ l.outShapes ∧ (arr (str "outputs") x e a).pos < mainSize s T B :=
  ⟨rfl, s, h, lt_of_lt_of_le (e a).2 hn⟩

theorem arr_int (h : (x, s) ∈ l.internalShapes) (hn : n ≤ mainSize s T B) (hb : s.backwardOnly = false) (a : ι) :
    (arr (str "internals") x e a).cat = str "internals" ∧
      ∃ s, ((arr (str "internals") x e a).array, s) ∈ l.internalShapes ∧ (arr (str "internals") x e a).pos < mainSize s T B ∧
        s.backwardOnly = false :=
  ⟨rfl, s, h, lt_of_lt_of_le (e a).2 hn, hb⟩

/-- All connected outputs are among the numbers of the array `x`. -/
theorem arr_all (H : ∀ o ∈ l.outgoing, o.kind = .outputs → ∀ s, (o.buffer, s) ∈ l.outShapes → o.buffer = x ∧ mainSize s T B = n) :
    ∀ o ∈ l.outgoing, o.kind = .outputs → ∀ s, (o.buffer, s) ∈ l.outShapes → ∀ j < mainSize s T B,
      ∃ b, arr (str "outputs") x e b = ⟨str "outputs", o.buffer, j⟩ := by
  intro o ho hk s hs j hj
  obtain ⟨h1, h2⟩ := H o ho hk s hs
  rw [h2] at hj
  exact ⟨e.symm ⟨j, hj⟩, by simp [arr, h1]⟩

/-- The layer has one output. -/
theorem single (h : l.outShapes = [(x, s)]) (hn : mainSize s T B = n) :
    ∀ o ∈ l.outgoing, o.kind = .outputs → ∀ s, (o.buffer, s) ∈ l.outShapes → o.buffer = x ∧ mainSize s T B = n := by
  intro o _ _ t ht
  rw [h] at ht
  simp only [List.mem_singleton, Prod.mk.injEq] at ht
  exact ⟨ht.1, by rw [ht.2, hn]⟩

/-- The layer has two outputs, of which the first is not connected. -/
theorem second {y : Name} {t : Struct} (h : l.outShapes = [(y, t), (x, s)])
    (hy : ∀ o ∈ l.outgoing, o.kind = .outputs → o.buffer ≠ y) (hn : mainSize s T B = n) :
    ∀ o ∈ l.outgoing, o.kind = .outputs → ∀ s, (o.buffer, s) ∈ l.outShapes → o.buffer = x ∧ mainSize s T B = n := by
  intro o ho hk t ht
  rw [h] at ht
  simp only [List.mem_cons, List.not_mem_nil, or_false, Prod.mk.injEq] at ht
  rcases ht with ht | ht
  · exact absurd ht.1 (hy o ho hk)
  · exact ⟨ht.1, by rw [ht.2, hn]⟩

end

end Verif.Memory
