import Verif.Gpu.Launch

/-!
# Threads that own the cells they write
-/

namespace Verif.Gpu

open Verif.Numeric

variable {ι α : Type} [DecidableEq ι]

/-- Effect of accesses, one after the other. -/
def effL (l : List (Instr ι α)) (m : Mem ι α) : Mem ι α := l.foldl (fun m I => I.eff m) m

theorem effL_append (l l' : List (Instr ι α)) (m : Mem ι α) : effL (l ++ l') m = effL l' (effL l m) := by
  unfold effL; rw [List.foldl_append]

theorem effL_cons (I : Instr ι α) (l : List (Instr ι α)) (m : Mem ι α) : effL (I :: l) m = effL l (I.eff m) := rfl

/-- Cells that no access writes stay as they were. -/
theorem effL_other (l : List (Instr ι α)) (c : Cell ι) (h : ∀ I ∈ l, I.target ≠ c) (m : Mem ι α) :
    effL l m c = m c := by
  induction l generalizing m with
  | nil => rfl
  | cons I l ih =>
    rw [effL_cons, ih (fun J hJ => h J (by simp [hJ])), Instr.eff, Function.update_of_ne (h I (by simp)).symm]

theorem interleaves_mem {A : Type} {P : List (List A)} {l : List A} (h : Interleaves P l) :
    ∀ x ∈ l, ∃ p ∈ P, x ∈ p := by
  induction h with
  | done P h => intro x hx; exact absurd hx (by simp)
  | step P₁ y p P₂ l h ih =>
    intro x hx
    rcases List.mem_cons.1 hx with rfl | hx
    · exact ⟨x :: p, by simp, by simp⟩
    · obtain ⟨q, hq, hxq⟩ := ih x hx
      rcases List.mem_append.1 hq with hq | hq
      · exact ⟨q, by simp [hq], hxq⟩
      · rcases List.mem_cons.1 hq with rfl | hq
        · exact ⟨y :: q, by simp, by simp [hxq]⟩
        · exact ⟨q, by simp [hq], hxq⟩

/-- The access is to cells of one owner (or, when reading, to cells without owner). -/
def Owned {κ : Type} (own : Cell ι → Option κ) (k : κ) (I : Instr ι α) : Prop :=
  own I.target = some k ∧ ∀ c ∈ I.reads, own c = some k ∨ own c = none

theorem comm_of_owned {κ : Type} (own : Cell ι → Option κ) {j k : κ} (hjk : j ≠ k) {x y : Instr ι α}
    (hx : Owned own j x) (hy : Owned own k y) : Comm x y := by
  have e : ∀ {j k : κ}, j ≠ k → ∀ {c : Cell ι}, own c = some j → own c = some k ∨ own c = none → False := by
    intro j k hjk c h h'
    rw [h] at h'
    rcases h' with h' | h'
    · exact hjk (Option.some.inj h')
    · exact absurd h' (by simp)
  refine comm_of_disjoint ?_ ?_ ?_
  · intro h
    have := hx.1
    rw [h, hy.1] at this
    exact hjk (Option.some.inj this).symm
  · intro h; exact e hjk hx.1 (hy.2 _ h)
  · intro h; exact e hjk.symm hy.1 (hx.2 _ h)

/-- Threads of a phase that own what they write run as if one after the other. -/
theorem phase_run (size : ι → Nat) (P : List (List (Instr ι α))) (prog : Nat → List (Instr ι α)) (n : Nat)
    (hP : P = (List.range n).map prog) (own : Cell ι → Option Nat)
    (ho : ∀ t < n, ∀ I ∈ prog t, Owned own t I) {l : List (Instr ι α)} (hl : Interleaves P l) (m : Mem ι α) :
    run size l m = run size ((List.range n).flatMap prog) m := by
  subst hP
  rw [List.flatMap_def]
  refine interleaves_run size hl ?_ m
  rw [List.pairwise_map]
  refine (List.pairwise_lt_range (n := n)).imp_of_mem ?_
  intro s t hs ht hst x hx y hy
  exact comm_of_owned own (Nat.ne_of_lt hst) (ho s (List.mem_range.1 hs) x hx) (ho t (List.mem_range.1 ht) y hy)

theorem run_ok (size : ι → Nat) (l : List (Instr ι α)) (h : ∀ I ∈ l, I.ok size) (m : Mem ι α) :
    run size l m = some (effL l m) := by
  rw [run_eq, if_pos (List.all_eq_true.2 h)]; rfl

/-- Threads that own what they write, one after the other: a cell is as its owner left it. -/
theorem threads_eff (N : Nat) (prog : Nat → List (Instr ι α)) (own : Cell ι → Option Nat)
    (ho : ∀ t < N, ∀ I ∈ prog t, Owned own t I) (m : Mem ι α) {t : Nat} (ht : t < N) (c : Cell ι) (hc : own c = some t)
    (val : α)
    (hval : ∀ m', (∀ c, own c = none → m' c = m c) → (∀ c, own c = some t → m' c = m c) → effL (prog t) m' c = val) :
    effL ((List.range N).flatMap prog) m c = val := by
  have pre : ∀ k, k ≤ N → ∀ c, (∀ s, own c = some s → k ≤ s) → effL ((List.range k).flatMap prog) m c = m c := by
    intro k hk c hcs
    refine effL_other _ c ?_ m
    intro I hI h
    obtain ⟨s, hs, hI⟩ := List.mem_flatMap.1 hI
    rw [List.mem_range] at hs
    have := (ho s (by omega) I hI).1
    rw [h] at this
    have := hcs s this
    omega
  obtain ⟨k, rfl⟩ := Nat.exists_eq_add_of_lt ht
  have e : List.range (t + k + 1) = List.range t ++ t :: (List.range k).map (fun x => t + 1 + x) := by
    rw [show t + k + 1 = t + (k + 1) by omega, List.range_add, List.range_succ_eq_map, List.map_cons, List.map_map]
    congr 2
    refine List.map_congr_left (fun x _ => ?_)
    simp only [Function.comp]
    omega
  rw [e, List.flatMap_append, List.flatMap_cons, effL_append, effL_append, effL_other]
  · refine hval _ ?_ ?_
    · intro c' h; exact pre t (by omega) c' (fun s hs => by rw [h] at hs; exact absurd hs (by simp))
    · intro c' h; exact pre t (by omega) c' (fun s hs => by rw [h] at hs; exact (Option.some.inj hs).le)
  · intro I hI h
    obtain ⟨s, hs, hI⟩ := List.mem_flatMap.1 hI
    obtain ⟨x, hx, rfl⟩ := List.mem_map.1 hs
    rw [List.mem_range] at hx
    have := (ho (t + 1 + x) (by omega) I hI).1
    rw [h, hc] at this
    have := Option.some.inj this
    omega


theorem mem_stride {t T n i : Nat} (ht : t < T) : i ∈ gridStride t T n ↔ i < n ∧ i % T = t := by
  unfold gridStride
  rw [List.mem_map]
  constructor
  · rintro ⟨k, hk, rfl⟩
    rw [List.mem_range] at hk
    refine ⟨?_, ?_⟩
    · have h1 : k + 1 ≤ (n - t + T - 1) / T := hk
      rw [Nat.le_div_iff_mul_le (by omega)] at h1
      rw [Nat.add_mul, Nat.one_mul] at h1
      omega
    · rw [Nat.add_mul_mod_self_right, Nat.mod_eq_of_lt ht]
  · rintro ⟨h1, h2⟩
    refine ⟨i / T, ?_, ?_⟩
    · rw [List.mem_range]
      show i / T + 1 ≤ _
      rw [Nat.le_div_iff_mul_le (by omega), Nat.add_mul, Nat.one_mul]
      have := Nat.div_add_mod i T
      rw [Nat.mul_comm] at this
      omega
    · have := Nat.div_add_mod i T
      rw [Nat.mul_comm] at this
      omega

end Verif.Gpu
