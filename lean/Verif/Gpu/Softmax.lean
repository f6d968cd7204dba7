import Verif.Gpu.Merge
import Verif.Gpu.Owned
import Verif.Activations.Props

/-!
# The CUDA kernel of `softmax_m` (brainstorm/handlers/pycuda_handler.py:403-408, 628-677)

One block of 32 threads per row.  The threads of a block run freely between two `__syncthreads()`
and wait for each other there; blocks never wait for each other.
-/

namespace Verif.Gpu

open Verif.Numeric

/-! ## Blocks with barriers -/

/-- An execution of the phases between the barriers of a block: in every phase the threads are
interleaved in any way. -/
inductive Phases {A : Type} : List (List (List A)) → List A → Prop
  | nil : Phases [] []
  | cons (P : List (List A)) (Ps : List (List (List A))) (l l' : List A) :
      Interleaves P l → Phases Ps l' → Phases (P :: Ps) (l ++ l')

/-- An execution of a grid of blocks: the executions of the blocks are interleaved in any way. -/
def GridExec {A : Type} (blocks : List (List (List (List A)))) (l : List A) : Prop :=
  ∃ es, List.Forall₂ Phases blocks es ∧ Interleaves es l

/-! ## Model -/

/-- Arrays of the kernel; `shared b` is `max_vals` of block `b`. -/
inductive SArr where
  | tmp
  | out
  | shared (b : Nat)
  deriving DecidableEq

/-- Local variable `q` (0 or 1) of thread `t` of block `b`. -/
def sreg (b t q : Nat) : Nat := (b * 32 + t) * 2 + q

variable {K : Type} [Field K] [LinearOrder K]

/-- The loop for the maximum of the elements of a thread (pycuda_handler.py:634-641). -/
def threadMax (lo : K) (w : Nat) (mat : Arr K) (b t : Nat) : Option K :=
  (gridStride t 32 w).foldlM (fun c (i : Nat) => (mat.read ((b : Int) * w + i)).map (fun v => if v > c then v else c)) lo

/-- Up to the first barrier (pycuda_handler.py:634-643). -/
def phase1 (lo : K) (w : Nat) (mat : Arr K) (b : Nat) : Option (List (List (Instr SArr K))) :=
  (List.range 32).mapM (fun t => (threadMax lo w mat b t).map (fun c => [⟨[], .glob (.shared b) (t : Int), fun _ => c⟩]))

/-- Thread 0 combines the 32 results and stores them in `tmp` (pycuda_handler.py:646-651, 664-667). -/
def reduceProg (init : K) (f : K → K → K) (b : Nat) : List (Instr SArr K) :=
  ⟨[], .reg (sreg b 0 0), fun _ => init⟩ ::
    ((List.range 32).map (fun (i : Nat) =>
      (⟨[.reg (sreg b 0 0), .glob (.shared b) (i : Int)], .reg (sreg b 0 0), fun l => f (l.getD 0 0) (l.getD 1 0)⟩ : Instr SArr K)) ++
    [⟨[.reg (sreg b 0 0)], .glob .tmp (b : Int), fun l => l.getD 0 0⟩])

/-- Only thread 0 works (pycuda_handler.py:645-652, 662-668). -/
def onlyFirst (p : List (Instr SArr K)) : List (List (Instr SArr K)) :=
  (List.range 32).map (fun t => if t = 0 then p else [])

/-- One round of the loop of exponentials (pycuda_handler.py:657-659), `v` is the element. -/
def expRound (ex : K → K) (w b t : Nat) (i : Nat) (v : K) : List (Instr SArr K) :=
  [⟨[.glob .tmp (b : Int)], .reg (sreg b t 1), fun l => ex (v - l.getD 0 0)⟩,
   ⟨[.reg (sreg b t 1)], .glob .out ((b : Int) * w + i), fun l => l.getD 0 0⟩,
   ⟨[.reg (sreg b t 0), .reg (sreg b t 1)], .reg (sreg b t 0), fun l => l.getD 0 0 + l.getD 1 0⟩]

/-- Between the second and the third barrier (pycuda_handler.py:655-661). -/
def phase3 (ex : K → K) (w : Nat) (mat : Arr K) (b : Nat) : Option (List (List (Instr SArr K))) :=
  (List.range 32).mapM (fun (t : Nat) =>
    ((gridStride t 32 w).mapM (fun (i : Nat) => (mat.read ((b : Int) * w + i)).map (expRound ex w b t i))).map (fun rounds =>
      ⟨[], .reg (sreg b t 0), fun _ => 0⟩ :: (rounds.flatten ++
        [⟨[.reg (sreg b t 0)], .glob (.shared b) (t : Int), fun l => l.getD 0 0⟩])))

/-- After the last barrier (pycuda_handler.py:670-672). -/
def phase5 (w b : Nat) : List (List (Instr SArr K)) :=
  (List.range 32).map (fun (t : Nat) => (gridStride t 32 w).flatMap (fun (i : Nat) =>
    [⟨[.glob .out ((b : Int) * w + i)], .reg (sreg b t 1), fun l => l.getD 0 0⟩,
     ⟨[.reg (sreg b t 1), .glob .tmp (b : Int)], .glob .out ((b : Int) * w + i), fun l => l.getD 0 0 / l.getD 1 0⟩]))

/-- The phases of a block (pycuda_handler.py:631-673). -/
def softmaxBlock (lo : K) (ex : K → K) (w : Nat) (mat : Arr K) (b : Nat) : Option (List (List (List (Instr SArr K)))) := do
  let p1 ← phase1 lo w mat b
  let p3 ← phase3 ex w mat b
  return [p1, onlyFirst (reduceProg lo (fun c v => if v > c then v else c) b), p3,
    onlyFirst (reduceProg 0 (fun s v => s + v) b), phase5 w b]

/-- The launch of `softmax_m` for `n` rows (pycuda_handler.py:403-408): a grid of `n` blocks. -/
def softmaxLaunch (lo : K) (ex : K → K) (n w : Nat) (mat : Arr K) : Option (List (List (List (List (Instr SArr K))))) :=
  (List.range n).mapM (softmaxBlock lo ex w mat)

/-- The arrays at the call: `tmp`, `out` and the shared memory of the blocks have arbitrary contents
(`tmp` is `gpuarray.empty`). -/
def softmaxArrs (n w : Nat) (tmp out : Nat → K) (shared : Nat → Nat → K) : SArr → Arr K
  | .tmp => ⟨n, tmp⟩
  | .out => ⟨n * w, out⟩
  | .shared b => ⟨32, shared b⟩

/-! ## Lemmas -/

theorem gridStride_succ {t w : Nat} (ht : t < 32) :
    gridStride t 32 (w + 1) = gridStride t 32 w ++ if w % 32 = t then [w] else [] := by
  unfold gridStride
  by_cases h : w % 32 = t
  · have e1 : (w + 1 - t + 32 - 1) / 32 = w / 32 + 1 := by omega
    have e2 : (w - t + 32 - 1) / 32 = w / 32 := by omega
    have e3 : t + w / 32 * 32 = w := by omega
    rw [if_pos h, e1, e2, List.range_succ, List.map_append, List.map_singleton, e3]
  · have e : (w + 1 - t + 32 - 1) / 32 = (w - t + 32 - 1) / 32 := by omega
    rw [if_neg h, e, List.append_nil]

theorem mem_gridStride {t w i : Nat} (ht : t < 32) : i ∈ gridStride t 32 w ↔ i < w ∧ i % 32 = t := by
  induction w with
  | zero =>
    have : gridStride t 32 0 = [] := by
      unfold gridStride
      have : (0 - t + 32 - 1) / 32 = 0 := by omega
      rw [this]; rfl
    rw [this]; simp
  | succ w ih =>
    rw [gridStride_succ ht, List.mem_append, ih]
    by_cases h : w % 32 = t
    · rw [if_pos h, List.mem_singleton]; omega
    · rw [if_neg h]
      simp only [List.not_mem_nil, or_false]
      constructor
      · intro h'; exact ⟨by omega, h'.2⟩
      · rintro ⟨h1, h2⟩
        refine ⟨?_, h2⟩
        rcases Nat.lt_succ_iff_lt_or_eq.1 h1 with h3 | rfl
        · exact h3
        · exact absurd h2 h

omit [LinearOrder K] in
theorem sum_gridStride (w : Nat) (f : Nat → K) :
    ((List.range 32).map (fun t => ((gridStride t 32 w).map f).sum)).sum = ∑ i ∈ Finset.range w, f i := by
  have key : ∑ t ∈ Finset.range 32, ((gridStride t 32 w).map f).sum = ∑ i ∈ Finset.range w, f i := by
    induction w with
    | zero =>
      refine Finset.sum_eq_zero (fun t ht => ?_)
      have : gridStride t 32 0 = [] := by
        unfold gridStride
        have : (0 - t + 32 - 1) / 32 = 0 := by omega
        rw [this]; rfl
      rw [this]; rfl
    | succ w ih =>
      rw [Finset.sum_range_succ (f := f), ← ih]
      have e : ∀ t ∈ Finset.range 32, ((gridStride t 32 (w + 1)).map f).sum =
          ((gridStride t 32 w).map f).sum + if w % 32 = t then f w else 0 := by
        intro t ht
        rw [gridStride_succ (Finset.mem_range.1 ht), List.map_append, List.sum_append]
        by_cases h : w % 32 = t
        · rw [if_pos h, if_pos h]; simp
        · rw [if_neg h, if_neg h]; simp
      rw [Finset.sum_congr rfl e, Finset.sum_add_distrib]
      congr 1
      rw [Finset.sum_ite_eq, if_pos (Finset.mem_range.2 (Nat.mod_lt _ (by omega)))]
  rw [← key]
  rfl

theorem phases_mem {A : Type} {Ps : List (List (List A))} {l : List A} (h : Phases Ps l) :
    ∀ x ∈ l, ∃ P ∈ Ps, ∃ p ∈ P, x ∈ p := by
  induction h with
  | nil => intro x hx; exact absurd hx (by simp)
  | cons P Ps l l' h _ ih =>
    intro x hx
    rcases List.mem_append.1 hx with hx | hx
    · obtain ⟨p, hp, hxp⟩ := interleaves_mem h x hx
      exact ⟨P, by simp, p, hp, hxp⟩
    · obtain ⟨Q, hQ, p, hp, hxp⟩ := ih x hx
      exact ⟨Q, by simp [hQ], p, hp, hxp⟩

/-! ### The programs -/

/-- Element `i` of row `b`. -/
def row (w : Nat) (mat : Arr K) (b i : Nat) : K := mat.at' (b * w + i)

section
variable (lo : K) (ex : K → K) {n w : Nat} (mat : Arr K) (hm : mat.size = n * w) {b : Nat} (hb : b < n)
include hm hb

omit [LinearOrder K] in
theorem read_row {i : Nat} (hi : i < w) : mat.read ((b : Int) * w + i) = some (row w mat b i) :=
  Arr.read_nat mat (by push_cast; ring) (by rw [hm]; exact row_lt hb hi)

/-- The maximum of the elements of a thread. -/
def tmax (lo : K) (w : Nat) (mat : Arr K) (b t : Nat) : K :=
  (gridStride t 32 w).foldl (fun c i => if row w mat b i > c then row w mat b i else c) lo

theorem threadMax_spec {t : Nat} (ht : t < 32) : threadMax lo w mat b t = some (tmax lo w mat b t) := by
  unfold threadMax tmax
  have : ∀ (L : List Nat) (c : K), (∀ i ∈ L, i < w) →
      L.foldlM (fun c (i : Nat) => (mat.read ((b : Int) * w + i)).map (fun v => if v > c then v else c)) c =
        some (L.foldl (fun c i => if row w mat b i > c then row w mat b i else c) c) := by
    intro L
    induction L with
    | nil => intro c _; rfl
    | cons i L ih =>
      intro c h
      rw [List.foldlM_cons, read_row mat hm hb (h i (by simp)), List.foldl_cons]
      exact ih _ (fun j hj => h j (by simp [hj]))
  exact this _ _ (fun i hi => ((mem_gridStride ht).1 hi).1)

/-- Program of a thread in the first phase. -/
def prog1 (lo : K) (w : Nat) (mat : Arr K) (b t : Nat) : List (Instr SArr K) :=
  [⟨[], .glob (.shared b) (t : Int), fun _ => tmax lo w mat b t⟩]

theorem phase1_spec : phase1 lo w mat b = some ((List.range 32).map (prog1 lo w mat b)) := by
  refine mapM_some' _ _ _ (fun t ht => ?_)
  rw [threadMax_spec lo mat hm hb (List.mem_range.1 ht)]
  rfl

/-- Program of a thread in the third phase. -/
def prog3 (ex : K → K) (w : Nat) (mat : Arr K) (b t : Nat) : List (Instr SArr K) :=
  ⟨[], .reg (sreg b t 0), fun _ => 0⟩ ::
    ((gridStride t 32 w).flatMap (fun i => expRound ex w b t i (row w mat b i)) ++
      [⟨[.reg (sreg b t 0)], .glob (.shared b) (t : Int), fun l => l.getD 0 0⟩])

omit [LinearOrder K] in
theorem phase3_spec : phase3 ex w mat b = some ((List.range 32).map (prog3 ex w mat b)) := by
  refine mapM_some' _ _ _ (fun t ht => ?_)
  rw [mapM_some' _ (fun i => expRound ex w b t i (row w mat b i))]
  · rw [Option.map_some, ← List.flatMap_def]; rfl
  · intro i hi
    rw [read_row mat hm hb ((mem_gridStride (List.mem_range.1 ht)).1 hi).1]
    rfl

end

/-- Program of a thread in the last phase. -/
def prog5 (w b t : Nat) : List (Instr SArr K) :=
  (gridStride t 32 w).flatMap (fun (i : Nat) =>
    [⟨[.glob .out ((b : Int) * w + i)], .reg (sreg b t 1), fun l => l.getD 0 0⟩,
     ⟨[.reg (sreg b t 1), .glob .tmp (b : Int)], .glob .out ((b : Int) * w + i), fun l => l.getD 0 0 / l.getD 1 0⟩])

/-! ### Owners -/

/-- The thread that may write a cell in the phases in which all threads work. -/
def ownT (w : Nat) : Cell SArr → Option Nat
  | .glob .tmp _ => none
  | .glob .out i => some (i.toNat % w % 32)
  | .glob (.shared _) i => some i.toNat
  | .reg r => some (r / 2 % 32)

theorem ownT_out {w b i : Nat} (hi : i < w) : ownT w (.glob .out ((b : Int) * w + i)) = some (i % 32) := by
  have : ((b : Int) * w + i).toNat = b * w + i := by
    have : ((b : Int) * w + i) = ((b * w + i : Nat) : Int) := by push_cast; ring
    rw [this, Int.toNat_natCast]
  show some (_ % w % 32) = _
  rw [this, Nat.add_comm, Nat.add_mul_mod_self_right, Nat.mod_eq_of_lt hi]

theorem ownT_reg {w b t q : Nat} (ht : t < 32) (hq : q < 2) : ownT w (.reg (sreg b t q)) = some t := by
  simp only [ownT, sreg, Option.some.injEq]
  omega

theorem ownT_tmp {w : Nat} (i : Int) : ownT w (.glob .tmp i) = none := rfl

/-- The block that a cell belongs to. -/
def ownB (w : Nat) : Cell SArr → Option Nat
  | .glob .tmp i => some i.toNat
  | .glob .out i => some (i.toNat / w)
  | .glob (.shared b) _ => some b
  | .reg r => some (r / 2 / 32)

theorem ownB_out {w b i : Nat} (hi : i < w) : ownB w (.glob .out ((b : Int) * w + i)) = some b := by
  have : ((b : Int) * w + i).toNat = b * w + i := by
    have : ((b : Int) * w + i) = ((b * w + i : Nat) : Int) := by push_cast; ring
    rw [this, Int.toNat_natCast]
  show some (_ / w) = _
  rw [this, Nat.mul_comm, Nat.mul_add_div (by omega), Nat.div_eq_of_lt hi, Nat.add_zero]

theorem ownB_reg {w b t q : Nat} (ht : t < 32) (hq : q < 2) : ownB w (.reg (sreg b t q)) = some b := by
  simp only [ownB, sreg, Option.some.injEq]
  omega

theorem ownB_tmp {w b : Nat} : ownB w (.glob .tmp (b : Int)) = some b := by simp [ownB]

theorem ownB_shared {w b : Nat} (i : Int) : ownB w (.glob (.shared b) i) = some b := rfl

variable (lo : K) (ex : K → K) (w : Nat) (mat : Arr K)

/-- Everything about an access of a block: who owns it in its phase, in the grid, and that it is
within the arrays. -/
def Good (n w b t : Nat) (I : Instr SArr K) : Prop :=
  Owned (ownT w) t I ∧ Owned (ownB w) b I ∧ ∀ (tmp out : Nat → K) (shared : Nat → Nat → K), I.ok (fun a => (softmaxArrs n w tmp out shared a).size) = true

theorem prog1_good {n b t : Nat} (ht : t < 32) : ∀ I ∈ prog1 lo w mat b t, Good n w b t I := by
  intro I hI
  unfold prog1 at hI
  rw [List.mem_singleton] at hI
  subst hI
  refine ⟨⟨by simp [ownT], by simp⟩, ⟨by simp [ownB], by simp⟩, fun tmp out shared => ?_⟩
  simp [Instr.ok, Cell.ok, softmaxArrs, ht]

omit [Field K] [LinearOrder K] in
theorem out_ok {n w b i : Nat} (hb : b < n) (hi : i < w) (tmp out : Nat → K) (shared : Nat → Nat → K) :
    (Cell.glob SArr.out ((b : Int) * w + i)).ok (fun a => (softmaxArrs n w tmp out shared a).size) = true := by
  have := row_lt hb hi
  refine decide_eq_true ?_
  have e : ((b : Int) * w + i) = ((b * w + i : Nat) : Int) := by push_cast; ring
  rw [e]
  exact ⟨by omega, by exact_mod_cast this⟩

theorem prog3_good {n b t : Nat} (hb : b < n) (ht : t < 32) : ∀ I ∈ prog3 ex w mat b t, Good n w b t I := by
  intro I hI
  unfold prog3 at hI
  rcases List.mem_cons.1 hI with rfl | hI
  · refine ⟨⟨ownT_reg ht (by omega), by simp⟩, ⟨ownB_reg ht (by omega), by simp⟩, fun tmp out shared => ?_⟩
    simp [Instr.ok, Cell.ok]
  rcases List.mem_append.1 hI with hI | hI
  · obtain ⟨i, hi, hI⟩ := List.mem_flatMap.1 hI
    obtain ⟨hiw, hit⟩ := (mem_gridStride ht).1 hi
    have o1 := ownT_out (b := b) hiw
    rw [hit] at o1
    have o2 := ownB_out (b := b) hiw
    have r0 := ownT_reg (w := w) (b := b) ht (q := 0) (by omega)
    have r1 := ownT_reg (w := w) (b := b) ht (q := 1) (by omega)
    have s0 := ownB_reg (w := w) (b := b) ht (q := 0) (by omega)
    have s1 := ownB_reg (w := w) (b := b) ht (q := 1) (by omega)
    unfold expRound at hI
    simp only [List.mem_cons, List.not_mem_nil, or_false] at hI
    rcases hI with rfl | rfl | rfl
    · refine ⟨⟨r1, by simp [ownT]⟩, ⟨s1, by simp [ownB]⟩, fun tmp out shared => ?_⟩
      simp [Instr.ok, Cell.ok, softmaxArrs, hb]
    · refine ⟨⟨o1, by simp [r1]⟩, ⟨o2, by simp [s1]⟩, fun tmp out shared => ?_⟩
      simp only [Instr.ok, out_ok hb hiw, Bool.true_and]
      simp [Cell.ok]
    · refine ⟨⟨r0, by simp [r0, r1]⟩, ⟨s0, by simp [s0, s1]⟩, fun tmp out shared => ?_⟩
      simp [Instr.ok, Cell.ok]
  · rw [List.mem_singleton] at hI
    subst hI
    refine ⟨⟨by simp [ownT], by simp [ownT_reg (w := w) (b := b) ht (q := 0) (by omega)]⟩,
      ⟨by simp [ownB], by simp [ownB_reg (w := w) (b := b) ht (q := 0) (by omega)]⟩, fun tmp out shared => ?_⟩
    simp [Instr.ok, Cell.ok, softmaxArrs, ht]

theorem prog5_good {n b t : Nat} (hb : b < n) (ht : t < 32) : ∀ I ∈ prog5 (K := K) w b t, Good n w b t I := by
  intro I hI
  unfold prog5 at hI
  obtain ⟨i, hi, hI⟩ := List.mem_flatMap.1 hI
  obtain ⟨hiw, hit⟩ := (mem_gridStride ht).1 hi
  have o1 := ownT_out (b := b) hiw
  rw [hit] at o1
  have o2 := ownB_out (b := b) hiw
  have r1 := ownT_reg (w := w) (b := b) ht (q := 1) (by omega)
  have s1 := ownB_reg (w := w) (b := b) ht (q := 1) (by omega)
  simp only [List.mem_cons, List.not_mem_nil, or_false] at hI
  rcases hI with rfl | rfl
  · refine ⟨⟨r1, by simp [o1]⟩, ⟨s1, by simp [o2]⟩, fun tmp out shared => ?_⟩
    simp only [Instr.ok, List.all_cons, List.all_nil, out_ok hb hiw]
    simp [Cell.ok]
  · refine ⟨⟨o1, by simp [r1, ownT_tmp]⟩, ⟨o2, by simp [s1, ownB_tmp]⟩, fun tmp out shared => ?_⟩
    simp only [Instr.ok, out_ok hb hiw, Bool.true_and]
    simp [Cell.ok, softmaxArrs, hb]

/-- The accesses of thread 0 while the others wait. -/
theorem reduceProg_good (init : K) (f : K → K → K) {n b : Nat} (hb : b < n) : ∀ I ∈ reduceProg init f b,
    Owned (ownB w) b I ∧ ∀ (tmp out : Nat → K) (shared : Nat → Nat → K), I.ok (fun a => (softmaxArrs n w tmp out shared a).size) = true := by
  have s0 := ownB_reg (w := w) (b := b) (t := 0) (q := 0) (by omega) (by omega)
  intro I hI
  unfold reduceProg at hI
  rcases List.mem_cons.1 hI with rfl | hI
  · exact ⟨⟨s0, by simp⟩, fun _ _ _ => by simp [Instr.ok, Cell.ok]⟩
  rcases List.mem_append.1 hI with hI | hI
  · obtain ⟨i, hi, rfl⟩ := List.mem_map.1 hI
    rw [List.mem_range] at hi
    exact ⟨⟨s0, by simp [s0, ownB_shared]⟩, fun _ _ _ => by simp [Instr.ok, Cell.ok, softmaxArrs, hi]⟩
  · rw [List.mem_singleton] at hI
    subst hI
    exact ⟨⟨by simp [ownB], by simp [s0]⟩, fun _ _ _ => by simp [Instr.ok, Cell.ok, softmaxArrs, hb]⟩

/-! ### Effects of the phases -/

theorem reduce_eff (init : K) (f : K → K → K) (b : Nat) (m : Mem SArr K) :
    effL (reduceProg init f b) m (.glob .tmp b) =
      (List.range 32).foldl (fun c (i : Nat) => f c (m (.glob (.shared b) i))) init ∧
    ∀ c, c ≠ .glob .tmp b → c ≠ .reg (sreg b 0 0) → effL (reduceProg init f b) m c = m c := by
  have inv : ∀ (L : List Nat) (m : Mem SArr K),
      (effL (L.map (fun (i : Nat) =>
        (⟨[.reg (sreg b 0 0), .glob (.shared b) (i : Int)], .reg (sreg b 0 0), fun l => f (l.getD 0 0) (l.getD 1 0)⟩ : Instr SArr K))) m)
        (.reg (sreg b 0 0)) = L.foldl (fun c (i : Nat) => f c (m (.glob (.shared b) i))) (m (.reg (sreg b 0 0))) := by
    intro L
    induction L with
    | nil => intro m; rfl
    | cons i L ih =>
      intro m
      rw [List.map_cons, effL_cons, ih, List.foldl_cons]
      simp [Instr.eff, Function.update_apply]
  constructor
  · unfold reduceProg
    rw [effL_cons, effL_append, effL_cons]
    simp only [effL, List.foldl_nil]
    rw [Instr.eff]
    simp only [Function.update_self, List.map_cons, List.map_nil, List.getD_cons_zero]
    have := inv (List.range 32) (Instr.eff ⟨[], .reg (sreg b 0 0), fun _ => init⟩ m)
    unfold effL at this
    rw [this]
    simp [Instr.eff, Function.update_apply]
  · intro c h1 h2
    refine effL_other _ c ?_ m
    intro I hI
    unfold reduceProg at hI
    rcases List.mem_cons.1 hI with rfl | hI
    · exact fun h => h2 h.symm
    rcases List.mem_append.1 hI with hI | hI
    · obtain ⟨i, _, rfl⟩ := List.mem_map.1 hI
      exact fun h => h2 h.symm
    · rw [List.mem_singleton] at hI
      subst hI
      exact fun h => h1 h.symm

/-- The loop of exponentials of a thread. -/
theorem expRounds_eff (b t : Nat) (L : List Nat) (hL : L.Nodup) (m : Mem SArr K) :
    (effL (L.flatMap (fun i => expRound ex w b t i (row w mat b i))) m) (.reg (sreg b t 0)) =
        m (.reg (sreg b t 0)) + (L.map (fun i => ex (row w mat b i - m (.glob .tmp b)))).sum ∧
    (∀ i ∈ L, (effL (L.flatMap (fun i => expRound ex w b t i (row w mat b i))) m) (.glob .out ((b : Int) * w + i)) =
        ex (row w mat b i - m (.glob .tmp b))) := by
  have hne : (sreg b t 0) ≠ sreg b t 1 := by unfold sreg; omega
  induction L generalizing m with
  | nil => simp [effL]
  | cons i L ih =>
    obtain ⟨hi, hL⟩ := List.nodup_cons.1 hL
    have ev : ∀ c, effL (expRound ex w b t i (row w mat b i)) m c =
        if c = .reg (sreg b t 0) then m (.reg (sreg b t 0)) + ex (row w mat b i - m (.glob .tmp b))
        else if c = .glob .out ((b : Int) * w + i) then ex (row w mat b i - m (.glob .tmp b))
        else if c = .reg (sreg b t 1) then ex (row w mat b i - m (.glob .tmp b)) else m c := by
      intro c
      simp only [expRound, effL, List.foldl_cons, List.foldl_nil, Instr.eff, Function.update_apply, List.map_cons, List.map_nil,
        List.getD_cons_zero, List.getD_cons_succ]
      simp [hne]
    have etmp : effL (expRound ex w b t i (row w mat b i)) m (.glob .tmp b) = m (.glob .tmp b) := by
      rw [ev]; simp
    obtain ⟨h1, h2⟩ := ih hL (effL (expRound ex w b t i (row w mat b i)) m)
    rw [etmp] at h1 h2
    rw [List.flatMap_cons, effL_append]
    refine ⟨?_, ?_⟩
    · rw [h1, ev, if_pos rfl, List.map_cons, List.sum_cons, add_assoc]
    · intro j hj
      rcases List.mem_cons.1 hj with rfl | hj
      · rw [effL_other, ev, if_neg (by simp), if_pos rfl]
        intro I hI h
        obtain ⟨k, hk, hI⟩ := List.mem_flatMap.1 hI
        unfold expRound at hI
        simp only [List.mem_cons, List.not_mem_nil, or_false] at hI
        rcases hI with rfl | rfl | rfl
        · simp at h
        · simp only [Cell.glob.injEq, true_and] at h
          have : k = j := by omega
          subst this
          exact hi hk
        · simp at h
      · exact h2 j hj

theorem gridStride_nodup (t N : Nat) : (gridStride t 32 N).Nodup := by
  unfold gridStride
  refine List.Nodup.map ?_ List.nodup_range
  intro a b h
  simpa using h

theorem prog3_eff (b t : Nat) (m : Mem SArr K) :
    effL (prog3 ex w mat b t) m (.glob (.shared b) t) =
      ((gridStride t 32 w).map (fun i => ex (row w mat b i - m (.glob .tmp b)))).sum ∧
    ∀ i ∈ gridStride t 32 w, effL (prog3 ex w mat b t) m (.glob .out ((b : Int) * w + i)) =
      ex (row w mat b i - m (.glob .tmp b)) := by
  obtain ⟨h1, h2⟩ := expRounds_eff ex w mat b t (gridStride t 32 w) (gridStride_nodup t w)
    (Instr.eff ⟨[], .reg (sreg b t 0), fun _ => 0⟩ m)
  have e1 : Instr.eff (⟨[], .reg (sreg b t 0), fun _ => 0⟩ : Instr SArr K) m (.glob .tmp b) = m (.glob .tmp b) := by
    simp [Instr.eff, Function.update_apply]
  have e0 : Instr.eff (⟨[], .reg (sreg b t 0), fun _ => 0⟩ : Instr SArr K) m (.reg (sreg b t 0)) = 0 := by
    simp [Instr.eff, Function.update_apply]
  rw [e1, e0, zero_add] at h1
  rw [e1] at h2
  unfold prog3
  rw [effL_cons, effL_append, effL_cons]
  constructor
  · simp only [effL, List.foldl_nil]
    rw [Instr.eff]
    simp only [Function.update_self, List.map_cons, List.map_nil, List.getD_cons_zero]
    exact h1
  · intro i hi
    rw [← h2 i hi]
    simp [effL, Instr.eff, Function.update_apply]

theorem prog5_eff (b t : Nat) (m : Mem SArr K) : ∀ i ∈ gridStride t 32 w,
    effL (prog5 w b t) m (.glob .out ((b : Int) * w + i)) = m (.glob .out ((b : Int) * w + i)) / m (.glob .tmp b) := by
  unfold prog5
  have hnd := gridStride_nodup t w
  generalize gridStride t 32 w = L at hnd ⊢
  induction L generalizing m with
  | nil => simp
  | cons k L ih =>
    obtain ⟨hk, hL⟩ := List.nodup_cons.1 hnd
    intro i hi
    rw [List.flatMap_cons, effL_append]
    rcases List.mem_cons.1 hi with rfl | hi
    · rw [effL_other]
      · simp [effL, Instr.eff, Function.update_apply]
      · intro I hI h
        obtain ⟨j, hj, hI⟩ := List.mem_flatMap.1 hI
        simp only [List.mem_cons, List.not_mem_nil, or_false] at hI
        rcases hI with rfl | rfl
        · simp at h
        · simp only [Cell.glob.injEq, true_and] at h
          have : j = i := by omega
          subst this
          exact hk hj
    · rw [ih _ hL i hi]
      have hne : k ≠ i := fun h => hk (h ▸ hi)
      have hne' : ¬ ((b : Int) * w + i = (b : Int) * w + k) := by omega
      simp only [effL, List.foldl_cons, List.foldl_nil, Instr.eff, Function.update_apply]
      simp [hne']

/-! ### A block -/

theorem max_foldl (L : List Nat) (v : Nat → K) (c : K) :
    c ≤ L.foldl (fun c i => if v i > c then v i else c) c ∧
    (∀ i ∈ L, v i ≤ L.foldl (fun c i => if v i > c then v i else c) c) ∧
    ∀ M, c ≤ M → (∀ i ∈ L, v i ≤ M) → L.foldl (fun c i => if v i > c then v i else c) c ≤ M := by
  induction L generalizing c with
  | nil => simp
  | cons i L ih =>
    obtain ⟨h1, h2, h3⟩ := ih (if v i > c then v i else c)
    have e1 : c ≤ if v i > c then v i else c := by split_ifs with h <;> [exact h.le; exact le_refl _]
    have e2 : v i ≤ if v i > c then v i else c := by split_ifs with h <;> [exact le_refl _; exact not_lt.1 h]
    rw [List.foldl_cons]
    refine ⟨e1.trans h1, ?_, ?_⟩
    · intro j hj
      rcases List.mem_cons.1 hj with rfl | hj
      · exact e2.trans h1
      · exact h2 j hj
    · intro M hM hall
      refine h3 M ?_ (fun j hj => hall j (by simp [hj]))
      split_ifs
      · exact hall i (by simp)
      · exact hM

/-- What the kernel writes for element `i` of row `b`. -/
def softVal (ex : K → K) (w : Nat) (mat : Arr K) (b : Nat) (M : K) (i : Nat) : K :=
  ex (row w mat b i - M) / ∑ j ∈ Finset.range w, ex (row w mat b j - M)

theorem block_run {n b : Nat} (hb : b < n) (hm : mat.size = n * w) (M : K) (hlo : lo ≤ M)
    (hM : ∃ i < w, row w mat b i = M) (hmax : ∀ i < w, row w mat b i ≤ M) (tmp out : Nat → K) (shared : Nat → Nat → K) :
    ∃ Ps, softmaxBlock lo ex w mat b = some Ps ∧ ∀ e, Phases Ps e →
      (∀ I ∈ e, Owned (ownB w) b I) ∧
      ∀ m, ∃ m', run (fun a => (softmaxArrs n w tmp out shared a).size) e m = some m' ∧
        (∀ i < w, m' (.glob .out ((b : Int) * w + i)) = softVal ex w mat b M i) ∧
        ∀ c, ownB w c ≠ some b → m' c = m c := by
  let size := fun a => (softmaxArrs n w tmp out shared a).size
  refine ⟨[(List.range 32).map (prog1 lo w mat b), onlyFirst (reduceProg lo (fun c v => if v > c then v else c) b),
    (List.range 32).map (prog3 ex w mat b), onlyFirst (reduceProg 0 (fun s v => s + v) b), phase5 w b], ?_, ?_⟩
  · unfold softmaxBlock
    rw [phase1_spec lo mat hm hb, phase3_spec ex mat hm hb]
    rfl
  intro e he
  -- accesses of the phases
  have good_first : ∀ (init : K) (f : K → K → K), ∀ p ∈ onlyFirst (reduceProg init f b), ∀ I ∈ p, Owned (ownB w) b I := by
    intro init f p hp I hI
    obtain ⟨t, _, rfl⟩ := List.mem_map.1 hp
    by_cases h : t = 0
    · rw [if_pos h] at hI; exact (reduceProg_good (n := n) w init f hb I hI).1
    · rw [if_neg h] at hI; simp at hI
  have e5 : phase5 (K := K) w b = (List.range 32).map (prog5 w b) := rfl
  have hown : ∀ I ∈ e, Owned (ownB w) b I := by
    intro I hI
    obtain ⟨P, hP, p, hp, hIp⟩ := phases_mem he I hI
    simp only [List.mem_cons, List.not_mem_nil, or_false] at hP
    rcases hP with rfl | rfl | rfl | rfl | rfl
    · obtain ⟨t, ht, rfl⟩ := List.mem_map.1 hp
      exact (prog1_good (n := n) lo w mat (List.mem_range.1 ht) I hIp).2.1
    · exact good_first _ _ p hp I hIp
    · obtain ⟨t, ht, rfl⟩ := List.mem_map.1 hp
      exact (prog3_good (n := n) ex w mat hb (List.mem_range.1 ht) I hIp).2.1
    · exact good_first _ _ p hp I hIp
    · rw [e5] at hp
      obtain ⟨t, ht, rfl⟩ := List.mem_map.1 hp
      exact (prog5_good (n := n) w hb (List.mem_range.1 ht) I hIp).2.1
  refine ⟨hown, fun m => ?_⟩
  cases he with | cons _ _ l1 r1 i1 he =>
  cases he with | cons _ _ l2 r2 i2 he =>
  cases he with | cons _ _ l3 r3 i3 he =>
  cases he with | cons _ _ l4 r4 i4 he =>
  cases he with | cons _ _ l5 r5 i5 he =>
  cases he
  -- every phase runs as if thread by thread
  have all : ∀ (prog : Nat → List (Instr SArr K)), (∀ t < 32, ∀ I ∈ prog t, Good n w b t I) →
      ∀ {l}, Interleaves ((List.range 32).map prog) l → ∀ m, run size l m = some (effL ((List.range 32).flatMap prog) m) := by
    intro prog hg l hl m
    rw [phase_run size _ prog 32 rfl (ownT w) (fun t ht I hI => (hg t ht I hI).1) hl, run_ok]
    intro I hI
    obtain ⟨t, ht, hI⟩ := List.mem_flatMap.1 hI
    exact (hg t (List.mem_range.1 ht) I hI).2.2 tmp out shared
  have first : ∀ (init : K) (f : K → K → K) {l}, Interleaves (onlyFirst (reduceProg init f b)) l → ∀ m,
      run size l m = some (effL (reduceProg init f b) m) := by
    intro init f l hl m
    have e : (onlyFirst (reduceProg init f b)).flatten = reduceProg init f b := by
      unfold onlyFirst
      rw [List.range_succ_eq_map, List.map_cons, List.flatten_cons, if_pos rfl, List.map_map]
      have : ((List.map ((fun t => if t = 0 then reduceProg init f b else []) ∘ Nat.succ) (List.range 31)).flatten) = [] := by
        rw [List.flatten_eq_nil_iff]
        intro p hp
        obtain ⟨t, _, rfl⟩ := List.mem_map.1 hp
        simp
      rw [this, List.append_nil]
    rw [interleaves_run size hl, e, run_ok]
    · intro I hI
      exact (reduceProg_good (n := n) w init f hb I hI).2 tmp out shared
    · unfold onlyFirst
      rw [List.pairwise_map]
      refine (List.pairwise_lt_range (n := 32)).imp ?_
      intro s t hst x hx y hy
      rw [if_neg (by omega)] at hy
      simp at hy
  have g1 : ∀ t < 32, ∀ I ∈ prog1 lo w mat b t, Good n w b t I := fun t ht => prog1_good lo w mat ht
  have g3 : ∀ t < 32, ∀ I ∈ prog3 ex w mat b t, Good n w b t I := fun t ht => prog3_good ex w mat hb ht
  have g5 : ∀ t < 32, ∀ I ∈ prog5 (K := K) w b t, Good n w b t I := fun t ht => prog5_good w hb ht
  let m1 := effL ((List.range 32).flatMap (prog1 lo w mat b)) m
  let m2 := effL (reduceProg lo (fun c v => if v > c then v else c) b) m1
  let m3 := effL ((List.range 32).flatMap (prog3 ex w mat b)) m2
  let m4 := effL (reduceProg 0 (fun s v => s + v) b) m3
  let m5 := effL ((List.range 32).flatMap (prog5 w b)) m4
  have hrun : run size (l1 ++ (l2 ++ (l3 ++ (l4 ++ (l5 ++ []))))) m = some m5 := by
    rw [run_append, all _ g1 i1, Option.bind_some, run_append, first _ _ i2, Option.bind_some, run_append, all _ g3 i3,
      Option.bind_some, run_append, first _ _ i4, Option.bind_some, run_append, all _ g5 (e5 ▸ i5)]
    rfl
  refine ⟨m5, hrun, ?_, ?_⟩
  · -- the values
    have v1 : ∀ t : Nat, t < 32 → m1 (.glob (.shared b) (t : Int)) = tmax lo w mat b t := by
      intro t ht
      refine threads_eff 32 _ (ownT w) (fun t ht I hI => (g1 t ht I hI).1) m ht _ (by simp [ownT]) _ ?_
      intro m' _ _
      simp [prog1, effL, Instr.eff]
    have v2 : m2 (.glob .tmp b) = M := by
      show effL _ m1 (.glob .tmp b) = M
      rw [(reduce_eff lo _ b m1).1]
      have hcongr : (List.range 32).foldl (fun c (i : Nat) => if m1 (.glob (.shared b) i) > c then m1 (.glob (.shared b) i) else c) lo =
          (List.range 32).foldl (fun c i => if tmax lo w mat b i > c then tmax lo w mat b i else c) lo := by
        refine List.foldl_ext _ _ _ (fun c i hi => ?_)
        rw [v1 i (List.mem_range.1 hi)]
      rw [hcongr]
      obtain ⟨_, k2, k3⟩ := max_foldl (List.range 32) (tmax lo w mat b) lo
      refine le_antisymm ?_ ?_
      · refine k3 M hlo (fun t ht => ?_)
        exact (max_foldl (gridStride t 32 w) (row w mat b) lo).2.2 M hlo
          (fun i hi => hmax i ((mem_gridStride (List.mem_range.1 ht)).1 hi).1)
      · obtain ⟨i, hi, e⟩ := hM
        have ht : i % 32 < 32 := Nat.mod_lt _ (by omega)
        rw [← e]
        exact ((max_foldl (gridStride (i % 32) 32 w) (row w mat b) lo).2.1 i ((mem_gridStride ht).2 ⟨hi, rfl⟩)).trans
          (k2 (i % 32) (List.mem_range.2 ht))
    have v3s : ∀ t : Nat, t < 32 → m3 (.glob (.shared b) (t : Int)) = ((gridStride t 32 w).map (fun i => ex (row w mat b i - M))).sum := by
      intro t ht
      refine threads_eff 32 _ (ownT w) (fun t ht I hI => (g3 t ht I hI).1) m2 ht _ (by simp [ownT]) _ ?_
      intro m' h1 _
      rw [(prog3_eff ex w mat b t m').1, h1 (.glob .tmp b) rfl, v2]
    have v3o : ∀ i : Nat, i < w → m3 (.glob .out ((b : Int) * w + i)) = ex (row w mat b i - M) := by
      intro i hi
      have ht : i % 32 < 32 := Nat.mod_lt _ (by omega)
      refine threads_eff 32 _ (ownT w) (fun t ht I hI => (g3 t ht I hI).1) m2 ht _ (ownT_out hi) _ ?_
      intro m' h1 _
      rw [(prog3_eff ex w mat b (i % 32) m').2 i ((mem_gridStride ht).2 ⟨hi, rfl⟩), h1 (.glob .tmp b) rfl, v2]
    have v4 : m4 (.glob .tmp b) = ∑ j ∈ Finset.range w, ex (row w mat b j - M) := by
      show effL _ m3 (.glob .tmp b) = _
      rw [(reduce_eff 0 _ b m3).1, ← sum_gridStride]
      have hcongr : (List.range 32).foldl (fun s (i : Nat) => s + m3 (.glob (.shared b) i)) 0 =
          (List.range 32).foldl (fun s i => s + ((gridStride i 32 w).map (fun i => ex (row w mat b i - M))).sum) 0 := by
        refine List.foldl_ext _ _ _ (fun c i hi => ?_)
        rw [v3s i (List.mem_range.1 hi)]
      rw [hcongr, List.sum_eq_foldl, List.foldl_map]
    have v4o : ∀ i : Nat, i < w → m4 (.glob .out ((b : Int) * w + i)) = ex (row w mat b i - M) := by
      intro i hi
      rw [← v3o i hi]
      exact (reduce_eff 0 _ b m3).2 _ (by simp) (by simp)
    intro i hi
    have ht : i % 32 < 32 := Nat.mod_lt _ (by omega)
    refine threads_eff 32 _ (ownT w) (fun t ht I hI => (g5 t ht I hI).1) m4 ht _ (ownT_out hi) _ ?_
    intro m' h1 h2
    rw [prog5_eff w b (i % 32) m' i ((mem_gridStride ht).2 ⟨hi, rfl⟩), h1 (.glob .tmp b) rfl, h2 _ (ownT_out hi), v4, v4o i hi]
    rfl
  · intro c hc
    have hrun' := hrun
    rw [run_eq] at hrun'
    split_ifs at hrun' with h
    rw [← Option.some.inj hrun']
    refine effL_other _ c ?_ m
    intro I hI h
    exact hc (h ▸ (hown I hI).1)

/-- Every execution of the GPU's softmax, for any number type and any exponential. -/
theorem softmax_all {n : Nat} (hm : mat.size = n * w) (M : Nat → K) (hlo : ∀ b < n, lo ≤ M b)
    (hM : ∀ b < n, ∃ i < w, row w mat b i = M b) (hmax : ∀ b < n, ∀ i < w, row w mat b i ≤ M b)
    (tmp out : Nat → K) (shared : Nat → Nat → K) :
    ∃ G, softmaxLaunch lo ex n w mat = some G ∧ ∀ l, GridExec G l →
      ∃ res, runOn (softmaxArrs n w tmp out shared) l = some res ∧
        ∀ b < n, ∀ i < w, (res .out).at' (b * w + i) = softVal ex w mat b (M b) i := by
  have hb := fun b (h : b < n) => block_run lo ex w mat h hm (M b) (hlo b h) (hM b h) (hmax b h) tmp out shared
  choose Ps hPs hex using hb
  let Q : Nat → List (List (List (Instr SArr K))) := fun b => if h : b < n then Ps b h else []
  have hQ : ∀ b (h : b < n), Q b = Ps b h := fun b h => dif_pos h
  refine ⟨(List.range n).map Q, ?_, ?_⟩
  · refine mapM_some' _ _ _ (fun b hb => ?_)
    rw [List.mem_range] at hb
    rw [hPs b hb, hQ b hb]
  · rintro l ⟨es, hes, hl⟩
    rw [List.forall₂_map_left_iff] at hes
    have hlen : es.length = n := by rw [← hes.length_eq, List.length_range]
    have hget : ∀ b (h : b < n), Phases (Ps b h) (es[b]'(by omega)) := by
      intro b h
      have := hes.get (i := b) (by rw [List.length_range]; exact h) (by omega)
      simp only [List.get_eq_getElem, List.getElem_range] at this
      rw [hQ b h] at this
      exact this
    have hpw : es.Pairwise (fun p q => ∀ x ∈ p, ∀ y ∈ q, Comm x y) := by
      rw [List.pairwise_iff_getElem]
      intro i j hi hj hij x hx y hy
      exact comm_of_owned (ownB w) (Nat.ne_of_lt hij) ((hex i (by omega) _ (hget i (by omega))).1 x hx)
        ((hex j (by omega) _ (hget j (by omega))).1 y hy)
    -- block by block
    have seq : ∀ k, k ≤ n → ∃ m', run (fun a => (softmaxArrs n w tmp out shared a).size) (es.take k).flatten
        (Mem.of (softmaxArrs n w tmp out shared)) = some m' ∧
        ∀ b < k, ∀ i < w, m' (.glob .out ((b : Int) * w + i)) = softVal ex w mat b (M b) i := by
      intro k
      induction k with
      | zero => intro _; exact ⟨_, rfl, fun b hb => absurd hb (by omega)⟩
      | succ k ih =>
        intro hk
        obtain ⟨m', h1, h2⟩ := ih (by omega)
        obtain ⟨m'', k1, k2, k3⟩ := (hex k (by omega) _ (hget k (by omega))).2 m'
        refine ⟨m'', ?_, ?_⟩
        · rw [List.take_succ_eq_append_getElem (by omega), List.flatten_append, run_append, h1, Option.bind_some]
          simpa using k1
        · intro b hb i hi
          rcases Nat.lt_succ_iff_lt_or_eq.1 hb with h | rfl
          · rw [k3 _ (by rw [ownB_out hi]; simp; omega), h2 b h i hi]
          · exact k2 i hi
    obtain ⟨m', h1, h2⟩ := seq n (le_refl _)
    rw [List.take_of_length_le (by omega)] at h1
    refine ⟨fun a => ⟨(softmaxArrs n w tmp out shared a).size, fun i => m' (.glob a i)⟩, ?_, ?_⟩
    · unfold runOn
      rw [interleaves_run _ hl hpw, h1]
      rfl
    · intro b hb i hi
      have := h2 b hb i hi
      show m' (.glob .out ((b * w + i : Nat) : Int)) = _
      rw [← this]
      congr 1

/-- **C65.**  Every execution of the GPU's softmax kernel gives each row what the CPU's `softmax_m` gives.
`ex` is `__expf`, which has to be right for arguments that are not positive only: it never gets others, so
it cannot overflow.  `lo` is `-FLT_MAX`.  The temporary arrays may contain anything. -/
theorem C65_softmax (n w : Nat) [NeZero w] (top lo : ℝ) (ex : ℝ → ℝ) (hex : ∀ x ≤ 0, ex x = Real.exp x) (htop : 0 ≤ top)
    (mat : Arr ℝ) (hm : mat.size = n * w) (hlo : ∀ b < n, ∀ i < w, lo ≤ mat.at' (b * w + i))
    (tmp out : Nat → ℝ) (shared : Nat → Nat → ℝ) :
    ∃ G, softmaxLaunch lo ex n w mat = some G ∧ ∀ l, GridExec G l →
      ∃ res, runOn (softmaxArrs n w tmp out shared) l = some res ∧
        ∀ b < n, ∃ cpu, Activations.softmax top (fun i : Fin w => mat.at' (b * w + i)) = some cpu ∧
          ∀ i : Fin w, (res .out).at' (b * w + i) = cpu i := by
  have hw : 0 < w := Nat.pos_of_ne_zero (NeZero.ne w)
  have hexists : ∀ b, ∃ M, (∃ i < w, row w mat b i = M) ∧ ∀ i < w, row w mat b i ≤ M := by
    intro b
    obtain ⟨i, hi, h⟩ := Finset.exists_max_image (Finset.range w) (row w mat b) ⟨0, Finset.mem_range.2 hw⟩
    exact ⟨_, ⟨i, Finset.mem_range.1 hi, rfl⟩, fun j hj => h j (Finset.mem_range.2 hj)⟩
  choose M hM hmax using hexists
  obtain ⟨G, h1, h2⟩ := softmax_all lo ex w mat hm M
    (fun b hb => by obtain ⟨i, hi, e⟩ := hM b; rw [← e]; exact hlo b hb i hi) (fun b _ => hM b) (fun b _ => hmax b) tmp out shared
  refine ⟨G, h1, fun l hl => ?_⟩
  obtain ⟨res, o1, o2⟩ := h2 l hl
  refine ⟨res, o1, fun b hb => ⟨_, Activations.C49_softmax top htop _, fun i => ?_⟩⟩
  rw [o2 b hb i i.isLt]
  unfold softVal
  have e : ∀ j < w, ex (row w mat b j - M b) = Real.exp (row w mat b j) / Real.exp (M b) := by
    intro j hj
    rw [hex _ (sub_nonpos.2 (hmax b j hj)), Real.exp_sub]
  rw [e i i.isLt, Finset.sum_congr rfl (fun j hj => e j (Finset.mem_range.1 hj)), ← Finset.sum_div,
    div_div_div_cancel_right₀ (Real.exp_ne_zero _), Finset.sum_range]
  rfl

/-! ## Examples -/

/-- Executions exist: the threads one after the other. -/
theorem interleaves_flatten {A : Type} (P : List (List A)) : Interleaves P P.flatten := by
  have key : ∀ (P₁ : List (List A)), (∀ p ∈ P₁, p = []) → ∀ P, Interleaves (P₁ ++ P) P.flatten := by
    intro P₁ h₁ P
    induction P generalizing P₁ with
    | nil => exact Interleaves.done _ (by simpa using h₁)
    | cons p P ih =>
      induction p with
      | nil =>
        have := ih (P₁ ++ [[]]) (by
          intro q hq
          rcases List.mem_append.1 hq with hq | hq
          · exact h₁ q hq
          · simpa using hq)
        simpa using this
      | cons x p ihp => exact Interleaves.step P₁ x p P _ ihp
  exact key [] (by simp) P

theorem phases_flatten {A : Type} (Ps : List (List (List A))) : Phases Ps (Ps.flatMap List.flatten) := by
  induction Ps with
  | nil => exact Phases.nil
  | cons P Ps ih => exact Phases.cons P Ps _ _ (interleaves_flatten P) ih

theorem exists_gridExec {A : Type} (G : List (List (List (List A)))) : ∃ l, GridExec G l := by
  refine ⟨_, G.map (fun Ps => Ps.flatMap List.flatten), ?_, interleaves_flatten _⟩
  rw [List.forall₂_map_right_iff]
  exact List.forall₂_same.2 (fun Ps _ => phases_flatten Ps)

/-- Two rows of 40 elements, more than there are threads: the kernel can be launched and run. -/
example : ∃ G l, softmaxLaunch (-1000) Real.exp 2 40 ⟨80, fun i => (i : ℝ)⟩ = some G ∧ GridExec G l := by
  obtain ⟨G, h, _⟩ := C65_softmax 2 40 0 (-1000) Real.exp (fun _ _ => rfl) (le_refl _) ⟨80, fun i => (i : ℝ)⟩ rfl
    (by intro b _ i _; have : (0 : ℝ) ≤ ((b * 40 + i : Nat) : ℝ) := Nat.cast_nonneg _; show (-1000 : ℝ) ≤ ((b * 40 + i : Nat) : ℝ); linarith)
    (fun _ => 7) (fun _ => 7) (fun _ _ => 7)
  obtain ⟨l, hl⟩ := exists_gridExec G
  exact ⟨G, l, h, hl⟩

/-- A run of the kernel on two rows of 3 rationals, with `ex x = x + 10` in place of the exponential. -/
example : (softmaxLaunch (K := ℚ) (-1000) (fun x => x + 10) 2 3 ⟨6, fun i => i⟩).map (fun G =>
      (runOn (softmaxArrs 2 3 (fun _ => 7) (fun _ => 7) (fun _ _ => 7)) (G.flatMap (fun Ps => Ps.flatMap List.flatten))).map
        (fun r => (List.range 6).map (r .out).at')) =
    some (some [8 / 27, 9 / 27, 10 / 27, 8 / 27, 9 / 27, 10 / 27]) := by decide +kernel

end Verif.Gpu
