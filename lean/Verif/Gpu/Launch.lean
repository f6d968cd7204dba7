import Verif.Numeric.Loop
import Mathlib.Data.List.Basic

/-!
# CUDA kernel launches

A launch runs one program per thread.  Every program is a list of single memory accesses, and an
execution is an arbitrary interleaving of the programs: nothing is assumed about the order in which
the hardware runs threads, warps and blocks.  An access outside of an array is undefined
behaviour and makes the execution `none`.

`out[k] += v` is a load into a register of the thread and a store, which other threads may come
between; `atomicAdd` is one access.

Not modelled: 32-bit overflow of indices, weak memory (reordering of accesses of one thread to
different cells), floats.  Arrays that a kernel only reads are read when the program of a thread is made, since
no thread writes them.
-/

namespace Verif.Gpu

open Verif.Numeric

/-! ## Interleavings -/

/-- `l` runs the programs to the end, in any order that keeps the order within each
program. -/
inductive Interleaves {A : Type} : List (List A) → List A → Prop
  | done (P : List (List A)) : (∀ p ∈ P, p = []) → Interleaves P []
  | step (P₁ : List (List A)) (x : A) (p : List A) (P₂ : List (List A)) (l : List A) :
      Interleaves (P₁ ++ p :: P₂) l → Interleaves (P₁ ++ (x :: p) :: P₂) (x :: l)

/-! ## Memory and accesses -/

/-- Something a thread can access: cell `i` of array `a`, or a register of thread `t`. -/
inductive Cell (ι : Type) where
  | glob (a : ι) (i : Int)
  | reg (t : Nat)
  deriving DecidableEq

/-- Contents of all cells. -/
abbrev Mem (ι α : Type) := Cell ι → α

/-- One access: the value `val` of the cells `reads` goes to the cell `target`. -/
structure Instr (ι α : Type) where
  reads : List (Cell ι)
  target : Cell ι
  val : List α → α

variable {ι α : Type} [DecidableEq ι]

/-- Within the arrays. -/
def Cell.ok (size : ι → Nat) : Cell ι → Bool
  | .glob a i => decide (0 ≤ i ∧ i < size a)
  | .reg _ => true

/-- All cells of the access are within the arrays. -/
def Instr.ok (size : ι → Nat) (I : Instr ι α) : Bool := I.target.ok size && I.reads.all (Cell.ok size)

/-- The effect of an access. -/
def Instr.eff (I : Instr ι α) (m : Mem ι α) : Mem ι α := Function.update m I.target (I.val (I.reads.map m))

/-- An access, undefined outside of the arrays. -/
def Instr.exec (size : ι → Nat) (I : Instr ι α) (m : Mem ι α) : Option (Mem ι α) :=
  if I.ok size then some (I.eff m) else none

/-- One execution. -/
def run (size : ι → Nat) : List (Instr ι α) → Mem ι α → Option (Mem ι α)
  | [], m => some m
  | I :: l, m => (I.exec size m).bind (run size l)

/-- Memory with the arrays of the call. -/
def Mem.of [Zero α] (arrs : ι → Arr α) : Mem ι α
  | .glob a i => (arrs a).at' i.toNat
  | .reg _ => 0

/-- One execution on arrays: the arrays afterwards. -/
def runOn [Zero α] (arrs : ι → Arr α) (l : List (Instr ι α)) : Option (ι → Arr α) :=
  (run (fun a => (arrs a).size) l (Mem.of arrs)).map (fun m a => ⟨(arrs a).size, fun i => m (.glob a i)⟩)

/-! ## Statements of kernels -/

/-- Statements: `a[i] = v`, `a[i] += v`, `atomicAdd(a + i, v)`. -/
inductive Op (ι α : Type) where
  | set (a : ι) (i : Int) (v : α)
  | add (a : ι) (i : Int) (v : α)
  | atomicAdd (a : ι) (i : Int) (v : α)
  deriving DecidableEq

/-- The cell a statement is about. -/
def Op.cell : Op ι α → ι × Int
  | .set a i _ => (a, i)
  | .add a i _ => (a, i)
  | .atomicAdd a i _ => (a, i)

/-- Whether the statement is one access to memory. -/
def Op.isAtomic : Op ι α → Bool
  | .atomicAdd .. => true
  | _ => false

/-- The accesses of a statement executed by thread `t`. -/
def Op.compile [Add α] [Zero α] (t : Nat) : Op ι α → List (Instr ι α)
  | .set a i v => [⟨[], .glob a i, fun _ => v⟩]
  | .add a i v => [⟨[.glob a i], .reg t, fun l => l.headD 0⟩, ⟨[.reg t], .glob a i, fun l => l.headD 0 + v⟩]
  | .atomicAdd a i v => [⟨[.glob a i], .glob a i, fun l => l.headD 0 + v⟩]

/-- The programs of the threads `0, ..., T - 1`, given the statements that each executes; no
program if some thread reads outside of an array. -/
def launch [Add α] [Zero α] (T : Nat) (thread : Nat → Option (List (Op ι α))) : Option (List (List (Instr ι α))) :=
  (List.range T).mapM (fun t => (thread t).map (fun ops => ops.flatMap (Op.compile t)))

/-- The indices that the loop `for (index = t; index < n; index += T)` visits; `T` is
`blockDim.x * gridDim.x` (pycuda_handler.py:690-692 and the other kernels). -/
def gridStride (t T n : Nat) : List Nat := (List.range ((n - t + T - 1) / T)).map (fun k => t + k * T)

/-- `get_blocks` (pycuda_handler.py:22-23). -/
def getBlocks (n : Nat) : Nat := (n + 1024 - 1) / 1024

/-- Number of threads of the launches with `block=(NUM_CUDA_THREADS, 1, 1)` and
`grid=(get_blocks(n), 1)`. -/
def numThreads (n : Nat) : Nat := getBlocks n * 1024

/-- A launch for `n` indices of a kernel with a grid-stride loop; `body` are the statements for an
index. -/
def gridLaunch [Add α] [Zero α] (n : Nat) (body : Nat → Option (List (Op ι α))) : Option (List (List (Instr ι α))) :=
  launch (numThreads n) (fun t => ((gridStride t (numThreads n) n).mapM body).map List.flatten)

/-! ## Lemmas -/

/-- Two accesses can be exchanged. -/
def Comm (x y : Instr ι α) : Prop := ∀ m : Mem ι α, x.eff (y.eff m) = y.eff (x.eff m)

theorem run_eq (size : ι → Nat) (l : List (Instr ι α)) (m : Mem ι α) :
    run size l m = if l.all (Instr.ok size) then some (l.foldl (fun m I => I.eff m) m) else none := by
  induction l generalizing m with
  | nil => rfl
  | cons I l ih =>
    simp only [run, Instr.exec, List.all_cons, List.foldl_cons]
    by_cases h : I.ok size
    · simp [h, ih]
    · simp [h]

theorem run_append (size : ι → Nat) (l l' : List (Instr ι α)) (m : Mem ι α) :
    run size (l ++ l') m = (run size l m).bind (run size l') := by
  induction l generalizing m with
  | nil => rfl
  | cons I l ih =>
    simp only [List.cons_append, run]
    cases h : I.exec size m with
    | none => rfl
    | some m' => simp [ih]

/-- An access can be moved to the front of accesses it commutes with. -/
theorem run_move (size : ι → Nat) (x : Instr ι α) (l r : List (Instr ι α)) (h : ∀ y ∈ l, Comm x y) (m : Mem ι α) :
    run size (l ++ x :: r) m = run size (x :: (l ++ r)) m := by
  induction l generalizing m with
  | nil => rfl
  | cons y l ih =>
    have e : run size (x :: (y :: l ++ r)) m = run size (y :: x :: (l ++ r)) m := by
      rw [run_eq, run_eq]
      have hc := h y (by simp) m
      simp only [List.cons_append, List.all_cons, List.foldl_cons]
      rw [hc]
      simp only [Bool.and_left_comm]
      rfl
    rw [e]
    simp only [List.cons_append, run]
    cases hy : y.exec size m with
    | none => rfl
    | some m' => exact ih (fun z hz => h z (by simp [hz])) m'

/-- Programs whose accesses commute have the same effect in every interleaving as one after the
other. -/
theorem interleaves_run (size : ι → Nat) {P : List (List (Instr ι α))} {l : List (Instr ι α)} (h : Interleaves P l)
    (hc : P.Pairwise (fun p q => ∀ x ∈ p, ∀ y ∈ q, Comm x y)) (m : Mem ι α) :
    run size l m = run size P.flatten m := by
  induction h generalizing m with
  | done P h =>
    have : P.flatten = [] := by rw [List.flatten_eq_nil_iff]; exact h
    rw [this]
  | step P₁ x p P₂ l h ih =>
    have hc' : (P₁ ++ p :: P₂).Pairwise (fun p q => ∀ x ∈ p, ∀ y ∈ q, Comm x y) := by
      rw [List.pairwise_append, List.pairwise_cons] at hc ⊢
      refine ⟨hc.1, ⟨fun q hq y hy => hc.2.1.1 q hq y (by simp [hy]), hc.2.1.2⟩, ?_⟩
      intro a ha b hb y hy z hz
      rcases List.mem_cons.1 hb with rfl | hb
      · exact hc.2.2 a ha (x :: b) (by simp) y hy z (by simp [hz])
      · exact hc.2.2 a ha b (by simp [hb]) y hy z hz
    have hx : ∀ y ∈ P₁.flatten, Comm x y := by
      intro y hy
      obtain ⟨a, ha, hy⟩ := List.mem_flatten.1 hy
      rw [List.pairwise_append] at hc
      intro m
      exact (hc.2.2 a ha (x :: p) (by simp) y hy x (by simp) m).symm
    have e1 : (P₁ ++ (x :: p) :: P₂).flatten = P₁.flatten ++ x :: (p ++ P₂.flatten) := by simp
    have e2 : (P₁ ++ p :: P₂).flatten = P₁.flatten ++ (p ++ P₂.flatten) := by simp
    rw [e1, run_move size x _ _ hx, ← e2]
    simp only [run]
    cases hxm : x.exec size m with
    | none => rfl
    | some m' => exact ih hc' m'

/-- Accesses to different cells commute. -/
theorem comm_of_disjoint {x y : Instr ι α} (h1 : x.target ≠ y.target) (h2 : x.target ∉ y.reads)
    (h3 : y.target ∉ x.reads) : Comm x y := by
  intro m
  have e : ∀ {x y : Instr ι α}, y.target ∉ x.reads → x.reads.map (y.eff m) = x.reads.map m := by
    intro x y h
    refine List.map_congr_left (fun c hc => ?_)
    rw [Instr.eff, Function.update_of_ne]
    rintro rfl
    exact h hc
  rw [Instr.eff, e h3, Instr.eff, Instr.eff, e h2, Instr.eff, Function.update_comm h1.symm]

variable [AddCommMonoid α]

/-- Two atomic additions commute. -/
theorem comm_atomic (a b : ι) (i j : Int) (v w : α) :
    Comm (ι := ι) ⟨[.glob a i], .glob a i, fun l => l.headD 0 + v⟩ ⟨[.glob b j], .glob b j, fun l => l.headD 0 + w⟩ := by
  by_cases h : (Cell.glob a i) = .glob b j
  · obtain ⟨rfl, rfl⟩ : a = b ∧ i = j := by simpa using h
    intro m
    simp [Instr.eff, add_right_comm]
  · refine comm_of_disjoint h ?_ ?_ <;> simp <;> simpa [eq_comm] using h

/-- Statements of different threads about different cells, and two atomic additions, commute. -/
theorem compile_comm {s t : Nat} (hst : s ≠ t) {p q : Op ι α}
    (h : p.cell ≠ q.cell ∨ (p.isAtomic ∧ q.isAtomic)) : ∀ x ∈ p.compile s, ∀ y ∈ q.compile t, Comm x y := by
  intro x hx y hy
  rcases h with h | ⟨hp, hq⟩
  · have h' : ∀ a i b j, p.cell = (a, i) → q.cell = (b, j) → Cell.glob a i ≠ Cell.glob b j := by
      intro a i b j ha hb e
      obtain ⟨rfl, rfl⟩ : a = b ∧ i = j := by simpa using e
      exact h (ha.trans hb.symm)
    have h'' : ∀ a i b j, p.cell = (a, i) → q.cell = (b, j) → Cell.glob b j ≠ Cell.glob a i :=
      fun a i b j ha hb => (h' a i b j ha hb).symm
    have hr : (Cell.reg (ι := ι) s) ≠ .reg t := by simpa using hst
    have hr' : (Cell.reg (ι := ι) t) ≠ .reg s := hr.symm
    cases p <;> cases q <;> simp only [Op.compile, List.mem_cons, List.not_mem_nil, or_false] at hx hy <;>
      (rcases hx with rfl | rfl) <;> (rcases hy with rfl | rfl) <;>
      first
        | exact comm_of_disjoint (by first | exact h' _ _ _ _ rfl rfl | exact hr | simp)
            (by simp only [List.mem_cons, List.not_mem_nil, or_false, not_false_eq_true]; try first | exact h' _ _ _ _ rfl rfl | exact hr | simp)
            (by simp only [List.mem_cons, List.not_mem_nil, or_false, not_false_eq_true]; try first | exact h'' _ _ _ _ rfl rfl | exact hr' | simp)
  · cases p <;> simp only [Op.isAtomic, Bool.false_eq_true] at hp
    cases q <;> simp only [Op.isAtomic, Bool.false_eq_true] at hq
    simp only [Op.compile, List.mem_cons, List.not_mem_nil, or_false] at hx hy
    subst hx hy
    exact comm_atomic _ _ _ _ _ _

/-- New value of the cell of a statement. -/
def Op.newVal : Op ι α → α → α
  | .set _ _ v, _ => v
  | .add _ _ v, x => x + v
  | .atomicAdd _ _ v, x => x + v

/-- What a statement does to the cells of arrays. -/
theorem compile_eff (t : Nat) (p : Op ι α) (m : Mem ι α) (a : ι) (i : Int) :
    ((p.compile t).foldl (fun m I => I.eff m) m) (.glob a i) =
      if p.cell = (a, i) then p.newVal (m (.glob a i)) else m (.glob a i) := by
  cases p with
  | set b j v =>
    simp only [Op.compile, List.foldl_cons, List.foldl_nil, Instr.eff, Op.cell, Op.newVal, Function.update_apply,
      Cell.glob.injEq, Prod.mk.injEq]
    split_ifs with h1 h2 h2 <;> first | rfl | (exfalso; apply h2; exact ⟨h1.1.symm, h1.2.symm⟩) | (exfalso; apply h1; exact ⟨h2.1.symm, h2.2.symm⟩)
  | add b j v =>
    by_cases h : b = a ∧ j = i
    · obtain ⟨rfl, rfl⟩ := h
      simp [Op.compile, Instr.eff, Op.cell, Op.newVal]
    · have h' : ¬ (a = b ∧ i = j) := fun e => h ⟨e.1.symm, e.2.symm⟩
      simp [Op.compile, Instr.eff, Op.cell, Op.newVal, Function.update_apply, h, h']
  | atomicAdd b j v =>
    simp only [Op.compile, List.foldl_cons, List.foldl_nil, Instr.eff, Op.cell, Op.newVal, Function.update_apply,
      Cell.glob.injEq, Prod.mk.injEq, List.map_cons, List.map_nil, List.headD_cons]
    split_ifs with h1 h2 h2
    · rw [h1.1, h1.2]
    · exfalso; apply h2; exact ⟨h1.1.symm, h1.2.symm⟩
    · exfalso; apply h1; exact ⟨h2.1.symm, h2.2.symm⟩
    · rfl

theorem compile_ok (size : ι → Nat) (t : Nat) (p : Op ι α) :
    (p.compile t).all (Instr.ok size) = decide (0 ≤ p.cell.2 ∧ p.cell.2 < size p.cell.1) := by
  cases p <;> simp only [Op.compile, Instr.ok, Cell.ok, Op.cell, List.all_cons, List.all_nil, Bool.and_true, Bool.true_and,
    Bool.and_self] <;> exact decide_eq_decide.2 Iff.rfl

/-- Several statements, one after the other. -/
theorem compile_list (size : ι → Nat) (L : List (Nat × Op ι α))
    (hok : ∀ e ∈ L, 0 ≤ e.2.cell.2 ∧ e.2.cell.2 < size e.2.cell.1) (m : Mem ι α) :
    ∃ m', run size (L.flatMap (fun e => e.2.compile e.1)) m = some m' ∧ ∀ a i, m' (.glob a i) =
      ((L.map Prod.snd).filter (fun p => p.cell = (a, i))).foldl (fun v p => p.newVal v) (m (.glob a i)) := by
  induction L generalizing m with
  | nil => exact ⟨m, rfl, fun a i => rfl⟩
  | cons e L ih =>
    obtain ⟨m', h1, h2⟩ := ih (fun e he => hok e (by simp [he])) ((e.2.compile e.1).foldl (fun m I => I.eff m) m)
    refine ⟨m', ?_, ?_⟩
    · have hk := hok e (by simp)
      rw [List.flatMap_cons, run_append, run_eq, compile_ok, if_pos (by simpa using hk)]
      exact h1
    · intro a i
      rw [h2 a i, compile_eff, List.map_cons, List.filter_cons]
      by_cases h : e.2.cell = (a, i)
      · simp [h]
      · simp [h]

/-- A launch in which different threads access different cells or add atomically: every
execution stays within the arrays, and every cell shows the effect of the statements about it, thread
by thread. -/
theorem launch_spec (arrs : ι → Arr α) (T : Nat) (thread : Nat → Option (List (Op ι α)))
    (ops : Nat → List (Op ι α)) (hth : ∀ t < T, thread t = some (ops t))
    (hok : ∀ t < T, ∀ p ∈ ops t, 0 ≤ p.cell.2 ∧ p.cell.2 < (arrs p.cell.1).size)
    (hdis : ∀ s t, s < t → t < T → ∀ p ∈ ops s, ∀ q ∈ ops t, p.cell ≠ q.cell ∨ (p.isAtomic ∧ q.isAtomic)) :
    ∃ P, launch T thread = some P ∧ ∀ l, Interleaves P l → ∃ out, runOn arrs l = some out ∧
      ∀ a, (out a).size = (arrs a).size ∧ ∀ i, (out a).at' i =
        (((List.range T).flatMap ops).filter (fun p => p.cell = (a, (i : Int)))).foldl (fun v p => p.newVal v)
          ((arrs a).at' i) := by
  have hm : launch T thread = some ((List.range T).map (fun t => (ops t).flatMap (Op.compile t))) := by
    unfold launch
    have : ∀ L : List Nat, (∀ t ∈ L, t < T) → L.mapM (fun t => (thread t).map (fun ops => ops.flatMap (Op.compile t)))
        = some (L.map (fun t => (ops t).flatMap (Op.compile t))) := by
      intro L hL
      induction L with
      | nil => rfl
      | cons t L ih =>
        rw [List.mapM_cons, hth t (hL t (by simp)), ih (fun s hs => hL s (by simp [hs]))]
        rfl
    exact this _ (fun t ht => List.mem_range.1 ht)
  refine ⟨_, hm, fun l hl => ?_⟩
  have hc : ((List.range T).map (fun t => (ops t).flatMap (Op.compile t))).Pairwise
      (fun p q => ∀ x ∈ p, ∀ y ∈ q, Comm x y) := by
    rw [List.pairwise_map]
    refine (List.pairwise_lt_range (n := T)).imp_of_mem ?_
    intro s t _ ht hst x hx y hy
    obtain ⟨p, hp, hx⟩ := List.mem_flatMap.1 hx
    obtain ⟨q, hq, hy⟩ := List.mem_flatMap.1 hy
    exact compile_comm (Nat.ne_of_lt hst) (hdis s t hst (List.mem_range.1 ht) p hp q hq) x hx y hy
  have hf : ((List.range T).map (fun t => (ops t).flatMap (Op.compile t))).flatten =
      ((List.range T).flatMap (fun t => (ops t).map (fun p => (t, p)))).flatMap (fun e => e.2.compile e.1) := by
    rw [List.flatMap_assoc, ← List.flatMap_def]
    refine List.flatMap_congr (fun t _ => ?_)
    rw [List.flatMap_map]
  have hs : ((List.range T).flatMap (fun t => (ops t).map (fun p => (t, p)))).map Prod.snd = (List.range T).flatMap ops := by
    rw [List.map_flatMap]
    refine List.flatMap_congr (fun t _ => ?_)
    rw [List.map_map]
    exact List.map_id' _
  obtain ⟨m', h1, h2⟩ := compile_list (fun a => (arrs a).size)
    ((List.range T).flatMap (fun t => (ops t).map (fun p => (t, p)))) (by
      intro e he
      obtain ⟨t, ht, he⟩ := List.mem_flatMap.1 he
      obtain ⟨p, hp, rfl⟩ := List.mem_map.1 he
      exact hok t (List.mem_range.1 ht) p hp) (Mem.of arrs)
  refine ⟨fun a => ⟨(arrs a).size, fun i => m' (.glob a i)⟩, ?_, ?_⟩
  · unfold runOn
    rw [interleaves_run _ hl hc, hf, h1]
    rfl
  · intro a
    refine ⟨rfl, fun i => ?_⟩
    show m' (.glob a i) = _
    rw [h2, hs]
    rfl

/-- A cell that only gets one value has it in the end. -/
theorem foldl_set (L : List (Op ι α)) (a : ι) (i : Int) (v x : α) (hmem : Op.set a i v ∈ L)
    (h : ∀ p ∈ L, p.cell = (a, i) → p = .set a i v) :
    (L.filter (fun p => p.cell = (a, i))).foldl (fun v p => p.newVal v) x = v := by
  have e : ∀ (L : List (Op ι α)) (x : α), (∀ p ∈ L, p = .set a i v) → L ≠ [] →
      L.foldl (fun v p => p.newVal v) x = v := by
    intro L
    induction L with
    | nil => intro x _ h; exact absurd rfl h
    | cons p L ih =>
      intro x h _
      rw [List.foldl_cons, h p (by simp)]
      by_cases hL : L = []
      · subst hL; rfl
      · exact ih _ (fun q hq => h q (by simp [hq])) hL
  refine e _ x ?_ ?_
  · intro p hp
    rw [List.mem_filter] at hp
    exact h p hp.1 (by simpa using hp.2)
  · intro h0
    have : Op.set a i v ∈ L.filter (fun p => p.cell = (a, i)) := by
      rw [List.mem_filter]; exact ⟨hmem, by simp [Op.cell]⟩
    rw [h0] at this
    exact absurd this (by simp)

/-- The number a statement adds. -/
def Op.addend : Op ι α → α
  | .set .. => 0
  | .add _ _ v => v
  | .atomicAdd _ _ v => v

/-- The statement is an addition. -/
def Op.isAdd : Op ι α → Bool
  | .set .. => false
  | _ => true

/-- A cell with additions has its old value and the sum of all numbers added. -/
theorem foldl_add (L : List (Op ι α)) (a : ι) (i : Int) (x : α) (h : ∀ p ∈ L, p.cell = (a, i) → p.isAdd) :
    (L.filter (fun p => p.cell = (a, i))).foldl (fun v p => p.newVal v) x =
      x + (L.map (fun p => if p.cell = (a, i) then p.addend else 0)).sum := by
  induction L generalizing x with
  | nil => simp
  | cons p L ih =>
    rw [List.filter_cons, List.map_cons, List.sum_cons]
    by_cases hp : p.cell = (a, i)
    · have hadd := h p (by simp) hp
      have e : p.newVal x = x + p.addend := by
        cases p <;> first | rfl | simp [Op.isAdd] at hadd
      simp only [hp, decide_true, if_true, List.foldl_cons]
      rw [ih _ (fun q hq => h q (by simp [hq])), e, add_assoc]
    · simp only [hp, decide_false, if_false, zero_add, Bool.false_eq_true]
      exact ih _ (fun q hq => h q (by simp [hq]))

/-- An untouched cell. -/
theorem foldl_none (L : List (Op ι α)) (a : ι) (i : Int) (x : α) (h : ∀ p ∈ L, p.cell ≠ (a, i)) :
    (L.filter (fun p => p.cell = (a, i))).foldl (fun v p => p.newVal v) x = x := by
  have : L.filter (fun p => p.cell = (a, i)) = [] := by
    rw [List.filter_eq_nil_iff]; intro p hp; simpa using h p hp
  rw [this]; rfl

/-- Only the statements of index `i` concern the cell. -/
theorem filter_flatMap {n : Nat} (ops : Nat → List (Op ι α)) {i : Nat} (hi : i < n) (c : ι × Int)
    (h : ∀ t < n, t ≠ i → ∀ p ∈ ops t, p.cell ≠ c) :
    ((List.range n).flatMap ops).filter (fun p => p.cell = c) = (ops i).filter (fun p => p.cell = c) := by
  have e0 : ∀ t < n, t ≠ i → (ops t).filter (fun p => p.cell = c) = [] := by
    intro t ht hti
    rw [List.filter_eq_nil_iff]
    intro p hp
    simpa using h t ht hti p hp
  have key : ∀ m, m ≤ n → ((List.range m).flatMap ops).filter (fun p => p.cell = c) =
      if i < m then (ops i).filter (fun p => p.cell = c) else [] := by
    intro m
    induction m with
    | zero => intro _; simp
    | succ m ih =>
      intro hm
      rw [List.range_succ, List.flatMap_append, List.filter_append, ih (by omega), List.flatMap_singleton]
      by_cases him : i = m
      · subst him; simp
      · rw [e0 m (by omega) (fun e => him e.symm), List.append_nil]
        simp only [show i < m + 1 ↔ i < m by omega]
  rw [key n (le_refl n), if_pos hi]

theorem gridStride_of_le {t T n : Nat} (h : n ≤ T) : gridStride t T n = if t < n then [t] else [] := by
  unfold gridStride
  by_cases ht : t < n
  · have : (n - t + T - 1) / T = 1 := by
      rw [Nat.div_eq_iff (by omega)]; omega
    rw [this, if_pos ht]
    simp
  · have : (n - t + T - 1) / T = 0 := by
      rcases Nat.eq_zero_or_pos T with rfl | hT
      · simp
      · rw [Nat.div_eq_zero_iff]; omega
    rw [this, if_neg ht]
    simp

theorem le_numThreads (n : Nat) : n ≤ numThreads n := by
  unfold numThreads getBlocks; omega

/-- The statements of a launch with one index per thread. -/
theorem flatMap_ite (T n : Nat) (h : n ≤ T) {A : Type} (f : Nat → List A) :
    (List.range T).flatMap (fun t => if t < n then f t else []) = (List.range n).flatMap f := by
  obtain ⟨k, rfl⟩ := Nat.exists_eq_add_of_le h
  rw [List.range_add, List.flatMap_append]
  have e1 : (List.range n).flatMap (fun t => if t < n then f t else []) = (List.range n).flatMap f :=
    List.flatMap_congr (fun t ht => by rw [if_pos (List.mem_range.1 ht)])
  have e2 : ((List.range k).map (fun x => n + x)).flatMap (fun t => if t < n then f t else []) = [] := by
    rw [List.flatMap_eq_nil_iff]
    intro t ht
    obtain ⟨x, _, rfl⟩ := List.mem_map.1 ht
    rw [if_neg (by omega)]
  rw [e1, e2, List.append_nil]

/-- A launch in which the first `n` threads handle one index each: every execution stays within
the arrays, and every cell shows the effect of the statements about it, index by index. -/
theorem launch_one (arrs : ι → Arr α) (T n : Nat) (hnT : n ≤ T) (thread : Nat → Option (List (Op ι α)))
    (ops : Nat → List (Op ι α)) (hth : ∀ t < T, thread t = some (if t < n then ops t else []))
    (hok : ∀ t < n, ∀ p ∈ ops t, 0 ≤ p.cell.2 ∧ p.cell.2 < (arrs p.cell.1).size)
    (hdis : ∀ s t, s < t → t < n → ∀ p ∈ ops s, ∀ q ∈ ops t, p.cell ≠ q.cell ∨ (p.isAtomic ∧ q.isAtomic)) :
    ∃ P, launch T thread = some P ∧ ∀ l, Interleaves P l → ∃ out, runOn arrs l = some out ∧
      ∀ a, (out a).size = (arrs a).size ∧ ∀ i, (out a).at' i =
        (((List.range n).flatMap ops).filter (fun p => p.cell = (a, (i : Int)))).foldl (fun v p => p.newVal v)
          ((arrs a).at' i) := by
  obtain ⟨P, h1, h2⟩ := launch_spec arrs T thread (fun t => if t < n then ops t else []) hth
    (by
      intro t _ p hp
      by_cases ht : t < n
      · simp only [ht, if_true] at hp; exact hok t ht p hp
      · simp [ht] at hp)
    (by
      intro s t hst _ p hp q hq
      by_cases ht : t < n
      · simp only [ht, if_true] at hq
        simp only [show s < n by omega, if_true] at hp
        exact hdis s t hst ht p hp q hq
      · simp [ht] at hq)
  refine ⟨P, h1, fun l hl => ?_⟩
  obtain ⟨out, h3, h4⟩ := h2 l hl
  refine ⟨out, h3, fun a => ⟨(h4 a).1, fun i => ?_⟩⟩
  rw [(h4 a).2 i, flatMap_ite _ _ hnT]

/-- A launch with a grid-stride loop. -/
theorem gridLaunch_spec (arrs : ι → Arr α) (n : Nat) (body : Nat → Option (List (Op ι α)))
    (ops : Nat → List (Op ι α)) (hb : ∀ t < n, body t = some (ops t))
    (hok : ∀ t < n, ∀ p ∈ ops t, 0 ≤ p.cell.2 ∧ p.cell.2 < (arrs p.cell.1).size)
    (hdis : ∀ s t, s < t → t < n → ∀ p ∈ ops s, ∀ q ∈ ops t, p.cell ≠ q.cell ∨ (p.isAtomic ∧ q.isAtomic)) :
    ∃ P, gridLaunch n body = some P ∧ ∀ l, Interleaves P l → ∃ out, runOn arrs l = some out ∧
      ∀ a, (out a).size = (arrs a).size ∧ ∀ i, (out a).at' i =
        (((List.range n).flatMap ops).filter (fun p => p.cell = (a, (i : Int)))).foldl (fun v p => p.newVal v)
          ((arrs a).at' i) := by
  refine launch_one arrs (numThreads n) n (le_numThreads n) _ ops ?_ hok hdis
  intro t _
  rw [gridStride_of_le (le_numThreads n)]
  by_cases ht : t < n
  · simp [ht, hb t ht]
  · simp [ht]

/-- The sum over all statements, index by index. -/
theorem sum_flatMap (n : Nat) (ops : Nat → List (Op ι α)) (f : Op ι α → α) :
    (((List.range n).flatMap ops).map f).sum = ∑ t ∈ Finset.range n, ((ops t).map f).sum := by
  induction n with
  | zero => simp
  | succ n ih =>
    rw [List.range_succ, List.flatMap_append, List.map_append, List.sum_append, ih, Finset.sum_range_succ,
      List.flatMap_singleton]

end Verif.Gpu
