import Verif.Gpu.Owned
import Verif.Gpu.Merge
import Verif.Activations.Props
import Verif.Layers.Recurrent

/-!
# The elementwise CUDA kernels (brainstorm/handlers/pycuda_handler.py:418-579)

PyCUDA's `ElementwiseKernel` runs its statement once for every index `i < n`, in threads that step
through the indices with the number of threads; the number of threads is up to PyCUDA.  Not modelled: floats other than overflow
of `exp`, the arrays' shapes (the kernels only see the flat data).
-/

namespace Verif.Gpu

open Verif.Numeric

/-! ## Kernels that write one element per index -/

/-- A kernel `out[i] = f(i, reads...)`; the reads for index `i` are elements of arrays, or `out[i]`
itself. -/
structure Kernel (ι α : Type) where
  out : ι
  reads : Nat → List (ι × Int)
  f : Nat → List α → α

variable {ι α : Type} [DecidableEq ι]

/-- The accesses for an index: everything is read, then `out[i]` is written.  A statement that writes only under a
condition is one that writes the old value otherwise. -/
def Kernel.instr (k : Kernel ι α) (i : Nat) : Instr ι α :=
  ⟨(k.reads i).map (fun c => .glob c.1 c.2), .glob k.out (i : Int), k.f i⟩

/-- The programs of `T` threads for `n` indices. -/
def Kernel.launch (k : Kernel ι α) (T n : Nat) : List (List (Instr ι α)) :=
  (List.range T).map (fun t => (gridStride t T n).map k.instr)

/-- A kernel that reads the arrays `args` at its index. -/
def elementwise (args : List ι) (out : ι) (f : List α → α) : Kernel ι α := ⟨out, fun i => args.map (fun a => (a, (i : Int))), fun _ => f⟩

/-- **C65.**  An elementwise kernel computes its formula for every index once, from the contents before the call, in every
execution and with any number of threads, also if the output is one of the inputs; it changes nothing else. -/
theorem C65_kernel [Zero α] (k : Kernel ι α) (T n : Nat) (hT : 0 < T) (arrs : ι → Arr α) (hout : (arrs k.out).size = n)
    (hreads : ∀ i < n, ∀ c ∈ k.reads i, (c.1 = k.out → c.2 = i) ∧ 0 ≤ c.2 ∧ c.2 < (arrs c.1).size)
    (l : List (Instr ι α)) (hl : Interleaves (k.launch T n) l) :
    ∃ res, runOn arrs l = some res ∧
      (∀ i < n, (res k.out).at' i = k.f i ((k.reads i).map (fun c => (arrs c.1).at' c.2.toNat))) ∧
      ∀ a i, a ≠ k.out → (res a).at' i = (arrs a).at' i := by
  let own : Cell ι → Option Nat := fun c => match c with
    | .glob a i => if a = k.out then some (i.toNat % T) else none
    | .reg _ => none
  have ownOut : ∀ i : Nat, own (.glob k.out (i : Int)) = some (i % T) := by intro i; simp [own]
  have hown : ∀ t < T, ∀ I ∈ (gridStride t T n).map k.instr, Owned own t I := by
    intro t ht I hI
    obtain ⟨i, hi, rfl⟩ := List.mem_map.1 hI
    obtain ⟨hin, hit⟩ := (mem_stride ht).1 hi
    refine ⟨?_, ?_⟩
    · show own (.glob k.out (i : Int)) = some t
      rw [ownOut, hit]
    · intro c hc
      obtain ⟨c', hc', rfl⟩ := List.mem_map.1 hc
      by_cases h : c'.1 = k.out
      · left
        rw [h, (hreads i hin c' hc').1 h, ownOut, hit]
      · right; simp [own, h]
  have hok : ∀ t < T, ∀ I ∈ (gridStride t T n).map k.instr, I.ok (fun a => (arrs a).size) = true := by
    intro t ht I hI
    obtain ⟨i, hi, rfl⟩ := List.mem_map.1 hI
    obtain ⟨hin, _⟩ := (mem_stride ht).1 hi
    unfold Instr.ok Kernel.instr
    rw [Bool.and_eq_true, List.all_eq_true]
    refine ⟨decide_eq_true ⟨by omega, by dsimp only; rw [hout]; exact_mod_cast hin⟩, ?_⟩
    intro c hc
    obtain ⟨c', hc', rfl⟩ := List.mem_map.1 hc
    exact decide_eq_true (hreads i hin c' hc').2
  have hrun : run (fun a => (arrs a).size) l (Mem.of arrs) =
      some (effL ((List.range T).flatMap (fun t => (gridStride t T n).map k.instr)) (Mem.of arrs)) := by
    rw [phase_run _ _ _ T rfl own hown hl, run_ok]
    intro I hI
    obtain ⟨t, ht, hI⟩ := List.mem_flatMap.1 hI
    exact hok t (List.mem_range.1 ht) I hI
  refine ⟨_, by unfold runOn; rw [hrun]; rfl, ?_, ?_⟩
  · intro i hi
    have ht : i % T < T := Nat.mod_lt _ hT
    show effL _ (Mem.of arrs) (.glob k.out (i : Int)) = _
    refine threads_eff T _ own hown (Mem.of arrs) ht (.glob k.out (i : Int)) (ownOut i) _ ?_
    intro m' h1 h2
    have inv : ∀ (L : List Nat), L.Nodup → (∀ j ∈ L, j < n) → i ∈ L → ∀ m' : Mem ι α, m' (.glob k.out i) = Mem.of arrs (.glob k.out i) →
        (∀ c, own c = none → m' c = Mem.of arrs c) →
        effL (L.map k.instr) m' (.glob k.out i) = k.f i ((k.reads i).map (fun c => (arrs c.1).at' c.2.toNat)) := by
      intro L
      induction L with
      | nil => intro _ _ h; exact absurd h (by simp)
      | cons j L ih =>
        intro hnd hlt hmem m' hm hm0
        obtain ⟨hj, hnd⟩ := List.nodup_cons.1 hnd
        rw [List.map_cons, effL_cons]
        rcases List.mem_cons.1 hmem with rfl | hmem
        · rw [effL_other]
          · show Function.update m' (.glob k.out (i : Int)) _ (.glob k.out (i : Int)) = _
            rw [Function.update_self]
            show k.f i _ = _
            congr 1
            unfold Kernel.instr
            rw [List.map_map]
            refine List.map_congr_left (fun c hc => ?_)
            have hr := hreads i hi c hc
            simp only [Function.comp]
            by_cases h : c.1 = k.out
            · rw [h, hr.1 h, hm]; rfl
            · rw [hm0 (.glob c.1 c.2) (by simp [own, h])]; rfl
          · intro I hI h
            obtain ⟨j, hj', rfl⟩ := List.mem_map.1 hI
            unfold Kernel.instr at h
            simp only [Cell.glob.injEq, true_and] at h
            have : j = i := by exact_mod_cast h
            subst this
            exact hj hj'
        · have hne : j ≠ i := fun h => hj (h ▸ hmem)
          refine ih hnd (fun x hx => hlt x (by simp [hx])) hmem _ ?_ ?_
          · rw [← hm, Instr.eff, Function.update_of_ne]
            unfold Kernel.instr
            simp only [ne_eq, Cell.glob.injEq, true_and]
            omega
          · intro c hc
            rw [← hm0 c hc, Instr.eff, Function.update_of_ne]
            rintro rfl
            unfold Kernel.instr at hc
            rw [ownOut] at hc
            exact absurd hc (by simp)
    refine inv _ ?_ (fun j hj => ((mem_stride ht).1 hj).1) ((mem_stride ht).2 ⟨hi, rfl⟩) m' (h2 _ (ownOut i)) h1
    unfold gridStride
    refine List.Nodup.map ?_ List.nodup_range
    intro a b h
    exact Nat.eq_of_mul_eq_mul_right hT (Nat.add_left_cancel h)
  · intro a i ha
    show effL _ (Mem.of arrs) (.glob a (i : Int)) = _
    rw [effL_other]
    · rfl
    · intro I hI h
      obtain ⟨t, _, hI⟩ := List.mem_flatMap.1 hI
      obtain ⟨j, _, rfl⟩ := List.mem_map.1 hI
      unfold Kernel.instr at h
      simp only [Cell.glob.injEq] at h
      exact ha h.1.symm

/-! ## The operations on elements -/

/-- The operations of the handler that work element by element; scalar arguments come with the
operation. -/
inductive EOp where
  | addTT | addST (s : ℝ) | subtractTT | multTT | multST (s : ℝ) | multAddTT | multAddST (s : ℝ) | divideTT
  | addIntoIf | copyToIf | fillIf (val : ℝ) | clip (lo hi : ℝ) | sign | mask (prob : ℝ)
  | rel | relDeriv | el | elDeriv | sigmoid | sigmoidDeriv | tanh | tanhDeriv

noncomputable section

open Classical in
/-- What the CPU computes for one element, from the elements of the arguments in the order of the kernels' arguments; `x`
stands for a missing one (numpy_handler.py:77-78, 83-87, 107-108, 173-174, 190-191, 196-200, 230-234, 242-249,
264-266, 277-309).  `top` is where `exp` overflows. -/
def EOp.cpu (top : ℝ) : EOp → ℝ → ℝ → ℝ → Option ℝ
  | .addTT, a, b, _ => some (a + b)
  | .addST s, t, _, _ => some (t + s)
  | .subtractTT, a, b, _ => some (a - b)
  | .multTT, a, b, _ => some (a * b)
  | .multST s, t, _, _ => some (s * t)
  | .multAddTT, a, b, out => some (out + a * b)
  | .multAddST s, t, out, _ => some (out + s * t)
  | .divideTT, a, b, _ => some (a / b)
  | .addIntoIf, a, out, cond => some (if cond ≠ 0 then out + a else out)
  | .copyToIf, src, dest, cond => some (if cond ≠ 0 then src else dest)
  | .fillIf val, mem, cond, _ => some (if cond ≠ 0 then val else mem)
  | .clip lo hi, a, _, _ => some (min (max a lo) hi)
  | .sign, a, _, _ => some (SignType.sign a : ℝ)
  | .mask prob, u, _, _ => some (if u < prob then 1 else 0)
  | .rel, x, _, _ => some (Activations.rel x)
  | .relDeriv, x, y, dy => some (Activations.relDeriv x y dy)
  | .el, x, _, _ => Activations.el top x
  | .elDeriv, x, y, dy => some (Activations.elDeriv x y dy)
  | .sigmoid, x, _, _ => Activations.sigmoid top x
  | .sigmoidDeriv, x, y, dy => some (Activations.sigmoidDeriv x y dy)
  | .tanh, x, _, _ => some (Activations.tanh x)
  | .tanhDeriv, x, y, dy => some (Activations.tanhDeriv x y dy)

open Classical in
/-- What the kernels compute for one element (pycuda_handler.py:418-579); `ex` is `exp`. -/
def EOp.gpu (ex : ℝ → ℝ) : EOp → ℝ → ℝ → ℝ → ℝ
  | .addTT, x, y, _ => x + y
  | .addST s, y, _, _ => s + y
  | .subtractTT, x, y, _ => x - y
  | .multTT, x, y, _ => x * y
  | .multST s, y, _, _ => s * y
  | .multAddTT, x, y, out => out + x * y
  | .multAddST s, y, out, _ => out + s * y
  | .divideTT, a, b, _ => a / b
  | .addIntoIf, a, out, cond => if cond ≠ 0 then out + a else out
  | .copyToIf, src, dest, cond => if cond ≠ 0 then src else dest
  | .fillIf val, mem, cond, _ => if cond ≠ 0 then val else mem
  | .clip lo hi, a, _, _ => min (max a lo) hi
  | .sign, a, _, _ => (if a > 0 then 1 else 0) - (if a < 0 then 1 else 0)
  | .mask prob, inp, _, _ => if inp < prob then 1 else 0
  | .rel, x, _, _ => if x > 0 then x else 0
  | .relDeriv, _, y, dy => if y > 0 then dy else 0
  | .el, x, _, _ => if x > 0 then x else ex x - 1
  | .elDeriv, _, y, dy => if y > 0 then dy else dy * (y + 1)
  | .sigmoid, x, _, _ => if x ≥ 0 then 1 / (1 + ex (-1 * x)) else ex (1 * x) / (1 + ex (1 * x))
  | .sigmoidDeriv, _, y, dy => dy * y * (1 - y)
  | .tanh, x, _, _ => Real.tanh x
  | .tanhDeriv, _, y, dy => dy * (1 - y * y)

/-- **C65.**  Wherever the CPU's elementwise operations give a number, the GPU's give the same number.  (The converse fails:
`el` overflows on the CPU for large inputs, see C49.) -/
theorem C65_elements (top : ℝ) (htop : 0 ≤ top) (ex : ℝ → ℝ) (hex : ∀ x ≤ top, ex x = Real.exp x) (op : EOp) (x y z r : ℝ)
    (h : op.cpu top x y z = some r) : op.gpu ex x y z = r := by
  cases op
  case el =>
    simp only [EOp.cpu, Activations.el, Activations.npExp, Activations.ind] at h
    simp only [EOp.gpu]
    by_cases hx : x ≤ top
    · rw [if_pos hx] at h
      simp only [Option.map_some, Option.some.injEq] at h
      rw [← h, hex x hx]
      rcases lt_trichotomy x 0 with h0 | h0 | h0
      · rw [if_neg (by linarith), if_neg (by linarith), if_pos h0]; ring
      · subst h0; simp
      · rw [if_pos h0, if_pos h0.le, if_neg (by linarith)]; ring
    · rw [if_neg hx] at h
      exact absurd h (by simp)
  case sigmoid =>
    simp only [EOp.cpu, Activations.sigmoid, Activations.npExp] at h
    simp only [EOp.gpu]
    by_cases h0 : x ≥ 0
    · rw [if_pos h0, if_pos (by linarith), Option.map_some] at h
      rw [if_pos h0, hex _ (by linarith), ← Option.some.inj h, neg_one_mul]
    · have h0' : x ≤ top := by linarith [not_le.1 h0]
      rw [if_neg h0, if_pos h0', Option.bind_some, Option.map_some] at h
      rw [if_neg h0, one_mul, hex _ h0', ← Option.some.inj h]
  case sign =>
    simp only [EOp.cpu, Option.some.injEq] at h
    simp only [EOp.gpu]
    rw [← h]
    rcases lt_trichotomy x 0 with h0 | h0 | h0
    · rw [if_neg (by linarith), if_pos h0, sign_neg h0]; simp
    · subst h0; simp
    · rw [if_pos h0, if_neg (by linarith), sign_pos h0]; simp
  case elDeriv =>
    simp only [EOp.cpu, Option.some.injEq, Activations.elDeriv, Activations.ind] at h
    simp only [EOp.gpu]
    rw [← h]
    rcases lt_trichotomy y 0 with h0 | h0 | h0
    · rw [if_neg (by linarith), if_neg (by linarith), if_pos h0]; ring
    · subst h0; simp
    · rw [if_pos h0, if_pos h0.le, if_neg (by linarith)]; ring
  case addST s =>
    simp only [EOp.cpu, Option.some.injEq] at h
    simp only [EOp.gpu]
    rw [← h, add_comm]
  all_goals
    simp only [EOp.cpu, Option.some.injEq, Activations.rel, Activations.relDeriv, Activations.sigmoidDeriv, Activations.tanh,
      Activations.tanhDeriv, Activations.ind] at h
    simp only [EOp.gpu]
    rw [← h]
    try (split_ifs <;> ring)

/-- A call of an elementwise operation: `x`, `y`, `z` are the arguments of its formula, `out` is the array it
writes, any of which may be the same. -/
def EOp.kernel (ex : ℝ → ℝ) (op : EOp) (x y z out : ι) : Kernel ι ℝ :=
  elementwise [x, y, z] out (fun l => op.gpu ex (l.getD 0 0) (l.getD 1 0) (l.getD 2 0))

/-- **C65.**  Calls of the elementwise operations on the GPU: in every execution every element of the output is what the
CPU computes for it. -/
theorem C65_elementwise (top : ℝ) (htop : 0 ≤ top) (ex : ℝ → ℝ) (hex : ∀ x ≤ top, ex x = Real.exp x) (op : EOp)
    (x y z out : ι) (T n : Nat) (hT : 0 < T) (arrs : ι → Arr ℝ) (hsize : ∀ a ∈ [x, y, z, out], (arrs a).size = n)
    (l : List (Instr ι ℝ)) (hl : Interleaves ((op.kernel ex x y z out).launch T n) l) :
    ∃ res, runOn arrs l = some res ∧
      (∀ i < n, ∀ r, op.cpu top ((arrs x).at' i) ((arrs y).at' i) ((arrs z).at' i) = some r → (res out).at' i = r) ∧
      ∀ a i, a ≠ out → (res a).at' i = (arrs a).at' i := by
  obtain ⟨res, h1, h2, h3⟩ := C65_kernel (op.kernel ex x y z out) T n hT arrs (hsize out (by simp)) (by
    intro i hi c hc
    obtain ⟨a, ha, rfl⟩ := List.mem_map.1 hc
    refine ⟨fun _ => rfl, by simp, ?_⟩
    dsimp only
    rw [hsize a (by simp only [List.mem_cons, List.not_mem_nil, or_false] at ha ⊢; tauto)]
    exact_mod_cast hi) l hl
  refine ⟨res, h1, fun i hi r hr => ?_, h3⟩
  rw [← C65_elements top htop ex hex op _ _ _ _ hr]
  rw [show (res out).at' i = (res (op.kernel ex x y z out).out).at' i from rfl, h2 i hi]
  simp [EOp.kernel, elementwise]

/-! ## Classes: `binarize_v` and `index_m_by_v` -/

/-- Arrays of these kernels. -/
inductive VArr where
  | v
  | m
  | out
  deriving DecidableEq

open Classical in
/-- `binarize_v` on the GPU (pycuda_handler.py:163-164, 435-439). -/
def binarizeKernel (ncols : Nat) : Kernel VArr ℝ :=
  ⟨.out, fun i => [(.v, ((i / ncols : Nat) : Int))], fun i l => if l.getD 0 0 = ((i % ncols : Nat) : ℝ) then 1 else 0⟩

/-- `binarize_v` on the CPU for one element (numpy_handler.py:99-101): the row of the unit matrix; the class is
truncated to an integer, negative classes count from the end, others are an `IndexError`. -/
def binarizeCpu (ncols : Nat) (v : ℝ) (col : Nat) : Option ℝ :=
  let k : Int := if 0 ≤ v then ⌊v⌋ else ⌈v⌉
  let k := if k < 0 then k + ncols else k
  if 0 ≤ k ∧ k < ncols then some (if (col : Int) = k then 1 else 0) else none

/-- **C65.**  For classes `0, ..., ncols - 1` the GPU's `binarize_v` gives what the CPU's gives. -/
theorem C65_binarize (nrows ncols T : Nat) (hT : 0 < T) (arrs : VArr → Arr ℝ) (hv : (arrs .v).size = nrows)
    (ho : (arrs .out).size = nrows * ncols) (cls : Nat → Nat) (hcls : ∀ r < nrows, cls r < ncols ∧ (arrs .v).at' r = cls r)
    (l : List (Instr VArr ℝ)) (hl : Interleaves ((binarizeKernel ncols).launch T (nrows * ncols)) l) :
    ∃ res, runOn arrs l = some res ∧ ∀ r c, r < nrows → c < ncols →
      some ((res .out).at' (r * ncols + c)) = binarizeCpu ncols ((arrs .v).at' r) c ∧
      (res .out).at' (r * ncols + c) = if c = cls r then 1 else 0 := by
  obtain ⟨res, h1, h2, _⟩ := C65_kernel (binarizeKernel ncols) T (nrows * ncols) hT arrs ho (by
    intro i hi c hc
    have hn : 0 < ncols := by
      rcases Nat.eq_zero_or_pos ncols with h | h
      · rw [h, Nat.mul_zero] at hi; exact absurd hi (Nat.not_lt_zero _)
      · exact h
    simp only [binarizeKernel, List.mem_singleton] at hc
    subst hc
    refine ⟨fun h => absurd h (by simp [binarizeKernel]), Int.natCast_nonneg _, ?_⟩
    dsimp only
    rw [hv]
    exact_mod_cast (Nat.div_lt_iff_lt_mul hn).2 hi) l hl
  refine ⟨res, h1, fun r c hr hc => ?_⟩
  have hres : (res .out).at' (r * ncols + c) = if c = cls r then 1 else 0 := by
    have := h2 (r * ncols + c) (row_lt hr hc)
    rw [show (binarizeKernel ncols).out = VArr.out from rfl] at this
    rw [this]
    have e1 : (r * ncols + c) / ncols = r := by
      rw [mul_comm, Nat.mul_add_div (by omega), Nat.div_eq_of_lt hc, Nat.add_zero]
    have e2 : (r * ncols + c) % ncols = c := by
      rw [mul_comm, Nat.mul_add_mod, Nat.mod_eq_of_lt hc]
    simp only [binarizeKernel, List.map_cons, List.map_nil, List.getD_cons_zero, e1, e2, Int.toNat_natCast, (hcls r hr).2]
    have e3 : ((cls r : ℝ) = (c : ℝ)) ↔ c = cls r := by rw [Nat.cast_inj]; exact eq_comm
    exact if_congr e3 rfl rfl
  refine ⟨?_, hres⟩
  rw [hres, (hcls r hr).2]
  unfold binarizeCpu
  have h0 : (0 : ℝ) ≤ (cls r : ℝ) := Nat.cast_nonneg _
  simp only [if_pos h0, Int.floor_natCast]
  have hneg : ¬ ((cls r : Int) < 0) := by omega
  have hlt : (0 : Int) ≤ (cls r : Int) ∧ (cls r : Int) < (ncols : Int) := ⟨by omega, by exact_mod_cast (hcls r hr).1⟩
  simp only [if_neg hneg, if_pos hlt, Nat.cast_inj]

/-- **C65.**  For other targets the two handlers differ: a class of 1.5 is class 1 on the CPU and no class on
the GPU. -/
theorem C65_binarize_differs : binarizeCpu 3 1.5 1 = some 1 ∧ ¬ ((1.5 : ℝ) = ((1 : Nat) : ℝ)) := by
  constructor
  · unfold binarizeCpu
    have h : (0 : ℝ) ≤ 1.5 := by norm_num
    have hf : ⌊(1.5 : ℝ)⌋ = 1 := by rw [Int.floor_eq_iff]; norm_num
    simp only [if_pos h, hf]
    norm_num
  · norm_num

/-- Conversion to an integer, `(int)x`. -/
def toInt (x : ℝ) : Int := if 0 ≤ x then ⌊x⌋ else ⌈x⌉

theorem toInt_nat (k : Nat) : toInt (k : ℝ) = k := by
  unfold toInt; rw [if_pos (Nat.cast_nonneg _), Int.floor_natCast]

/-- `index_m_by_v` on the GPU (pycuda_handler.py:284-285, 483-487) for given `v`, which the kernel does not
write. -/
def indexKernel (ncols : Nat) (v : Nat → ℝ) : Kernel VArr ℝ :=
  ⟨.out, fun i => [(.m, (i : Int) * ncols + toInt (v i))], fun _ l => l.getD 0 0⟩

/-- **C65.**  For classes `0, ..., ncols - 1` the GPU's `index_m_by_v` picks the element of the class in each row, as the
CPU's `m[np.arange(m.shape[0]), v]` does (numpy_handler.py:202-203). -/
theorem C65_index (nrows ncols T : Nat) (hT : 0 < T) (arrs : VArr → Arr ℝ) (hm : (arrs .m).size = nrows * ncols)
    (ho : (arrs .out).size = nrows) (cls : Nat → Nat) (hcls : ∀ r < nrows, cls r < ncols ∧ (arrs .v).at' r = cls r)
    (l : List (Instr VArr ℝ)) (hl : Interleaves ((indexKernel ncols (arrs .v).at').launch T nrows) l) :
    ∃ res, runOn arrs l = some res ∧ ∀ r < nrows, (res .out).at' r = (arrs .m).at' (r * ncols + cls r) := by
  have e : ∀ r < nrows, ((r : Int) * ncols + toInt ((arrs .v).at' r)) = ((r * ncols + cls r : Nat) : Int) := by
    intro r hr; rw [(hcls r hr).2, toInt_nat]; push_cast; rfl
  obtain ⟨res, h1, h2, _⟩ := C65_kernel (indexKernel ncols (arrs .v).at') T nrows hT arrs ho (by
    intro i hi c hc
    simp only [indexKernel, List.mem_singleton] at hc
    subst hc
    refine ⟨fun h => absurd h (by simp [indexKernel]), ?_⟩
    dsimp only
    rw [hm, e i hi]
    exact ⟨by omega, by exact_mod_cast row_lt hi (hcls i hi).1⟩) l hl
  refine ⟨res, h1, fun r hr => ?_⟩
  have := h2 r hr
  rw [show (indexKernel ncols (arrs .v).at').out = VArr.out from rfl] at this
  rw [this]
  simp only [indexKernel, List.map_cons, List.map_nil, List.getD_cons_zero, e r hr, Int.toNat_natCast]

/-! ## Broadcasting -/

/-- Arrays of the kernel. -/
inductive BArr where
  | a
  | out
  deriving DecidableEq

/-- `broadcast_t` on the GPU (pycuda_handler.py:166-169, 441-445). -/
def broadcastKernel [Zero α] (dim stride : Nat) : Kernel BArr α :=
  ⟨.out, fun i => [(.a, ((i % stride + (i / (dim * stride)) * stride : Nat) : Int))], fun _ l => l.getD 0 0⟩

open Layers.Merge in
theorem ravel_mid (pre post ix jx : List Nat) (D d : Nat) (h : Valid pre ix) :
    ravel (pre ++ D :: post) (ix ++ d :: jx) = (ravel pre ix * D + d) * post.prod + ravel post jx := by
  induction pre generalizing ix with
  | nil =>
    cases ix with
    | nil => simp [ravel]
    | cons i is => exact absurd h (by simp [Valid])
  | cons e es ih =>
    cases ix with
    | nil => exact absurd h (by simp [Valid])
    | cons i is =>
      simp only [List.cons_append, ravel, ih is h.2, List.prod_append, List.prod_cons]
      ring

open Layers.Merge in
/-- **C65.**  The GPU's `broadcast_t` repeats an array of shape `pre + (1,) + post` along the axis, as assigning it to
an array of shape `pre + (D,) + post` does on the CPU (numpy_handler.py:103-105). -/
theorem C65_broadcast [Zero α] (pre post : List Nat) (D T : Nat) (hT : 0 < T) (arrs : BArr → Arr α)
    (ha : (arrs .a).size = (pre ++ 1 :: post).prod) (ho : (arrs .out).size = (pre ++ D :: post).prod)
    (l : List (Instr BArr α)) (hl : Interleaves ((broadcastKernel D post.prod).launch T (pre ++ D :: post).prod) l) :
    ∃ res, runOn arrs l = some res ∧ ∀ ix d jx, Valid pre ix → d < D → Valid post jx →
      at_ (pre ++ D :: post) (res .out).at' (ix ++ d :: jx) = at_ (pre ++ 1 :: post) (arrs .a).at' (ix ++ 0 :: jx) := by
  obtain ⟨res, h1, h2, _⟩ := C65_kernel (broadcastKernel D post.prod) T _ hT arrs ho (by
    intro i hi c hc
    simp only [broadcastKernel, List.mem_singleton] at hc
    subst hc
    refine ⟨fun h => absurd h (by simp [broadcastKernel]), Int.natCast_nonneg _, ?_⟩
    dsimp only
    rw [ha]
    rw [List.prod_append, List.prod_cons] at hi ⊢
    rw [Nat.one_mul]
    have hp : 0 < D * post.prod := by
      rcases Nat.eq_zero_or_pos (D * post.prod) with h | h
      · rw [h, Nat.mul_zero] at hi; exact absurd hi (Nat.not_lt_zero _)
      · exact h
    have hs : 0 < post.prod := Nat.pos_of_mul_pos_left hp
    have hd := (Nat.div_lt_iff_lt_mul hp).2 hi
    have := row_lt hd (Nat.mod_lt i hs)
    rw [Nat.add_comm]
    exact_mod_cast this) l hl
  refine ⟨res, h1, fun ix d jx hix hd hjx => ?_⟩
  have r1 := ravel_lt pre ix hix
  have r2 := ravel_lt post jx hjx
  unfold at_
  rw [ravel_mid pre post ix jx D d hix, ravel_mid pre post ix jx 1 0 hix]
  have hlt : (ravel pre ix * D + d) * post.prod + ravel post jx < (pre ++ D :: post).prod := by
    rw [List.prod_append, List.prod_cons, ← Nat.mul_assoc]
    exact row_lt (row_lt r1 hd) r2
  have := h2 _ hlt
  rw [show (broadcastKernel (α := α) D post.prod).out = BArr.out from rfl] at this
  rw [this]
  have hs : 0 < post.prod := by omega
  have e1 : ((ravel pre ix * D + d) * post.prod + ravel post jx) % post.prod = ravel post jx := by
    rw [mul_comm, Nat.mul_add_mod, Nat.mod_eq_of_lt r2]
  have e2 : ((ravel pre ix * D + d) * post.prod + ravel post jx) / (D * post.prod) = ravel pre ix := by
    have : (ravel pre ix * D + d) * post.prod + ravel post jx = (D * post.prod) * ravel pre ix + (d * post.prod + ravel post jx) := by ring
    have h' := row_lt hd r2
    rw [this, Nat.mul_add_div (by omega), Nat.div_eq_of_lt h', Nat.add_zero]
  simp only [broadcastKernel, List.map_cons, List.map_nil, List.getD_cons_zero, e1, e2, Int.toNat_natCast, Nat.mul_one, Nat.add_zero]
  rw [Nat.add_comm]

/-! ## Modulo -/

/-- `modulo_tt` on the GPU (pycuda_handler.py:325-326, 489-494).  The conditions compare the pointers `a` and `b` with 0, not the
elements, and so are always true.  The remainder of a division by zero is undefined. -/
def moduloGpu (a b : ℝ) : Option ℝ :=
  if toInt (b + 0.5) = 0 then none else some ((Int.tmod (toInt (a + 0.5)) (toInt (b + 0.5)) : Int) : ℝ)

theorem toInt_half (k : Nat) : toInt ((k : ℝ) + 0.5) = k := by
  unfold toInt
  have h : (0 : ℝ) ≤ (k : ℝ) + 0.5 := by positivity
  rw [if_pos h, Int.floor_eq_iff]
  push_cast
  constructor <;> norm_num

/-- **C65.**  For natural numbers (as in the clockwork layers) the GPU's `modulo_tt` is the remainder, as the
CPU's is.  (Partial: for other numbers it is not, see `C65_modulo_differs`.) -/
theorem C65_modulo_partial (a b : Nat) (hb : 0 < b) :
    moduloGpu a b = some ((a % b : Nat) : ℝ) ∧ Layers.fmod a b = some ((a % b : Nat) : ℝ) := by
  constructor
  · unfold moduloGpu
    rw [toInt_half, toInt_half, if_neg (by omega)]
    have : Int.tmod (a : Int) (b : Int) = ((a % b : Nat) : Int) := rfl
    rw [this]
    push_cast
    rfl
  · unfold Layers.fmod
    have hb' : (b : ℝ) ≠ 0 := by exact_mod_cast hb.ne'
    have h0 : (0 : ℝ) ≤ (a : ℝ) / b := by positivity
    have hf : ⌊(a : ℝ) / b⌋ = ((a / b : Nat) : Int) := by
      rw [Int.floor_eq_iff, Int.cast_natCast]
      have hd : (a : ℝ) = (b : ℝ) * ((a / b : Nat) : ℝ) + ((a % b : Nat) : ℝ) := by exact_mod_cast (Nat.div_add_mod a b).symm
      have hm : ((a % b : Nat) : ℝ) < b := by exact_mod_cast Nat.mod_lt a hb
      have hm0 : (0 : ℝ) ≤ ((a % b : Nat) : ℝ) := Nat.cast_nonneg _
      have hbp : (0 : ℝ) < b := by exact_mod_cast hb
      rw [le_div_iff₀ hbp, div_lt_iff₀ hbp]
      constructor <;> nlinarith
    rw [if_neg hb', if_pos h0, hf, Int.cast_natCast]
    congr 1
    have := Nat.div_add_mod a b
    have h' : (a : ℝ) = (b : ℝ) * ((a / b : Nat) : ℝ) + ((a % b : Nat) : ℝ) := by exact_mod_cast this.symm
    linarith

/-- **C65.**  For negative numbers and for fractions the two handlers differ: -3 modulo 2, and 3 modulo 1.5. -/
theorem C65_modulo_differs : moduloGpu (-3) 2 = some 0 ∧ Layers.fmod (-3) 2 = some (-1) ∧
    moduloGpu 3 1.5 = some 1 ∧ Layers.fmod 3 1.5 = some 0 := by
  have t1 : toInt ((-3 : ℝ) + 0.5) = -2 := by
    unfold toInt; rw [if_neg (by norm_num), Int.ceil_eq_iff]; norm_num
  have t2 : toInt ((2 : ℝ) + 0.5) = 2 := by
    unfold toInt; rw [if_pos (by norm_num), Int.floor_eq_iff]; norm_num
  have t3 : toInt ((3 : ℝ) + 0.5) = 3 := by
    unfold toInt; rw [if_pos (by norm_num), Int.floor_eq_iff]; norm_num
  have t4 : toInt ((1.5 : ℝ) + 0.5) = 2 := by
    unfold toInt; rw [if_pos (by norm_num), Int.floor_eq_iff]; norm_num
  refine ⟨?_, ?_, ?_, ?_⟩
  · unfold moduloGpu; rw [t1, t2]; norm_num
  · unfold Layers.fmod
    have : ⌈(-3 : ℝ) / 2⌉ = -1 := by rw [Int.ceil_eq_iff]; norm_num
    rw [if_neg (by norm_num), if_neg (by norm_num), this]; norm_num
  · unfold moduloGpu; rw [t3, t4, if_neg (by norm_num), show Int.tmod 3 2 = 1 from rfl]; norm_num
  · unfold Layers.fmod
    have : ⌊(3 : ℝ) / 1.5⌋ = 2 := by rw [Int.floor_eq_iff]; norm_num
    rw [if_neg (by norm_num), if_pos (by norm_num), this]; norm_num

/-! ## Examples -/

end

/-- A kernel run with 2 threads on 5 elements, in place. -/
example : (runOn (fun _ : Unit => (⟨5, fun i => (i : Nat)⟩ : Arr Nat))
      (((elementwise [()] () (fun l => 10 * l.getD 0 0) : Kernel Unit Nat).launch 2 5).flatten)).map
        (fun r => (List.range 5).map (r ()).at') = some [0, 10, 20, 30, 40] := by decide +kernel

/-- Broadcasting the shape (2, 1, 3) to (2, 2, 3). -/
example : (runOn (fun a : BArr => match a with | .a => (⟨6, fun i => i⟩ : Arr Nat) | .out => ⟨12, fun _ => 77⟩)
      ((broadcastKernel 2 3 : Kernel BArr Nat).launch 4 12).flatten).map (fun r => (List.range 12).map (r .out).at') =
    some [0, 1, 2, 0, 1, 2, 3, 4, 5, 3, 4, 5] := by decide +kernel

/-- The activation functions at some inputs, on both handlers. -/
example : EOp.cpu 88 .rel 3 0 0 = some 3 ∧ EOp.gpu Real.exp .rel (-3) 0 0 = 0 ∧ EOp.cpu 88 .el 100 0 0 = none ∧
    EOp.gpu Real.exp .el 100 0 0 = 100 := by
  refine ⟨?_, ?_, ?_, ?_⟩
  · simp [EOp.cpu, Activations.rel, Activations.ind]
  · simp [EOp.gpu]
  · simp only [EOp.cpu, Activations.el, Activations.npExp]; norm_num
  · simp [EOp.gpu]

end Verif.Gpu
