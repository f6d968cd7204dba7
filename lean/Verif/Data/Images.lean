import Verif.Data.Model
import Mathlib.Tactic.Linarith
import Mathlib.Data.List.Basic

/-!
# Image iterators (C33): `brainstorm/data_iterators.py:143-376`, `_crop_images`

An image is its height, width and a function giving the pixel (all channels) at a
row and column.  The functions below act on one image of one sequence at one time
step; the loops over time and batch apply them to every such image.
-/

namespace Verif.Data

/-- `data[t, i]` for 5D data: `h`, `w` and the pixels. -/
structure Img (P : Type) where
  h : Nat
  w : Nat
  px : Nat → Nat → P

variable {P : Type}

/-- Two images show the same. -/
def Img.Same (a b : Img P) : Prop :=
  a.h = b.h ∧ a.w = b.w ∧ ∀ i j, i < a.h → j < a.w → a.px i j = b.px i j

/-- The stop of the slice `size: -size` on an axis of length `n`: `-0` is 0. -/
def negStop (n size : Nat) : Nat := if size = 0 then 0 else n - size

/-- A source axis of length `n` can be assigned to a slice of length `k`. -/
def broadcasts (n k : Nat) : Bool := n == k || n == 1

/-- `Pad` on one image (data_iterators.py:314-321).  Raises if the image cannot be
broadcast to the slice. -/
def pad (size : Nat) (val : P) (img : Img P) : Option (Img P) :=
  let H := img.h + 2 * size
  let W := img.w + 2 * size
  let sh := negStop H size
  let sw := negStop W size
  if broadcasts img.h (sh - size) && broadcasts img.w (sw - size) then
    some ⟨H, W, fun i j =>
      if size ≤ i ∧ i < sh ∧ size ≤ j ∧ j < sw then
        img.px (if img.h = 1 then 0 else i - size) (if img.w = 1 then 0 else j - size)
      else val⟩
  else none

/-- `_crop_images` on one image (_cpuop.pyx:229-244), assigning into zeros
(data_iterators.py:371). -/
def cropImage [Zero P] (height width startRow startCol : Nat) (img : Img P) : Img P :=
  ⟨height, width, fun k l => if k < height ∧ l < width then img.px (k + startRow) (l + startCol) else 0⟩

/-- `RandomCrop` on one image (data_iterators.py:361-374): `row`, `col` are drawn by
`random_integers(0, max)`, which raises if `max < 0`. -/
def randomCrop [Zero P] (cropH cropW row col : Nat) (img : Img P) : Option (Img P) :=
  if img.h < cropH ∨ img.w < cropW then none
  else if img.h - cropH < row ∨ img.w - cropW < col then none
  else some (cropImage cropH cropW row col img)

/-- `data[name][:, i, ...] = data[name][:, i, :, ::-1, :]` (data_iterators.py:184). -/
def flipImage (img : Img P) : Img P := ⟨img.h, img.w, fun i j => img.px i (img.w - 1 - j)⟩

/-- `np.eye(vocab)[idx]` (data_iterators.py:225): a negative index counts from the
end, an index outside raises. -/
def eyeRow (vocab : Nat) (idx : Int) : Option (List Bool) :=
  if 0 ≤ idx ∧ idx < vocab then some ((List.range vocab).map (fun j : Nat => decide ((j : Int) = idx)))
  else if -(vocab : Int) ≤ idx ∧ idx < 0 then some ((List.range vocab).map (fun j : Nat => decide ((j : Int) = idx + vocab)))
  else none

/-- `OneHot` on the single index of a position (data_iterators.py:222-231). -/
def oneHot (vocab : Nat) (idx : Int) : Option (List Bool) := eyeRow vocab idx

/-- `MultiHot` on the indices of a position (data_iterators.py:268-273): the
maximum over the rows; of no rows it raises. -/
def multiHot (vocab : Nat) (idxs : List Int) : Option (List Bool) :=
  match idxs.mapM (eyeRow vocab) with
  | none => none
  | some [] => none
  | some rows => some ((List.range vocab).map (fun j => rows.any (fun r => r.getD j false)))

/-- **C33** (Pad): with a pad size of at least 1 the image lies in the middle of a
frame of the pad value. -/
theorem C33_pad (size : Nat) (hsize : 1 ≤ size) (val : P) (img : Img P) :
    ∃ r, pad size val img = some r ∧ r.h = img.h + 2 * size ∧ r.w = img.w + 2 * size ∧
      (∀ i j, i < img.h → j < img.w → r.px (i + size) (j + size) = img.px i j) ∧
      (∀ i j, (i < size ∨ img.h + size ≤ i ∨ j < size ∨ img.w + size ≤ j) → r.px i j = val) := by
  have h0 : size ≠ 0 := by omega
  have e1 : img.h + 2 * size - size = img.h + size := by omega
  have e2 : img.w + 2 * size - size = img.w + size := by omega
  refine ⟨⟨img.h + 2 * size, img.w + 2 * size, fun i j =>
      if size ≤ i ∧ i < img.h + size ∧ size ≤ j ∧ j < img.w + size then
        img.px (if img.h = 1 then 0 else i - size) (if img.w = 1 then 0 else j - size)
      else val⟩, ?_, ?_⟩
  · simp [pad, negStop, h0, e1, e2, broadcasts]
  · refine ⟨rfl, rfl, ?_, ?_⟩
    · intro i j hi hj
      dsimp only
      rw [if_pos (by omega)]
      congr 1
      · split
        · omega
        · omega
      · split
        · omega
        · omega
    · intro i j h
      dsimp only
      rw [if_neg (by omega)]

/-- **C33** (Pad, size 0): images larger than one pixel make it fail. -/
theorem C33_pad_zero (val : P) (img : Img P) (h : 1 < img.h ∨ 1 < img.w) : pad 0 val img = none := by
  simp only [pad, negStop, broadcasts]
  rw [if_neg]
  simp
  omega

/-- **C33** (RandomCrop): whenever it succeeds the result is a window of the image
that lies inside it. -/
theorem C33_crop [Zero P] (cropH cropW row col : Nat) (img r : Img P)
    (h : randomCrop cropH cropW row col img = some r) :
    r.h = cropH ∧ r.w = cropW ∧ row + cropH ≤ img.h ∧ col + cropW ≤ img.w ∧
      ∀ k l, k < cropH → l < cropW → r.px k l = img.px (row + k) (col + l) := by
  unfold randomCrop at h
  split at h
  · simp at h
  split at h
  · simp at h
  simp only [Option.some.injEq] at h
  subst h
  refine ⟨rfl, rfl, by omega, by omega, ?_⟩
  intro k l hk hl
  simp only [cropImage, hk, hl, and_self, if_true]
  rw [Nat.add_comm k, Nat.add_comm l]

/-- **C33** (RandomCrop): it succeeds for every drawn position if the crop is not
larger than the image. -/
theorem C33_crop_total [Zero P] (cropH cropW row col : Nat) (img : Img P) (h1 : cropH ≤ img.h)
    (h2 : cropW ≤ img.w) (hr : row ≤ img.h - cropH) (hc : col ≤ img.w - cropW) :
    ∃ r, randomCrop cropH cropW row col img = some r := by
  unfold randomCrop
  rw [if_neg (by omega), if_neg (by omega)]
  exact ⟨_, rfl⟩

/-- **C33** (Flip): the width axis is reversed and flipping twice shows the same. -/
theorem C33_flip (img : Img P) :
    (flipImage img).h = img.h ∧ (flipImage img).w = img.w ∧
    (∀ i j j', j + j' + 1 = img.w → (flipImage img).px i j = img.px i j') ∧
    (flipImage (flipImage img)).Same img := by
  refine ⟨rfl, rfl, ?_, rfl, rfl, ?_⟩
  · intro i j j' h
    simp only [flipImage]
    congr 1
    omega
  · intro i j _ hj
    simp only [flipImage] at *
    congr 1
    omega

/-- **C33** (OneHot): a valid index gives exactly one one, at the index; an index
beyond the vocabulary raises. -/
theorem C33_one_hot (vocab : Nat) (idx : Nat) :
    (idx < vocab → ∃ r, oneHot vocab idx = some r ∧ r.length = vocab ∧
      ∀ j, j < vocab → (r[j]? = some true ↔ j = idx)) ∧
    (vocab ≤ idx → oneHot vocab idx = none) := by
  constructor
  · intro h
    refine ⟨(List.range vocab).map (fun j : Nat => decide ((j : Int) = idx)), ?_, by simp, ?_⟩
    · unfold oneHot eyeRow
      rw [if_pos (by omega)]
    · intro j hj
      rw [List.getElem?_map, List.getElem?_range hj]
      simp
  · intro h
    unfold oneHot eyeRow
    rw [if_neg (by omega), if_neg (by omega)]

theorem eyeRow_nat {vocab idx : Nat} (h : idx < vocab) :
    eyeRow vocab idx = some ((List.range vocab).map (fun j : Nat => decide ((j : Int) = idx))) := by
  unfold eyeRow
  rw [if_pos (by omega)]

/-- **C33** (OneHot, negative indices): an index `-k` with `1 ≤ k ≤ vocab` is accepted and counts from the end: the only one
is `k` places before the end. -/
theorem C33_one_hot_negative (vocab k : Nat) (h1 : 1 ≤ k) (h2 : k ≤ vocab) :
    ∃ r, oneHot vocab (-(k : Int)) = some r ∧ r.length = vocab ∧ ∀ j, j < vocab → (r[j]? = some true ↔ j + k = vocab) := by
  refine ⟨(List.range vocab).map (fun j : Nat => decide ((j : Int) = -(k : Int) + vocab)), ?_, by simp, ?_⟩
  · unfold oneHot eyeRow
    rw [if_neg (by omega), if_pos (by omega)]
  · intro j hj
    rw [List.getElem?_map, List.getElem?_range hj]
    simp only [Option.map_some, Option.some.injEq, decide_eq_true_eq]
    omega

example : oneHot 4 (-1) = some [false, false, false, true] := by decide +kernel

/-- **C33** (MultiHot): ones exactly at the given indices. -/
theorem C33_multi_hot (vocab : Nat) (idxs : List Nat) (hne : idxs ≠ []) (h : ∀ i ∈ idxs, i < vocab) :
    ∃ r, multiHot vocab (idxs.map Int.ofNat) = some r ∧ r.length = vocab ∧
      ∀ j, j < vocab → (r[j]? = some true ↔ j ∈ idxs) := by
  have hm : (idxs.map Int.ofNat).mapM (eyeRow vocab) =
      some (idxs.map (fun i : Nat => (List.range vocab).map (fun j : Nat => decide ((j : Int) = (i : Int))))) := by
    clear hne
    induction idxs with
    | nil => rfl
    | cons i l ih =>
      have h1 : eyeRow vocab (Int.ofNat i) = _ := eyeRow_nat (h i (by simp))
      rw [List.map_cons, List.mapM_cons, h1, ih (fun x hx => h x (by simp [hx]))]
      rfl
  obtain ⟨i₀, l, rfl⟩ := List.exists_cons_of_ne_nil hne
  refine ⟨(List.range vocab).map (fun j => ((i₀ :: l).map (fun i : Nat => (List.range vocab).map
      (fun j : Nat => decide ((j : Int) = (i : Int))))).any (fun r => r.getD j false)), ?_, ?_, ?_⟩
  · unfold multiHot
    rw [hm]
    rfl
  · simp
  · intro j hj
    rw [List.getElem?_map, List.getElem?_range hj]
    simp only [Option.map_some, Option.some.injEq, List.any_eq_true, List.mem_map]
    constructor
    · rintro ⟨r, ⟨i, hi, rfl⟩, hr⟩
      rw [List.getD_eq_getElem?_getD, List.getElem?_map, List.getElem?_range hj] at hr
      simp only [Option.map_some, Option.getD_some, decide_eq_true_eq] at hr
      have : j = i := by omega
      rw [this]; exact hi
    · intro hji
      refine ⟨_, ⟨j, hji, rfl⟩, ?_⟩
      rw [List.getD_eq_getElem?_getD, List.getElem?_map, List.getElem?_range hj]
      simp

/-! ### Concrete cases -/

/-- A 2x3 image with distinct pixels. -/
def demoImg : Img Nat := ⟨2, 3, fun i j => 10 * i + j + 1⟩

/-- All pixels of an image. -/
def Img.toList (img : Img P) : List (List P) :=
  (List.range img.h).map (fun i => (List.range img.w).map (img.px i))

example : (pad 1 7 demoImg).map Img.toList =
    some [[7, 7, 7, 7, 7], [7, 1, 2, 3, 7], [7, 11, 12, 13, 7], [7, 7, 7, 7, 7]] := by decide
example : (pad 0 7 demoImg).isNone = true := by decide
example : (randomCrop 1 2 1 1 demoImg).map Img.toList = some [[12, 13]] := by decide
example : (flipImage demoImg).toList = [[3, 2, 1], [13, 12, 11]] := by decide
example : oneHot 4 2 = some [false, false, true, false] := by decide
example : multiHot 4 [2, 0] = some [true, false, true, false] := by decide

end Verif.Data
