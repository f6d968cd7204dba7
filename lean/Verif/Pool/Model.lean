import Verif.Numeric.Loop
import Mathlib.Algebra.Field.Basic

/-!
# Pooling: `maxpool_forward`, `maxpool_backward`, `avgpool_forward`, `avgpool_backward`
(brainstorm/handlers/_cpuop.pyx:27-202)

The loops over images and channels treat disjoint parts of all arrays; the model is one
iteration of them, with images and deltas as functions of row and column.  Numbers are the
elements of a linear order (max) or a field (average) instead of floats; `lo` is the smallest
number, `-FLT_MAX` or `-DBL_MAX`.  The index of the maximum is stored in an array of floats:
`store` and `load` are the casts (exact up to 2^24 for 32-bit floats).
-/

namespace Verif.Pool

open Verif.Numeric

/-- Image height and width, number of channels and the channel at hand, window height and
width, padding, strides, output height and width. -/
structure Geom where
  H : Nat
  W : Nat
  nc : Nat
  c : Nat
  KH : Nat
  KW : Nat
  p : Nat
  sy : Nat
  sx : Nat
  OH : Nat
  OW : Nat

/-- `range(a, b)` in C integers. -/
def irange (a b : Int) : List Int := (List.range (b - a).toNat).map (fun (k : Nat) => a + (k : Int))

/-- `y_min` (_cpuop.pyx:58-59). -/
def Geom.yMin (g : Geom) (yo : Nat) : Int := max ((yo : Int) * g.sy - g.p) 0
/-- `y_max` (_cpuop.pyx:60). -/
def Geom.yMax (g : Geom) (yo : Nat) : Int := min ((yo : Int) * g.sy - g.p + g.KH) g.H
/-- `x_min` (_cpuop.pyx:62-63). -/
def Geom.xMin (g : Geom) (xo : Nat) : Int := max ((xo : Int) * g.sx - g.p) 0
/-- `x_max` (_cpuop.pyx:64). -/
def Geom.xMax (g : Geom) (xo : Nat) : Int := min ((xo : Int) * g.sx - g.p + g.KW) g.W

variable {α : Type}

/-- One element of the output and of `argmax` of `maxpool_forward` (_cpuop.pyx:65-80). -/
def maxCell [LinearOrder α] [Zero α] (g : Geom) (lo : α) (inp : Nat → Nat → α) (yo xo : Nat) : α × Int :=
  let r := (irange (g.yMin yo) (g.yMax yo)).foldl (fun s iy =>
    (irange (g.xMin xo) (g.xMax xo)).foldl (fun (s : α × Int) ix =>
      if inp iy.toNat ix.toNat > s.1 then
        (inp iy.toNat ix.toNat, (iy * g.W + ix) * g.nc + g.c)
      else s) s) (lo, -1)
  if r.2 = -1 then (0, -1) else r

/-- An array with rows and columns. -/
structure Plane (α : Type) where
  h : Nat
  w : Nat
  at' : Nat → Nat → α

/-- `a[y, x] += v`, undefined outside of the array. -/
def Plane.add [Add α] (a : Plane α) (y x : Int) (v : α) : Option (Plane α) :=
  if 0 ≤ y ∧ y < a.h ∧ 0 ≤ x ∧ x < a.w then
    some ⟨a.h, a.w, fun y' x' => if y' = y.toNat ∧ x' = x.toNat then a.at' y' x' + v else a.at' y' x'⟩
  else none

/-- `maxpool_backward` (_cpuop.pyx:103-115); `argmax y x` is the stored float. -/
def maxBackward [Add α] {F : Type} (g : Geom) (load : F → Int) (argmax : Nat → Nat → F)
    (outDelta : Nat → Nat → α) (inDelta : Plane α) : Option (Plane α) :=
  loop (fun y d => loop (fun x d =>
    let m := load (argmax y x)
    if m ≠ -1 then
      let loc := Int.fdiv m g.nc
      let iy := Int.fdiv loc g.W
      let ix := Int.fmod loc g.W
      if iy ≥ 0 ∧ ix ≥ 0 then Plane.add d iy ix (outDelta y x) else some d
    else some d) g.OW d) g.OH inDelta

variable [Field α]

/-- One element of the output of `avgpool_forward` (_cpuop.pyx:145-162). -/
def avgCell (g : Geom) (inp : Nat → Nat → α) (yo xo : Nat) : α :=
  let v := (irange (g.yMin yo) (g.yMax yo)).foldl (fun s iy =>
    (irange (g.xMin xo) (g.xMax xo)).foldl (fun s ix => s + inp iy.toNat ix.toNat) s) 0
  v / ((max ((g.yMax yo - g.yMin yo) * (g.xMax xo - g.xMin xo)) 1 : Int) : α)

/-- The two inner loops of `avgpool_backward` (_cpuop.pyx:198-202). -/
def avgSpread (g : Geom) (yo xo : Nat) (v : α) (d : Plane α) : Option (Plane α) :=
  (irange (g.yMin yo) (g.yMax yo)).foldlM (fun d iy =>
    (irange (g.xMin xo) (g.xMax xo)).foldlM (fun (d : Plane α) ix =>
      d.add iy ix (v / (((g.yMax yo - g.yMin yo) * (g.xMax xo - g.xMin xo) : Int) : α))) d) d

/-- `avgpool_backward` (_cpuop.pyx:186-202). -/
def avgBackward (g : Geom) (outDelta : Nat → Nat → α) (inDelta : Plane α) : Option (Plane α) :=
  loop (fun y d => loop (fun x d => avgSpread g y x (outDelta y x) d) g.OW d) g.OH inDelta

end Verif.Pool
