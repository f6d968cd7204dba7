import Verif.Buffers.NetworkProps

/-!
# Flattened arrays: views or copies

The layers and handler operations write through arrays obtained by `reshape`:
`flatten_time`, `flatten_time_and_features`, `flatten_features`, `flatten_all_but_last`
(brainstorm/utils.py:150-170), `MaskLayerImpl.flatten_buffer` (mask_layer.py:44-47) and the
reshapes in `merge_tt` and `split_add_tt` (numpy_handler.py:222, 252-253).  NumPy's `reshape`
returns "a new view object if possible; otherwise, it will be a copy": it shares memory with
the array if the new shape can be given strides that visit the same cells in the same order.
What is written into a copy is lost.
-/

namespace Verif.Views

open Verif.Buffers Verif.Structure

/-- The addresses of an array with the given first address, shape and strides, in row-major
order (NumPy's memory layout). -/
def addrs : Int → List Nat → List Int → List Int
  | off, d :: ds, s :: ss => (List.range d).flatMap (fun i : Nat => addrs (off + (i : Int) * s) ds ss)
  | off, _, _ => [off]

/-- `reshape` to this shape gives a view of the cells. -/
def Viewable (cells : List Nat) (shape : List Nat) : Prop :=
  ∃ off : Int, ∃ strides : List Int, strides.length = shape.length ∧
    addrs off shape strides = cells.map (fun c : Nat => (c : Int))

/-- The shape of `flatten_time(array)` (utils.py:150-154). -/
def flattenTime : List Nat → List Nat
  | t :: b :: fs => (t * b) :: fs
  | s => s

/-- The shape of `flatten_time_and_features(array)` (utils.py:157-161). -/
def flattenTimeAndFeatures : List Nat → List Nat
  | t :: b :: fs => [t * b, fs.prod]
  | s => s

/-- The shape of `flatten_features(array)` with the default `start_idx` (utils.py:164-166). -/
def flattenFeatures : List Nat → List Nat
  | t :: b :: fs => [t, b, fs.prod]
  | s => s

/-- The shape of `flatten_all_but_last(array)` (utils.py:169-170), which is also the shape of
`reshape(-1, shape[-1])` (numpy_handler.py:222-225, 252-254). -/
def flattenAllButLast (s : List Nat) : List Nat := [s.dropLast.prod, s.getLastD 1]

open Classical in
/-- `array.reshape(shape)[:] = vals`: written to memory through a view, or into a copy. -/
noncomputable def writeReshaped {V : Type} (m : List V) (cells : List Nat) (shape : List Nat)
    (vals : List V) : List V :=
  if Viewable cells shape then writeCells m cells vals else m

/-- The requirement of a `DTYPE_t[:, :, :, ::1]` argument (_cpuop.pyx:27-33): the cells are
adjacent in memory; other arrays are rejected with a `ValueError`. -/
def Contiguous (cells : List Nat) : Prop := ∃ c, cells = (List.range cells.length).map (fun i => c + i)

end Verif.Views
