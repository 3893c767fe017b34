import Verif.Model.Npz
import Verif.Model.History
import Verif.Model.NpzClient

/-!
# Validation of the model against the repository's own test assets

GENERATED by `tools/mkassets.py`.  **These are tests of the model, not proofs of
properties**: nothing in `MANIFEST.json` rests on this file.  Each definition
`f_…` is the content, byte for byte, of a file in `/repo/assets/test`, and each
`t_…` is the tensor that `/repo/test/libnpy_tests.h` compares it with.  The
examples let the kernel evaluate the model of `save`, `load` and of the archive
reader and writer on them: saving the tensor gives exactly the asset, and loading
the asset gives exactly the tensor.  They are evidence that the definitions in
`Verif/Model` describe the code in `/repo`.
-/

set_option maxRecDepth 20000

namespace Npy.Validation

/-- A release build on a little-endian machine. -/
def cfg : Cfg := ⟨false, true, false⟩

/-- The tensor of the given element type, shape, order and values. -/
def mk {α : Type} (ops : ElemOps α) (shape : List Nat) (fortran : Bool) (vs : List α) :
    Except Err (Tensor α) :=
  (Tensor.new ops shape fortran).map fun x => { x with values := vs }

/-- `npy::save` of the tensor into an empty string stream. -/
def saved {α : Type} (ops : ElemOps α) (x : Except Err (Tensor α)) (e : Endian) :
    Except Err Bytes :=
  x.bind fun x => (save cfg ops x e OStream.empty).map (·.buf)

/-- What `npy::load` makes of the bytes: shape, order and values. -/
def loaded {α : Type} (ops : ElemOps α) (b : Bytes) : Except Err (List Nat × Bool × List α) :=
  ((load cfg ops (IStream.ofBytes b)).1).map fun x => (x.shape, x.fortranOrder, x.values)

/-- `/repo/assets/test/uint8.npy` (178 bytes). -/
def f_uint8 : Bytes := [
   147, 78, 85, 77, 80, 89, 1, 0, 118, 0, 123, 39, 100, 101, 115, 99, 114, 39, 58, 32, 39, 124,
   117, 49, 39, 44, 32, 39, 102, 111, 114, 116, 114, 97, 110, 95, 111, 114, 100, 101, 114, 39,
   58, 32, 70, 97, 108, 115, 101, 44, 32, 39, 115, 104, 97, 112, 101, 39, 58, 32, 40, 53, 44,
   32, 50, 44, 32, 53, 41, 44, 32, 125, 32, 32, 32, 32, 32, 32, 32, 32, 32, 32, 32, 32, 32, 32,
   32, 32, 32, 32, 32, 32, 32, 32, 32, 32, 32, 32, 32, 32, 32, 32, 32, 32, 32, 32, 32, 32, 32,
   32, 32, 32, 32, 32, 32, 32, 32, 32, 32, 32, 32, 32, 32, 32, 32, 32, 32, 10, 0, 1, 2, 3, 4,
   5, 6, 7, 8, 9, 10, 11, 12, 13, 14, 15, 16, 17, 18, 19, 20, 21, 22, 23, 24, 25, 26, 27, 28,
   29, 30, 31, 32, 33, 34, 35, 36, 37, 38, 39, 40, 41, 42, 43, 44, 45, 46, 47, 48, 49]

/-- The values of the tensor in `uint8.npy`. -/
def v_uint8 : List (List Nat) := [
   [0], [1], [2], [3], [4], [5], [6], [7], [8], [9], [10], [11], [12], [13], [14], [15], [16],
   [17], [18], [19], [20], [21], [22], [23], [24], [25], [26], [27], [28], [29], [30], [31],
   [32], [33], [34], [35], [36], [37], [38], [39], [40], [41], [42], [43], [44], [45], [46],
   [47], [48], [49]]

example : saved (fixedOps .uint8) (mk (fixedOps .uint8) [5, 2, 5] false v_uint8) .native = .ok f_uint8 := by
  decide +kernel

example : loaded (fixedOps .uint8) f_uint8 = .ok ([5, 2, 5], false, v_uint8) := by
  decide +kernel

/-- `/repo/assets/test/int8.npy` (178 bytes). -/
def f_int8 : Bytes := [
   147, 78, 85, 77, 80, 89, 1, 0, 118, 0, 123, 39, 100, 101, 115, 99, 114, 39, 58, 32, 39, 124,
   105, 49, 39, 44, 32, 39, 102, 111, 114, 116, 114, 97, 110, 95, 111, 114, 100, 101, 114, 39,
   58, 32, 70, 97, 108, 115, 101, 44, 32, 39, 115, 104, 97, 112, 101, 39, 58, 32, 40, 53, 44,
   32, 50, 44, 32, 53, 41, 44, 32, 125, 32, 32, 32, 32, 32, 32, 32, 32, 32, 32, 32, 32, 32, 32,
   32, 32, 32, 32, 32, 32, 32, 32, 32, 32, 32, 32, 32, 32, 32, 32, 32, 32, 32, 32, 32, 32, 32,
   32, 32, 32, 32, 32, 32, 32, 32, 32, 32, 32, 32, 32, 32, 32, 32, 32, 32, 10, 0, 1, 2, 3, 4,
   5, 6, 7, 8, 9, 10, 11, 12, 13, 14, 15, 16, 17, 18, 19, 20, 21, 22, 23, 24, 25, 26, 27, 28,
   29, 30, 31, 32, 33, 34, 35, 36, 37, 38, 39, 40, 41, 42, 43, 44, 45, 46, 47, 48, 49]

/-- The values of the tensor in `int8.npy`. -/
def v_int8 : List (List Nat) := [
   [0], [1], [2], [3], [4], [5], [6], [7], [8], [9], [10], [11], [12], [13], [14], [15], [16],
   [17], [18], [19], [20], [21], [22], [23], [24], [25], [26], [27], [28], [29], [30], [31],
   [32], [33], [34], [35], [36], [37], [38], [39], [40], [41], [42], [43], [44], [45], [46],
   [47], [48], [49]]

example : saved (fixedOps .int8) (mk (fixedOps .int8) [5, 2, 5] false v_int8) .native = .ok f_int8 := by
  decide +kernel

example : loaded (fixedOps .int8) f_int8 = .ok ([5, 2, 5], false, v_int8) := by
  decide +kernel

/-- `/repo/assets/test/uint16.npy` (228 bytes). -/
def f_uint16 : Bytes := [
   147, 78, 85, 77, 80, 89, 1, 0, 118, 0, 123, 39, 100, 101, 115, 99, 114, 39, 58, 32, 39, 60,
   117, 50, 39, 44, 32, 39, 102, 111, 114, 116, 114, 97, 110, 95, 111, 114, 100, 101, 114, 39,
   58, 32, 70, 97, 108, 115, 101, 44, 32, 39, 115, 104, 97, 112, 101, 39, 58, 32, 40, 53, 44,
   32, 50, 44, 32, 53, 41, 44, 32, 125, 32, 32, 32, 32, 32, 32, 32, 32, 32, 32, 32, 32, 32, 32,
   32, 32, 32, 32, 32, 32, 32, 32, 32, 32, 32, 32, 32, 32, 32, 32, 32, 32, 32, 32, 32, 32, 32,
   32, 32, 32, 32, 32, 32, 32, 32, 32, 32, 32, 32, 32, 32, 32, 32, 32, 32, 10, 0, 0, 1, 0, 2,
   0, 3, 0, 4, 0, 5, 0, 6, 0, 7, 0, 8, 0, 9, 0, 10, 0, 11, 0, 12, 0, 13, 0, 14, 0, 15, 0, 16,
   0, 17, 0, 18, 0, 19, 0, 20, 0, 21, 0, 22, 0, 23, 0, 24, 0, 25, 0, 26, 0, 27, 0, 28, 0, 29,
   0, 30, 0, 31, 0, 32, 0, 33, 0, 34, 0, 35, 0, 36, 0, 37, 0, 38, 0, 39, 0, 40, 0, 41, 0, 42,
   0, 43, 0, 44, 0, 45, 0, 46, 0, 47, 0, 48, 0, 49, 0]

/-- The values of the tensor in `uint16.npy`. -/
def v_uint16 : List (List Nat) := [
   [0], [1], [2], [3], [4], [5], [6], [7], [8], [9], [10], [11], [12], [13], [14], [15], [16],
   [17], [18], [19], [20], [21], [22], [23], [24], [25], [26], [27], [28], [29], [30], [31],
   [32], [33], [34], [35], [36], [37], [38], [39], [40], [41], [42], [43], [44], [45], [46],
   [47], [48], [49]]

example : saved (fixedOps .uint16) (mk (fixedOps .uint16) [5, 2, 5] false v_uint16) .little = .ok f_uint16 := by
  decide +kernel

example : loaded (fixedOps .uint16) f_uint16 = .ok ([5, 2, 5], false, v_uint16) := by
  decide +kernel

/-- `/repo/assets/test/int16.npy` (228 bytes). -/
def f_int16 : Bytes := [
   147, 78, 85, 77, 80, 89, 1, 0, 118, 0, 123, 39, 100, 101, 115, 99, 114, 39, 58, 32, 39, 60,
   105, 50, 39, 44, 32, 39, 102, 111, 114, 116, 114, 97, 110, 95, 111, 114, 100, 101, 114, 39,
   58, 32, 70, 97, 108, 115, 101, 44, 32, 39, 115, 104, 97, 112, 101, 39, 58, 32, 40, 53, 44,
   32, 50, 44, 32, 53, 41, 44, 32, 125, 32, 32, 32, 32, 32, 32, 32, 32, 32, 32, 32, 32, 32, 32,
   32, 32, 32, 32, 32, 32, 32, 32, 32, 32, 32, 32, 32, 32, 32, 32, 32, 32, 32, 32, 32, 32, 32,
   32, 32, 32, 32, 32, 32, 32, 32, 32, 32, 32, 32, 32, 32, 32, 32, 32, 32, 10, 0, 0, 1, 0, 2,
   0, 3, 0, 4, 0, 5, 0, 6, 0, 7, 0, 8, 0, 9, 0, 10, 0, 11, 0, 12, 0, 13, 0, 14, 0, 15, 0, 16,
   0, 17, 0, 18, 0, 19, 0, 20, 0, 21, 0, 22, 0, 23, 0, 24, 0, 25, 0, 26, 0, 27, 0, 28, 0, 29,
   0, 30, 0, 31, 0, 32, 0, 33, 0, 34, 0, 35, 0, 36, 0, 37, 0, 38, 0, 39, 0, 40, 0, 41, 0, 42,
   0, 43, 0, 44, 0, 45, 0, 46, 0, 47, 0, 48, 0, 49, 0]

/-- The values of the tensor in `int16.npy`. -/
def v_int16 : List (List Nat) := [
   [0], [1], [2], [3], [4], [5], [6], [7], [8], [9], [10], [11], [12], [13], [14], [15], [16],
   [17], [18], [19], [20], [21], [22], [23], [24], [25], [26], [27], [28], [29], [30], [31],
   [32], [33], [34], [35], [36], [37], [38], [39], [40], [41], [42], [43], [44], [45], [46],
   [47], [48], [49]]

example : saved (fixedOps .int16) (mk (fixedOps .int16) [5, 2, 5] false v_int16) .little = .ok f_int16 := by
  decide +kernel

example : loaded (fixedOps .int16) f_int16 = .ok ([5, 2, 5], false, v_int16) := by
  decide +kernel

/-- `/repo/assets/test/uint32.npy` (328 bytes). -/
def f_uint32 : Bytes := [
   147, 78, 85, 77, 80, 89, 1, 0, 118, 0, 123, 39, 100, 101, 115, 99, 114, 39, 58, 32, 39, 60,
   117, 52, 39, 44, 32, 39, 102, 111, 114, 116, 114, 97, 110, 95, 111, 114, 100, 101, 114, 39,
   58, 32, 70, 97, 108, 115, 101, 44, 32, 39, 115, 104, 97, 112, 101, 39, 58, 32, 40, 53, 44,
   32, 50, 44, 32, 53, 41, 44, 32, 125, 32, 32, 32, 32, 32, 32, 32, 32, 32, 32, 32, 32, 32, 32,
   32, 32, 32, 32, 32, 32, 32, 32, 32, 32, 32, 32, 32, 32, 32, 32, 32, 32, 32, 32, 32, 32, 32,
   32, 32, 32, 32, 32, 32, 32, 32, 32, 32, 32, 32, 32, 32, 32, 32, 32, 32, 10, 0, 0, 0, 0, 1,
   0, 0, 0, 2, 0, 0, 0, 3, 0, 0, 0, 4, 0, 0, 0, 5, 0, 0, 0, 6, 0, 0, 0, 7, 0, 0, 0, 8, 0, 0, 0,
   9, 0, 0, 0, 10, 0, 0, 0, 11, 0, 0, 0, 12, 0, 0, 0, 13, 0, 0, 0, 14, 0, 0, 0, 15, 0, 0, 0,
   16, 0, 0, 0, 17, 0, 0, 0, 18, 0, 0, 0, 19, 0, 0, 0, 20, 0, 0, 0, 21, 0, 0, 0, 22, 0, 0, 0,
   23, 0, 0, 0, 24, 0, 0, 0, 25, 0, 0, 0, 26, 0, 0, 0, 27, 0, 0, 0, 28, 0, 0, 0, 29, 0, 0, 0,
   30, 0, 0, 0, 31, 0, 0, 0, 32, 0, 0, 0, 33, 0, 0, 0, 34, 0, 0, 0, 35, 0, 0, 0, 36, 0, 0, 0,
   37, 0, 0, 0, 38, 0, 0, 0, 39, 0, 0, 0, 40, 0, 0, 0, 41, 0, 0, 0, 42, 0, 0, 0, 43, 0, 0, 0,
   44, 0, 0, 0, 45, 0, 0, 0, 46, 0, 0, 0, 47, 0, 0, 0, 48, 0, 0, 0, 49, 0, 0, 0]

/-- The values of the tensor in `uint32.npy`. -/
def v_uint32 : List (List Nat) := [
   [0], [1], [2], [3], [4], [5], [6], [7], [8], [9], [10], [11], [12], [13], [14], [15], [16],
   [17], [18], [19], [20], [21], [22], [23], [24], [25], [26], [27], [28], [29], [30], [31],
   [32], [33], [34], [35], [36], [37], [38], [39], [40], [41], [42], [43], [44], [45], [46],
   [47], [48], [49]]

example : saved (fixedOps .uint32) (mk (fixedOps .uint32) [5, 2, 5] false v_uint32) .little = .ok f_uint32 := by
  decide +kernel

example : loaded (fixedOps .uint32) f_uint32 = .ok ([5, 2, 5], false, v_uint32) := by
  decide +kernel

/-- `/repo/assets/test/int32.npy` (328 bytes). -/
def f_int32 : Bytes := [
   147, 78, 85, 77, 80, 89, 1, 0, 118, 0, 123, 39, 100, 101, 115, 99, 114, 39, 58, 32, 39, 60,
   105, 52, 39, 44, 32, 39, 102, 111, 114, 116, 114, 97, 110, 95, 111, 114, 100, 101, 114, 39,
   58, 32, 70, 97, 108, 115, 101, 44, 32, 39, 115, 104, 97, 112, 101, 39, 58, 32, 40, 53, 44,
   32, 50, 44, 32, 53, 41, 44, 32, 125, 32, 32, 32, 32, 32, 32, 32, 32, 32, 32, 32, 32, 32, 32,
   32, 32, 32, 32, 32, 32, 32, 32, 32, 32, 32, 32, 32, 32, 32, 32, 32, 32, 32, 32, 32, 32, 32,
   32, 32, 32, 32, 32, 32, 32, 32, 32, 32, 32, 32, 32, 32, 32, 32, 32, 32, 10, 0, 0, 0, 0, 1,
   0, 0, 0, 2, 0, 0, 0, 3, 0, 0, 0, 4, 0, 0, 0, 5, 0, 0, 0, 6, 0, 0, 0, 7, 0, 0, 0, 8, 0, 0, 0,
   9, 0, 0, 0, 10, 0, 0, 0, 11, 0, 0, 0, 12, 0, 0, 0, 13, 0, 0, 0, 14, 0, 0, 0, 15, 0, 0, 0,
   16, 0, 0, 0, 17, 0, 0, 0, 18, 0, 0, 0, 19, 0, 0, 0, 20, 0, 0, 0, 21, 0, 0, 0, 22, 0, 0, 0,
   23, 0, 0, 0, 24, 0, 0, 0, 25, 0, 0, 0, 26, 0, 0, 0, 27, 0, 0, 0, 28, 0, 0, 0, 29, 0, 0, 0,
   30, 0, 0, 0, 31, 0, 0, 0, 32, 0, 0, 0, 33, 0, 0, 0, 34, 0, 0, 0, 35, 0, 0, 0, 36, 0, 0, 0,
   37, 0, 0, 0, 38, 0, 0, 0, 39, 0, 0, 0, 40, 0, 0, 0, 41, 0, 0, 0, 42, 0, 0, 0, 43, 0, 0, 0,
   44, 0, 0, 0, 45, 0, 0, 0, 46, 0, 0, 0, 47, 0, 0, 0, 48, 0, 0, 0, 49, 0, 0, 0]

/-- The values of the tensor in `int32.npy`. -/
def v_int32 : List (List Nat) := [
   [0], [1], [2], [3], [4], [5], [6], [7], [8], [9], [10], [11], [12], [13], [14], [15], [16],
   [17], [18], [19], [20], [21], [22], [23], [24], [25], [26], [27], [28], [29], [30], [31],
   [32], [33], [34], [35], [36], [37], [38], [39], [40], [41], [42], [43], [44], [45], [46],
   [47], [48], [49]]

example : saved (fixedOps .int32) (mk (fixedOps .int32) [5, 2, 5] false v_int32) .little = .ok f_int32 := by
  decide +kernel

example : loaded (fixedOps .int32) f_int32 = .ok ([5, 2, 5], false, v_int32) := by
  decide +kernel

/-- `/repo/assets/test/uint64.npy` (528 bytes). -/
def f_uint64 : Bytes := [
   147, 78, 85, 77, 80, 89, 1, 0, 118, 0, 123, 39, 100, 101, 115, 99, 114, 39, 58, 32, 39, 60,
   117, 56, 39, 44, 32, 39, 102, 111, 114, 116, 114, 97, 110, 95, 111, 114, 100, 101, 114, 39,
   58, 32, 70, 97, 108, 115, 101, 44, 32, 39, 115, 104, 97, 112, 101, 39, 58, 32, 40, 53, 44,
   32, 50, 44, 32, 53, 41, 44, 32, 125, 32, 32, 32, 32, 32, 32, 32, 32, 32, 32, 32, 32, 32, 32,
   32, 32, 32, 32, 32, 32, 32, 32, 32, 32, 32, 32, 32, 32, 32, 32, 32, 32, 32, 32, 32, 32, 32,
   32, 32, 32, 32, 32, 32, 32, 32, 32, 32, 32, 32, 32, 32, 32, 32, 32, 32, 10, 0, 0, 0, 0, 0,
   0, 0, 0, 1, 0, 0, 0, 0, 0, 0, 0, 2, 0, 0, 0, 0, 0, 0, 0, 3, 0, 0, 0, 0, 0, 0, 0, 4, 0, 0, 0,
   0, 0, 0, 0, 5, 0, 0, 0, 0, 0, 0, 0, 6, 0, 0, 0, 0, 0, 0, 0, 7, 0, 0, 0, 0, 0, 0, 0, 8, 0, 0,
   0, 0, 0, 0, 0, 9, 0, 0, 0, 0, 0, 0, 0, 10, 0, 0, 0, 0, 0, 0, 0, 11, 0, 0, 0, 0, 0, 0, 0, 12,
   0, 0, 0, 0, 0, 0, 0, 13, 0, 0, 0, 0, 0, 0, 0, 14, 0, 0, 0, 0, 0, 0, 0, 15, 0, 0, 0, 0, 0, 0,
   0, 16, 0, 0, 0, 0, 0, 0, 0, 17, 0, 0, 0, 0, 0, 0, 0, 18, 0, 0, 0, 0, 0, 0, 0, 19, 0, 0, 0,
   0, 0, 0, 0, 20, 0, 0, 0, 0, 0, 0, 0, 21, 0, 0, 0, 0, 0, 0, 0, 22, 0, 0, 0, 0, 0, 0, 0, 23,
   0, 0, 0, 0, 0, 0, 0, 24, 0, 0, 0, 0, 0, 0, 0, 25, 0, 0, 0, 0, 0, 0, 0, 26, 0, 0, 0, 0, 0, 0,
   0, 27, 0, 0, 0, 0, 0, 0, 0, 28, 0, 0, 0, 0, 0, 0, 0, 29, 0, 0, 0, 0, 0, 0, 0, 30, 0, 0, 0,
   0, 0, 0, 0, 31, 0, 0, 0, 0, 0, 0, 0, 32, 0, 0, 0, 0, 0, 0, 0, 33, 0, 0, 0, 0, 0, 0, 0, 34,
   0, 0, 0, 0, 0, 0, 0, 35, 0, 0, 0, 0, 0, 0, 0, 36, 0, 0, 0, 0, 0, 0, 0, 37, 0, 0, 0, 0, 0, 0,
   0, 38, 0, 0, 0, 0, 0, 0, 0, 39, 0, 0, 0, 0, 0, 0, 0, 40, 0, 0, 0, 0, 0, 0, 0, 41, 0, 0, 0,
   0, 0, 0, 0, 42, 0, 0, 0, 0, 0, 0, 0, 43, 0, 0, 0, 0, 0, 0, 0, 44, 0, 0, 0, 0, 0, 0, 0, 45,
   0, 0, 0, 0, 0, 0, 0, 46, 0, 0, 0, 0, 0, 0, 0, 47, 0, 0, 0, 0, 0, 0, 0, 48, 0, 0, 0, 0, 0, 0,
   0, 49, 0, 0, 0, 0, 0, 0, 0]

/-- The values of the tensor in `uint64.npy`. -/
def v_uint64 : List (List Nat) := [
   [0], [1], [2], [3], [4], [5], [6], [7], [8], [9], [10], [11], [12], [13], [14], [15], [16],
   [17], [18], [19], [20], [21], [22], [23], [24], [25], [26], [27], [28], [29], [30], [31],
   [32], [33], [34], [35], [36], [37], [38], [39], [40], [41], [42], [43], [44], [45], [46],
   [47], [48], [49]]

example : saved (fixedOps .uint64) (mk (fixedOps .uint64) [5, 2, 5] false v_uint64) .little = .ok f_uint64 := by
  decide +kernel

example : loaded (fixedOps .uint64) f_uint64 = .ok ([5, 2, 5], false, v_uint64) := by
  decide +kernel

/-- `/repo/assets/test/int64.npy` (528 bytes). -/
def f_int64 : Bytes := [
   147, 78, 85, 77, 80, 89, 1, 0, 118, 0, 123, 39, 100, 101, 115, 99, 114, 39, 58, 32, 39, 60,
   105, 56, 39, 44, 32, 39, 102, 111, 114, 116, 114, 97, 110, 95, 111, 114, 100, 101, 114, 39,
   58, 32, 70, 97, 108, 115, 101, 44, 32, 39, 115, 104, 97, 112, 101, 39, 58, 32, 40, 53, 44,
   32, 50, 44, 32, 53, 41, 44, 32, 125, 32, 32, 32, 32, 32, 32, 32, 32, 32, 32, 32, 32, 32, 32,
   32, 32, 32, 32, 32, 32, 32, 32, 32, 32, 32, 32, 32, 32, 32, 32, 32, 32, 32, 32, 32, 32, 32,
   32, 32, 32, 32, 32, 32, 32, 32, 32, 32, 32, 32, 32, 32, 32, 32, 32, 32, 10, 0, 0, 0, 0, 0,
   0, 0, 0, 1, 0, 0, 0, 0, 0, 0, 0, 2, 0, 0, 0, 0, 0, 0, 0, 3, 0, 0, 0, 0, 0, 0, 0, 4, 0, 0, 0,
   0, 0, 0, 0, 5, 0, 0, 0, 0, 0, 0, 0, 6, 0, 0, 0, 0, 0, 0, 0, 7, 0, 0, 0, 0, 0, 0, 0, 8, 0, 0,
   0, 0, 0, 0, 0, 9, 0, 0, 0, 0, 0, 0, 0, 10, 0, 0, 0, 0, 0, 0, 0, 11, 0, 0, 0, 0, 0, 0, 0, 12,
   0, 0, 0, 0, 0, 0, 0, 13, 0, 0, 0, 0, 0, 0, 0, 14, 0, 0, 0, 0, 0, 0, 0, 15, 0, 0, 0, 0, 0, 0,
   0, 16, 0, 0, 0, 0, 0, 0, 0, 17, 0, 0, 0, 0, 0, 0, 0, 18, 0, 0, 0, 0, 0, 0, 0, 19, 0, 0, 0,
   0, 0, 0, 0, 20, 0, 0, 0, 0, 0, 0, 0, 21, 0, 0, 0, 0, 0, 0, 0, 22, 0, 0, 0, 0, 0, 0, 0, 23,
   0, 0, 0, 0, 0, 0, 0, 24, 0, 0, 0, 0, 0, 0, 0, 25, 0, 0, 0, 0, 0, 0, 0, 26, 0, 0, 0, 0, 0, 0,
   0, 27, 0, 0, 0, 0, 0, 0, 0, 28, 0, 0, 0, 0, 0, 0, 0, 29, 0, 0, 0, 0, 0, 0, 0, 30, 0, 0, 0,
   0, 0, 0, 0, 31, 0, 0, 0, 0, 0, 0, 0, 32, 0, 0, 0, 0, 0, 0, 0, 33, 0, 0, 0, 0, 0, 0, 0, 34,
   0, 0, 0, 0, 0, 0, 0, 35, 0, 0, 0, 0, 0, 0, 0, 36, 0, 0, 0, 0, 0, 0, 0, 37, 0, 0, 0, 0, 0, 0,
   0, 38, 0, 0, 0, 0, 0, 0, 0, 39, 0, 0, 0, 0, 0, 0, 0, 40, 0, 0, 0, 0, 0, 0, 0, 41, 0, 0, 0,
   0, 0, 0, 0, 42, 0, 0, 0, 0, 0, 0, 0, 43, 0, 0, 0, 0, 0, 0, 0, 44, 0, 0, 0, 0, 0, 0, 0, 45,
   0, 0, 0, 0, 0, 0, 0, 46, 0, 0, 0, 0, 0, 0, 0, 47, 0, 0, 0, 0, 0, 0, 0, 48, 0, 0, 0, 0, 0, 0,
   0, 49, 0, 0, 0, 0, 0, 0, 0]

/-- The values of the tensor in `int64.npy`. -/
def v_int64 : List (List Nat) := [
   [0], [1], [2], [3], [4], [5], [6], [7], [8], [9], [10], [11], [12], [13], [14], [15], [16],
   [17], [18], [19], [20], [21], [22], [23], [24], [25], [26], [27], [28], [29], [30], [31],
   [32], [33], [34], [35], [36], [37], [38], [39], [40], [41], [42], [43], [44], [45], [46],
   [47], [48], [49]]

example : saved (fixedOps .int64) (mk (fixedOps .int64) [5, 2, 5] false v_int64) .little = .ok f_int64 := by
  decide +kernel

example : loaded (fixedOps .int64) f_int64 = .ok ([5, 2, 5], false, v_int64) := by
  decide +kernel

/-- `/repo/assets/test/uint8_fortran.npy` (178 bytes). -/
def f_uint8_fortran : Bytes := [
   147, 78, 85, 77, 80, 89, 1, 0, 118, 0, 123, 39, 100, 101, 115, 99, 114, 39, 58, 32, 39, 124,
   117, 49, 39, 44, 32, 39, 102, 111, 114, 116, 114, 97, 110, 95, 111, 114, 100, 101, 114, 39,
   58, 32, 84, 114, 117, 101, 44, 32, 39, 115, 104, 97, 112, 101, 39, 58, 32, 40, 53, 44, 32,
   50, 44, 32, 53, 41, 44, 32, 125, 32, 32, 32, 32, 32, 32, 32, 32, 32, 32, 32, 32, 32, 32, 32,
   32, 32, 32, 32, 32, 32, 32, 32, 32, 32, 32, 32, 32, 32, 32, 32, 32, 32, 32, 32, 32, 32, 32,
   32, 32, 32, 32, 32, 32, 32, 32, 32, 32, 32, 32, 32, 32, 32, 32, 32, 32, 10, 0, 10, 20, 30,
   40, 5, 15, 25, 35, 45, 1, 11, 21, 31, 41, 6, 16, 26, 36, 46, 2, 12, 22, 32, 42, 7, 17, 27,
   37, 47, 3, 13, 23, 33, 43, 8, 18, 28, 38, 48, 4, 14, 24, 34, 44, 9, 19, 29, 39, 49]

/-- The values of the tensor in `uint8_fortran.npy`. -/
def v_uint8_fortran : List (List Nat) := [
   [0], [10], [20], [30], [40], [5], [15], [25], [35], [45], [1], [11], [21], [31], [41], [6],
   [16], [26], [36], [46], [2], [12], [22], [32], [42], [7], [17], [27], [37], [47], [3], [13],
   [23], [33], [43], [8], [18], [28], [38], [48], [4], [14], [24], [34], [44], [9], [19], [29],
   [39], [49]]

example : saved (fixedOps .uint8) (mk (fixedOps .uint8) [5, 2, 5] true v_uint8_fortran) .native = .ok f_uint8_fortran := by
  decide +kernel

example : loaded (fixedOps .uint8) f_uint8_fortran = .ok ([5, 2, 5], true, v_uint8_fortran) := by
  decide +kernel

/-- `/repo/assets/test/int32_big.npy` (328 bytes). -/
def f_int32_big : Bytes := [
   147, 78, 85, 77, 80, 89, 1, 0, 118, 0, 123, 39, 100, 101, 115, 99, 114, 39, 58, 32, 39, 62,
   105, 52, 39, 44, 32, 39, 102, 111, 114, 116, 114, 97, 110, 95, 111, 114, 100, 101, 114, 39,
   58, 32, 70, 97, 108, 115, 101, 44, 32, 39, 115, 104, 97, 112, 101, 39, 58, 32, 40, 53, 44,
   32, 50, 44, 32, 53, 41, 44, 32, 125, 32, 32, 32, 32, 32, 32, 32, 32, 32, 32, 32, 32, 32, 32,
   32, 32, 32, 32, 32, 32, 32, 32, 32, 32, 32, 32, 32, 32, 32, 32, 32, 32, 32, 32, 32, 32, 32,
   32, 32, 32, 32, 32, 32, 32, 32, 32, 32, 32, 32, 32, 32, 32, 32, 32, 32, 10, 0, 0, 0, 0, 0,
   0, 0, 1, 0, 0, 0, 2, 0, 0, 0, 3, 0, 0, 0, 4, 0, 0, 0, 5, 0, 0, 0, 6, 0, 0, 0, 7, 0, 0, 0, 8,
   0, 0, 0, 9, 0, 0, 0, 10, 0, 0, 0, 11, 0, 0, 0, 12, 0, 0, 0, 13, 0, 0, 0, 14, 0, 0, 0, 15, 0,
   0, 0, 16, 0, 0, 0, 17, 0, 0, 0, 18, 0, 0, 0, 19, 0, 0, 0, 20, 0, 0, 0, 21, 0, 0, 0, 22, 0,
   0, 0, 23, 0, 0, 0, 24, 0, 0, 0, 25, 0, 0, 0, 26, 0, 0, 0, 27, 0, 0, 0, 28, 0, 0, 0, 29, 0,
   0, 0, 30, 0, 0, 0, 31, 0, 0, 0, 32, 0, 0, 0, 33, 0, 0, 0, 34, 0, 0, 0, 35, 0, 0, 0, 36, 0,
   0, 0, 37, 0, 0, 0, 38, 0, 0, 0, 39, 0, 0, 0, 40, 0, 0, 0, 41, 0, 0, 0, 42, 0, 0, 0, 43, 0,
   0, 0, 44, 0, 0, 0, 45, 0, 0, 0, 46, 0, 0, 0, 47, 0, 0, 0, 48, 0, 0, 0, 49]

/-- The values of the tensor in `int32_big.npy`. -/
def v_int32_big : List (List Nat) := [
   [0], [1], [2], [3], [4], [5], [6], [7], [8], [9], [10], [11], [12], [13], [14], [15], [16],
   [17], [18], [19], [20], [21], [22], [23], [24], [25], [26], [27], [28], [29], [30], [31],
   [32], [33], [34], [35], [36], [37], [38], [39], [40], [41], [42], [43], [44], [45], [46],
   [47], [48], [49]]

example : saved (fixedOps .int32) (mk (fixedOps .int32) [5, 2, 5] false v_int32_big) .big = .ok f_int32_big := by
  decide +kernel

example : loaded (fixedOps .int32) f_int32_big = .ok ([5, 2, 5], false, v_int32_big) := by
  decide +kernel

/-- `/repo/assets/test/int32_scalar.npy` (132 bytes). -/
def f_int32_scalar : Bytes := [
   147, 78, 85, 77, 80, 89, 1, 0, 118, 0, 123, 39, 100, 101, 115, 99, 114, 39, 58, 32, 39, 60,
   105, 52, 39, 44, 32, 39, 102, 111, 114, 116, 114, 97, 110, 95, 111, 114, 100, 101, 114, 39,
   58, 32, 70, 97, 108, 115, 101, 44, 32, 39, 115, 104, 97, 112, 101, 39, 58, 32, 40, 41, 44,
   32, 125, 32, 32, 32, 32, 32, 32, 32, 32, 32, 32, 32, 32, 32, 32, 32, 32, 32, 32, 32, 32, 32,
   32, 32, 32, 32, 32, 32, 32, 32, 32, 32, 32, 32, 32, 32, 32, 32, 32, 32, 32, 32, 32, 32, 32,
   32, 32, 32, 32, 32, 32, 32, 32, 32, 32, 32, 32, 32, 32, 32, 32, 32, 32, 10, 42, 0, 0, 0]

/-- The values of the tensor in `int32_scalar.npy`. -/
def v_int32_scalar : List (List Nat) := [
   [42]]

example : saved (fixedOps .int32) (mk (fixedOps .int32) [] false v_int32_scalar) .little = .ok f_int32_scalar := by
  decide +kernel

example : loaded (fixedOps .int32) f_int32_scalar = .ok ([], false, v_int32_scalar) := by
  decide +kernel

/-- `/repo/assets/test/int32_array.npy` (228 bytes). -/
def f_int32_array : Bytes := [
   147, 78, 85, 77, 80, 89, 1, 0, 118, 0, 123, 39, 100, 101, 115, 99, 114, 39, 58, 32, 39, 60,
   105, 52, 39, 44, 32, 39, 102, 111, 114, 116, 114, 97, 110, 95, 111, 114, 100, 101, 114, 39,
   58, 32, 70, 97, 108, 115, 101, 44, 32, 39, 115, 104, 97, 112, 101, 39, 58, 32, 40, 50, 53,
   44, 41, 44, 32, 125, 32, 32, 32, 32, 32, 32, 32, 32, 32, 32, 32, 32, 32, 32, 32, 32, 32, 32,
   32, 32, 32, 32, 32, 32, 32, 32, 32, 32, 32, 32, 32, 32, 32, 32, 32, 32, 32, 32, 32, 32, 32,
   32, 32, 32, 32, 32, 32, 32, 32, 32, 32, 32, 32, 32, 32, 32, 32, 32, 32, 10, 0, 0, 0, 0, 1,
   0, 0, 0, 2, 0, 0, 0, 3, 0, 0, 0, 4, 0, 0, 0, 5, 0, 0, 0, 6, 0, 0, 0, 7, 0, 0, 0, 8, 0, 0, 0,
   9, 0, 0, 0, 10, 0, 0, 0, 11, 0, 0, 0, 12, 0, 0, 0, 13, 0, 0, 0, 14, 0, 0, 0, 15, 0, 0, 0,
   16, 0, 0, 0, 17, 0, 0, 0, 18, 0, 0, 0, 19, 0, 0, 0, 20, 0, 0, 0, 21, 0, 0, 0, 22, 0, 0, 0,
   23, 0, 0, 0, 24, 0, 0, 0]

/-- The values of the tensor in `int32_array.npy`. -/
def v_int32_array : List (List Nat) := [
   [0], [1], [2], [3], [4], [5], [6], [7], [8], [9], [10], [11], [12], [13], [14], [15], [16],
   [17], [18], [19], [20], [21], [22], [23], [24]]

example : saved (fixedOps .int32) (mk (fixedOps .int32) [25] false v_int32_array) .little = .ok f_int32_array := by
  decide +kernel

example : loaded (fixedOps .int32) f_int32_array = .ok ([25], false, v_int32_array) := by
  decide +kernel

/-- `/repo/assets/test/float32.npy` (328 bytes). -/
def f_float32 : Bytes := [
   147, 78, 85, 77, 80, 89, 1, 0, 118, 0, 123, 39, 100, 101, 115, 99, 114, 39, 58, 32, 39, 60,
   102, 52, 39, 44, 32, 39, 102, 111, 114, 116, 114, 97, 110, 95, 111, 114, 100, 101, 114, 39,
   58, 32, 70, 97, 108, 115, 101, 44, 32, 39, 115, 104, 97, 112, 101, 39, 58, 32, 40, 53, 44,
   32, 50, 44, 32, 53, 41, 44, 32, 125, 32, 32, 32, 32, 32, 32, 32, 32, 32, 32, 32, 32, 32, 32,
   32, 32, 32, 32, 32, 32, 32, 32, 32, 32, 32, 32, 32, 32, 32, 32, 32, 32, 32, 32, 32, 32, 32,
   32, 32, 32, 32, 32, 32, 32, 32, 32, 32, 32, 32, 32, 32, 32, 32, 32, 32, 10, 0, 0, 0, 0, 0,
   0, 128, 63, 0, 0, 0, 64, 0, 0, 64, 64, 0, 0, 128, 64, 0, 0, 160, 64, 0, 0, 192, 64, 0, 0,
   224, 64, 0, 0, 0, 65, 0, 0, 16, 65, 0, 0, 32, 65, 0, 0, 48, 65, 0, 0, 64, 65, 0, 0, 80, 65,
   0, 0, 96, 65, 0, 0, 112, 65, 0, 0, 128, 65, 0, 0, 136, 65, 0, 0, 144, 65, 0, 0, 152, 65, 0,
   0, 160, 65, 0, 0, 168, 65, 0, 0, 176, 65, 0, 0, 184, 65, 0, 0, 192, 65, 0, 0, 200, 65, 0, 0,
   208, 65, 0, 0, 216, 65, 0, 0, 224, 65, 0, 0, 232, 65, 0, 0, 240, 65, 0, 0, 248, 65, 0, 0, 0,
   66, 0, 0, 4, 66, 0, 0, 8, 66, 0, 0, 12, 66, 0, 0, 16, 66, 0, 0, 20, 66, 0, 0, 24, 66, 0, 0,
   28, 66, 0, 0, 32, 66, 0, 0, 36, 66, 0, 0, 40, 66, 0, 0, 44, 66, 0, 0, 48, 66, 0, 0, 52, 66,
   0, 0, 56, 66, 0, 0, 60, 66, 0, 0, 64, 66, 0, 0, 68, 66]

/-- The values of the tensor in `float32.npy`. -/
def v_float32 : List (List Nat) := [
   [0], [1065353216], [1073741824], [1077936128], [1082130432], [1084227584], [1086324736],
   [1088421888], [1090519040], [1091567616], [1092616192], [1093664768], [1094713344],
   [1095761920], [1096810496], [1097859072], [1098907648], [1099431936], [1099956224],
   [1100480512], [1101004800], [1101529088], [1102053376], [1102577664], [1103101952],
   [1103626240], [1104150528], [1104674816], [1105199104], [1105723392], [1106247680],
   [1106771968], [1107296256], [1107558400], [1107820544], [1108082688], [1108344832],
   [1108606976], [1108869120], [1109131264], [1109393408], [1109655552], [1109917696],
   [1110179840], [1110441984], [1110704128], [1110966272], [1111228416], [1111490560],
   [1111752704]]

example : saved (fixedOps .float32) (mk (fixedOps .float32) [5, 2, 5] false v_float32) .little = .ok f_float32 := by
  decide +kernel

example : loaded (fixedOps .float32) f_float32 = .ok ([5, 2, 5], false, v_float32) := by
  decide +kernel

/-- `/repo/assets/test/float64.npy` (528 bytes). -/
def f_float64 : Bytes := [
   147, 78, 85, 77, 80, 89, 1, 0, 118, 0, 123, 39, 100, 101, 115, 99, 114, 39, 58, 32, 39, 60,
   102, 56, 39, 44, 32, 39, 102, 111, 114, 116, 114, 97, 110, 95, 111, 114, 100, 101, 114, 39,
   58, 32, 70, 97, 108, 115, 101, 44, 32, 39, 115, 104, 97, 112, 101, 39, 58, 32, 40, 53, 44,
   32, 50, 44, 32, 53, 41, 44, 32, 125, 32, 32, 32, 32, 32, 32, 32, 32, 32, 32, 32, 32, 32, 32,
   32, 32, 32, 32, 32, 32, 32, 32, 32, 32, 32, 32, 32, 32, 32, 32, 32, 32, 32, 32, 32, 32, 32,
   32, 32, 32, 32, 32, 32, 32, 32, 32, 32, 32, 32, 32, 32, 32, 32, 32, 32, 10, 0, 0, 0, 0, 0,
   0, 0, 0, 0, 0, 0, 0, 0, 0, 240, 63, 0, 0, 0, 0, 0, 0, 0, 64, 0, 0, 0, 0, 0, 0, 8, 64, 0, 0,
   0, 0, 0, 0, 16, 64, 0, 0, 0, 0, 0, 0, 20, 64, 0, 0, 0, 0, 0, 0, 24, 64, 0, 0, 0, 0, 0, 0,
   28, 64, 0, 0, 0, 0, 0, 0, 32, 64, 0, 0, 0, 0, 0, 0, 34, 64, 0, 0, 0, 0, 0, 0, 36, 64, 0, 0,
   0, 0, 0, 0, 38, 64, 0, 0, 0, 0, 0, 0, 40, 64, 0, 0, 0, 0, 0, 0, 42, 64, 0, 0, 0, 0, 0, 0,
   44, 64, 0, 0, 0, 0, 0, 0, 46, 64, 0, 0, 0, 0, 0, 0, 48, 64, 0, 0, 0, 0, 0, 0, 49, 64, 0, 0,
   0, 0, 0, 0, 50, 64, 0, 0, 0, 0, 0, 0, 51, 64, 0, 0, 0, 0, 0, 0, 52, 64, 0, 0, 0, 0, 0, 0,
   53, 64, 0, 0, 0, 0, 0, 0, 54, 64, 0, 0, 0, 0, 0, 0, 55, 64, 0, 0, 0, 0, 0, 0, 56, 64, 0, 0,
   0, 0, 0, 0, 57, 64, 0, 0, 0, 0, 0, 0, 58, 64, 0, 0, 0, 0, 0, 0, 59, 64, 0, 0, 0, 0, 0, 0,
   60, 64, 0, 0, 0, 0, 0, 0, 61, 64, 0, 0, 0, 0, 0, 0, 62, 64, 0, 0, 0, 0, 0, 0, 63, 64, 0, 0,
   0, 0, 0, 0, 64, 64, 0, 0, 0, 0, 0, 128, 64, 64, 0, 0, 0, 0, 0, 0, 65, 64, 0, 0, 0, 0, 0,
   128, 65, 64, 0, 0, 0, 0, 0, 0, 66, 64, 0, 0, 0, 0, 0, 128, 66, 64, 0, 0, 0, 0, 0, 0, 67, 64,
   0, 0, 0, 0, 0, 128, 67, 64, 0, 0, 0, 0, 0, 0, 68, 64, 0, 0, 0, 0, 0, 128, 68, 64, 0, 0, 0,
   0, 0, 0, 69, 64, 0, 0, 0, 0, 0, 128, 69, 64, 0, 0, 0, 0, 0, 0, 70, 64, 0, 0, 0, 0, 0, 128,
   70, 64, 0, 0, 0, 0, 0, 0, 71, 64, 0, 0, 0, 0, 0, 128, 71, 64, 0, 0, 0, 0, 0, 0, 72, 64, 0,
   0, 0, 0, 0, 128, 72, 64]

/-- The values of the tensor in `float64.npy`. -/
def v_float64 : List (List Nat) := [
   [0], [4607182418800017408], [4611686018427387904], [4613937818241073152],
   [4616189618054758400], [4617315517961601024], [4618441417868443648], [4619567317775286272],
   [4620693217682128896], [4621256167635550208], [4621819117588971520], [4622382067542392832],
   [4622945017495814144], [4623507967449235456], [4624070917402656768], [4624633867356078080],
   [4625196817309499392], [4625478292286210048], [4625759767262920704], [4626041242239631360],
   [4626322717216342016], [4626604192193052672], [4626885667169763328], [4627167142146473984],
   [4627448617123184640], [4627730092099895296], [4628011567076605952], [4628293042053316608],
   [4628574517030027264], [4628855992006737920], [4629137466983448576], [4629418941960159232],
   [4629700416936869888], [4629841154425225216], [4629981891913580544], [4630122629401935872],
   [4630263366890291200], [4630404104378646528], [4630544841867001856], [4630685579355357184],
   [4630826316843712512], [4630967054332067840], [4631107791820423168], [4631248529308778496],
   [4631389266797133824], [4631530004285489152], [4631670741773844480], [4631811479262199808],
   [4631952216750555136], [4632092954238910464]]

example : saved (fixedOps .float64) (mk (fixedOps .float64) [5, 2, 5] false v_float64) .little = .ok f_float64 := by
  decide +kernel

example : loaded (fixedOps .float64) f_float64 = .ok ([5, 2, 5], false, v_float64) := by
  decide +kernel

/-- `/repo/assets/test/complex64.npy` (528 bytes). -/
def f_complex64 : Bytes := [
   147, 78, 85, 77, 80, 89, 1, 0, 118, 0, 123, 39, 100, 101, 115, 99, 114, 39, 58, 32, 39, 60,
   99, 56, 39, 44, 32, 39, 102, 111, 114, 116, 114, 97, 110, 95, 111, 114, 100, 101, 114, 39,
   58, 32, 70, 97, 108, 115, 101, 44, 32, 39, 115, 104, 97, 112, 101, 39, 58, 32, 40, 53, 44,
   32, 50, 44, 32, 53, 41, 44, 32, 125, 32, 32, 32, 32, 32, 32, 32, 32, 32, 32, 32, 32, 32, 32,
   32, 32, 32, 32, 32, 32, 32, 32, 32, 32, 32, 32, 32, 32, 32, 32, 32, 32, 32, 32, 32, 32, 32,
   32, 32, 32, 32, 32, 32, 32, 32, 32, 32, 32, 32, 32, 32, 32, 32, 32, 32, 10, 0, 0, 0, 0, 0,
   0, 0, 0, 0, 0, 128, 63, 0, 0, 0, 0, 0, 0, 0, 64, 0, 0, 0, 0, 0, 0, 64, 64, 0, 0, 0, 0, 0, 0,
   128, 64, 0, 0, 0, 0, 0, 0, 160, 64, 0, 0, 0, 0, 0, 0, 192, 64, 0, 0, 0, 0, 0, 0, 224, 64, 0,
   0, 0, 0, 0, 0, 0, 65, 0, 0, 0, 0, 0, 0, 16, 65, 0, 0, 0, 0, 0, 0, 32, 65, 0, 0, 0, 0, 0, 0,
   48, 65, 0, 0, 0, 0, 0, 0, 64, 65, 0, 0, 0, 0, 0, 0, 80, 65, 0, 0, 0, 0, 0, 0, 96, 65, 0, 0,
   0, 0, 0, 0, 112, 65, 0, 0, 0, 0, 0, 0, 128, 65, 0, 0, 0, 0, 0, 0, 136, 65, 0, 0, 0, 0, 0, 0,
   144, 65, 0, 0, 0, 0, 0, 0, 152, 65, 0, 0, 0, 0, 0, 0, 160, 65, 0, 0, 0, 0, 0, 0, 168, 65, 0,
   0, 0, 0, 0, 0, 176, 65, 0, 0, 0, 0, 0, 0, 184, 65, 0, 0, 0, 0, 0, 0, 192, 65, 0, 0, 0, 0, 0,
   0, 200, 65, 0, 0, 0, 0, 0, 0, 208, 65, 0, 0, 0, 0, 0, 0, 216, 65, 0, 0, 0, 0, 0, 0, 224, 65,
   0, 0, 0, 0, 0, 0, 232, 65, 0, 0, 0, 0, 0, 0, 240, 65, 0, 0, 0, 0, 0, 0, 248, 65, 0, 0, 0, 0,
   0, 0, 0, 66, 0, 0, 0, 0, 0, 0, 4, 66, 0, 0, 0, 0, 0, 0, 8, 66, 0, 0, 0, 0, 0, 0, 12, 66, 0,
   0, 0, 0, 0, 0, 16, 66, 0, 0, 0, 0, 0, 0, 20, 66, 0, 0, 0, 0, 0, 0, 24, 66, 0, 0, 0, 0, 0, 0,
   28, 66, 0, 0, 0, 0, 0, 0, 32, 66, 0, 0, 0, 0, 0, 0, 36, 66, 0, 0, 0, 0, 0, 0, 40, 66, 0, 0,
   0, 0, 0, 0, 44, 66, 0, 0, 0, 0, 0, 0, 48, 66, 0, 0, 0, 0, 0, 0, 52, 66, 0, 0, 0, 0, 0, 0,
   56, 66, 0, 0, 0, 0, 0, 0, 60, 66, 0, 0, 0, 0, 0, 0, 64, 66, 0, 0, 0, 0, 0, 0, 68, 66, 0, 0,
   0, 0]

/-- The values of the tensor in `complex64.npy`. -/
def v_complex64 : List (List Nat) := [
   [0, 0], [1065353216, 0], [1073741824, 0], [1077936128, 0], [1082130432, 0], [1084227584, 0],
   [1086324736, 0], [1088421888, 0], [1090519040, 0], [1091567616, 0], [1092616192, 0],
   [1093664768, 0], [1094713344, 0], [1095761920, 0], [1096810496, 0], [1097859072, 0],
   [1098907648, 0], [1099431936, 0], [1099956224, 0], [1100480512, 0], [1101004800, 0],
   [1101529088, 0], [1102053376, 0], [1102577664, 0], [1103101952, 0], [1103626240, 0],
   [1104150528, 0], [1104674816, 0], [1105199104, 0], [1105723392, 0], [1106247680, 0],
   [1106771968, 0], [1107296256, 0], [1107558400, 0], [1107820544, 0], [1108082688, 0],
   [1108344832, 0], [1108606976, 0], [1108869120, 0], [1109131264, 0], [1109393408, 0],
   [1109655552, 0], [1109917696, 0], [1110179840, 0], [1110441984, 0], [1110704128, 0],
   [1110966272, 0], [1111228416, 0], [1111490560, 0], [1111752704, 0]]

example : saved (fixedOps .complex64) (mk (fixedOps .complex64) [5, 2, 5] false v_complex64) .little = .ok f_complex64 := by
  decide +kernel

example : loaded (fixedOps .complex64) f_complex64 = .ok ([5, 2, 5], false, v_complex64) := by
  decide +kernel

/-- `/repo/assets/test/complex128.npy` (928 bytes). -/
def f_complex128 : Bytes := [
   147, 78, 85, 77, 80, 89, 1, 0, 118, 0, 123, 39, 100, 101, 115, 99, 114, 39, 58, 32, 39, 60,
   99, 49, 54, 39, 44, 32, 39, 102, 111, 114, 116, 114, 97, 110, 95, 111, 114, 100, 101, 114,
   39, 58, 32, 70, 97, 108, 115, 101, 44, 32, 39, 115, 104, 97, 112, 101, 39, 58, 32, 40, 53,
   44, 32, 50, 44, 32, 53, 41, 44, 32, 125, 32, 32, 32, 32, 32, 32, 32, 32, 32, 32, 32, 32, 32,
   32, 32, 32, 32, 32, 32, 32, 32, 32, 32, 32, 32, 32, 32, 32, 32, 32, 32, 32, 32, 32, 32, 32,
   32, 32, 32, 32, 32, 32, 32, 32, 32, 32, 32, 32, 32, 32, 32, 32, 32, 32, 10, 0, 0, 0, 0, 0,
   0, 0, 0, 0, 0, 0, 0, 0, 0, 0, 0, 0, 0, 0, 0, 0, 0, 240, 63, 0, 0, 0, 0, 0, 0, 0, 0, 0, 0, 0,
   0, 0, 0, 0, 64, 0, 0, 0, 0, 0, 0, 0, 0, 0, 0, 0, 0, 0, 0, 8, 64, 0, 0, 0, 0, 0, 0, 0, 0, 0,
   0, 0, 0, 0, 0, 16, 64, 0, 0, 0, 0, 0, 0, 0, 0, 0, 0, 0, 0, 0, 0, 20, 64, 0, 0, 0, 0, 0, 0,
   0, 0, 0, 0, 0, 0, 0, 0, 24, 64, 0, 0, 0, 0, 0, 0, 0, 0, 0, 0, 0, 0, 0, 0, 28, 64, 0, 0, 0,
   0, 0, 0, 0, 0, 0, 0, 0, 0, 0, 0, 32, 64, 0, 0, 0, 0, 0, 0, 0, 0, 0, 0, 0, 0, 0, 0, 34, 64,
   0, 0, 0, 0, 0, 0, 0, 0, 0, 0, 0, 0, 0, 0, 36, 64, 0, 0, 0, 0, 0, 0, 0, 0, 0, 0, 0, 0, 0, 0,
   38, 64, 0, 0, 0, 0, 0, 0, 0, 0, 0, 0, 0, 0, 0, 0, 40, 64, 0, 0, 0, 0, 0, 0, 0, 0, 0, 0, 0,
   0, 0, 0, 42, 64, 0, 0, 0, 0, 0, 0, 0, 0, 0, 0, 0, 0, 0, 0, 44, 64, 0, 0, 0, 0, 0, 0, 0, 0,
   0, 0, 0, 0, 0, 0, 46, 64, 0, 0, 0, 0, 0, 0, 0, 0, 0, 0, 0, 0, 0, 0, 48, 64, 0, 0, 0, 0, 0,
   0, 0, 0, 0, 0, 0, 0, 0, 0, 49, 64, 0, 0, 0, 0, 0, 0, 0, 0, 0, 0, 0, 0, 0, 0, 50, 64, 0, 0,
   0, 0, 0, 0, 0, 0, 0, 0, 0, 0, 0, 0, 51, 64, 0, 0, 0, 0, 0, 0, 0, 0, 0, 0, 0, 0, 0, 0, 52,
   64, 0, 0, 0, 0, 0, 0, 0, 0, 0, 0, 0, 0, 0, 0, 53, 64, 0, 0, 0, 0, 0, 0, 0, 0, 0, 0, 0, 0, 0,
   0, 54, 64, 0, 0, 0, 0, 0, 0, 0, 0, 0, 0, 0, 0, 0, 0, 55, 64, 0, 0, 0, 0, 0, 0, 0, 0, 0, 0,
   0, 0, 0, 0, 56, 64, 0, 0, 0, 0, 0, 0, 0, 0, 0, 0, 0, 0, 0, 0, 57, 64, 0, 0, 0, 0, 0, 0, 0,
   0, 0, 0, 0, 0, 0, 0, 58, 64, 0, 0, 0, 0, 0, 0, 0, 0, 0, 0, 0, 0, 0, 0, 59, 64, 0, 0, 0, 0,
   0, 0, 0, 0, 0, 0, 0, 0, 0, 0, 60, 64, 0, 0, 0, 0, 0, 0, 0, 0, 0, 0, 0, 0, 0, 0, 61, 64, 0,
   0, 0, 0, 0, 0, 0, 0, 0, 0, 0, 0, 0, 0, 62, 64, 0, 0, 0, 0, 0, 0, 0, 0, 0, 0, 0, 0, 0, 0, 63,
   64, 0, 0, 0, 0, 0, 0, 0, 0, 0, 0, 0, 0, 0, 0, 64, 64, 0, 0, 0, 0, 0, 0, 0, 0, 0, 0, 0, 0, 0,
   128, 64, 64, 0, 0, 0, 0, 0, 0, 0, 0, 0, 0, 0, 0, 0, 0, 65, 64, 0, 0, 0, 0, 0, 0, 0, 0, 0, 0,
   0, 0, 0, 128, 65, 64, 0, 0, 0, 0, 0, 0, 0, 0, 0, 0, 0, 0, 0, 0, 66, 64, 0, 0, 0, 0, 0, 0, 0,
   0, 0, 0, 0, 0, 0, 128, 66, 64, 0, 0, 0, 0, 0, 0, 0, 0, 0, 0, 0, 0, 0, 0, 67, 64, 0, 0, 0, 0,
   0, 0, 0, 0, 0, 0, 0, 0, 0, 128, 67, 64, 0, 0, 0, 0, 0, 0, 0, 0, 0, 0, 0, 0, 0, 0, 68, 64, 0,
   0, 0, 0, 0, 0, 0, 0, 0, 0, 0, 0, 0, 128, 68, 64, 0, 0, 0, 0, 0, 0, 0, 0, 0, 0, 0, 0, 0, 0,
   69, 64, 0, 0, 0, 0, 0, 0, 0, 0, 0, 0, 0, 0, 0, 128, 69, 64, 0, 0, 0, 0, 0, 0, 0, 0, 0, 0, 0,
   0, 0, 0, 70, 64, 0, 0, 0, 0, 0, 0, 0, 0, 0, 0, 0, 0, 0, 128, 70, 64, 0, 0, 0, 0, 0, 0, 0, 0,
   0, 0, 0, 0, 0, 0, 71, 64, 0, 0, 0, 0, 0, 0, 0, 0, 0, 0, 0, 0, 0, 128, 71, 64, 0, 0, 0, 0, 0,
   0, 0, 0, 0, 0, 0, 0, 0, 0, 72, 64, 0, 0, 0, 0, 0, 0, 0, 0, 0, 0, 0, 0, 0, 128, 72, 64, 0, 0,
   0, 0, 0, 0, 0, 0]

/-- The values of the tensor in `complex128.npy`. -/
def v_complex128 : List (List Nat) := [
   [0, 0], [4607182418800017408, 0], [4611686018427387904, 0], [4613937818241073152, 0],
   [4616189618054758400, 0], [4617315517961601024, 0], [4618441417868443648, 0],
   [4619567317775286272, 0], [4620693217682128896, 0], [4621256167635550208, 0],
   [4621819117588971520, 0], [4622382067542392832, 0], [4622945017495814144, 0],
   [4623507967449235456, 0], [4624070917402656768, 0], [4624633867356078080, 0],
   [4625196817309499392, 0], [4625478292286210048, 0], [4625759767262920704, 0],
   [4626041242239631360, 0], [4626322717216342016, 0], [4626604192193052672, 0],
   [4626885667169763328, 0], [4627167142146473984, 0], [4627448617123184640, 0],
   [4627730092099895296, 0], [4628011567076605952, 0], [4628293042053316608, 0],
   [4628574517030027264, 0], [4628855992006737920, 0], [4629137466983448576, 0],
   [4629418941960159232, 0], [4629700416936869888, 0], [4629841154425225216, 0],
   [4629981891913580544, 0], [4630122629401935872, 0], [4630263366890291200, 0],
   [4630404104378646528, 0], [4630544841867001856, 0], [4630685579355357184, 0],
   [4630826316843712512, 0], [4630967054332067840, 0], [4631107791820423168, 0],
   [4631248529308778496, 0], [4631389266797133824, 0], [4631530004285489152, 0],
   [4631670741773844480, 0], [4631811479262199808, 0], [4631952216750555136, 0],
   [4632092954238910464, 0]]

example : saved (fixedOps .complex128) (mk (fixedOps .complex128) [5, 2, 5] false v_complex128) .little = .ok f_complex128 := by
  decide +kernel

example : loaded (fixedOps .complex128) f_complex128 = .ok ([5, 2, 5], false, v_complex128) := by
  decide +kernel

/-- `/repo/assets/test/bool.npy` (178 bytes). -/
def f_bool : Bytes := [
   147, 78, 85, 77, 80, 89, 1, 0, 118, 0, 123, 39, 100, 101, 115, 99, 114, 39, 58, 32, 39, 124,
   98, 49, 39, 44, 32, 39, 102, 111, 114, 116, 114, 97, 110, 95, 111, 114, 100, 101, 114, 39,
   58, 32, 70, 97, 108, 115, 101, 44, 32, 39, 115, 104, 97, 112, 101, 39, 58, 32, 40, 53, 44,
   32, 50, 44, 32, 53, 41, 44, 32, 125, 32, 32, 32, 32, 32, 32, 32, 32, 32, 32, 32, 32, 32, 32,
   32, 32, 32, 32, 32, 32, 32, 32, 32, 32, 32, 32, 32, 32, 32, 32, 32, 32, 32, 32, 32, 32, 32,
   32, 32, 32, 32, 32, 32, 32, 32, 32, 32, 32, 32, 32, 32, 32, 32, 32, 32, 10, 0, 1, 0, 1, 0,
   1, 0, 1, 0, 1, 0, 1, 0, 1, 0, 1, 0, 1, 0, 1, 0, 1, 0, 1, 0, 1, 0, 1, 0, 1, 0, 1, 0, 1, 0, 1,
   0, 1, 0, 1, 0, 1, 0, 1, 0, 1, 0, 1, 0, 1]

/-- The values of the tensor in `bool.npy`. -/
def v_bool : List (List Nat) := [
   [0], [1], [0], [1], [0], [1], [0], [1], [0], [1], [0], [1], [0], [1], [0], [1], [0], [1],
   [0], [1], [0], [1], [0], [1], [0], [1], [0], [1], [0], [1], [0], [1], [0], [1], [0], [1],
   [0], [1], [0], [1], [0], [1], [0], [1], [0], [1], [0], [1], [0], [1]]

example : saved (fixedOps .bool) (mk (fixedOps .bool) [5, 2, 5] false v_bool) .native = .ok f_bool := by
  decide +kernel

example : loaded (fixedOps .bool) f_bool = .ok ([5, 2, 5], false, v_bool) := by
  decide +kernel

/-- `/repo/assets/test/unicode.npy` (528 bytes). -/
def f_unicode : Bytes := [
   147, 78, 85, 77, 80, 89, 1, 0, 118, 0, 123, 39, 100, 101, 115, 99, 114, 39, 58, 32, 39, 60,
   85, 50, 39, 44, 32, 39, 102, 111, 114, 116, 114, 97, 110, 95, 111, 114, 100, 101, 114, 39,
   58, 32, 70, 97, 108, 115, 101, 44, 32, 39, 115, 104, 97, 112, 101, 39, 58, 32, 40, 53, 44,
   32, 50, 44, 32, 53, 41, 44, 32, 125, 32, 32, 32, 32, 32, 32, 32, 32, 32, 32, 32, 32, 32, 32,
   32, 32, 32, 32, 32, 32, 32, 32, 32, 32, 32, 32, 32, 32, 32, 32, 32, 32, 32, 32, 32, 32, 32,
   32, 32, 32, 32, 32, 32, 32, 32, 32, 32, 32, 32, 32, 32, 32, 32, 32, 32, 10, 48, 0, 0, 0, 0,
   0, 0, 0, 49, 0, 0, 0, 0, 0, 0, 0, 50, 0, 0, 0, 0, 0, 0, 0, 51, 0, 0, 0, 0, 0, 0, 0, 52, 0,
   0, 0, 0, 0, 0, 0, 53, 0, 0, 0, 0, 0, 0, 0, 54, 0, 0, 0, 0, 0, 0, 0, 55, 0, 0, 0, 0, 0, 0, 0,
   56, 0, 0, 0, 0, 0, 0, 0, 57, 0, 0, 0, 0, 0, 0, 0, 49, 0, 0, 0, 48, 0, 0, 0, 49, 0, 0, 0, 49,
   0, 0, 0, 49, 0, 0, 0, 50, 0, 0, 0, 49, 0, 0, 0, 51, 0, 0, 0, 49, 0, 0, 0, 52, 0, 0, 0, 49,
   0, 0, 0, 53, 0, 0, 0, 49, 0, 0, 0, 54, 0, 0, 0, 49, 0, 0, 0, 55, 0, 0, 0, 49, 0, 0, 0, 56,
   0, 0, 0, 49, 0, 0, 0, 57, 0, 0, 0, 50, 0, 0, 0, 48, 0, 0, 0, 50, 0, 0, 0, 49, 0, 0, 0, 50,
   0, 0, 0, 50, 0, 0, 0, 50, 0, 0, 0, 51, 0, 0, 0, 50, 0, 0, 0, 52, 0, 0, 0, 50, 0, 0, 0, 53,
   0, 0, 0, 50, 0, 0, 0, 54, 0, 0, 0, 50, 0, 0, 0, 55, 0, 0, 0, 50, 0, 0, 0, 56, 0, 0, 0, 50,
   0, 0, 0, 57, 0, 0, 0, 51, 0, 0, 0, 48, 0, 0, 0, 51, 0, 0, 0, 49, 0, 0, 0, 51, 0, 0, 0, 50,
   0, 0, 0, 51, 0, 0, 0, 51, 0, 0, 0, 51, 0, 0, 0, 52, 0, 0, 0, 51, 0, 0, 0, 53, 0, 0, 0, 51,
   0, 0, 0, 54, 0, 0, 0, 51, 0, 0, 0, 55, 0, 0, 0, 51, 0, 0, 0, 56, 0, 0, 0, 51, 0, 0, 0, 57,
   0, 0, 0, 52, 0, 0, 0, 48, 0, 0, 0, 52, 0, 0, 0, 49, 0, 0, 0, 52, 0, 0, 0, 50, 0, 0, 0, 52,
   0, 0, 0, 51, 0, 0, 0, 52, 0, 0, 0, 52, 0, 0, 0, 52, 0, 0, 0, 53, 0, 0, 0, 52, 0, 0, 0, 54,
   0, 0, 0, 52, 0, 0, 0, 55, 0, 0, 0, 52, 0, 0, 0, 56, 0, 0, 0, 52, 0, 0, 0, 57, 0, 0, 0]

/-- The values of the tensor in `unicode.npy`. -/
def v_unicode : List (List Nat) := [
   [48], [49], [50], [51], [52], [53], [54], [55], [56], [57], [49, 48], [49, 49], [49, 50],
   [49, 51], [49, 52], [49, 53], [49, 54], [49, 55], [49, 56], [49, 57], [50, 48], [50, 49],
   [50, 50], [50, 51], [50, 52], [50, 53], [50, 54], [50, 55], [50, 56], [50, 57], [51, 48],
   [51, 49], [51, 50], [51, 51], [51, 52], [51, 53], [51, 54], [51, 55], [51, 56], [51, 57],
   [52, 48], [52, 49], [52, 50], [52, 51], [52, 52], [52, 53], [52, 54], [52, 55], [52, 56],
   [52, 57]]

example : saved wideOps (mk wideOps [5, 2, 5] false v_unicode) .little = .ok f_unicode := by
  decide +kernel

example : loaded wideOps f_unicode = .ok ([5, 2, 5], false, v_unicode) := by
  decide +kernel

/-- `/repo/assets/test/test.npz` (1267 bytes). -/
def f_npz : Bytes := [
   80, 75, 3, 4, 20, 0, 0, 0, 0, 0, 0, 0, 33, 0, 245, 64, 207, 197, 203, 0, 0, 0, 203, 0, 0, 0,
   9, 0, 0, 0, 99, 111, 108, 111, 114, 46, 110, 112, 121, 147, 78, 85, 77, 80, 89, 1, 0, 118,
   0, 123, 39, 100, 101, 115, 99, 114, 39, 58, 32, 39, 124, 117, 49, 39, 44, 32, 39, 102, 111,
   114, 116, 114, 97, 110, 95, 111, 114, 100, 101, 114, 39, 58, 32, 70, 97, 108, 115, 101, 44,
   32, 39, 115, 104, 97, 112, 101, 39, 58, 32, 40, 53, 44, 32, 53, 44, 32, 51, 41, 44, 32, 125,
   32, 32, 32, 32, 32, 32, 32, 32, 32, 32, 32, 32, 32, 32, 32, 32, 32, 32, 32, 32, 32, 32, 32,
   32, 32, 32, 32, 32, 32, 32, 32, 32, 32, 32, 32, 32, 32, 32, 32, 32, 32, 32, 32, 32, 32, 32,
   32, 32, 32, 32, 32, 32, 32, 32, 32, 10, 0, 1, 2, 3, 4, 5, 6, 7, 8, 9, 10, 11, 12, 13, 14,
   15, 16, 17, 18, 19, 20, 21, 22, 23, 24, 25, 26, 27, 28, 29, 30, 31, 32, 33, 34, 35, 36, 37,
   38, 39, 40, 41, 42, 43, 44, 45, 46, 47, 48, 49, 50, 51, 52, 53, 54, 55, 56, 57, 58, 59, 60,
   61, 62, 63, 64, 65, 66, 67, 68, 69, 70, 71, 72, 73, 74, 80, 75, 3, 4, 20, 0, 0, 0, 0, 0, 0,
   0, 33, 0, 40, 233, 206, 241, 228, 0, 0, 0, 228, 0, 0, 0, 9, 0, 0, 0, 100, 101, 112, 116,
   104, 46, 110, 112, 121, 147, 78, 85, 77, 80, 89, 1, 0, 118, 0, 123, 39, 100, 101, 115, 99,
   114, 39, 58, 32, 39, 60, 102, 52, 39, 44, 32, 39, 102, 111, 114, 116, 114, 97, 110, 95, 111,
   114, 100, 101, 114, 39, 58, 32, 70, 97, 108, 115, 101, 44, 32, 39, 115, 104, 97, 112, 101,
   39, 58, 32, 40, 53, 44, 32, 53, 41, 44, 32, 125, 32, 32, 32, 32, 32, 32, 32, 32, 32, 32, 32,
   32, 32, 32, 32, 32, 32, 32, 32, 32, 32, 32, 32, 32, 32, 32, 32, 32, 32, 32, 32, 32, 32, 32,
   32, 32, 32, 32, 32, 32, 32, 32, 32, 32, 32, 32, 32, 32, 32, 32, 32, 32, 32, 32, 32, 32, 32,
   32, 10, 0, 0, 0, 0, 0, 0, 128, 63, 0, 0, 0, 64, 0, 0, 64, 64, 0, 0, 128, 64, 0, 0, 160, 64,
   0, 0, 192, 64, 0, 0, 224, 64, 0, 0, 0, 65, 0, 0, 16, 65, 0, 0, 32, 65, 0, 0, 48, 65, 0, 0,
   64, 65, 0, 0, 80, 65, 0, 0, 96, 65, 0, 0, 112, 65, 0, 0, 128, 65, 0, 0, 136, 65, 0, 0, 144,
   65, 0, 0, 152, 65, 0, 0, 160, 65, 0, 0, 168, 65, 0, 0, 176, 65, 0, 0, 184, 65, 0, 0, 192,
   65, 80, 75, 3, 4, 20, 0, 0, 0, 0, 0, 0, 0, 33, 0, 85, 36, 39, 182, 16, 2, 0, 0, 16, 2, 0, 0,
   11, 0, 0, 0, 117, 110, 105, 99, 111, 100, 101, 46, 110, 112, 121, 147, 78, 85, 77, 80, 89,
   1, 0, 118, 0, 123, 39, 100, 101, 115, 99, 114, 39, 58, 32, 39, 60, 85, 50, 39, 44, 32, 39,
   102, 111, 114, 116, 114, 97, 110, 95, 111, 114, 100, 101, 114, 39, 58, 32, 70, 97, 108, 115,
   101, 44, 32, 39, 115, 104, 97, 112, 101, 39, 58, 32, 40, 53, 44, 32, 50, 44, 32, 53, 41, 44,
   32, 125, 32, 32, 32, 32, 32, 32, 32, 32, 32, 32, 32, 32, 32, 32, 32, 32, 32, 32, 32, 32, 32,
   32, 32, 32, 32, 32, 32, 32, 32, 32, 32, 32, 32, 32, 32, 32, 32, 32, 32, 32, 32, 32, 32, 32,
   32, 32, 32, 32, 32, 32, 32, 32, 32, 32, 32, 10, 48, 0, 0, 0, 0, 0, 0, 0, 49, 0, 0, 0, 0, 0,
   0, 0, 50, 0, 0, 0, 0, 0, 0, 0, 51, 0, 0, 0, 0, 0, 0, 0, 52, 0, 0, 0, 0, 0, 0, 0, 53, 0, 0,
   0, 0, 0, 0, 0, 54, 0, 0, 0, 0, 0, 0, 0, 55, 0, 0, 0, 0, 0, 0, 0, 56, 0, 0, 0, 0, 0, 0, 0,
   57, 0, 0, 0, 0, 0, 0, 0, 49, 0, 0, 0, 48, 0, 0, 0, 49, 0, 0, 0, 49, 0, 0, 0, 49, 0, 0, 0,
   50, 0, 0, 0, 49, 0, 0, 0, 51, 0, 0, 0, 49, 0, 0, 0, 52, 0, 0, 0, 49, 0, 0, 0, 53, 0, 0, 0,
   49, 0, 0, 0, 54, 0, 0, 0, 49, 0, 0, 0, 55, 0, 0, 0, 49, 0, 0, 0, 56, 0, 0, 0, 49, 0, 0, 0,
   57, 0, 0, 0, 50, 0, 0, 0, 48, 0, 0, 0, 50, 0, 0, 0, 49, 0, 0, 0, 50, 0, 0, 0, 50, 0, 0, 0,
   50, 0, 0, 0, 51, 0, 0, 0, 50, 0, 0, 0, 52, 0, 0, 0, 50, 0, 0, 0, 53, 0, 0, 0, 50, 0, 0, 0,
   54, 0, 0, 0, 50, 0, 0, 0, 55, 0, 0, 0, 50, 0, 0, 0, 56, 0, 0, 0, 50, 0, 0, 0, 57, 0, 0, 0,
   51, 0, 0, 0, 48, 0, 0, 0, 51, 0, 0, 0, 49, 0, 0, 0, 51, 0, 0, 0, 50, 0, 0, 0, 51, 0, 0, 0,
   51, 0, 0, 0, 51, 0, 0, 0, 52, 0, 0, 0, 51, 0, 0, 0, 53, 0, 0, 0, 51, 0, 0, 0, 54, 0, 0, 0,
   51, 0, 0, 0, 55, 0, 0, 0, 51, 0, 0, 0, 56, 0, 0, 0, 51, 0, 0, 0, 57, 0, 0, 0, 52, 0, 0, 0,
   48, 0, 0, 0, 52, 0, 0, 0, 49, 0, 0, 0, 52, 0, 0, 0, 50, 0, 0, 0, 52, 0, 0, 0, 51, 0, 0, 0,
   52, 0, 0, 0, 52, 0, 0, 0, 52, 0, 0, 0, 53, 0, 0, 0, 52, 0, 0, 0, 54, 0, 0, 0, 52, 0, 0, 0,
   55, 0, 0, 0, 52, 0, 0, 0, 56, 0, 0, 0, 52, 0, 0, 0, 57, 0, 0, 0, 80, 75, 1, 2, 20, 0, 20, 0,
   0, 0, 0, 0, 0, 0, 33, 0, 245, 64, 207, 197, 203, 0, 0, 0, 203, 0, 0, 0, 9, 0, 0, 0, 0, 0, 0,
   0, 0, 0, 0, 0, 128, 1, 0, 0, 0, 0, 99, 111, 108, 111, 114, 46, 110, 112, 121, 80, 75, 1, 2,
   20, 0, 20, 0, 0, 0, 0, 0, 0, 0, 33, 0, 40, 233, 206, 241, 228, 0, 0, 0, 228, 0, 0, 0, 9, 0,
   0, 0, 0, 0, 0, 0, 0, 0, 0, 0, 128, 1, 242, 0, 0, 0, 100, 101, 112, 116, 104, 46, 110, 112,
   121, 80, 75, 1, 2, 20, 0, 20, 0, 0, 0, 0, 0, 0, 0, 33, 0, 85, 36, 39, 182, 16, 2, 0, 0, 16,
   2, 0, 0, 11, 0, 0, 0, 0, 0, 0, 0, 0, 0, 0, 0, 128, 1, 253, 1, 0, 0, 117, 110, 105, 99, 111,
   100, 101, 46, 110, 112, 121, 80, 75, 5, 6, 0, 0, 0, 0, 3, 0, 3, 0, 167, 0, 0, 0, 54, 4, 0,
   0, 0, 0]

/-- `test_tensor<float>({5, 5})`. -/
def v_depth : List (List Nat) := [
   [0], [1065353216], [1073741824], [1077936128], [1082130432], [1084227584], [1086324736],
   [1088421888], [1090519040], [1091567616], [1092616192], [1093664768], [1094713344],
   [1095761920], [1096810496], [1097859072], [1098907648], [1099431936], [1099956224],
   [1100480512], [1101004800], [1101529088], [1102053376], [1102577664], [1103101952]]

/-- No entry is compressed. -/
def codec : Codec := ⟨fun _ => .error .abort, fun _ => .error .abort⟩

/-- The archive written by `/repo/test/npz_write.cpp:41-47`. -/
def writeNpz : Except Err Bytes := do
  let color ← mk (fixedOps .uint8) [5, 5, 3] false ((List.range 75).map ([·]))
  let depth ← mk (fixedOps .float32) [5, 5] false v_depth
  let unicode ← mk wideOps [5, 2, 5] false v_unicode
  pure (Writer.after cfg codec (Writer.newString STORED .little)
    [.write ⟨_, fixedOps .uint8, color⟩ "color".toUTF8.toList,
      .write ⟨_, fixedOps .float32, depth⟩ "depth.npy".toUTF8.toList,
      .write ⟨_, wideOps, unicode⟩ "unicode.npy".toUTF8.toList, .close]).str

-- it is exactly the asset
example : writeNpz = .ok f_npz := by decide +kernel

/-- `npzstringreader(f_npz).read<…>(name)`: shape, order and values. -/
def readNpz {α : Type} (ops : ElemOps α) (name : String) : Except Err (List Nat × Bool × List α) :=
  (Reader.open (IStream.ofBytes f_npz)).bind fun r =>
    (Reader.read cfg codec ops name.toUTF8.toList r).1.map fun x => (x.shape, x.fortranOrder, x.values)

-- `/repo/test/npz_read.cpp:37-59`
example : readNpz (fixedOps .uint8) "color.npy" = .ok ([5, 5, 3], false, (List.range 75).map ([·])) := by
  decide +kernel
example : readNpz (fixedOps .float32) "depth" = .ok ([5, 5], false, v_depth) := by decide +kernel
example : readNpz wideOps "unicode" = .ok ([5, 2, 5], false, v_unicode) := by decide +kernel

end Npy.Validation
