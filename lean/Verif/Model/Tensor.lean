import Verif.Model.Values
/-!
# `npy::tensor<T>` (npy.h:686-1049) and `save` / `load` / `peek` on streams (npy.h:239-374)
-/

namespace Npy

/-- npy.h:987-991: the members -/
structure Tensor (α : Type) where
  shape : List Nat
  ravelStrides : List Nat
  fortranOrder : Bool
  dtype : DType
  values : List α
  deriving DecidableEq, Repr, Inhabited

namespace Tensor
variable {α : Type}

/-- npy.h:997-1004 `get_size`: product modulo 2^64 -/
def getSize (shape : List Nat) : Nat := shape.foldl (fun size dim => size * dim % SIZE) 1

/-- npy.h:1011-1024: the running products, in the order the loop visits the extents -/
def strideScan : Nat → List Nat → List Nat
  | _, [] => []
  | stride, d :: ds => stride :: strideScan (stride * d % SIZE) ds

/-- npy.h:1007-1027 `get_ravel_strides`: the result is filled from its end (`rbegin`); extents are visited forwards for
FORTRAN order and backwards otherwise. -/
def getRavelStrides (shape : List Nat) (fortran : Bool) : List Nat :=
  (strideScan 1 (if fortran then shape else shape.reverse)).reverse

/-- `std::vector<T>::max_size()` (libstdc++, for npy.h:714) -/
def maxSize (ops : ElemOps α) : Nat := (2 ^ 63 - 1) / ops.sizeof

/-- npy.h:710-714 constructor; `std::vector<T>(n)` throws `length_error` above `max_size`. -/
def new (ops : ElemOps α) (shape : List Nat) (fortran : Bool) : Except Err (Tensor α) :=
  if getSize shape > maxSize ops then .error (.throw (.lengthError .std))
  else .ok
    { shape := shape
      ravelStrides := getRavelStrides shape fortran
      fortranOrder := fortran
      dtype := ops.dtype
      values := List.replicate (getSize shape) ops.zero }

/-- npy.h:717-720, 905-912 copy construction and copy assignment: the result is the source. -/
def copyFromTensor (other : Tensor α) : Tensor α :=
  { shape := other.shape, ravelStrides := other.ravelStrides, fortranOrder := other.fortranOrder,
    dtype := other.dtype, values := other.values }

/-- npy.h:723-727, 915-922 move construction and move assignment: the result, and what is left in the source (libstdc++
leaves moved-from vectors empty). -/
def moveFromTensor (other : Tensor α) : Tensor α × Tensor α :=
  (other.copyFromTensor, { other with shape := [], ravelStrides := [], values := [] })

/-- npy.h:938-950 `ravel(index_it, shape_it)`: the loop runs over the strides; an index or shape iterator that runs out
is dereferenced past its end. -/
def ravelLoop : List Nat → List Nat → List Nat → Nat → Except Err Nat
  | [], _, _, acc => .ok acc
  | st :: sts, i :: is, d :: ds, acc =>
    if i ≥ d then .error (.throw (.invalidArgument .multiIndex))
    else ravelLoop sts is ds ((acc + i * st % SIZE) % SIZE)
  | _ :: _, _, _, _ => .error .ub

/-- npy.h:978-984 `ravel(const std::vector<std::size_t>&)` -/
def ravelU (t : Tensor α) (idx : List Nat) : Except Err Nat :=
  if t.fortranOrder then ravelLoop t.ravelStrides idx.reverse t.shape.reverse 0
  else ravelLoop t.ravelStrides idx t.shape 0

/-- npy.h:961-971: the lambda; `shape + index` is computed modulo 2^64 -/
def absIndex (index : Int) (shape : Nat) : Nat :=
  if index < 0 then (((shape : Int) + index) % (SIZE : Int)).toNat else index.toNat

/-- npy.h:956-973 `ravel(const std::vector<std::int32_t>&)` -/
def ravelI (t : Tensor α) (idx : List Int) : Except Err Nat :=
  if idx.length ≠ t.shape.length then .error (.throw (.invalidArgument .multiIndex))
  else ravelU t (List.zipWith absIndex idx t.shape)

/-- `m_values[k]`: undefined outside the buffer (npy.h:773, 780, 816, 823) -/
def at? (t : Tensor α) (k : Nat) : Except Err α :=
  match t.values[k]? with
  | some v => .ok v
  | none => .error .ub

/-- npy.h:821-824 `get`; npy.h:772-774, 787-789 `operator()(Indices...)` -/
def get (t : Tensor α) (idx : List Int) : Except Err α :=
  match ravelI t idx with
  | .ok k => t.at? k
  | .error e => .error e

/-- npy.h:779-781, 794-796 `operator()(const std::vector<std::size_t>&)` -/
def getU (t : Tensor α) (idx : List Nat) : Except Err α :=
  match ravelU t idx with
  | .ok k => t.at? k
  | .error e => .error e

/-- npy.h:815-817 `set`, and assignment through the reference returned by `operator()(Indices...)` -/
def set (t : Tensor α) (idx : List Int) (v : α) : Except Err (Tensor α) :=
  match ravelI t idx with
  | .ok k => if k < t.values.length then .ok { t with values := t.values.set k v } else .error .ub
  | .error e => .error e

/-- Assignment through the reference returned by `operator()(const std::vector<std::size_t>&)`, npy.h:794-796 -/
def setU (t : Tensor α) (idx : List Nat) (v : α) : Except Err (Tensor α) :=
  match ravelU t idx with
  | .ok k => if k < t.values.length then .ok { t with values := t.values.set k v } else .error .ub
  | .error e => .error e

/-- npy.h:843-849 `copy_from(source, nitems)`; the source must point to at least `nitems` readable elements. -/
def copyFromPtr (t : Tensor α) (source : List α) (nitems : Nat) : Except Err (Tensor α) :=
  if nitems ≠ t.values.length then .error (.throw (.invalidArgument .nitems))
  else if source.length < nitems then .error .ub
  else .ok { t with values := source.take nitems ++ t.values.drop nitems }

/-- npy.h:853-859 `copy_from(vector)`; `std::copy` over the beginning of the values -/
def copyFrom (t : Tensor α) (source : List α) : Except Err (Tensor α) :=
  if source.length ≠ t.values.length then .error (.throw (.invalidArgument .sourceSize))
  else .ok { t with values := source ++ t.values.drop source.length }

/-- npy.h:863-869 `move_from(vector)` -/
def moveFrom (t : Tensor α) (source : List α) : Except Err (Tensor α) :=
  if source.length ≠ t.values.length then .error (.throw (.invalidArgument .sourceSize))
  else .ok { t with values := source }

/-- npy.h:744-754 `tensor<T>::load(input, info)` -/
def load (cfg : Cfg) (ops : ElemOps α) (info : HeaderInfo) : IM (Tensor α) := do
  match info.fortranOrder with
  | none => SM.fail .ub
  | some f => do
    let result ← SM.lift (Tensor.new ops info.shape f)
    match info.dtype with
    | none => SM.fail .ub
    | some t =>
      if t ≠ result.dtype then SM.fail (.throw (.runtimeError .dtypeMismatch))
      else do
        let vals ← ops.read cfg info result.values.length
        pure { result with values := vals }

end Tensor

/-- npy.h:239-250 `npy::save(output, tensor, endianness)`. `tensor.dtype(endianness)` is evaluated before any output. -/
def save {α : Type} (cfg : Cfg) (ops : ElemOps α) (t : Tensor α) (e : Endian) (o : OStream) :
    Except Err OStream :=
  match ops.dtypeStr cfg e t.values with
  | .error err => .error err
  | .ok d => .ok (ops.write cfg e t.values (writeNpyHeader o d t.fortranOrder t.shape))

/-- npy.h:333-336 `npy::load<tensor<T>>(input)` -/
def load {α : Type} (cfg : Cfg) (ops : ElemOps α) : IM (Tensor α) := do
  let info ← readNpyHeader cfg
  Tensor.load cfg ops info

/-- npy.h:367-369 `npy::peek(input)` -/
def peek (cfg : Cfg) : IM HeaderInfo := readNpyHeader cfg

end Npy
