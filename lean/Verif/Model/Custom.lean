import Verif.Model.NpzClient
/-!
# Tensor classes of the user (npy.h:669-685)

`npy::save`, `npy::load`, `write` and `read` are templates over the tensor class: they use six member functions of it. Here
a class is a record of these six; `npy::tensor<T>` and the class of examples/custom_tensors/custom.cpp are two of them.
-/

namespace Npy

/-- The member functions the library calls (npy.h:671-678). `β` is the type of the objects. Simplification: const member
functions depend only on the object, and the static `load` only on its arguments. -/
structure TensorClass (β : Type) where
  /-- `size_t ndim() const` -/
  ndim : β → Nat
  /-- `size_t shape(d) const`; may throw -/
  shape : β → Nat → Except Err Nat
  /-- `std::string dtype(endianness) const`; may throw -/
  dtype : Cfg → Endian → β → Except Err Bytes
  /-- `bool fortran_order() const` -/
  fortranOrder : β → Bool
  /-- `void save(output, endianness) const` -/
  save : Cfg → Endian → β → SM OStream Unit
  /-- `static load(input, info)` -/
  load : Cfg → HeaderInfo → IM β

/-- npy.h:242-245: the loop that collects the shape, from axis `d` on -/
def collectShape {β : Type} (cls : TensorClass β) (x : β) : Nat → Nat → Except Err (List Nat)
  | _, 0 => .ok []
  | d, n + 1 =>
    match cls.shape x d with
    | .error err => .error err
    | .ok s =>
      match collectShape cls x (d + 1) n with
      | .error err => .error err
      | .ok ss => .ok (s :: ss)

/-- npy.h:239-250 `save<T>(output, tensor, endianness)` for any tensor class -/
def saveAs {β : Type} (cfg : Cfg) (cls : TensorClass β) (x : β) (e : Endian) : SM OStream Unit := do
  let shape ← SM.lift (collectShape cls x 0 (cls.ndim x))
  let d ← SM.lift (cls.dtype cfg e x)
  SM.modify fun o => writeNpyHeader o d (cls.fortranOrder x) shape
  cls.save cfg e x

/-- npy.h:333-336 `load<T>(input)` for any tensor class -/
def loadAs {β : Type} (cfg : Cfg) (cls : TensorClass β) : IM β := do
  let info ← readNpyHeader cfg
  cls.load cfg info

/-- `std::ostringstream out; npy::save(out, x, e); out.str()` (client code of npy.h:239-250) -/
def saveAsToString {β : Type} (cfg : Cfg) (cls : TensorClass β) (x : β) (e : Endian) : Except Err Bytes :=
  match saveAs cfg cls x e OStream.empty with
  | (.ok (), o) => .ok o.buf
  | (.error err, _) => .error err

/-- `std::istringstream in(bytes); npy::load<T>(in)` (client code of npy.h:333-336) -/
def loadAsFromString {β : Type} (cfg : Cfg) (cls : TensorClass β) (bytes : Bytes) : Except Err β :=
  (loadAs cfg cls (IStream.ofBytes bytes)).1

/-- `npy::tensor<T>` (npy.h:686-1049): `ndim` and `shape` (`m_shape[index]`, undefined past the end; npy.h:889, 895), `dtype`
(827-829, 1031-1049), `fortran_order` (902), `save` (764-766), `load` (742-754) -/
def tensorClass {α : Type} (ops : ElemOps α) : TensorClass (Tensor α) where
  ndim x := x.shape.length
  shape x d := match x.shape[d]? with
    | some n => .ok n
    | none => .error .ub
  dtype cfg e x := ops.dtypeStr cfg e x.values
  fortranOrder x := x.fortranOrder
  save cfg e x := SM.modify fun o => ops.write cfg e x.values o
  load cfg info := Tensor.load cfg ops info

/-- An object of some tensor class. (the template argument at npy.h:432, 506) -/
structure AnyObject where
  β : Type
  cls : TensorClass β
  x : β

/-- npy.h:432-449 / 506-523 `write(filename, tensor)` for any tensor class -/
def Writer.writeObj (cfg : Cfg) (codec : Codec) (filename : Bytes) (t : AnyObject) : WM Unit := .mk fun w =>
  if w.closed then (.error (.throw (.runtimeError .streamClosed)), w)
  else match saveAs cfg t.cls t.x w.endianness OStream.empty with
    | (.error e, _) => (.error e, w)
    | (.ok (), out) => Writer.writeFile codec (entryName filename) out.buf w

/-- Writes of objects of any classes, one after the other; the first exception ends the loop (npy.h:432-449, 506-523). -/
def Writer.writeObjs (cfg : Cfg) (codec : Codec) : List (Bytes × AnyObject) → WM Unit
  | [] => pure ()
  | (name, t) :: rest => do
    Writer.writeObj cfg codec name t
    Writer.writeObjs cfg codec rest

/-- npy.h:570-573 / 635-638 `read<T>(filename)` for any tensor class -/
def Reader.readObj {β : Type} (cfg : Cfg) (codec : Codec) (cls : TensorClass β) (filename : Bytes) : RM β := do
  let bytes ← Reader.readFile codec filename
  SM.lift (loadAs cfg cls (IStream.ofBytes bytes)).1

/-- npy.h:575-578 `npzstringreader::read<T, TENSOR>(filename)`: `return read<TENSOR<T>>(filename);` (`cls` is the class
`TENSOR<T>`) -/
def StringReader.readT {β : Type} (cfg : Cfg) (codec : Codec) (cls : TensorClass β) (filename : Bytes) : RM β :=
  Reader.readObj cfg codec cls filename

/-- npy.h:648-651 `npzfilereader::read<T, TENSOR>(filename)`: the body is `read<TENSOR<T>>(filename);` without `return`. When the
call returns, control flows off the end of a function with a non-void result type, which is undefined behaviour; an exception of
the call passes through. -/
def FileReader.readT {β : Type} (cfg : Cfg) (codec : Codec) (cls : TensorClass β) (filename : Bytes) : RM β := do
  let _ ← Reader.readObj cfg codec cls filename
  SM.fail .ub

/-! ### The class of examples/custom_tensors/custom.cpp -/

/-- `Eigen::Matrix<T, Dynamic, Dynamic, StorageOrder>`: the buffer `data()` and the two extents. The storage order is a
template argument, here an argument of the functions. (custom.cpp:160-164) -/
structure EigenMatrix where
  rows : Nat
  cols : Nat
  data : List Elem
  deriving DecidableEq, Repr, Inhabited

/-- `matrix(i, j)` (Eigen's documented layout): column-major matrices store columns one after the other, row-major ones
rows. (Eigen, for custom.cpp:59, 70) -/
def EigenMatrix.coeff (colMajor : Bool) (m : EigenMatrix) (i j : Nat) : Option Elem :=
  m.data[if colMajor then i + j * m.rows else i * m.cols + j]?

/-- custom.cpp:59, 70 `result = cm`, `result = rm`: assignment between matrices of opposite storage orders copies
coefficient by coefficient; `colMajor` is the order of the source. -/
def EigenMatrix.flip (colMajor : Bool) (m : EigenMatrix) : EigenMatrix :=
  { m with data := (List.range (m.rows * m.cols)).map fun k =>
      ((if colMajor then m.coeff true (k / m.cols) (k % m.cols) else m.coeff false (k % m.rows) (k / m.rows)).getD []) }

/-- custom.cpp:35-75 `EigenTensor<T, StorageOrder>::load`. The data type in the header is not looked at. Simplifications:
allocation succeeds, `rows * columns` does not wrap around, and the memory of a new matrix is zero (Eigen leaves it
uninitialised, which shows only when data are missing). -/
def eigenLoad (t : DType) (colMajor : Bool) (cfg : Cfg) (info : HeaderInfo) : IM EigenMatrix := do
  if info.shape.length > 2 then SM.fail (.throw (.invalidArgument .user))
  else match info.shape with
    | [] => SM.fail .ub
    | rows :: more => do
      let columns := if info.shape.length = 2 then more.headD 0 else 1
      match info.fortranOrder with
      | none => SM.fail .ub
      | some true => do
        let vals ← readFixed cfg t info (rows * columns)
        if colMajor ∨ columns = 1 then pure { rows := rows, cols := columns, data := vals }
        else pure (EigenMatrix.flip true { rows := rows, cols := columns, data := vals })
      | some false => do
        let vals ← readFixed cfg t info (rows * columns)
        if !colMajor ∨ columns = 1 then pure { rows := rows, cols := columns, data := vals }
        else pure (EigenMatrix.flip false { rows := rows, cols := columns, data := vals })

/-- custom.cpp:10-165 `EigenTensor<T, StorageOrder>`: `ndim` (88), `shape` (95-107), `fortran_order` (118), `dtype` (132-153),
`save` (80-82), `load` (35-75). Only `float` and `double` are supported. -/
def eigenClass (t : DType) (colMajor : Bool) : TensorClass EigenMatrix where
  ndim _ := 2
  shape m d := match d with
    | 0 => .ok m.rows
    | 1 => .ok m.cols
    | _ => .error (.throw (.invalidArgument .user))
  dtype cfg e _ := if t = .float32 ∨ t = .float64 then toDtype cfg t e else .error (.throw (.invalidArgument .user))
  fortranOrder _ := colMajor
  save cfg e m := SM.modify fun o => writeFixed cfg t e m.data o
  load cfg info := eigenLoad t colMajor cfg info

end Npy
