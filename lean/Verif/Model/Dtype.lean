import Verif.Model.Stream
/-!
# Data types, dtype strings and `npy::boolean`
-/

namespace Npy

/-- npy.h:41-49 `endian_t` -/
inductive Endian | native | big | little
  deriving DecidableEq, Repr, Inhabited

/-- npy.h:52-59 `native_endian()` -/
def nativeEndian (cfg : Cfg) : Endian := if cfg.nativeBig then .big else .little

/-- npy.h:63-92 `data_type_t`, in declaration order -/
inductive DType
  | int8 | uint8 | int16 | uint16 | int32 | uint32 | int64 | uint64
  | float32 | float64 | complex64 | complex128 | bool | unicode
  deriving DecidableEq, Repr, Inhabited

/-- `static_cast<size_t>(dtype)` (dtype.cpp:57, 60): position in the enumeration -/
def DType.idx : DType → Nat
  | .int8 => 0 | .uint8 => 1 | .int16 => 2 | .uint16 => 3 | .int32 => 4 | .uint32 => 5 | .int64 => 6
  | .uint64 => 7 | .float32 => 8 | .float64 => 9 | .complex64 => 10 | .complex128 => 11 | .bool => 12
  | .unicode => 13

/-- dtype.cpp:12-14 -/
def BIG_ENDIAN_DTYPES : List Bytes :=
  [b!"|i1", b!"|u1", b!">i2", b!">u2", b!">i4", b!">u4", b!">i8",
   b!">u8", b!">f4", b!">f8", b!">c8", b!">c16", b!"|b1"]

/-- dtype.cpp:16-18 -/
def LITTLE_ENDIAN_DTYPES : List Bytes :=
  [b!"|i1", b!"|u1", b!"<i2", b!"<u2", b!"<i4", b!"<u4", b!"<i8",
   b!"<u8", b!"<f4", b!"<f8", b!"<c8", b!"<c16", b!"|b1"]

/-- dtype.cpp:20-43. A `std::map` from dtype string to (data type, endianness), as an association list in source order
(only look-up by key and insertion of absent keys are used). -/
abbrev DtypeMap := List (Bytes × (DType × Endian))

/-- dtype.cpp:20-43 `DTYPE_MAP` -/
def DTYPE_MAP : DtypeMap :=
  [(b!"|u1", (.uint8, .native)),
   (b!"|i1", (.int8, .native)),
   (b!"<u2", (.uint16, .little)),
   (b!">u2", (.uint16, .big)),
   (b!"<i2", (.int16, .little)),
   (b!">i2", (.int16, .big)),
   (b!"<u4", (.uint32, .little)),
   (b!">u4", (.uint32, .big)),
   (b!"<i4", (.int32, .little)),
   (b!">i4", (.int32, .big)),
   (b!"<u8", (.uint64, .little)),
   (b!">u8", (.uint64, .big)),
   (b!"<i8", (.int64, .little)),
   (b!">i8", (.int64, .big)),
   (b!"<f4", (.float32, .little)),
   (b!">f4", (.float32, .big)),
   (b!"<f8", (.float64, .little)),
   (b!">f8", (.float64, .big)),
   (b!"<c8", (.complex64, .little)),
   (b!">c8", (.complex64, .big)),
   (b!"<c16", (.complex128, .little)),
   (b!">c16", (.complex128, .big)),
   (b!"|b1", (.bool, .native))]

/-- dtype.cpp:47-61 `to_dtype`. Indexing the 13-element arrays with the enumeration value; `UNICODE_STRING` throws. -/
def toDtype (cfg : Cfg) (t : DType) (e : Endian) : Except Err Bytes :=
  if t = .unicode then .error (.throw (.invalidArgument .uDtype))
  else
    let e := if e = .native then nativeEndian cfg else e
    let table := if e = .big then BIG_ENDIAN_DTYPES else LITTLE_ENDIAN_DTYPES
    match table[t.idx]? with
    | some s => .ok s
    | none => .error .ub

/-- dtype.cpp:63-65 `from_dtype` on a given state of the global map: `DTYPE_MAP[dtype]` returns the value of the key and
inserts a value-initialised pair (both enumerators 0, i.e. `INT8`, `NATIVE`) for an absent key. -/
def fromDtypeM (m : DtypeMap) (d : Bytes) : (DType × Endian) × DtypeMap :=
  match m.lookup d with
  | some v => (v, m)
  | none => ((.int8, .native), m ++ [(d, (.int8, .native))])

/-- dtype.cpp:63-65 `from_dtype` on the initial map. That the answer is the same on every map reachable by earlier calls
is proved (`Props/Dtype`). -/
def fromDtype (d : Bytes) : DType × Endian := (fromDtypeM DTYPE_MAP d).1

/-! ### `npy::boolean` (npy.h:99-126) -/

/-- npy.h:99-101: one byte of storage -/
structure Boolean where
  value : Byte
  deriving DecidableEq, Repr, Inhabited

/-- npy.h:104 default constructor -/
def Boolean.default : Boolean := ⟨0⟩
/-- npy.h:110 templated constructor, for an integer argument: `v > 0 ? 1 : 0` -/
def Boolean.ofInt (v : Int) : Boolean := ⟨if v > 0 then 1 else 0⟩
/-- npy.h:114 constructor from `bool` -/
def Boolean.ofBool (b : Bool) : Boolean := ⟨if b then 1 else 0⟩
/-- npy.h:117 `operator bool` -/
def Boolean.toBool (b : Boolean) : Bool := b.value != 0
/-- npy.h:122-125 templated assignment, for an integer argument: `v ? 1 : 0` -/
def Boolean.assignInt (_ : Boolean) (v : Int) : Boolean := ⟨if v ≠ 0 then 1 else 0⟩
/-- npy.h:122-125 templated assignment, for a `bool` argument -/
def Boolean.assignBool (_ : Boolean) (v : Bool) : Boolean := ⟨if v then 1 else 0⟩

end Npy
