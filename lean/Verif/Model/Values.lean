import Verif.Model.Header
/-!
# Elements and the 14 specialisations of `write_values` / `read_values` (dtype.cpp:77-580)

An element of a fixed-size type is the list of the bit patterns of its components (one, or real and imaginary part),
each an unsigned integer; its memory image depends on the host. A `std::wstring` is the list of its code units.
-/

namespace Npy

/-- Components of an element: 2 for `std::complex`, otherwise 1. (the types of tensor.cpp:5-56) -/
def DType.comps : DType → Nat
  | .complex64 | .complex128 => 2
  | _ => 1

/-- `sizeof` one component. (the types of tensor.cpp:5-56) -/
def DType.csize : DType → Nat
  | .int8 | .uint8 | .bool => 1
  | .int16 | .uint16 => 2
  | .int32 | .uint32 | .float32 | .complex64 => 4
  | .int64 | .uint64 | .float64 | .complex128 => 8
  | .unicode => 0

/-- `sizeof(T)` for the fixed-size types. (the types of tensor.cpp:5-56; used by dtype.cpp:77-512) -/
def DType.size (t : DType) : Nat := t.comps * t.csize

/-- A value of a fixed-size type: the bit patterns of its components. (the `T` of npy.h:686) -/
abbrev Elem := List Nat

/-- A `std::wstring`: its code units. (npy.h:1032) -/
abbrev WStr := List Nat

/-- Memory image of an element on the host. (`reinterpret_cast<const char *>(data_ptr)`, dtype.cpp:121) -/
def memBytes (cfg : Cfg) (t : DType) (v : Elem) : Bytes := v.flatMap (hostBytes cfg t.csize)

/-- The element whose memory image is the given one. (`reinterpret_cast<char *>(data_ptr)`, dtype.cpp:134) -/
def memElem (cfg : Cfg) (t : DType) (m : Bytes) : Elem :=
  (List.range t.comps).map fun i => hostValue cfg ((m.drop (i * t.csize)).take t.csize)

/-- Cut a memory block of `n` elements of `k` bytes into elements. (dtype.cpp:124, 140: `start += 2` and the like) -/
def chunks (k : Nat) : Nat → Bytes → List Bytes
  | 0, _ => []
  | n + 1, bs => bs.take k :: chunks k n (bs.drop k)

/-- A value-initialised element (`std::vector<T>(n)`). (npy.h:714) -/
def zeroElem (t : DType) : Elem := List.replicate t.comps 0

/-- The types handled by a single unconditional block transfer: dtype.cpp:77-114 (uint8_t, int8_t, boolean). -/
def DType.oneByte : DType → Bool
  | .int8 | .uint8 | .bool => true
  | _ => false

/-- The factor of `num_elements` in the block transfers: dtype.cpp:121, 137, 152, 168, 183, 201, 218, 236, 252, 270, 287,
309, 330, 352, 372, 394, 415, 438, 459, 490 and 80, 87, 93, 100, 106, 113 (factor 1). -/
def DType.blockFactor : DType → Nat
  | .int8 | .uint8 | .bool => 1
  | .int16 | .uint16 => 2
  | .int32 | .uint32 | .float32 => 4
  | .int64 | .uint64 | .float64 | .complex64 => 8
  | .complex128 => 16
  | .unicode => 0

/-- The order in which the byte-swapping branches `put` the bytes of an element: dtype.cpp:125-126, 156-157 (2 bytes),
187-190, 222-225, 256-259 (4 bytes), 291-298, 334-341, 376-383, 419-426 (8 bytes), 463-478 (16 bytes). -/
def DType.putOrder : DType → List Nat
  | .int16 | .uint16 => [1, 0]
  | .int32 | .uint32 | .float32 => [3, 2, 1, 0]
  | .int64 | .uint64 | .float64 | .complex64 => [7, 6, 5, 4, 3, 2, 1, 0]
  | .complex128 => [15, 14, 13, 12, 11, 10, 9, 8, 7, 6, 5, 4, 3, 2, 1, 0]
  | _ => []

/-- The order in which the byte-swapping branches store the bytes they `get`: dtype.cpp:141-142, 172-173, 205-208, 240-243,
274-277, 313-320, 356-363, 398-405, 442-449, 494-509. -/
def DType.getOrder : DType → List Nat
  | .int16 | .uint16 => [1, 0]
  | .int32 | .uint32 | .float32 => [3, 2, 1, 0]
  | .int64 | .uint64 | .float64 | .complex64 => [7, 6, 5, 4, 3, 2, 1, 0]
  | .complex128 => [15, 14, 13, 12, 11, 10, 9, 8, 7, 6, 5, 4, 3, 2, 1, 0]
  | _ => []

/-- dtype.cpp:77-481 `write_values` for the fixed-size types. The 13 C++ specialisations differ only in the block factor and the order of
the bytes, which are tabulated above per type. `start[i]` for `i` outside the element cannot occur. -/
def writeFixed (cfg : Cfg) (t : DType) (e : Endian) (vals : List Elem) (o : OStream) : OStream :=
  if t.oneByte ∨ e = .native ∨ e = nativeEndian cfg then
    o.write ((vals.flatMap (memBytes cfg t)).take (vals.length * t.blockFactor))
  else
    vals.foldl (fun o v =>
      let start := memBytes cfg t v
      o.write (t.putOrder.map fun i => start.getD i 0)) o

/-- dtype.cpp:9 `GETC`: `static_cast<char>(EOF)` is `0xFF`. -/
def getcFF : IM Byte := do
  match ← IStream.getc with
  | some c => pure c
  | none => pure 0xFF

/-- The body of the byte-swapping loop: `ptr[i] = GETC(input)` for the `i` of `getOrder`. (dtype.cpp:141-142 and the like) -/
def readSwapElem : List Nat → Bytes → IM Bytes
  | [], m => pure m
  | i :: is, m => do
    let c ← getcFF
    readSwapElem is (m.set i c)

/-- The byte-swapping loop over `n` elements (memory initially zero). (dtype.cpp:139-143 and the like) -/
def readSwapped (t : DType) : Nat → IM (List Bytes)
  | 0 => pure []
  | n + 1 => do
    let m ← readSwapElem t.getOrder (List.replicate t.size 0)
    let ms ← readSwapped t n
    pure (m :: ms)

/-- dtype.cpp:83-512 `read_values` for the fixed-size types into `n` value-initialised elements. A short block transfer leaves the rest of
the memory zero. The one-byte types do not look at the header; the others compare `info.endianness`, which is
undefined if it was never assigned. -/
def readFixed (cfg : Cfg) (t : DType) (info : HeaderInfo) (n : Nat) : IM (List Elem) := do
  let block : IM (List Elem) := do
    let bs ← IStream.read (n * t.blockFactor)
    let mem := bs ++ List.replicate (n * t.size - bs.length) 0
    pure ((chunks t.size n mem).map (memElem cfg t))
  if t.oneByte then block
  else match info.endianness with
    | none => SM.fail .ub
    | some e =>
      if e = .native ∨ e = nativeEndian cfg then block
      else do
        let ms ← readSwapped t n
        pure (ms.map (memElem cfg t))

/-- dtype.cpp:518-523 and npy.h:1032-1037: length of the longest string -/
def maxLength (vals : List WStr) : Nat :=
  vals.foldl (fun m v => if v.length > m then v.length else m) 0

/-- dtype.cpp:526-541: one code unit as a 32-bit integer in the requested order -/
def writeUnit (cfg : Cfg) (e : Endian) (c : Nat) : Bytes :=
  let start := hostBytes cfg 4 c
  if e = .native ∨ e = nativeEndian cfg then [0, 1, 2, 3].map fun i => start.getD i 0
  else [3, 2, 1, 0].map fun i => start.getD i 0

/-- dtype.cpp:514-551 `write_values<std::wstring>` -/
def writeWide (cfg : Cfg) (e : Endian) (vals : List WStr) (o : OStream) : OStream :=
  let maxElementLength := maxLength vals
  vals.foldl (fun o v =>
    let o := v.foldl (fun o c => o.write (writeUnit cfg e c)) o
    (List.range (maxElementLength - v.length)).foldl (fun o _ => o.write [0, 0, 0, 0]) o) o

/-- `static_cast<wchar_t>(value)` (dtype.cpp:577) -/
def toWchar (cfg : Cfg) (value : Nat) : Nat := if cfg.wchar16 then value % 2 ^ 16 else value

/-- dtype.cpp:558-578: the inner loop over the code units of one element; zero values are skipped. -/
def readUnits (cfg : Cfg) (e : Endian) : Nat → WStr → IM WStr
  | 0, acc => pure acc
  | n + 1, acc => do
    let order := if e = .native ∨ e = nativeEndian cfg then [0, 1, 2, 3] else [3, 2, 1, 0]
    let m ← readSwapElem order (List.replicate 4 0)
    let value := hostValue cfg m
    if value = 0 then readUnits cfg e n acc
    else readUnits cfg e n (acc ++ [toWchar cfg value])

/-- dtype.cpp:557-579: the outer loop -/
def readWideLoop (cfg : Cfg) (e : Endian) (maxLen : Nat) : Nat → IM (List WStr)
  | 0 => pure []
  | n + 1 => do
    let v ← readUnits cfg e maxLen []
    let vs ← readWideLoop cfg e maxLen n
    pure (v :: vs)

/-- dtype.cpp:553-580 `read_values<std::wstring>`; `max_element_length` and `endianness` are only looked at when there is
an element (and a unit) to read. -/
def readWide (cfg : Cfg) (info : HeaderInfo) (n : Nat) : IM (List WStr) :=
  if n = 0 then pure []
  else match info.maxElementLength with
    | none => SM.fail .ub
    | some len =>
      if len = 0 then pure (List.replicate n [])
      else match info.endianness with
        | none => SM.fail .ub
        | some e => readWideLoop cfg e len n

/-- What the templates need to know about an element type: `tensor<T>::get_dtype`, the size of `T`, `tensor<T>::dtype`,
`write_values<T>`, `read_values<T>`. (tensor.cpp:5-59; npy.h:827-829; dtype.cpp:77-580) -/
structure ElemOps (α : Type) where
  dtype : DType
  zero : α
  sizeof : Nat
  dtypeStr : Cfg → Endian → List α → Except Err Bytes
  write : Cfg → Endian → List α → OStream → OStream
  read : Cfg → HeaderInfo → Nat → IM (List α)

/-- Fixed-size element types; tensor.cpp:5-56 gives each C++ type its enumerator, npy.h:829 `dtype(endianness)`. -/
def fixedOps (t : DType) : ElemOps Elem where
  dtype := t
  zero := zeroElem t
  sizeof := t.size
  dtypeStr := fun cfg e _ => toDtype cfg t e
  write := fun cfg e vals o => writeFixed cfg t e vals o
  read := fun cfg info n => readFixed cfg t info n

/-- npy.h:1030-1049 `tensor<std::wstring>::dtype` -/
def wideDtypeStr (cfg : Cfg) (e : Endian) (vals : List WStr) : Bytes :=
  let e := if e = .native then nativeEndian cfg else e
  if e = .little then b!"<U" ++ decimal (maxLength vals) else b!">U" ++ decimal (maxLength vals)

/-- `std::wstring` elements (`sizeof(std::wstring)` is 32 in libstdc++). (tensor.cpp:53-55; npy.h:1031-1049; dtype.cpp:514-580) -/
def wideOps : ElemOps WStr where
  dtype := .unicode
  zero := []
  sizeof := 32
  dtypeStr := fun cfg e vals => .ok (wideDtypeStr cfg e vals)
  write := fun cfg e vals o => writeWide cfg e vals o
  read := fun cfg info n => readWide cfg info n

end Npy
