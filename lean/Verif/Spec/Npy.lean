import Verif.Spec.Text
import Verif.Model.Tensor
import Mathlib.Algebra.BigOperators.Group.List.Basic
/-!
# Specification: dtype strings, byte orders and the NPY file format

Independent of the functions of the model; only its data types (`DType`, `Endian`, `Cfg`, `Tensor`) are used.
-/

namespace Npy.Spec

/-- Byte number `i` of `n`, counted from the least significant. -/
def byteAt (n i : Nat) : Byte := UInt8.ofNat (n / 256 ^ i % 256)

/-- Least significant byte first. -/
def littleBytes (k n : Nat) : Bytes := (List.range k).map (byteAt n)

/-- Most significant byte first. -/
def bigBytes (k n : Nat) : Bytes := (List.range k).map fun i => byteAt n (k - 1 - i)

/-- NumPy's kind letter. -/
def kind : DType → Bytes
  | .int8 | .int16 | .int32 | .int64 => b!"i"
  | .uint8 | .uint16 | .uint32 | .uint64 => b!"u"
  | .float32 | .float64 => b!"f"
  | .complex64 | .complex128 => b!"c"
  | .bool => b!"b"
  | .unicode => b!"U"

/-- Number of components of an element. -/
def parts : DType → Nat
  | .complex64 | .complex128 => 2
  | _ => 1

/-- Bytes per component. -/
def width : DType → Nat
  | .int8 | .uint8 | .bool => 1
  | .int16 | .uint16 => 2
  | .int32 | .uint32 | .float32 | .complex64 => 4
  | .int64 | .uint64 | .float64 | .complex128 => 8
  | .unicode => 4

/-- Bytes per element. -/
def itemSize (t : DType) : Nat := parts t * width t

/-- Does this endianness argument mean most-significant-first on this host? -/
def isBig (cfg : Cfg) : Endian → Bool
  | .native => cfg.nativeBig
  | .big => true
  | .little => false

/-- NumPy's dtype string of a fixed-size type: order mark (`|` for single bytes), kind, item size. -/
def descr (t : DType) (big : Bool) : Bytes :=
  (if itemSize t = 1 then b!"|" else if big then b!">" else b!"<") ++ kind t ++ decimal (itemSize t)

/-- NumPy's dtype string of an array of strings of at most `len` characters. -/
def descrU (len : Nat) (big : Bool) : Bytes := (if big then b!">" else b!"<") ++ b!"U" ++ decimal len

/-- The bytes of an integer of `k` bytes in the given order. -/
def intBytes (big : Bool) (k n : Nat) : Bytes := if big then bigBytes k n else littleBytes k n

/-- The bytes of an element: its components in order, each in the given byte order. -/
def elemBytes (t : DType) (big : Bool) (v : Elem) : Bytes := v.flatMap (intBytes big (width t))

/-- A value of the element type: the right number of components, each of the right width. -/
def IsElem (t : DType) (v : Elem) : Prop := v.length = parts t ∧ ∀ c ∈ v, c < 2 ^ (8 * width t)

/-- A string of code units that `wchar_t` can hold. -/
def IsWide (cfg : Cfg) (v : WStr) : Prop := ∀ c ∈ v, c < 2 ^ (if cfg.wchar16 then 16 else 32)

/-- The bytes of a string in an array of strings of length at most `len`: four bytes per unit, zero filled. -/
def wideBytes (big : Bool) (len : Nat) (v : WStr) : Bytes :=
  (v ++ List.replicate (len - v.length) 0).flatMap (intBytes big 4)

/-- Length of the longest string. -/
def longest (vals : List WStr) : Nat := (vals.map List.length).foldr max 0

/-- `bs` is a version 1.0 NPY file: magic, version, length of the rest of the header, dictionary padded with spaces up to
a newline so that the data begins at a multiple of 64, data. -/
def IsNpyFile (descr : Bytes) (fortran : Bool) (shape : List Nat) (data bs : Bytes) : Prop :=
  ∃ pad : Nat,
    let dict := headerDict descr fortran shape ++ List.replicate pad 32 ++ b!"\n"
    dict.length < 65536 ∧ (10 + dict.length) % 64 = 0 ∧
    bs = [0x93] ++ b!"NUMPY" ++ [1, 0] ++ littleBytes 2 dict.length ++ dict ++ data

/-- An NPY file of version 1.0 with the given header text and data. -/
def npyV1 (dict data : Bytes) : Bytes :=
  [0x93] ++ b!"NUMPY" ++ [1, 0] ++ littleBytes 2 dict.length ++ dict ++ data

/-- An NPY file of version 2.0 with the given header text and data. -/
def npyV2 (dict data : Bytes) : Bytes :=
  [0x93] ++ b!"NUMPY" ++ [2, 0] ++ littleBytes 4 dict.length ++ dict ++ data

/-- A tensor object as the library builds it: extents are 64-bit numbers, the buffer has as many elements as the extents
multiply to (in 64-bit arithmetic), the cached strides are the row-major (column-major) ones, in the order of the axes
(reversed order of axes for column-major). `sizeof` is the size of an element object; the buffer exists, so it is smaller
than half the address space. -/
structure TensorOk {α : Type} (dtype : DType) (sizeof : Nat) (x : Tensor α) : Prop where
  extents : ∀ n ∈ x.shape, n < 2 ^ 64
  size : x.values.length = x.shape.prod % 2 ^ 64
  fits : x.values.length * sizeof < 2 ^ 63
  dtype : x.dtype = dtype
  stridesLength : x.ravelStrides.length = x.shape.length
  strides : ∀ k < x.shape.length, x.ravelStrides[k]? =
    some ((if x.fortranOrder then (x.shape.take (x.shape.length - 1 - k)).prod else (x.shape.drop (k + 1)).prod) % 2 ^ 64)

end Npy.Spec
