import Verif.Model.Tensor
/-!
# Streams that throw

A stream on which the caller has enabled exceptions (`s.exceptions(std::ios::failbit | std::ios::badbit)`) throws
`std::ios_base::failure` in the call that sets one of those bits. libnpy's own calls on the caller's stream are `read` and
`get` (input) and `write` and `put` (output); the header parser works on a string stream of its own, which does not throw.

The definitions follow `Model/Header`, `Model/Values` and `Model/Tensor` with these calls in place of the silent ones.
-/

namespace Npy

/-- `std::ios_base::failure`, which derives from `std::runtime_error`. (thrown by the calls at npy.h:216-219, 299, 311, 317 and
dtype.cpp:77-580 when the caller's stream has exceptions enabled) -/
def ioFailure : Err := .throw (.runtimeError .std)

/-! ### Input -/

/-- A call on the caller's stream, with exceptions enabled for failbit. (libstdc++ `basic_ios::setstate`, for npy.h:299, 311,
317 and dtype.cpp:9) -/
def raising {α : Type} (x : IM α) : IM α := .mk fun s =>
  match x s with
  | (.ok a, s') => if s'.fail then (.error ioFailure, s') else (.ok a, s')
  | r => r

/-- `input.read(buf, n)` (npy.h:299, 311, 317; dtype.cpp:88, 101, 114, 137) -/
def readX (n : Nat) : IM Bytes := raising (IStream.read n)

/-- dtype.cpp:9 `GETC` -/
def getcX : IM Byte := raising getcFF

/-- npy.h:316-318: reading the dictionary -/
def readDictionaryX (dictLength : Nat) : IM Bytes := do
  if dictLength > VECTOR_CHAR_MAX then SM.fail (.throw (.lengthError .std))
  else
    let bs ← readX dictLength
    pure (bs ++ List.replicate (dictLength - bs.length) 0)

/-- npy.h:296-320 `read_npy_header` -/
def readNpyHeaderX (cfg : Cfg) : IM HeaderInfo := do
  let header ← readX STATIC_HEADER_LENGTH
  match header with
  | [m0, m1, m2, m3, m4, m5, v0, v1, b8, b9] =>
    if cfg.ndebug = false ∧ [m0, m1, m2, m3, m4, m5] ≠ MAGIC then SM.fail .abort
    else if v0 = 1 ∧ v1 = 0 then do
      let dictionary ← readDictionaryX (b8.toNat + 256 * b9.toNat)
      SM.lift (parseHeader cfg dictionary)
    else if v0 = 2 ∧ v1 = 0 then do
      match ← readX 2 with
      | [e0, e1] => do
        let dictionary ← readDictionaryX (dictLengthV2 b8 b9 e0 e1)
        SM.lift (parseHeader cfg dictionary)
      | _ => SM.fail .ub
    else do
      let dictionary ← readDictionaryX 0
      SM.lift (parseHeader cfg dictionary)
  | short =>
    if cfg.ndebug = false ∧ short.take 6 ≠ MAGIC.take short.length then SM.fail .abort
    else SM.fail .ub

/-- The body of the byte-swapping loop. (dtype.cpp:141-142 and the like) -/
def readSwapElemX : List Nat → Bytes → IM Bytes
  | [], m => pure m
  | i :: is, m => do
    let c ← getcX
    readSwapElemX is (m.set i c)

/-- The byte-swapping loop over `n` elements. (dtype.cpp:139-143 and the like) -/
def readSwappedX (t : DType) : Nat → IM (List Bytes)
  | 0 => pure []
  | n + 1 => do
    let m ← readSwapElemX t.getOrder (List.replicate t.size 0)
    let ms ← readSwappedX t n
    pure (m :: ms)

/-- dtype.cpp:83-512 `read_values` for the fixed-size types -/
def readFixedX (cfg : Cfg) (t : DType) (info : HeaderInfo) (n : Nat) : IM (List Elem) := do
  let block : IM (List Elem) := do
    let bs ← readX (n * t.blockFactor)
    let mem := bs ++ List.replicate (n * t.size - bs.length) 0
    pure ((chunks t.size n mem).map (memElem cfg t))
  if t.oneByte then block
  else match info.endianness with
    | none => SM.fail .ub
    | some e =>
      if e = .native ∨ e = nativeEndian cfg then block
      else do
        let ms ← readSwappedX t n
        pure (ms.map (memElem cfg t))

/-- dtype.cpp:558-578: the code units of one string -/
def readUnitsX (cfg : Cfg) (e : Endian) : Nat → WStr → IM WStr
  | 0, acc => pure acc
  | n + 1, acc => do
    let order := if e = .native ∨ e = nativeEndian cfg then [0, 1, 2, 3] else [3, 2, 1, 0]
    let m ← readSwapElemX order (List.replicate 4 0)
    let value := hostValue cfg m
    if value = 0 then readUnitsX cfg e n acc
    else readUnitsX cfg e n (acc ++ [toWchar cfg value])

/-- dtype.cpp:557-579: the outer loop -/
def readWideLoopX (cfg : Cfg) (e : Endian) (maxLen : Nat) : Nat → IM (List WStr)
  | 0 => pure []
  | n + 1 => do
    let v ← readUnitsX cfg e maxLen []
    let vs ← readWideLoopX cfg e maxLen n
    pure (v :: vs)

/-- dtype.cpp:553-580 `read_values<std::wstring>` -/
def readWideX (cfg : Cfg) (info : HeaderInfo) (n : Nat) : IM (List WStr) :=
  if n = 0 then pure []
  else match info.maxElementLength with
    | none => SM.fail .ub
    | some len =>
      if len = 0 then pure (List.replicate n [])
      else match info.endianness with
        | none => SM.fail .ub
        | some e => readWideLoopX cfg e len n

/-! ### Output

With exceptions enabled it matters when the device is reached: a file stream keeps bytes back until its buffer is full, or
until it is flushed. -/

/-- A buffered output stream with exceptions enabled. `dev` is what it writes to. The buffer may be of any size and be emptied
at any time: after its `i`-th call the stream keeps back at most `keep i` bytes. (the caller's stream at npy.h:216-219 and
dtype.cpp:77-551) -/
structure BufOut where
  dev : OStream
  pend : Bytes
  calls : Nat
  keep : Nat → Nat

/-- Code that writes to such a stream (npy.h:182-250, dtype.cpp:77-551). -/
abbrev XM := SM BufOut

/-- Hand bytes to the device; if it does not take all of them, badbit is set and the call throws. (libstdc++
`basic_filebuf::_M_convert_to_external` and `basic_ios::setstate`, for npy.h:216-219) -/
def BufOut.send (k : Nat) : XM Unit := .mk fun b =>
  let out := b.pend.take (b.pend.length - k)
  let dev := b.dev.write out
  let b' := { b with dev := dev, pend := b.pend.drop (b.pend.length - k) }
  if dev.bad then (.error ioFailure, b') else (.ok (), b')

/-- `output.write(bs)` (npy.h:216-219; dtype.cpp:80, 93, 106, 121) -/
def writeX (bs : Bytes) : XM Unit := .mk fun b =>
  BufOut.send (b.keep b.calls) { b with pend := b.pend ++ bs, calls := b.calls + 1 }

/-- `output.flush()`, a call the program makes after `save` (no line of /repo; the device is otherwise reached when the stream is
destroyed, which does not throw: npy.h:279) -/
def flushX : XM Unit := BufOut.send 0

/-- A sequence of `output.put` (dtype.cpp:125-126 and the like) -/
def putsX : Bytes → XM Unit
  | [] => pure ()
  | c :: r => do
    writeX [c]
    putsX r

/-- A loop over the elements. (dtype.cpp:123-127, 525-549 and the like) -/
def eachX {α : Type} (f : α → XM Unit) : List α → XM Unit
  | [] => pure ()
  | v :: vs => do
    f v
    eachX f vs

/-- npy.h:182-220 `write_npy_header` -/
def writeNpyHeaderX (dtype : Bytes) (fortran : Bool) (shape : List Nat) : XM Unit := do
  let dictionary := dictionaryText dtype fortran shape
  writeX (staticHeader (paddedDictLength dictionary.length))
  writeX dictionary
  writeX (headerEnd dictionary.length)

/-- dtype.cpp:77-481 `write_values` for the fixed-size types -/
def writeFixedX (cfg : Cfg) (t : DType) (e : Endian) (vals : List Elem) : XM Unit :=
  if t.oneByte ∨ e = .native ∨ e = nativeEndian cfg then
    writeX ((vals.flatMap (memBytes cfg t)).take (vals.length * t.blockFactor))
  else
    eachX (fun v =>
      let start := memBytes cfg t v
      putsX (t.putOrder.map fun i => start.getD i 0)) vals

/-- dtype.cpp:514-551 `write_values<std::wstring>` -/
def writeWideX (cfg : Cfg) (e : Endian) (vals : List WStr) : XM Unit :=
  let maxElementLength := maxLength vals
  eachX (fun v => do
    eachX (fun c => putsX (writeUnit cfg e c)) v
    eachX (fun (_ : Nat) => putsX [0, 0, 0, 0]) (List.range (maxElementLength - v.length))) vals

/-! ### The API -/

/-- An element type with the throwing forms of `read_values` and `write_values` (dtype.cpp:77-580). -/
structure ElemOpsX (α : Type) extends ElemOps α where
  readX : Cfg → HeaderInfo → Nat → IM (List α)
  writeX : Cfg → Endian → List α → XM Unit

/-- Fixed-size element types (tensor.cpp:5-56; dtype.cpp:77-512) -/
def fixedOpsX (t : DType) : ElemOpsX Elem where
  toElemOps := fixedOps t
  readX := fun cfg info n => readFixedX cfg t info n
  writeX := fun cfg e vals => writeFixedX cfg t e vals

/-- `std::wstring` elements (tensor.cpp:53-55; npy.h:1031-1049; dtype.cpp:514-580) -/
def wideOpsX : ElemOpsX WStr where
  toElemOps := wideOps
  readX := fun cfg info n => readWideX cfg info n
  writeX := fun cfg e vals => writeWideX cfg e vals

/-- The element types of the library. (tensor.cpp:5-56) -/
inductive StdOps : {α : Type} → ElemOpsX α → Prop
  | fixed (t : DType) : StdOps (fixedOpsX t)
  | wide : StdOps wideOpsX

/-- npy.h:744-754 `tensor<T>::load(input, info)` -/
def tensorLoadX {α : Type} (cfg : Cfg) (ops : ElemOpsX α) (info : HeaderInfo) : IM (Tensor α) := do
  match info.fortranOrder with
  | none => SM.fail .ub
  | some f => do
    let result ← SM.lift (Tensor.new ops.toElemOps info.shape f)
    match info.dtype with
    | none => SM.fail .ub
    | some t =>
      if t ≠ result.dtype then SM.fail (.throw (.runtimeError .dtypeMismatch))
      else do
        let vals ← ops.readX cfg info result.values.length
        pure { result with values := vals }

/-- npy.h:333-336 `npy::load<tensor<T>>(input)` -/
def loadX {α : Type} (cfg : Cfg) (ops : ElemOpsX α) : IM (Tensor α) := do
  let info ← readNpyHeaderX cfg
  tensorLoadX cfg ops info

/-- npy.h:367-369 `npy::peek(input)` -/
def peekX (cfg : Cfg) : IM HeaderInfo := readNpyHeaderX cfg

/-- npy.h:239-250 `npy::save(output, tensor, endianness)` -/
def saveX {α : Type} (cfg : Cfg) (ops : ElemOpsX α) (t : Tensor α) (e : Endian) : XM Unit :=
  match ops.dtypeStr cfg e t.values with
  | .error err => SM.fail err
  | .ok d => do
    writeNpyHeaderX d t.fortranOrder t.shape
    ops.writeX cfg e t.values

/-- `npy::save(output, tensor, e); output.flush();` (npy.h:239-250 and a call of the program) -/
def saveFlushX {α : Type} (cfg : Cfg) (ops : ElemOpsX α) (t : Tensor α) (e : Endian) : XM Unit := do
  saveX cfg ops t e
  flushX

end Npy
