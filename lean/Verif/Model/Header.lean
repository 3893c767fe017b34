import Verif.Model.Dtype
/-!
# The NPY header: writer (npy.h:182-220), reader (npy.h:296-320) and dictionary parser (npy.cpp)
-/

namespace Npy

/-- npy.h:145-171 `header_info`. `none` is a member that was never assigned (indeterminate value). `shape` has a
default constructor and is never indeterminate. -/
structure HeaderInfo where
  dtype : Option DType
  endianness : Option Endian
  fortranOrder : Option Bool
  shape : List Nat
  maxElementLength : Option Nat
  deriving DecidableEq, Repr, Inhabited

/-- The members before the constructor of npy.cpp:84 has assigned anything. -/
def HeaderInfo.uninit : HeaderInfo :=
  { dtype := none, endianness := none, fortranOrder := none, shape := [], maxElementLength := none }

/-- npy.cpp:120-126 four-argument constructor; `max_element_length` is left unassigned. -/
def HeaderInfo.mk4 (t : DType) (e : Endian) (f : Bool) (shape : List Nat) : HeaderInfo :=
  { dtype := some t, endianness := some e, fortranOrder := some f, shape := shape, maxElementLength := none }

/-! ### Writing -/

/-- The decimal digits of `n`, least significant first; `fuel` at least the number of digits. (libstdc++, for npy.h:191 and npy.h:1045) -/
def decDigitsRev : Nat → Nat → Bytes
  | 0, _ => []
  | fuel + 1, n => UInt8.ofNat (48 + n % 10) :: (if n / 10 = 0 then [] else decDigitsRev fuel (n / 10))

/-- `buff << n` for an unsigned integer; `std::to_string(n)`. (npy.h:191, 1045, 1048) -/
def decimal (n : Nat) : Bytes := (decDigitsRev (n + 1) n).reverse

/-- npy.h:190-195: the loop printing the extents with ", " between them -/
def shapeText : List Nat → Bytes
  | [] => []
  | [d] => decimal d
  | d :: ds => decimal d ++ b!", " ++ shapeText ds

/-- npy.h:186-202: the dictionary text. -/
def dictionaryText (dtype : Bytes) (fortran : Bool) (shape : List Nat) : Bytes :=
  b!"{'descr': '" ++ dtype ++
  b!"', 'fortran_order': " ++ (if fortran then b!"True" else b!"False") ++
  b!", 'shape': (" ++ shapeText shape ++ (if shape.length = 1 then b!"," else []) ++
  b!"), }"

/-- npy.h:37 -/
def STATIC_HEADER_LENGTH : Nat := 10

/-- npy.h:203-211: `dict_length` after padding to a multiple of 64 -/
def paddedDictLength (len : Nat) : Nat :=
  let dictLength := len + 1
  let headerLength := dictLength + STATIC_HEADER_LENGTH
  if headerLength % 64 ≠ 0 then (headerLength / 64 + 1) * 64 - STATIC_HEADER_LENGTH else dictLength

/-- npy.h:204-211: `end`, spaces with the last one replaced by a newline -/
def headerEnd (len : Nat) : Bytes :=
  List.replicate (paddedDictLength len - len - 1) 32 ++ [10]

/-- npy.h:213-215: the ten fixed bytes. Only the low byte of `dict_length` is stored; the high byte is always 0. -/
def staticHeader (dictLength : Nat) : Bytes :=
  [0x93, 78, 85, 77, 80, 89, 1, 0, UInt8.ofNat dictLength, 0]

/-- npy.h:182-220 `write_npy_header`: the bytes handed to `output.write` in three calls. -/
def writeNpyHeader (o : OStream) (dtype : Bytes) (fortran : Bool) (shape : List Nat) : OStream :=
  let dictionary := dictionaryText dtype fortran shape
  ((o.write (staticHeader (paddedDictLength dictionary.length))).write dictionary).write
    (headerEnd dictionary.length)

/-! ### Parsing the dictionary (npy.cpp)

`assert`s are checked when `cfg.ndebug` is false. -/

/-- npy.cpp:10 `BUFFER_SIZE` -/
def BUFFER_SIZE : Nat := 64 * 1024

/-- npy.cpp:13-17 `read(input, char)`. At the end of the input `actual` stays indeterminate: the comparison in the assert
is then undefined. -/
def readChar (cfg : Cfg) (expected : Byte) : IM Unit := do
  match ← IStream.getc with
  | some actual =>
    if cfg.ndebug then pure ()
    else if actual = expected then pure () else SM.fail .abort
  | none => if cfg.ndebug then pure () else SM.fail .ub

/-- npy.cpp:19-23 `read(input, string)`. On a short read in a debug build the comparison involves the previous contents of the
global `BUFFER`; the model takes the assert to fail, which is what it does on every history of calls (`Props/Globals`, C82). -/
def readLit (cfg : Cfg) (expected : Bytes) : IM Unit := do
  let actual ← IStream.read expected.length
  if cfg.ndebug then pure ()
  else if actual = expected then pure () else SM.fail .abort

/-- npy.cpp:25-30 `skip_whitespace`: peeks and extracts while `isspace`. The `fuel` is the number of bytes left plus one;
`peek` at the end of the data sets eofbit. -/
def skipWhitespaceAux : Nat → IM Unit
  | 0 => SM.fail .diverge
  | fuel + 1 => do
    match ← IStream.peek with
    | some c => if isSpace c then do let _ ← IStream.getc; skipWhitespaceAux fuel else pure ()
    | none => pure ()

/-- npy.cpp:25-30 `skip_whitespace` -/
def skipWhitespace : IM Unit := .mk fun s => skipWhitespaceAux (s.rest.length + 1) s

/-- npy.cpp:32-42 `read_to`. At most `BUFFER_SIZE - 1` characters, so the assert on the length always holds. -/
def readTo (delim : Byte) : IM Bytes := do
  match ← IStream.peek with
  | some c => if c = delim then pure [] else IStream.getUntil (BUFFER_SIZE - 1) delim
  | none => IStream.getUntil (BUFFER_SIZE - 1) delim

/-- npy.cpp:44-49 `read_string` -/
def readString (cfg : Cfg) : IM Bytes := do
  readChar cfg 39
  let token ← readTo 39
  readChar cfg 39
  pure token

/-- npy.cpp:51-61 `read_bool` -/
def readBool (cfg : Cfg) : IM Bool := do
  if (← IStream.peek) = some 84 then do
    readLit cfg b!"True"
    pure true
  else if (← IStream.peek) = some 70 then do
    readLit cfg b!"False"
    pure false
  else SM.fail (.throw (.runtimeError .notBool))

/-- npy.cpp:71-77: the loop of `read_shape` on the inner stream. Each successful extraction consumes at least one digit,
so the number of bytes left plus one is enough fuel. -/
def readShapeLoop (cfg : Cfg) : Nat → List Nat → IM (List Nat)
  | 0, _ => SM.fail .diverge
  | fuel + 1, acc => do
    match ← IStream.extractSize with
    | none => pure acc
    | some size => do
      if (← IStream.peek) = some 44 then do
        readChar cfg 44
        skipWhitespace
        readShapeLoop cfg fuel (acc ++ [size])
      else readShapeLoop cfg fuel (acc ++ [size])

/-- npy.cpp:63-80 `read_shape` -/
def readShape (cfg : Cfg) : IM (List Nat) := do
  readChar cfg 40
  let text ← readTo 41
  readChar cfg 41
  SM.lift (readShapeLoop cfg (text.length + 1) [] (IStream.ofBytes text)).1

/-- `std::stoi(text)`: white space, optional sign, digits; trailing characters are ignored; no digits throws
`invalid_argument`, a value outside `int` throws `out_of_range`. (npy.cpp:99) -/
def stoi (text : Bytes) : Except Err Int :=
  let r := text.dropWhile isSpace
  let (neg, r) := match r with
    | 45 :: r' => (true, r')
    | 43 :: r' => (false, r')
    | r => (false, r)
  let ds := r.takeWhile isDigit
  if ds.isEmpty then .error (.throw (.invalidArgument .std))
  else
    let v : Int := if neg then -(decValue ds : Int) else decValue ds
    if v < -(2 ^ 31) ∨ v ≥ 2 ^ 31 then .error (.throw (.outOfRange .std))
    else .ok v

/-- npy.cpp:94-104: what the `descr` string does to the members. `dtype_code[1]` on the empty string is undefined; on a
one-character string it is the terminating NUL. Assigning the `int` to `std::size_t` wraps modulo `2^64`. -/
def setDescr (h : HeaderInfo) (code : Bytes) : Except Err HeaderInfo :=
  match code with
  | [] => .error .ub
  | c0 :: rest =>
    if rest.head? = some 85 then
      match stoi (rest.drop 1) with
      | .ok v => .ok { h with
          dtype := some .unicode
          endianness := some (if c0 = 62 then .big else .little)
          maxElementLength := some (v % (SIZE : Int)).toNat }
      | .error e => .error e
    else
      let (t, e) := fromDtype code
      .ok { h with dtype := some t, endianness := some e, maxElementLength := some 0 }

/-- npy.cpp:93-111: the value of one dictionary item -/
def parseValue (cfg : Cfg) (h : HeaderInfo) (key : Bytes) : IM HeaderInfo := do
  if key = b!"descr" then do
    let code ← readString cfg
    SM.lift (setDescr h code)
  else if key = b!"fortran_order" then do
    let b ← readBool cfg
    pure { h with fortranOrder := some b }
  else if key = b!"shape" then do
    let shape ← readShape cfg
    pure { h with shape := shape }
  else SM.fail (.throw (.runtimeError .unsupportedKey))

/-- npy.cpp:87-115: one iteration of the loop body -/
def parseItem (cfg : Cfg) (h : HeaderInfo) : IM HeaderInfo := do
  skipWhitespace
  let key ← readString cfg
  skipWhitespace
  readChar cfg 58
  skipWhitespace
  let h ← parseValue cfg h key
  readChar cfg 44
  skipWhitespace
  pure h

/-- npy.cpp:87: the loop `while (input.peek() != '}')`, on fuel. -/
def parseItems (cfg : Cfg) : Nat → HeaderInfo → IM HeaderInfo
  | 0, _ => SM.fail .diverge
  | fuel + 1, h => do
    if (← IStream.peek) = some 125 then pure h
    else do
      let h ← parseItem cfg h
      parseItems cfg fuel h

/-- npy.cpp:84-118 `header_info::header_info(dictionary)`. Fuel: the length of the dictionary plus one
(`Props/Parse` proves that it never runs out). -/
def parseHeader (cfg : Cfg) (dictionary : Bytes) : Except Err HeaderInfo :=
  (do
    readChar cfg 123
    let h ← parseItems cfg (dictionary.length + 1) HeaderInfo.uninit
    readChar cfg 125
    pure h : IM HeaderInfo) (IStream.ofBytes dictionary) |>.1

/-! ### Reading the header from a stream -/

/-- npy.h:300-305: the six asserts on the magic string -/
def MAGIC : Bytes := [0x93, 78, 85, 77, 80, 89]

/-- npy.h:316: `std::vector<CHAR> buffer(dict_length)` throws `length_error` above `max_size` -/
def VECTOR_CHAR_MAX : Nat := 2 ^ 63 - 1

/-- npy.h:316-318: reading the dictionary; the buffer is zero-initialised, so a short read leaves zeros. -/
def readDictionary (dictLength : Nat) : IM Bytes := do
  if dictLength > VECTOR_CHAR_MAX then SM.fail (.throw (.lengthError .std))
  else
    let bs ← IStream.read dictLength
    pure (bs ++ List.replicate (dictLength - bs.length) 0)

/-- npy.h:312-313: `header[8] | (header[9] << 8) | (extra[0] << 16) | (extra[1] << 24)` in `int`, converted to `size_t`:
with the top bit of `extra[1]` set the `int` is negative and the conversion adds `2^64 - 2^32`. -/
def dictLengthV2 (b8 b9 e0 e1 : Byte) : Nat :=
  let v := b8.toNat + 256 * b9.toNat + 65536 * e0.toNat + 16777216 * e1.toNat
  if e1.toNat < 128 then v else v + (2 ^ 64 - 2 ^ 32)

/-- npy.h:296-320 `read_npy_header`. Fewer than ten bytes leave part of `header[]` indeterminate: undefined, unless an assert on
the bytes that are there fails first. -/
def readNpyHeader (cfg : Cfg) : IM HeaderInfo := do
  let header ← IStream.read STATIC_HEADER_LENGTH
  match header with
  | [m0, m1, m2, m3, m4, m5, v0, v1, b8, b9] =>
    if cfg.ndebug = false ∧ [m0, m1, m2, m3, m4, m5] ≠ MAGIC then SM.fail .abort
    else if v0 = 1 ∧ v1 = 0 then do
      let dictionary ← readDictionary (b8.toNat + 256 * b9.toNat)
      SM.lift (parseHeader cfg dictionary)
    else if v0 = 2 ∧ v1 = 0 then do
      match ← IStream.read 2 with
      | [e0, e1] => do
        let dictionary ← readDictionary (dictLengthV2 b8 b9 e0 e1)
        SM.lift (parseHeader cfg dictionary)
      | _ => SM.fail .ub
    else do
      let dictionary ← readDictionary 0
      SM.lift (parseHeader cfg dictionary)
  | short =>
    if cfg.ndebug = false ∧ short.take 6 ≠ MAGIC.take short.length then SM.fail .abort
    else SM.fail .ub

end Npy
