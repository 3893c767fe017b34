import Verif.Model.Tensor
/-!
# The program's locale

`write_npy_header` prints the extents into a `std::ostringstream` and `read_shape` reads them from a
`std::istringstream`; a stream takes over the global locale of the program (`std::locale::global`) when it is constructed.
The locale's `std::numpunct<char>` facet decides whether digits are grouped. Everything else in libnpy is independent of
it (`std::to_string` and `std::stoi` do not group; `std::isspace` is taken as in the C locale).

The definitions here follow `Model/Header` and `Model/Tensor` with the locale as one more parameter; `none` is a locale
that does not group digits, such as the C locale.
-/

namespace Npy

/-- `std::numpunct<char>`: `thousands_sep()` and `grouping()`, the sizes of the groups from the right: `group`, then those in `more`;
the last one repeats, and 0 (in C++ also `CHAR_MAX`) means that no more groups are split off. `"\3"` in most locales, `"\3\2"` in India:
`⟨44, 3, [2]⟩` prints 12,34,567. `group` is from 1 to 126 (otherwise the locale does not group). Simplification: libstdc++ keeps the sizes
of the groups it reads in a `char`; here they are not reduced modulo 256. (the facet of the streams at npy.h:186 and npy.cpp:65) -/
structure Numpunct where
  sep : Byte
  group : Nat
  more : List Nat := []
  deriving DecidableEq, Repr, Inhabited

/-- The sizes after the first one has been used. (libstdc++ `__add_grouping`, for npy.h:191) -/
def nextSizes : List Nat → List Nat
  | [] => []
  | [k] => [k]
  | _ :: k :: more => k :: more

/-- The global locale, as far as npy.h:186 and npy.cpp:65 depend on it; `none`: no grouping. -/
abbrev Locale := Option Numpunct

/-! ### Writing -/

/-- libstdc++ `__add_grouping`: while more than a group is left, a group is split off at the right end. Fuel: the number of
digits. (libstdc++, for npy.h:191) -/
def addGrouping (sep : Byte) : Nat → List Nat → Bytes → Bytes
  | 0, _, ds => ds
  | _ + 1, [], ds => ds
  | fuel + 1, k :: more, ds =>
    if 0 < k ∧ k < ds.length then
      addGrouping sep fuel (nextSizes (k :: more)) (ds.take (ds.length - k)) ++ sep :: ds.drop (ds.length - k)
    else ds

/-- `buff << n` for an unsigned integer (npy.h:191) -/
def decimalL : Locale → Nat → Bytes
  | none, n => decimal n
  | some p, n => addGrouping p.sep (decimal n).length (p.group :: p.more) (decimal n)

/-- npy.h:190-195: the loop printing the extents with ", " between them -/
def shapeTextL (loc : Locale) : List Nat → Bytes
  | [] => []
  | [d] => decimalL loc d
  | d :: ds => decimalL loc d ++ b!", " ++ shapeTextL loc ds

/-- npy.h:186-202: the dictionary text. -/
def dictionaryTextL (loc : Locale) (dtype : Bytes) (fortran : Bool) (shape : List Nat) : Bytes :=
  b!"{'descr': '" ++ dtype ++
  b!"', 'fortran_order': " ++ (if fortran then b!"True" else b!"False") ++
  b!", 'shape': (" ++ shapeTextL loc shape ++ (if shape.length = 1 then b!"," else []) ++
  b!"), }"

/-- npy.h:182-220 `write_npy_header`. -/
def writeNpyHeaderL (loc : Locale) (o : OStream) (dtype : Bytes) (fortran : Bool) (shape : List Nat) : OStream :=
  let dictionary := dictionaryTextL loc dtype fortran shape
  ((o.write (staticHeader (paddedDictLength dictionary.length))).write dictionary).write
    (headerEnd dictionary.length)

/-- npy.h:239-250 `npy::save(output, tensor, endianness)`. -/
def saveL {α : Type} (loc : Locale) (cfg : Cfg) (ops : ElemOps α) (t : Tensor α) (e : Endian) (o : OStream) :
    Except Err OStream :=
  match ops.dtypeStr cfg e t.values with
  | .error err => .error err
  | .ok d => .ok (ops.write cfg e t.values (writeNpyHeaderL loc o d t.fortranOrder t.shape))

/-! ### Reading -/

/-- What the digit loop of `num_get` leaves behind. (libstdc++ `_M_extract_int`, for npy.cpp:71) -/
structure DigitScan where
  /-- sizes of the groups that a separator has closed -/
  groups : List Nat
  /-- digits since the last separator -/
  count : Nat
  /-- the digits, without separators -/
  digits : Bytes
  /-- a separator without digits before it -/
  testfail : Bool
  rest : Bytes
  deriving DecidableEq, Repr, Inhabited

/-- The digit loop of `num_get`: separators are skipped, and the sizes of the groups collected. (libstdc++
`_M_extract_int`, for npy.cpp:71) -/
def scanDigits (sep : Byte) : Bytes → List Nat → Nat → Bytes → DigitScan
  | [], gs, n, ds => ⟨gs, n, ds, false, []⟩
  | c :: r, gs, n, ds =>
    if c = sep then
      if n = 0 then ⟨gs, n, ds, true, c :: r⟩ else scanDigits sep r (gs ++ [n]) 0 ds
    else if isDigit c then scanDigits sep r gs (n + 1) (ds ++ [c])
    else ⟨gs, n, ds, false, c :: r⟩

/-- libstdc++ `__verify_grouping` on the groups from the right: every group but the leftmost has exactly the size of the locale's
groups, and the leftmost has no more (any size where the locale does not split off groups). (libstdc++, for npy.cpp:71) -/
def verifyFrom : List Nat → List Nat → Bool
  | _, [] => true
  | [], _ :: _ => false
  | k :: _, [g] => decide (k = 0) || decide (g ≤ k)
  | k :: more, g :: gs => g == k && verifyFrom (nextSizes (k :: more)) gs

/-- libstdc++ `__verify_grouping`; `gs` are the groups from the left. (libstdc++, for npy.cpp:71) -/
def verifyGrouping (p : Numpunct) (gs : List Nat) : Bool := verifyFrom (p.group :: p.more) gs.reverse

/-- `stream >> x` for `size_t x` (npy.cpp:71) in a locale that groups digits, libstdc++
`num_get::_M_extract_int<unsigned long>`, base 10. Once a separator has been seen the groups, including the last one, are
checked; if they are wrong, failbit. -/
def extractSizeL : Locale → IM (Option Nat)
  | none => IStream.extractSize
  | some p => .mk fun s =>
    if s.good then
      let r := s.rest.dropWhile isSpace
      match r with
      | [] => (.ok none, { s with rest := [], eof := true, fail := true })
      | c :: r' =>
        let signed := (c == 45 || c == 43) && c != p.sep
        let sc := scanDigits p.sep (if signed then r' else r) [] 0 []
        let s' := { s with rest := sc.rest, eof := sc.rest.isEmpty }
        if sc.groups ≠ [] ∧ verifyGrouping p (sc.groups ++ [sc.count]) = false then (.ok none, s'.setFail)
        else if sc.testfail || sc.digits.isEmpty then (.ok none, s'.setFail)
        else if decValue sc.digits < SIZE then
          (.ok (some (if c == 45 then (SIZE - decValue sc.digits) % SIZE else decValue sc.digits)), s')
        else (.ok none, s'.setFail)
    else (.ok none, s.setFail)

/-- npy.cpp:71-77: the loop of `read_shape` on the inner stream. -/
def readShapeLoopL (loc : Locale) (cfg : Cfg) : Nat → List Nat → IM (List Nat)
  | 0, _ => SM.fail .diverge
  | fuel + 1, acc => do
    match ← extractSizeL loc with
    | none => pure acc
    | some size => do
      if (← IStream.peek) = some 44 then do
        readChar cfg 44
        skipWhitespace
        readShapeLoopL loc cfg fuel (acc ++ [size])
      else readShapeLoopL loc cfg fuel (acc ++ [size])

/-- npy.cpp:63-80 `read_shape` -/
def readShapeL (loc : Locale) (cfg : Cfg) : IM (List Nat) := do
  readChar cfg 40
  let text ← readTo 41
  readChar cfg 41
  SM.lift (readShapeLoopL loc cfg (text.length + 1) [] (IStream.ofBytes text)).1

/-- npy.cpp:93-111: the value of one dictionary item -/
def parseValueL (loc : Locale) (cfg : Cfg) (h : HeaderInfo) (key : Bytes) : IM HeaderInfo := do
  if key = b!"descr" then do
    let code ← readString cfg
    SM.lift (setDescr h code)
  else if key = b!"fortran_order" then do
    let b ← readBool cfg
    pure { h with fortranOrder := some b }
  else if key = b!"shape" then do
    let shape ← readShapeL loc cfg
    pure { h with shape := shape }
  else SM.fail (.throw (.runtimeError .unsupportedKey))

/-- npy.cpp:87-115: one iteration of the loop body -/
def parseItemL (loc : Locale) (cfg : Cfg) (h : HeaderInfo) : IM HeaderInfo := do
  skipWhitespace
  let key ← readString cfg
  skipWhitespace
  readChar cfg 58
  skipWhitespace
  let h ← parseValueL loc cfg h key
  readChar cfg 44
  skipWhitespace
  pure h

/-- npy.cpp:87: the loop `while (input.peek() != '}')`, on fuel. -/
def parseItemsL (loc : Locale) (cfg : Cfg) : Nat → HeaderInfo → IM HeaderInfo
  | 0, _ => SM.fail .diverge
  | fuel + 1, h => do
    if (← IStream.peek) = some 125 then pure h
    else do
      let h ← parseItemL loc cfg h
      parseItemsL loc cfg fuel h

/-- npy.cpp:84-118 `header_info::header_info(dictionary)`. -/
def parseHeaderL (loc : Locale) (cfg : Cfg) (dictionary : Bytes) : Except Err HeaderInfo :=
  (do
    readChar cfg 123
    let h ← parseItemsL loc cfg (dictionary.length + 1) HeaderInfo.uninit
    readChar cfg 125
    pure h : IM HeaderInfo) (IStream.ofBytes dictionary) |>.1

/-- npy.h:296-320 `read_npy_header`. -/
def readNpyHeaderL (loc : Locale) (cfg : Cfg) : IM HeaderInfo := do
  let header ← IStream.read STATIC_HEADER_LENGTH
  match header with
  | [m0, m1, m2, m3, m4, m5, v0, v1, b8, b9] =>
    if cfg.ndebug = false ∧ [m0, m1, m2, m3, m4, m5] ≠ MAGIC then SM.fail .abort
    else if v0 = 1 ∧ v1 = 0 then do
      let dictionary ← readDictionary (b8.toNat + 256 * b9.toNat)
      SM.lift (parseHeaderL loc cfg dictionary)
    else if v0 = 2 ∧ v1 = 0 then do
      match ← IStream.read 2 with
      | [e0, e1] => do
        let dictionary ← readDictionary (dictLengthV2 b8 b9 e0 e1)
        SM.lift (parseHeaderL loc cfg dictionary)
      | _ => SM.fail .ub
    else do
      let dictionary ← readDictionary 0
      SM.lift (parseHeaderL loc cfg dictionary)
  | short =>
    if cfg.ndebug = false ∧ short.take 6 ≠ MAGIC.take short.length then SM.fail .abort
    else SM.fail .ub

/-- npy.h:333-336 `npy::load<tensor<T>>(input)` -/
def loadL {α : Type} (loc : Locale) (cfg : Cfg) (ops : ElemOps α) : IM (Tensor α) := do
  let info ← readNpyHeaderL loc cfg
  Tensor.load cfg ops info

/-- npy.h:367-369 `npy::peek(input)` -/
def peekL (loc : Locale) (cfg : Cfg) : IM HeaderInfo := readNpyHeaderL loc cfg

end Npy
