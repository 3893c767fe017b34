import Verif.Model.Npz
import Verif.Model.Threads
/-!
# The mutable globals of the library

Two objects outlive a call: the array `BUFFER`, through which the parser passes its tokens (npy.cpp:11), and the table
`DTYPE_MAP`, into which `from_dtype` inserts the strings it does not know (dtype.cpp:20-45, 63-65). `Model/Header` has neither: there a
token is what was just read, and the table is the initial one. Here reading is written again with both, one thread, any number of
calls. (All other objects of namespace scope are constants: npy.h:37, dtype.cpp:12-18, npz.cpp:14-27, the tables of miniz.cpp.)
-/

namespace Npy

/-- npy.cpp:11 `BUFFER` and dtype.cpp:20-45 `DTYPE_MAP` -/
structure Globals where
  buffer : Buffer
  map : DtypeMap

/-- The globals when `main` starts: `BUFFER` is zero-initialised, the table has its initialiser. (npy.cpp:11; dtype.cpp:20-45) -/
def Globals.initial : Globals := { buffer := fun _ => 0, map := DTYPE_MAP }

/-- Code on a stream and the globals. (npy.cpp:13-118; npy.h:296-369) -/
abbrev GM := SM (IStream × Globals)

/-- Code that does not use the globals. (model infrastructure) -/
def GM.lift {α : Type} (x : IM α) : GM α := .mk fun p => ((x p.1).1, ((x p.1).2, p.2))

/-- npy.cpp:20, 37: characters are stored into `BUFFER` -/
def GM.fill (token : Bytes) : GM Unit := .mk fun p => (.ok (), (p.1, { p.2 with buffer := p.2.buffer.fill token }))

/-- npy.cpp:21, 41: characters are copied from `BUFFER` -/
def GM.copy (n : Nat) : GM Bytes := .mk fun p => (.ok (p.2.buffer.copy n), p)

/-- npy.cpp:19-23 `read(input, string)`: whatever `BUFFER` holds after the characters read is part of the string compared. -/
def readLitG (cfg : Cfg) (expected : Bytes) : GM Unit := do
  let got ← GM.lift (IStream.read expected.length)
  GM.fill got
  let actual ← GM.copy expected.length
  if cfg.ndebug then pure ()
  else if actual = expected then pure () else SM.fail .abort

/-- npy.cpp:37-41: `get` stores the characters and a NUL, and `gcount` characters are copied back -/
def readTokenG (delim : Byte) : GM Bytes := do
  let token ← GM.lift (IStream.getUntil (BUFFER_SIZE - 1) delim)
  GM.fill (token ++ [0])
  GM.copy token.length

/-- npy.cpp:32-42 `read_to` -/
def readToG (delim : Byte) : GM Bytes := do
  match ← GM.lift IStream.peek with
  | some c => if c = delim then pure [] else readTokenG delim
  | none => readTokenG delim

/-- npy.cpp:44-49 `read_string` -/
def readStringG (cfg : Cfg) : GM Bytes := do
  GM.lift (readChar cfg 39)
  let token ← readToG 39
  GM.lift (readChar cfg 39)
  pure token

/-- npy.cpp:51-61 `read_bool` -/
def readBoolG (cfg : Cfg) : GM Bool := do
  if (← GM.lift IStream.peek) = some 84 then do
    readLitG cfg b!"True"
    pure true
  else if (← GM.lift IStream.peek) = some 70 then do
    readLitG cfg b!"False"
    pure false
  else SM.fail (.throw (.runtimeError .notBool))

/-- npy.cpp:63-80 `read_shape` -/
def readShapeG (cfg : Cfg) : GM (List Nat) := do
  GM.lift (readChar cfg 40)
  let text ← readToG 41
  GM.lift (readChar cfg 41)
  SM.lift (readShapeLoop cfg (text.length + 1) [] (IStream.ofBytes text)).1

/-- dtype.cpp:63-65 `from_dtype` on the table as it is -/
def fromDtypeG (d : Bytes) : GM (DType × Endian) := .mk fun p =>
  (.ok (fromDtypeM p.2.map d).1, (p.1, { p.2 with map := (fromDtypeM p.2.map d).2 }))

/-- npy.cpp:94-104: as `setDescr`, on the table as it is -/
def setDescrG (h : HeaderInfo) (code : Bytes) : GM HeaderInfo :=
  match code with
  | [] => SM.fail .ub
  | c0 :: rest =>
    if rest.head? = some 85 then
      match stoi (rest.drop 1) with
      | .ok v => pure { h with
          dtype := some .unicode
          endianness := some (if c0 = 62 then .big else .little)
          maxElementLength := some (v % (SIZE : Int)).toNat }
      | .error e => SM.fail e
    else do
      let te ← fromDtypeG (c0 :: rest)
      pure { h with dtype := some te.1, endianness := some te.2, maxElementLength := some 0 }

/-- npy.cpp:93-111: the value of one dictionary item -/
def parseValueG (cfg : Cfg) (h : HeaderInfo) (key : Bytes) : GM HeaderInfo := do
  if key = b!"descr" then do
    let code ← readStringG cfg
    setDescrG h code
  else if key = b!"fortran_order" then do
    let b ← readBoolG cfg
    pure { h with fortranOrder := some b }
  else if key = b!"shape" then do
    let shape ← readShapeG cfg
    pure { h with shape := shape }
  else SM.fail (.throw (.runtimeError .unsupportedKey))

/-- npy.cpp:87-115: one iteration of the loop body -/
def parseItemG (cfg : Cfg) (h : HeaderInfo) : GM HeaderInfo := do
  GM.lift skipWhitespace
  let key ← readStringG cfg
  GM.lift skipWhitespace
  GM.lift (readChar cfg 58)
  GM.lift skipWhitespace
  let h ← parseValueG cfg h key
  GM.lift (readChar cfg 44)
  GM.lift skipWhitespace
  pure h

/-- npy.cpp:87: the loop `while (input.peek() != '}')`, on fuel -/
def parseItemsG (cfg : Cfg) : Nat → HeaderInfo → GM HeaderInfo
  | 0, _ => SM.fail .diverge
  | fuel + 1, h => do
    if (← GM.lift IStream.peek) = some 125 then pure h
    else do
      let h ← parseItemG cfg h
      parseItemsG cfg fuel h

/-- npy.cpp:84-118 `header_info::header_info(dictionary)`; the parser reads from a stream of its own. -/
def parseHeaderG (cfg : Cfg) (dictionary : Bytes) : SM Globals HeaderInfo := .mk fun g =>
  let r := (do
    GM.lift (readChar cfg 123)
    let h ← parseItemsG cfg (dictionary.length + 1) HeaderInfo.uninit
    GM.lift (readChar cfg 125)
    pure h : GM HeaderInfo) (IStream.ofBytes dictionary, g)
  (r.1, r.2.2)

/-- Code that uses the globals only. (model infrastructure) -/
def GM.globally {α : Type} (x : SM Globals α) : GM α := .mk fun p => ((x p.2).1, (p.1, (x p.2).2))

/-- npy.h:296-320 `read_npy_header` -/
def readNpyHeaderG (cfg : Cfg) : GM HeaderInfo := do
  let header ← GM.lift (IStream.read STATIC_HEADER_LENGTH)
  match header with
  | [m0, m1, m2, m3, m4, m5, v0, v1, b8, b9] =>
    if cfg.ndebug = false ∧ [m0, m1, m2, m3, m4, m5] ≠ MAGIC then SM.fail .abort
    else if v0 = 1 ∧ v1 = 0 then do
      let dictionary ← GM.lift (readDictionary (b8.toNat + 256 * b9.toNat))
      GM.globally (parseHeaderG cfg dictionary)
    else if v0 = 2 ∧ v1 = 0 then do
      match ← GM.lift (IStream.read 2) with
      | [e0, e1] => do
        let dictionary ← GM.lift (readDictionary (dictLengthV2 b8 b9 e0 e1))
        GM.globally (parseHeaderG cfg dictionary)
      | _ => SM.fail .ub
    else do
      let dictionary ← GM.lift (readDictionary 0)
      GM.globally (parseHeaderG cfg dictionary)
  | short =>
    if cfg.ndebug = false ∧ short.take 6 ≠ MAGIC.take short.length then SM.fail .abort
    else SM.fail .ub

/-- npy.h:333-336 `npy::load<tensor<T>>(input)` -/
def loadG {α : Type} (cfg : Cfg) (ops : ElemOps α) : GM (Tensor α) := do
  let info ← readNpyHeaderG cfg
  GM.lift (Tensor.load cfg ops info)

/-- npy.h:367-369 `npy::peek(input)` -/
def peekG (cfg : Cfg) : GM HeaderInfo := readNpyHeaderG cfg

/-- Code on an archive reader and the globals. (npy.h:570-573, 635-638; npz.cpp:533-536, 571-574) -/
abbrev RGM := SM (Reader × Globals)

/-- npy.h:570-573 / 635-638 `read<T>(filename)` -/
def Reader.readG {α : Type} (cfg : Cfg) (codec : Codec) (ops : ElemOps α) (filename : Bytes) : RGM (Tensor α) := .mk fun p =>
  match Reader.readFile codec filename p.1 with
  | (.error e, r) => (.error e, (r, p.2))
  | (.ok bytes, r) =>
    let x := loadG cfg ops (IStream.ofBytes bytes, p.2)
    (x.1, (r, x.2.2))

/-- npz.cpp:533-536 / 571-574 `peek(filename)` -/
def Reader.peekG (cfg : Cfg) (codec : Codec) (filename : Bytes) : RGM HeaderInfo := .mk fun p =>
  match Reader.readFile codec filename p.1 with
  | (.error e, r) => (.error e, (r, p.2))
  | (.ok bytes, r) =>
    let x := Npy.peekG cfg (IStream.ofBytes bytes, p.2)
    (x.1, (r, x.2.2))

/-- The globals a program can find after any calls that read: on any streams and archives, for any types, whether they returned or
threw. (client code; npy.h:333-369, 570-573, 635-638; npz.cpp:533-536, 571-574; dtype.cpp:63-65) -/
inductive Globals.Reachable (cfg : Cfg) (codec : Codec) : Globals → Prop
  /-- at the start of the program -/
  | start : Globals.Reachable cfg codec Globals.initial
  /-- after `npy::load<tensor<T>>(input)` -/
  | load {g : Globals} (α : Type) (ops : ElemOps α) (s : IStream) :
    Globals.Reachable cfg codec g → Globals.Reachable cfg codec (loadG cfg ops (s, g)).2.2
  /-- after `npy::peek(input)` -/
  | peek {g : Globals} (s : IStream) :
    Globals.Reachable cfg codec g → Globals.Reachable cfg codec (peekG cfg (s, g)).2.2
  /-- after `npy::from_dtype(d)` -/
  | fromDtype {g : Globals} (s : IStream) (d : Bytes) :
    Globals.Reachable cfg codec g → Globals.Reachable cfg codec (fromDtypeG d (s, g)).2.2
  /-- after `reader.read<tensor<T>>(name)` -/
  | read {g : Globals} (α : Type) (ops : ElemOps α) (r : Reader) (name : Bytes) :
    Globals.Reachable cfg codec g → Globals.Reachable cfg codec (Reader.readG cfg codec ops name (r, g)).2.2
  /-- after `reader.peek(name)` -/
  | peekFile {g : Globals} (r : Reader) (name : Bytes) :
    Globals.Reachable cfg codec g → Globals.Reachable cfg codec (Reader.peekG cfg codec name (r, g)).2.2

end Npy
