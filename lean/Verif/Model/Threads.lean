import Verif.Model.Header
/-!
# Header parsing by several threads

The parser passes every token through the global array `BUFFER` (npy.cpp:11). Here the parser is written as a program
whose only effects on shared memory are visible steps: putting characters at the start of `BUFFER` and copying
characters from it. Everything else a thread does is on its own stream.

Simplification: a step on `BUFFER` is atomic and steps of different threads interleave. (In C++ two such unsynchronised
steps are a data race, which is undefined behaviour; an interleaving is the mildest thing that can happen.)
-/

namespace Npy

/-- A thread's remaining program. (the accesses to `BUFFER` at npy.cpp:20-21, 37-40) -/
inductive Prog (α : Type)
  /-- finished -/
  | ret (a : α)
  /-- characters are stored at the start of `BUFFER` -/
  | fill (token : Bytes) (k : Prog α)
  /-- the first `n` characters of `BUFFER` are copied -/
  | copy (n : Nat) (k : Bytes → Prog α)

/-- Model infrastructure: sequencing. -/
def Prog.bind {α β : Type} : Prog α → (α → Prog β) → Prog β
  | .ret a, f => f a
  | .fill t k, f => .fill t (k.bind f)
  | .copy n k, f => .copy n fun bs => (k bs).bind f

/-- Code on a stream of its own and the shared buffer; as `IM`, the stream survives an exception. (npy.cpp:13-118) -/
structure BM (α : Type) where
  mk ::
  run : IStream → Prog (Except Err α × IStream)

namespace BM
variable {α β : Type}

/-- Model infrastructure: return. -/
def pure (a : α) : BM α := .mk fun s => .ret (.ok a, s)

/-- Model infrastructure: sequencing; an error ends the computation. -/
def bind (x : BM α) (f : α → BM β) : BM β := .mk fun s => (x.run s).bind fun
  | (.ok a, s') => (f a).run s'
  | (.error e, s') => .ret (.error e, s')

instance : Monad BM where
  pure := BM.pure
  bind := BM.bind

/-- Code that does not use the shared buffer. (model infrastructure) -/
def lift (x : IM α) : BM α := .mk fun s => .ret (x s)

/-- npy.cpp:20, 37: characters are stored into `BUFFER` -/
def fill (token : Bytes) : BM Unit := .mk fun s => .fill token (.ret (.ok (), s))
/-- npy.cpp:21, 40: characters are copied from `BUFFER` -/
def copy (n : Nat) : BM Bytes := .mk fun s => .copy n fun bs => .ret (.ok bs, s)

end BM

/-- npy.cpp:19-23 `read(input, string)`: the characters go to `BUFFER`; the copy serves the assert only. -/
def readLitB (cfg : Cfg) (expected : Bytes) : BM Unit := do
  let got ← BM.lift (IStream.read expected.length)
  BM.fill got
  if cfg.ndebug then pure ()
  else do
    let actual ← BM.copy expected.length
    if actual = expected then pure () else BM.lift (SM.fail .abort)

/-- npy.cpp:32-42 `read_to`: `get` stores the characters and a NUL; then `gcount` characters are copied. -/
def readToB (delim : Byte) : BM Bytes := do
  match ← BM.lift IStream.peek with
  | some c =>
    if c = delim then pure []
    else do
      let token ← BM.lift (IStream.getUntil (BUFFER_SIZE - 1) delim)
      BM.fill (token ++ [0])
      BM.copy token.length
  | none => do
    let token ← BM.lift (IStream.getUntil (BUFFER_SIZE - 1) delim)
    BM.fill (token ++ [0])
    BM.copy token.length

/-- npy.cpp:44-49 `read_string` -/
def readStringB (cfg : Cfg) : BM Bytes := do
  BM.lift (readChar cfg 39)
  let token ← readToB 39
  BM.lift (readChar cfg 39)
  pure token

/-- npy.cpp:51-61 `read_bool` -/
def readBoolB (cfg : Cfg) : BM Bool := do
  if (← BM.lift IStream.peek) = some 84 then do
    readLitB cfg b!"True"
    pure true
  else if (← BM.lift IStream.peek) = some 70 then do
    readLitB cfg b!"False"
    pure false
  else BM.lift (SM.fail (.throw (.runtimeError .notBool)))

/-- npy.cpp:63-80 `read_shape` -/
def readShapeB (cfg : Cfg) : BM (List Nat) := do
  BM.lift (readChar cfg 40)
  let text ← readToB 41
  BM.lift (readChar cfg 41)
  BM.lift (SM.lift (readShapeLoop cfg (text.length + 1) [] (IStream.ofBytes text)).1)

/-- npy.cpp:93-111 -/
def parseValueB (cfg : Cfg) (h : HeaderInfo) (key : Bytes) : BM HeaderInfo := do
  if key = b!"descr" then do
    let code ← readStringB cfg
    BM.lift (SM.lift (setDescr h code))
  else if key = b!"fortran_order" then do
    let b ← readBoolB cfg
    pure { h with fortranOrder := some b }
  else if key = b!"shape" then do
    let shape ← readShapeB cfg
    pure { h with shape := shape }
  else BM.lift (SM.fail (.throw (.runtimeError .unsupportedKey)))

/-- npy.cpp:87-115 -/
def parseItemB (cfg : Cfg) (h : HeaderInfo) : BM HeaderInfo := do
  BM.lift skipWhitespace
  let key ← readStringB cfg
  BM.lift skipWhitespace
  BM.lift (readChar cfg 58)
  BM.lift skipWhitespace
  let h ← parseValueB cfg h key
  BM.lift (readChar cfg 44)
  BM.lift skipWhitespace
  pure h

/-- npy.cpp:87 -/
def parseItemsB (cfg : Cfg) : Nat → HeaderInfo → BM HeaderInfo
  | 0, _ => BM.lift (SM.fail .diverge)
  | fuel + 1, h => do
    if (← BM.lift IStream.peek) = some 125 then pure h
    else do
      let h ← parseItemB cfg h
      parseItemsB cfg fuel h

/-- npy.cpp:84-118 `header_info::header_info(dictionary)` -/
def parseHeaderB (cfg : Cfg) (dictionary : Bytes) : BM HeaderInfo := do
  BM.lift (readChar cfg 123)
  let h ← parseItemsB cfg (dictionary.length + 1) HeaderInfo.uninit
  BM.lift (readChar cfg 125)
  pure h

/-- The program of a thread that parses a header: its result is that of the constructor. (npy.cpp:84-118) -/
def headerProg (cfg : Cfg) (dictionary : Bytes) : Prog (Except Err HeaderInfo) :=
  ((parseHeaderB cfg dictionary).run (IStream.ofBytes dictionary)).bind fun r => .ret r.1

/-! ### Running threads -/

/-- npy.cpp:11 `char BUFFER[BUFFER_SIZE]` -/
abbrev Buffer := Nat → Byte

/-- npy.cpp:20, 37: `BUFFER` after a token was stored -/
def Buffer.fill (b : Buffer) (token : Bytes) : Buffer := fun i => token.getD i (b i)
/-- npy.cpp:21, 40: the first characters of `BUFFER` -/
def Buffer.copy (b : Buffer) (n : Nat) : Bytes := (List.range n).map b

/-- All threads and the shared buffer. (threads that are in npy.cpp:84-118) -/
structure Machine (α : Type) where
  thread : Nat → Prog α
  buffer : Buffer

/-- Thread `i` makes its next step; a finished thread makes none. (scheduling; no code) -/
def Machine.step {α : Type} (m : Machine α) (i : Nat) : Machine α :=
  match m.thread i with
  | .ret _ => m
  | .fill t k => { thread := fun j => if j = i then k else m.thread j, buffer := m.buffer.fill t }
  | .copy n k => { m with thread := fun j => if j = i then k (m.buffer.copy n) else m.thread j }

/-- The machine after a schedule: the list of the threads that step, in order. (scheduling; no code) -/
def Machine.after {α : Type} (m : Machine α) (schedule : List Nat) : Machine α := schedule.foldl Machine.step m

/-- Threads that parse the given headers, at their start; `BUFFER` is zero-initialised. (npy.cpp:11, 84-118) -/
def Machine.parsers (cfg : Cfg) (dicts : Nat → Bytes) : Machine (Except Err HeaderInfo) :=
  { thread := fun i => headerProg cfg (dicts i), buffer := fun _ => 0 }

/-- The result of thread `i`, if it has finished. (no code) -/
def Machine.result {α : Type} (m : Machine α) (i : Nat) : Option α :=
  match m.thread i with
  | .ret a => some a
  | _ => none

/-- Whether the next step of thread `i` stores into `BUFFER`, or copies from it. (npy.cpp:20, 37, and npy.cpp:21, 40) -/
def Machine.fills {α : Type} (m : Machine α) (i : Nat) : Bool :=
  match m.thread i with
  | .fill .. => true
  | _ => false

/-- Whether the next step of a thread copies from `BUFFER` (npy.cpp:21, 40). -/
def Machine.copies {α : Type} (m : Machine α) (i : Nat) : Bool :=
  match m.thread i with
  | .copy .. => true
  | _ => false

/-- Nobody else stores into `BUFFER` between a thread's storing and copying of a token: each copy in the schedule is by
the thread that stored last (`owner`). (a condition on schedules; no code) -/
def Machine.Undisturbed {α : Type} : Machine α → Option Nat → List Nat → Prop
  | _, _, [] => True
  | m, owner, i :: rest =>
    (m.copies i = true → owner = some i) ∧
      Machine.Undisturbed (m.step i) (if m.fills i then some i else owner) rest

end Npy
