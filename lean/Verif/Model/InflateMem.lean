import Verif.Model.Inflate
/-!
# The dictionary of `mz_inflate` as memory

`Model/Inflate` keeps the bytes that were ever written to the 32768-byte dictionary as a list, newest first, and copies a
match byte by byte. Here is the decompressor again with the dictionary as the memory it is in the code (`m_dict`, cells
that may not have been written yet), with a cursor into it, and with the three ways in which the code copies a match.
`Proofs/InflateMem` shows that both are the same function.
-/

namespace Npy

/-- The cells of `m_dict`, miniz.cpp:247, allocated by `malloc`: `none` is a cell that was never written. -/
abbrev DictMem := Nat → Option UInt8

/-- A store. (miniz.cpp:548, 641, 706, 717-718, 735-737) -/
def DictMem.set (m : DictMem) (i : Nat) (c : UInt8) : DictMem := fun j => if j = i then some c else m j

/-- `m_dict[dst] = m_dict[src]`; outside of the 32768 cells, or when the source was never written, the behaviour is
undefined (`none`). (miniz.cpp:706, 726-728, 735-737, 742-744) -/
def DictMem.move1 (m : DictMem) (dst src : Nat) : Option DictMem :=
  if dst < 32768 ∧ src < 32768 then (m src).map (m.set dst) else none

/-- `((mz_uint32 *)dst)[0] = ((const mz_uint32 *)src)[0]`: four bytes are read, then four are written.
(miniz.cpp:717-718) -/
def DictMem.move4 (m : DictMem) (dst src : Nat) : Option DictMem :=
  if dst + 3 < 32768 ∧ src + 3 < 32768 then
    match m src, m (src + 1), m (src + 2), m (src + 3) with
    | some a, some b, some c, some d => some ((((m.set dst a).set (dst + 1) b).set (dst + 2) c).set (dst + 3) d)
    | _, _, _, _ => none
  else none

/-- miniz.cpp:714-720: `do { 8 bytes } while ((pSrc += 8) < pSrc_end)`, `n + 1` rounds. -/
def DictMem.loop8 (m : DictMem) (cur src : Nat) : Nat → Option DictMem
  | 0 => do
    let m ← m.move4 cur src
    m.move4 (cur + 4) (src + 4)
  | n + 1 => do
    let m ← m.move4 cur src
    let m ← m.move4 (cur + 4) (src + 4)
    m.loop8 (cur + 8) (src + 8) n

/-- miniz.cpp:721-729 and 740-746: the last `counter` bytes, at most 2. -/
def DictMem.tail2 (m : DictMem) (cur src : Nat) (counter : Int) : Option DictMem :=
  if counter > 0 then do
    let m ← m.move1 cur src
    if counter > 1 then m.move1 (cur + 1) (src + 1) else pure m
  else some m

/-- miniz.cpp:733-746: `do { 3 bytes } while ((int)(counter -= 3) > 2)` and the last bytes. The cursor afterwards, and the
memory. The first argument bounds the rounds. -/
def DictMem.loop3 : Nat → DictMem → Nat → Nat → Int → Option (DictMem × Nat)
  | 0, _, _, _, _ => none
  | f + 1, m, cur, src, counter => do
    let m ← m.move1 cur src
    let m ← m.move1 (cur + 1) (src + 1)
    let m ← m.move1 (cur + 2) (src + 2)
    let counter := counter - 3
    if counter > 2 then DictMem.loop3 f m (cur + 3) (src + 3) counter
    else do
      let m ← m.tail2 (cur + 3) (src + 3) counter
      pure (m, cur + 3 + counter.toNat)

/-- miniz.cpp:711-746: the two ways of copying a match that lies, like its source, inside the buffer. -/
def DictMem.copyFast (m : DictMem) (cur src dist counter : Nat) : Option (DictMem × Nat) :=
  if counter ≥ 9 ∧ counter ≤ dist then do
    let n := counter / 8
    let m ← m.loop8 cur src (n - 1)
    let cur := cur + 8 * n
    let src := src + 8 * n
    let counter := counter % 8
    if counter < 3 then do
      let m ← m.tail2 cur src counter
      pure (m, cur + counter)
    else m.loop3 (counter + 1) cur src counter
  else m.loop3 (counter + 1) cur src counter

/-- The coroutine with a match as one operation. The other operations are those of `Co`. (miniz.cpp:437-440, 507-777) -/
inductive CoM (α : Type)
  | pure (a : α)
  | stop (r : CoStop)
  | getByte (k : UInt8 → CoM α)
  | availIn (k : Nat → CoM α)
  | availOut (k : Nat → CoM α)
  | waitOut (k : CoM α)
  | put (b : UInt8) (k : CoM α)
  /-- miniz.cpp:693-746: a match of `counter` bytes at distance `dist` -/
  | copy (dist counter : Nat) (k : CoM α)
  /-- miniz.cpp:703-707: `while (counter--) { while (pOut_buf_cur >= pOut_buf_end) { return } .. }` -/
  | copySlow (dist counter : Nat) (k : CoM α)

namespace CoM

/-- Sequencing: model infrastructure, no counterpart in the code beyond `;` (miniz.cpp:437-440). -/
def bind {α β : Type} : CoM α → (α → CoM β) → CoM β
  | .pure a, f => f a
  | .stop r, _ => .stop r
  | .getByte k, f => .getByte fun b => bind (k b) f
  | .availIn k, f => .availIn fun n => bind (k n) f
  | .availOut k, f => .availOut fun n => bind (k n) f
  | .waitOut k, f => .waitOut (bind k f)
  | .put b k, f => .put b (bind k f)
  | .copy d n k, f => .copy d n (bind k f)
  | .copySlow d n k, f => .copySlow d n (bind k f)

instance : Monad CoM where
  pure := .pure
  bind := bind

end CoM

/-- The parts of the coroutine that copy no match are taken over as they are. (`putBack` does not occur in them; it is
the byte-wise loop of miniz.cpp:703-707 with one byte.) -/
def Co.toM {α : Type} : Co α → CoM α
  | .pure a => .pure a
  | .stop r => .stop r
  | .getByte k => .getByte fun b => (k b).toM
  | .availIn k => .availIn fun n => (k n).toM
  | .availOut k => .availOut fun n => (k n).toM
  | .waitOut k => .waitOut k.toM
  | .put b k => .put b k.toM
  | .putBack d k => .copySlow d 1 k.toM

/-- miniz.cpp:686-746: what follows a symbol 257..287. -/
def doMatchM (dist : HuffTable) (sym : Nat) (b : BitBuf) : CoM BitBuf := do
  let (counter, b) ← (extraBits (sLengthExtra.getD (sym - 257) 0) (sLengthBase.getD (sym - 257) 0) b).toM
  let (d, b) ← (huffDecode dist b).toM
  let (d, b) ← (extraBits (sDistExtra.getD d 0) (sDistBase.getD d 0) b).toM
  CoM.copy d counter (pure b)

/-- miniz.cpp:631-747, the loop over the symbols of a block, both the slow and the fast way. -/
def symLoopM (big : Bool) (lit dist : HuffTable) : Nat → BitBuf → CoM BitBuf
  | 0, _ => .stop .diverge
  | f + 1, b => do
    let nIn ← coAvailIn.toM
    let nOut ← coAvailOut.toM
    if nIn < 4 ∨ nOut < 2 then do
      let (c, b) ← (huffDecode lit b).toM
      if c ≥ 256 then
        if c = 256 then pure b
        else do
          let b ← doMatchM dist c b
          symLoopM big lit dist f b
      else do
        coWaitOut.toM
        (coPut (UInt8.ofNat c)).toM
        symLoopM big lit dist f b
    else do
      let b ← (refill4 big b).toM
      let (c, codeLen) := decodeRaw lit b.buf
      let b := b.drop codeLen
      if c &&& 256 ≠ 0 then
        if c &&& 511 = 256 then pure b
        else do
          let b ← doMatchM dist (c &&& 511) b
          symLoopM big lit dist f b
      else do
        let (c2, codeLen) := decodeRaw lit b.buf
        let b := b.drop codeLen
        (coPut (UInt8.ofNat c)).toM
        if c2 &&& 256 ≠ 0 then
          if c2 &&& 511 = 256 then pure b
          else do
            let b ← doMatchM dist (c2 &&& 511) b
            symLoopM big lit dist f b
        else do
          (coPut (UInt8.ofNat c2)).toM
          symLoopM big lit dist f b

/-- miniz.cpp:539-748, one block after its three first bits. -/
def inflateBlockM (big : Bool) (fuel : Nat) (type : Nat) (b : BitBuf) : CoM BitBuf :=
  if type = 0 then (storedBlock b).toM
  else if type = 3 then .stop .failed
  else if type = 1 then do
    let t1 ← (coTable staticDist).toM
    let t0 ← (coTable staticLit).toM
    symLoopM big t0 t1 fuel b
  else do
    let (t0, t1, b) ← (dynamicTables b).toM
    symLoopM big t0 t1 fuel b

/-- miniz.cpp:536-749 `do { .. } while (!(r->m_final & 1));` -/
def blockLoopM (big : Bool) (fuel : Nat) : Nat → BitBuf → CoM Unit
  | 0, _ => .stop .diverge
  | f + 1, b => do
    let (h, b) ← (getBits 3 b).toM
    let b ← inflateBlockM big fuel (h >>> 1) b
    if h &&& 1 = 0 then blockLoopM big fuel f b else pure ()

/-- miniz.cpp:507-755 from `m_state` 0 -/
def tinflM (big : Bool) (fuel : Nat) : CoM Unit := blockLoopM big fuel fuel ⟨0, 0⟩

/-- The state of a call: the coroutine, the input that is left, the dictionary, the cursor `pOut_buf_cur` into it.
(miniz.h:813-820; miniz.cpp:517-519) -/
structure TStateM where
  co : CoM Unit
  inp : Bytes
  mem : DictMem
  cur : Nat

/-- miniz.cpp:699, 706: `(dist_from_out_buf_start - dist) & out_buf_size_mask`, in 64-bit arithmetic. -/
def dictSrc (cur dist : Nat) : Nat := ((cur + 2 ^ 64 - dist % 2 ^ 64) % 2 ^ 64) &&& 32767

/-- miniz.cpp:703-707: the byte-wise loop. Ends with the memory and cursor, suspended with `counter` bytes left, or in
undefined behaviour. -/
def DictMem.slow (dist : Nat) : Nat → DictMem → Nat → Option (Nat × DictMem × Nat)
  | 0, m, cur => some (0, m, cur)
  | n + 1, m, cur =>
    if cur ≥ 32768 then some (n + 1, m, cur)
    else match m.move1 cur (dictSrc cur dist) with
      | none => none
      | some m => DictMem.slow dist n m (cur + 1)

/-- miniz.cpp:507-777: runs until the coroutine stops or suspends. -/
def CoM.resume : CoM Unit → Bytes → DictMem → Nat → TStatus × TStateM
  | .pure a, inp, m, cur => (.done, ⟨.pure a, inp, m, cur⟩)
  | .stop .failed, inp, m, cur => (.failed, ⟨.stop .failed, inp, m, cur⟩)
  | .stop .ub, inp, m, cur => (.ub, ⟨.stop .ub, inp, m, cur⟩)
  | .stop .diverge, inp, m, cur => (.diverge, ⟨.stop .diverge, inp, m, cur⟩)
  | .getByte k, [], m, cur => (.needsMoreInput, ⟨.getByte k, [], m, cur⟩)
  | .getByte k, c :: inp, m, cur => (k c).resume inp m cur
  | .availIn k, inp, m, cur => (k inp.length).resume inp m cur
  | .availOut k, inp, m, cur => (k (32768 - cur)).resume inp m cur
  | .waitOut k, inp, m, cur =>
    if cur ≥ 32768 then (.hasMoreOutput, ⟨.waitOut k, inp, m, cur⟩) else k.resume inp m cur
  | .put c k, inp, m, cur =>
    if cur ≥ 32768 then (.ub, ⟨.stop .ub, inp, m, cur⟩) else k.resume inp (m.set cur c) (cur + 1)
  | .copy d n k, inp, m, cur =>
    if max cur (dictSrc cur d) + n > 32768 then
      match m.slow d n cur with
      | none => (.ub, ⟨.stop .ub, inp, m, cur⟩)
      | some (0, m, cur) => k.resume inp m cur
      | some (n, m, cur) => (.hasMoreOutput, ⟨.copySlow d n k, inp, m, cur⟩)
    else match m.copyFast cur (dictSrc cur d) d n with
      | none => (.ub, ⟨.stop .ub, inp, m, cur⟩)
      | some (m, cur) => k.resume inp m cur
  | .copySlow d n k, inp, m, cur =>
    match m.slow d n cur with
    | none => (.ub, ⟨.stop .ub, inp, m, cur⟩)
    | some (0, m, cur) => k.resume inp m cur
    | some (n, m, cur) => (.hasMoreOutput, ⟨.copySlow d n k, inp, m, cur⟩)

/-! ### `mz_inflate` and `npy_inflate` over this dictionary -/

/-- miniz.cpp:243-249 `inflate_state`, with the fields of `mz_stream` that `npy_inflate` uses. -/
structure InflateStateM where
  co : CoM Unit
  mem : DictMem
  dictOfs : Nat
  dictAvail : Nat
  lastStatus : TStatus
  /-- `next_in`, `avail_in` -/
  inp : Bytes
  /-- `avail_out` -/
  availOut : Nat
  /-- what was put at `next_out` -/
  out : Bytes

/-- miniz.cpp:334, 354: `memcpy(pStream->next_out, pState->m_dict + pState->m_dict_ofs, n)`; a cell never written counts
as 0 here (`Proofs/InflateMem`: all of them were written). -/
def dictSlice (m : DictMem) (ofs n : Nat) : Bytes := (List.range n).map fun i => (m (ofs + i)).getD 0

/-- miniz.cpp:333-336 and 353-356: as much of the dictionary as fits goes to the output. -/
def InflateStateM.flush (s : InflateStateM) : InflateStateM :=
  let n := min s.dictAvail s.availOut
  { s with
    out := s.out ++ dictSlice s.mem s.dictOfs n
    availOut := s.availOut - n
    dictAvail := s.dictAvail - n
    dictOfs := (s.dictOfs + n) &&& 32767 }

/-- miniz.cpp:340-373 `for ( ; ; )` with `flush == MZ_NO_FLUSH` -/
def mzInflateLoopM (origAvailIn : Nat) : Nat → InflateStateM → Except Err MzRet × InflateStateM
  | 0, s => (.error .diverge, s)
  | f + 1, s =>
    let (status, t) := s.co.resume s.inp s.mem s.dictOfs
    let s := { s with co := t.co, inp := t.inp, mem := t.mem, lastStatus := status, dictAvail := t.cur - s.dictOfs }
    let s := s.flush
    match status with
    | .ub => (.error .ub, s)
    | .diverge => (.error .diverge, s)
    | .failed => (.ok .dataError, s)
    | status =>
      if status = .needsMoreInput ∧ origAvailIn = 0 then (.ok .bufError, s)
      else if status = .done ∨ s.inp = [] ∨ s.availOut = 0 ∨ s.dictAvail ≠ 0 then
        (.ok (if status = .done ∧ s.dictAvail = 0 then .streamEnd else .ok), s)
      else mzInflateLoopM origAvailIn f s

/-- miniz.cpp:287-376 `mz_inflate(pStream, MZ_NO_FLUSH)` -/
def mzInflateM (fuel : Nat) (s : InflateStateM) : Except Err MzRet × InflateStateM :=
  if s.lastStatus = .failed then (.ok .dataError, s)
  else if s.dictAvail ≠ 0 then
    let s := s.flush
    (.ok (if s.lastStatus = .done ∧ s.dictAvail = 0 then .streamEnd else .ok), s)
  else mzInflateLoopM s.inp.length fuel s

/-- zip.cpp:128-148, the inner loop: `inflate` is called with a fresh output buffer until it leaves room in it. -/
def npyInflateInnerM (fuel : Nat) : Nat → InflateStateM → Bytes → Except Err (MzRet × InflateStateM × Bytes)
  | 0, _, _ => .error .diverge
  | f + 1, s, output =>
    match mzInflateM fuel { s with availOut := CHUNK, out := [] } with
    | (.error e, _) => .error e
    | (.ok .dataError, _) => .error (.throw (.runtimeError .inflateError))
    | (.ok ret, s) =>
      let output := output ++ s.out
      if s.availOut = 0 then npyInflateInnerM fuel f s output else .ok (ret, s, output)

/-- zip.cpp:113-161, the outer loop and the end of the function. -/
def npyInflateOuterM (fuel : Nat) : Nat → InflateStateM → IStream → Bytes → Except Err Bytes
  | 0, _, _, _ => .error .diverge
  | f + 1, s, input, output =>
    match IStream.read CHUNK input with
    | (.error e, _) => .error e
    | (.ok chunk, input) =>
      if input.fail && !input.eof then .error (.throw (.runtimeError .inflateError))
      else if chunk = [] then .error (.throw (.runtimeError .inflateError))
      else match npyInflateInnerM fuel fuel { s with inp := chunk } output with
        | .error e => .error e
        | .ok (ret, s, output) =>
          if ret = .streamEnd then .ok output else npyInflateOuterM fuel f s input output

/-- miniz.cpp:251-280 `mz_inflateInit2`; the dictionary is not initialised. -/
def inflateInitM (big : Bool) (fuel : Nat) : InflateStateM :=
  { co := tinflM big fuel, mem := fun _ => none, dictOfs := 0, dictAvail := 0, lastStatus := .needsMoreInput, inp := [],
    availOut := 0, out := [] }

/-- zip.cpp:91-161 `npy_inflate` -/
def npyInflateM (big : Bool) (fuel : Nat) (bytes : Bytes) : Except Err Bytes :=
  npyInflateOuterM fuel fuel (inflateInitM big fuel) (IStream.ofBytes bytes) []

end Npy
