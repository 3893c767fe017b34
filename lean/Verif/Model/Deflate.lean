import Verif.Model.DeflateHuff
/-!
# Compression: miniz `tdefl_compress`, `mz_deflate` and `npy_deflate`

The variant is the one for x86-64 (see `Model/DeflateHuff`). `mz_deflateInit2` gets the memory of the compressor from
`malloc`; `Junk` stands for what that memory holds. The Adler-32 sum, which is computed and not used, is left out.
`MZ_ASSERT`s are checked when `dbg` is set (builds without `NDEBUG`).
-/

namespace Npy

/-! ### Parameters -/

/-- miniz.cpp:1859 `s_tdefl_num_probes` -/
def numProbes : List Nat := [0, 1, 6, 32, 16, 32, 128, 256, 512, 768, 1500]

/-- miniz.cpp:1862-1874 `tdefl_create_comp_flags_from_zip_params` -/
def compFlags (level windowBits strategy : Int) : Nat :=
  let f := numProbes.getD (if level ≥ 0 then min 10 level.toNat else 6) 0 ||| (if level ≤ 3 then 0x4000 else 0)
  let f := if windowBits > 0 then f ||| 0x1000 else f
  if level = 0 then f ||| 0x80000
  else if strategy = 1 then f ||| 0x20000
  else if strategy = 2 then f - f % 0x1000
  else if strategy = 4 then f ||| 0x40000
  else if strategy = 3 then f ||| 0x10000
  else f

/-- zip.cpp:39-40 and miniz.cpp:101: the flags of the compressor `npy_deflate` uses
(`Z_DEFAULT_COMPRESSION` is -1, `WINDOW_BITS` -15, `Z_DEFAULT_STRATEGY` 0) -/
def deflFlags : Nat := 0x2000 ||| compFlags (-1) (-15) 0

/-- The flags: 128 probes, the unused Adler-32 sum, greedy parsing (level -1 is at most 3). No zlib header, none of the
flags that force raw or static blocks or restrict matches: code that depends on these is left out below. -/
example : deflFlags = 128 + 0x2000 + 0x4000 := by decide

/-- miniz.cpp:1783-1784 `m_max_probes[0]`, `m_max_probes[1]` -/
def maxProbes (long : Bool) : Nat :=
  if long then 1 + (((deflFlags &&& 0xFFF) >>> 2) + 2) / 3 else 1 + ((deflFlags &&& 0xFFF) + 2) / 3

/-- miniz.cpp:1783 `m_greedy_parsing` -/
def greedyParsing : Bool := deflFlags &&& 0x4000 ≠ 0

/-! ### State -/

/-- Memory that was never written: contents of `m_dict`, `m_next`, and of a byte of `m_lz_code_buf` when it becomes the byte
of flags (simplified: always the same value). (miniz.h:934-939; miniz.cpp:1780-1797 leaves them as they are) -/
structure Junk where
  dict : Nat → UInt8
  next : Nat → Nat
  flags : UInt8

/-- `m_lz_code_buf`: the bytes before `m_pLZ_flags`, the byte there, the bytes between it and `m_pLZ_code_buf`, and
`m_num_flags_left`. (miniz.h:924-925, 938) -/
structure LzBuf where
  closed : Bytes
  flags : Nat
  body : Bytes
  left : Nat
  deriving DecidableEq, Repr, Inhabited

/-- `m_pLZ_code_buf - m_lz_code_buf` (miniz.h:924) -/
def LzBuf.pos (b : LzBuf) : Nat := b.closed.length + 1 + b.body.length

/-- miniz.cpp:1316: the empty buffer -/
def LzBuf.empty (j : Junk) : LzBuf := { closed := [], flags := j.flags.toNat, body := [], left := 8 }

/-- miniz.h:895 `TDEFL_LZ_CODE_BUF_SIZE` -/
def LZ_CODE_BUF_SIZE : Nat := 65536

/-- miniz.cpp:1553-1554 and 1566-1572: bytes are written at `m_pLZ_code_buf`, the flag is put in; after eight flags the next
byte is taken for flags. A position outside of the buffer is undefined. -/
def LzBuf.record (j : Junk) (b : LzBuf) (bytes : Bytes) (isMatch : Bool) : Except Err LzBuf :=
  let flags := (b.flags >>> 1) ||| (if isMatch then 0x80 else 0)
  let b' : LzBuf :=
    if b.left - 1 = 0 then
      { closed := b.closed ++ UInt8.ofNat flags :: (b.body ++ bytes), flags := j.flags.toNat, body := [], left := 8 }
    else { closed := b.closed, flags := flags, body := b.body ++ bytes, left := b.left - 1 }
  if b'.pos ≤ LZ_CODE_BUF_SIZE then .ok b' else .error .ub

/-- miniz.cpp:1260-1261: the codes as `tdefl_compress_lz_codes` sees them. -/
def LzBuf.codes (b : LzBuf) : Bytes :=
  (b.closed ++ UInt8.ofNat (b.flags >>> b.left) :: b.body).take (b.pos - (if b.left = 8 then 1 else 0))

/-- miniz.h:917-942 `tdefl_compressor`, what is left of it: fields that only change within one call are arguments of the
functions below. -/
structure Tdefl where
  dict : Nat → UInt8
  next : Nat → Nat
  hash : Nat → Nat
  litCount : Nat → Nat
  distCount : Nat → Nat
  lookaheadPos : Nat
  lookaheadSize : Nat
  dictSize : Nat
  lz : LzBuf
  totalLzBytes : Nat
  codeBufDictPos : Nat
  savedLit : UInt8
  savedDist : Nat
  savedLen : Nat
  bitBuf : Nat
  bitsIn : Nat
  /-- `m_output_buf[m_output_flush_ofs ..]`, `m_output_flush_remaining` bytes -/
  pending : Bytes
  finished : Bool
  wantsToFinish : Bool

/-- miniz.cpp:1780-1797 `tdefl_init` -/
def Tdefl.init (j : Junk) : Tdefl :=
  { dict := j.dict, next := j.next, hash := fun _ => 0, litCount := fun _ => 0, distCount := fun _ => 0,
    lookaheadPos := 0, lookaheadSize := 0, dictSize := 0, lz := LzBuf.empty j, totalLzBytes := 0, codeBufDictPos := 0,
    savedLit := 0, savedDist := 0, savedLen := 0, bitBuf := 0, bitsIn := 0, pending := [], finished := false,
    wantsToFinish := false }

/-- `d->m_dict[i]`; the array has 32768 + 257 cells (miniz.h:934). -/
def rdDict (dict : Nat → UInt8) (i : Nat) : Except Err UInt8 := if i < 33025 then .ok (dict i) else .error .ub

/-- miniz.cpp:1347 `TDEFL_READ_UNALIGNED_WORD` -/
def rdWord (dict : Nat → UInt8) (i : Nat) : Except Err Nat := do
  let a ← rdDict dict i
  let b ← rdDict dict (i + 1)
  pure (a.toNat + 256 * b.toNat)

/-- miniz.cpp:13 `MZ_ASSERT`, which is `assert`: checked when `dbg` (no `NDEBUG`) -/
def mzAssert (dbg : Bool) (c : Prop) [Decidable c] : Except Err Unit := if dbg = false ∨ c then .ok () else .error .abort

/-! ### Blocks -/

/-- miniz.cpp:1286-1289 `for (i = 0; i < d->m_total_lz_bytes; ++i) TDEFL_PUT_BITS(d->m_dict[..], 8);` -/
def putRaw (dict : Nat → UInt8) (from_ : Nat) : Nat → Nat → BitOut → BitOut
  | 0, _, w => w
  | k + 1, i, w => putRaw dict from_ k (i + 1) (w.put (dict ((from_ + i) % 32768)).toNat 8)

/-- `if (d->m_bits_in) { TDEFL_PUT_BITS(0, 8 - d->m_bits_in); }` (miniz.cpp:1281, 1302) -/
def BitOut.align (w : BitOut) : BitOut := if w.n ≠ 0 then w.put 0 (8 - w.n) else w

/-- miniz.cpp:1279-1289: a raw block; `m_total_lz_bytes ^= 0xFFFF` twice -/
def rawBlock (d : Tdefl) (w : BitOut) : BitOut :=
  let w := (w.put 0 2).align
  let w := w.put (d.totalLzBytes &&& 0xFFFF) 16
  let w := w.put ((d.totalLzBytes ^^^ 0xFFFF) &&& 0xFFFF) 16
  putRaw d.dict d.codeBufDictPos d.totalLzBytes 0 w

/-- miniz.cpp:1276-1277: the compressed block did not shrink the data, and they are still in the dictionary. -/
def useRaw (d : Tdefl) (saved w : BitOut) : Bool :=
  d.totalLzBytes ≠ 0 && decide (w.out.length - saved.out.length + 1 ≥ d.totalLzBytes) &&
    decide (d.lookaheadPos - d.codeBufDictPos ≤ d.dictSize)

/-- miniz.cpp:1270-1296: one block after its first bit: dynamic or static codes; raw if that is not longer; static codes if the
block did not fit the output buffer -/
def putBlock (big dbg : Bool) (d : Tdefl) (saved : BitOut) : Except Err BitOut := do
  let (w, ok) ← compressBlock big dbg d.litCount d.distCount d.lz.codes (decide (d.totalLzBytes < 48)) saved
  if useRaw d saved w then pure (rawBlock d saved)
  else if ok then pure w
  else do
    let (w, _) ← compressBlock big dbg d.litCount d.distCount d.lz.codes true saved
    pure w

/-- miniz.cpp:1245-1344 `tdefl_flush_block(d, flush)` with `flush` 0 or `TDEFL_FINISH`; `room` is
`*m_pOut_buf_size - m_out_buf_ofs`. Returns what goes to the caller's buffer. What does not fit is kept in `m_output_buf`
(when there is room for a whole block it is made in the caller's buffer). The assertions are those of lines 1256 and 1311;
the second one is left out where a last block stands for more than 32510 bytes and takes exactly `TDEFL_OUT_BUF_SIZE - 16` bytes, that is, where the padding of
the last byte fills the buffer (whether that can happen depends on the cost of the Huffman codes; the byte is still written). -/
def flushBlock (big dbg : Bool) (j : Junk) (fin : Bool) (room : Nat) (d : Tdefl) : Except Err (Bytes × Tdefl) := do
  mzAssert dbg (d.pending = [])
  let w ← putBlock big dbg d (BitOut.put { out := [], buf := d.bitBuf, n := d.bitsIn } (if fin then 1 else 0) 1)
  let w ← (if fin then w.align else w).check dbg
  mzAssert dbg (w.out.length < OUT_LIMIT ∨ (fin ∧ w.out.length = OUT_LIMIT ∧ d.totalLzBytes > 32510))
  let d := { d with
    litCount := fun _ => 0, distCount := fun _ => 0, lz := LzBuf.empty j,
    codeBufDictPos := (d.codeBufDictPos + d.totalLzBytes) % 2 ^ 32, totalLzBytes := 0, bitBuf := w.buf, bitsIn := w.n }
  if room ≥ OUT_BUF_SIZE then pure (w.out, { d with pending := [] })
  else pure (w.out.take room, { d with pending := w.out.drop room })

/-! ### Matches -/

/-- The variables of `tdefl_find_match`: `probe_pos`, `match_len`, `c01`, `*pMatch_dist`, `*pMatch_len`. (miniz.cpp:1348-1354) -/
structure FindState where
  probePos : Nat
  matchLen : Nat
  c01 : Nat
  dist : Nat
  len : Nat

/-- The outcome of a probe: the function returns; the chain goes on; the two bytes agree. (miniz.cpp:1360-1365) -/
inductive Probe
  | stop
  | miss (pos : Nat)
  | hit (pos dist : Nat)

/-- miniz.cpp:1360-1364 `TDEFL_PROBE`; `m_next` has 32768 elements (miniz.h:939). -/
def probe (d : Tdefl) (maxDist : Nat) (s : FindState) (probePos : Nat) : Except Err Probe := do
  let next ← rdArr 32768 d.next probePos
  let dist := (d.lookaheadPos + 2 ^ 32 - next) % 65536
  if next = 0 ∨ dist > maxDist then .ok .stop
  else do
    let w ← rdWord d.dict (next % 32768 + s.matchLen - 1)
    if w = s.c01 then .ok (.hit (next % 32768) dist) else .ok (.miss (next % 32768))

/-- miniz.cpp:1365 `TDEFL_PROBE; TDEFL_PROBE; TDEFL_PROBE;` -/
def probes (d : Tdefl) (maxDist : Nat) (s : FindState) : Nat → Nat → Except Err Probe
  | 0, pos => .ok (.miss pos)
  | k + 1, pos => do
    match ← probe d maxDist s pos with
    | .miss pos => probes d maxDist s k pos
    | r => .ok r

/-- miniz.cpp:1368-1369: 32 times 4 comparisons of words; the index of the first pair that differs, from the pair `k` on
(129: none) -/
def cmpWords (dict : Nat → UInt8) (s q : Nat) : Nat → Nat → Except Err Nat
  | 0, k => .ok k
  | f + 1, k => do
    let a ← rdWord dict (s + 2 * k)
    let b ← rdWord dict (q + 2 * k)
    if a = b then cmpWords dict s q f (k + 1) else .ok k

/-- miniz.cpp:1367-1378: a candidate. The first component says whether the search is over. -/
def tryMatch (d : Tdefl) (maxLen pos s01 : Nat) (s : FindState) (probePos dist : Nat) : Except Err (Bool × FindState) := do
  let s := { s with probePos := probePos }
  if dist = 0 then pure (true, s)
  else
    let w ← rdWord d.dict probePos
    if w ≠ s01 then pure (false, s)
    else
      let k ← cmpWords d.dict pos probePos 128 1
      if k = 129 then pure (true, { s with dist := dist, len := min maxLen 258 })
      else
        let a ← rdDict d.dict (pos + 2 * k)
        let b ← rdDict d.dict (probePos + 2 * k)
        let probeLen := 2 * k + (if a = b then 1 else 0)
        if probeLen > s.matchLen then
          let l := min maxLen probeLen
          let s := { s with dist := dist, len := l, matchLen := l }
          if l = maxLen then pure (true, s)
          else
            let c ← rdWord d.dict (pos + l - 1)
            pure (false, { s with c01 := c })
        else pure (false, s)

/-- miniz.cpp:1355-1379, the loops; the number is `num_probes_left` -/
def findLoop (d : Tdefl) (maxDist maxLen pos s01 : Nat) : Nat → FindState → Except Err FindState
  | 0, s => .ok s
  | p + 1, s =>
    if p = 0 then .ok s
    else do
      match ← probes d maxDist s 3 s.probePos with
      | .stop => pure s
      | .miss pos' => findLoop d maxDist maxLen pos s01 p { s with probePos := pos' }
      | .hit pos' dist =>
        match ← tryMatch d maxLen pos s01 s pos' dist with
        | (true, s) => pure s
        | (false, s) => findLoop d maxDist maxLen pos s01 p s

/-- miniz.cpp:1348-1380 `tdefl_find_match(d, d->m_lookahead_pos, d->m_dict_size, d->m_lookahead_size, ..)` with
`*pMatch_dist == 0`: the new `*pMatch_dist`, `*pMatch_len` -/
def findMatch (dbg : Bool) (d : Tdefl) (matchLen : Nat) : Except Err (Nat × Nat) := do
  let pos := d.lookaheadPos % 32768
  let c01 ← rdWord d.dict (pos + matchLen - 1)
  let s01 ← rdWord d.dict pos
  mzAssert dbg (d.lookaheadSize ≤ 258)
  if d.lookaheadSize ≤ matchLen then pure (0, matchLen)
  else
    let s ← findLoop d d.dictSize d.lookaheadSize pos s01 (maxProbes (decide (matchLen ≥ 32)))
      { probePos := pos, matchLen := matchLen, c01 := c01, dist := 0, len := matchLen }
    pure (s.dist, s.len)

/-! ### The compression loop -/

/-- `d->m_huff_count[t][s]++` (16 bits), of which `size` elements belong to `t` (miniz.cpp:1555, 1574-1577) -/
def bump (size : Nat) (count : Nat → Nat) (s : Nat) : Except Err (Nat → Nat) := do
  let n ← rdArr size count s
  wrArr size count s ((n + 1) % 65536)

/-- miniz.cpp:1550-1556 `tdefl_record_literal` -/
def recordLiteral (j : Junk) (lit : UInt8) (d : Tdefl) : Except Err Tdefl := do
  let lz ← d.lz.record j [lit] false
  let litCount ← bump 288 d.litCount lit.toNat
  pure { d with totalLzBytes := (d.totalLzBytes + 1) % 2 ^ 32, lz := lz, litCount := litCount }

/-- miniz.cpp:1568, 1574-1575: the distance symbol of a match; the distance is reduced by one -/
def distSym (mdist : Nat) : Nat :=
  if mdist < 512 then smallDistSym.getD (mdist &&& 511) 0 else largeDistSym.getD ((mdist >>> 8) &&& 127) 0

/-- miniz.cpp:1558-1578 `tdefl_record_match` -/
def recordMatch (dbg : Bool) (j : Junk) (len dist : Nat) (d : Tdefl) : Except Err Tdefl := do
  mzAssert dbg (3 ≤ len ∧ 1 ≤ dist ∧ dist ≤ 32768)
  let lz ← d.lz.record j [UInt8.ofNat (len - 3), UInt8.ofNat ((dist - 1) &&& 0xFF), UInt8.ofNat ((dist - 1) >>> 8)] true
  let s := distSym (dist - 1)
  let distCount ← bump 32 d.distCount s
  let d := { d with totalLzBytes := (d.totalLzBytes + len) % 2 ^ 32, lz := lz, distCount := distCount }
  if len ≥ 3 then do
    let l ← rdArr 256 (fun i => lenSymTab.getD i 0) (len - 3)
    let litCount ← bump 288 d.litCount l
    pure { d with litCount := litCount }
  else pure d

/-- miniz.cpp:1599, 1612-1614: a byte goes to the dictionary and, near its beginning, to the copy behind its end; `m_dict` has
32768 + 257 elements (miniz.h:934). -/
def putDict (dict : Nat → UInt8) (dst : Nat) (c : UInt8) : Except Err (Nat → UInt8) := do
  let dict ← wrArr 33025 dict dst c
  if dst < 257 then wrArr 33025 dict (32768 + dst) c else pure dict

/-- miniz.cpp:1601, 1619: a position goes to the hash chain; `m_next` and `m_hash` have 32768 elements (miniz.h:939-940). -/
def insertHash (h ins : Nat) (d : Tdefl) : Except Err Tdefl := do
  let old ← rdArr 32768 d.hash h
  let next ← wrArr 32768 d.next (ins % 32768) old
  let hash ← wrArr 32768 d.hash h (ins % 65536)
  pure { d with next := next, hash := hash }

/-- miniz.cpp:1597-1603 `while (pSrc != pSrc_end)` -/
def fillFast : Bytes → (dst ins hash : Nat) → Tdefl → Except Err Tdefl
  | [], _, _, _, d => .ok d
  | c :: cs, dst, ins, hash, d => do
    let dict ← putDict d.dict dst c
    let h := ((hash <<< 5) ^^^ c.toNat) % 32768
    let d ← insertHash h ins { d with dict := dict }
    fillFast cs ((dst + 1) % 32768) (ins + 1) h d

/-- miniz.cpp:1607-1621 `while ((src_buf_left) && (d->m_lookahead_size < TDEFL_MAX_MATCH_LEN))` -/
def fillSlow : Bytes → Tdefl → Except Err (Bytes × Tdefl)
  | [], d => .ok ([], d)
  | c :: src, d =>
    if d.lookaheadSize < 258 then do
      let dict ← putDict d.dict ((d.lookaheadPos + d.lookaheadSize) % 32768) c
      let d := { d with dict := dict, lookaheadSize := d.lookaheadSize + 1 }
      if d.lookaheadSize + d.dictSize ≥ 3 then do
        let ins := d.lookaheadPos + (d.lookaheadSize - 1) - 2
        let a ← rdDict d.dict (ins % 32768)
        let b ← rdDict d.dict ((ins + 1) % 32768)
        let h := ((a.toNat <<< 10) ^^^ (b.toNat <<< 5) ^^^ c.toNat) % 32768
        let d ← insertHash h ins d
        fillSlow src d
      else fillSlow src d
    else .ok (c :: src, d)

/-- miniz.cpp:1589-1623: input goes to the dictionary until the lookahead has 258 bytes -/
def fill (src : Bytes) (d : Tdefl) : Except Err (Bytes × Tdefl) :=
  if d.lookaheadSize + d.dictSize ≥ 2 then do
    let dst := (d.lookaheadPos + d.lookaheadSize) % 32768
    let ins := d.lookaheadPos + d.lookaheadSize - 2
    let a ← rdDict d.dict (ins % 32768)
    let b ← rdDict d.dict ((ins + 1) % 32768)
    let hash := (a.toNat <<< 5) ^^^ b.toNat
    let n := min src.length (258 - d.lookaheadSize)
    let d' ← fillFast (src.take n) dst ins hash d
    pure (src.drop n, { d' with lookaheadSize := d.lookaheadSize + n })
  else fillSlow src d

/-- miniz.cpp:1642-1645: matches that are not worth it -/
def dropMatch (curPos : Nat) (m : Nat × Nat) : Nat × Nat :=
  if (m.2 = 3 ∧ m.1 ≥ 8192) ∨ curPos = m.1 then (0, 0) else m

/-- miniz.cpp:1646-1677: what is recorded for the match (distance, length); returns `len_to_move` -/
def parseStep (dbg : Bool) (j : Junk) (m : Nat × Nat) (d : Tdefl) : Except Err (Nat × Tdefl) := do
  let curPos := d.lookaheadPos % 32768
  if d.savedLen ≠ 0 then
    if m.2 > d.savedLen then
      let d ← recordLiteral j d.savedLit d
      if m.2 ≥ 128 then
        let d ← recordMatch dbg j m.2 m.1 d
        pure (m.2, { d with savedLen := 0 })
      else pure (1, { d with savedLit := d.dict curPos, savedDist := m.1, savedLen := m.2 })
    else
      let d' ← recordMatch dbg j d.savedLen d.savedDist d
      pure (d.savedLen - 1, { d' with savedLen := 0 })
  else if m.1 = 0 then
    let d ← recordLiteral j (d.dict (min curPos 33024)) d
    pure (1, d)
  else if greedyParsing ∨ m.2 ≥ 128 then
    let d ← recordMatch dbg j m.2 m.1 d
    pure (m.2, d)
  else pure (1, { d with savedLit := d.dict (min curPos 33024), savedDist := m.1, savedLen := m.2 })

/-- miniz.cpp:1679-1682: the lookahead moves on -/
def moveOn (len : Nat) (d : Tdefl) : Tdefl :=
  { d with
    lookaheadPos := (d.lookaheadPos + len) % 2 ^ 32, lookaheadSize := d.lookaheadSize - len,
    dictSize := min (d.dictSize + len) 32768 }

/-- miniz.cpp:1684-1685: is it time to flush the codes? -/
def flushDue (d : Tdefl) : Bool :=
  decide (d.lz.pos > LZ_CODE_BUF_SIZE - 8) ||
    (decide (d.totalLzBytes > 31 * 1024) && decide ((d.lz.pos * 115) >>> 7 ≥ d.totalLzBytes))

/-- miniz.cpp:1628-1682: the match at the current position is found and recorded; the lookahead moves on, which must be long
enough (`MZ_ASSERT(d->m_lookahead_size >= len_to_move)`) -/
def matchStep (dbg : Bool) (j : Junk) (d : Tdefl) : Except Err Tdefl := do
  let m ← findMatch dbg d (if d.savedLen ≠ 0 then d.savedLen else 2)
  let (len, d) ← parseStep dbg j (dropMatch (d.lookaheadPos % 32768) m) d
  mzAssert dbg (len ≤ d.lookaheadSize)
  pure (moveOn len d)

/-- miniz.cpp:1580-1696 `tdefl_compress_normal`; `outSize` is `*m_pOut_buf_size`, `out` what was put into the caller's buffer
so far. Returns the input that is left, the output and the state. -/
def compressNormal (big dbg : Bool) (j : Junk) (fin : Bool) (outSize : Nat) : Nat → Bytes → Bytes → Tdefl → Except Err (Bytes × Bytes × Tdefl)
  | 0, _, _, _ => .error .diverge
  | f + 1, src, out, d =>
    if src ≠ [] ∨ (fin ∧ d.lookaheadSize ≠ 0) then
      match fill src d with
      | .error e => .error e
      | .ok (src, d) =>
        let d := { d with dictSize := min (32768 - d.lookaheadSize) d.dictSize }
        if ¬fin ∧ d.lookaheadSize < 258 then .ok (src, out, d)
        else
          match matchStep dbg j d with
          | .error e => .error e
          | .ok d =>
            if flushDue d then
              match flushBlock big dbg j false (outSize - out.length) d with
              | .error e => .error e
              | .ok (o, d) =>
                if d.pending ≠ [] then .ok (src, out ++ o, d) else compressNormal big dbg j fin outSize f src (out ++ o) d
            else compressNormal big dbg j fin outSize f src out d
    else .ok (src, out, d)

/-! ### `tdefl_compress`, `mz_deflate`, `npy_deflate` -/

/-- miniz.h:899-906 `tdefl_status`: the values that occur -/
inductive TdStatus
  | badParam | okay | done
  deriving DecidableEq, Repr, Inhabited

/-- miniz.cpp:1698-1717 `tdefl_flush_output_buffer`: the output with what was kept, the state, the status -/
def flushOutput (outSize : Nat) (out : Bytes) (d : Tdefl) : Bytes × Tdefl × TdStatus :=
  let n := min (outSize - out.length) d.pending.length
  let d' := { d with pending := d.pending.drop n }
  (out ++ d.pending.take n, d', if d.finished ∧ d'.pending = [] then .done else .okay)

/-- miniz.cpp:1764-1770: the last block -/
def finishUp (big dbg : Bool) (j : Junk) (fin : Bool) (outSize : Nat) (src out : Bytes) (d : Tdefl) : Except Err (Bytes × Tdefl) :=
  if fin ∧ d.lookaheadSize = 0 ∧ src = [] ∧ d.pending = [] then
    match flushBlock big dbg j true (outSize - out.length) d with
    | .error e => .error e
    | .ok (o, d) => .ok (out ++ o, { d with finished := true })
  else .ok (out, d)

/-- miniz.cpp:1719-1773 `tdefl_compress` with an output buffer of `outSize` bytes; `prev` is `m_prev_return_status`. Returns
the input that is left, the output, the state and the status. -/
def tdeflCompress (big dbg : Bool) (j : Junk) (fuel : Nat) (fin : Bool) (outSize : Nat) (src : Bytes) (prev : TdStatus) (d : Tdefl) :
    Except Err (Bytes × Bytes × Tdefl × TdStatus) :=
  if prev ≠ .okay ∨ (d.wantsToFinish ∧ ¬fin) then .ok (src, [], d, .badParam)
  else
    let d := { d with wantsToFinish := d.wantsToFinish || fin }
    if d.pending ≠ [] ∨ d.finished then
      let (out, d, st) := flushOutput outSize [] d
      .ok (src, out, d, st)
    else
      match compressNormal big dbg j fin outSize fuel src [] d with
      | .error e => .error e
      | .ok (src, out, d) =>
        match finishUp big dbg j fin outSize src out d with
        | .error e => .error e
        | .ok (out, d) =>
          let (out, d, st) := flushOutput outSize out d
          .ok (src, out, d, st)

/-- `mz_stream` during compression: `next_in`/`avail_in`, `avail_out`, what was put at `next_out`, and the compressor with
`m_prev_return_status`. (miniz.h:326-347; miniz.cpp:138-183) -/
structure DeflStream where
  d : Tdefl
  prev : TdStatus
  inp : Bytes
  availOut : Nat
  out : Bytes

/-- miniz.cpp:153-181 `for ( ; ; )` in `mz_deflate`; `origIn`, `origOut` are `avail_in` and `avail_out` at its beginning
(instead of the totals) -/
def mzDeflateLoop (big dbg : Bool) (j : Junk) (fuel : Nat) (fin : Bool) (origIn origOut : Nat) :
    Nat → DeflStream → Except Err (MzRet × DeflStream)
  | 0, _ => .error .diverge
  | f + 1, s =>
    match tdeflCompress big dbg j fuel fin s.availOut s.inp s.prev s.d with
    | .error e => .error e
    | .ok (inp, out, d, st) =>
      let s := { s with d := d, prev := st, inp := inp, availOut := s.availOut - out.length, out := s.out ++ out }
      if st = .badParam then .ok (.dataError, s)
      else if st = .done then .ok (.streamEnd, s)
      else if s.availOut = 0 then .ok (.ok, s)
      else if inp = [] ∧ ¬fin then
        if inp.length ≠ origIn ∨ s.availOut ≠ origOut then .ok (.ok, s) else .ok (.bufError, s)
      else mzDeflateLoop big dbg j fuel fin origIn origOut f s

/-- miniz.cpp:138-183 `mz_deflate` with `MZ_NO_FLUSH` or `MZ_FINISH`. `MzRet.dataError` stands for `MZ_STREAM_ERROR`. -/
def mzDeflate (big dbg : Bool) (j : Junk) (fuel : Nat) (fin : Bool) (s : DeflStream) : Except Err (MzRet × DeflStream) :=
  if s.availOut = 0 then .ok (.bufError, s)
  else if s.prev = .done then .ok (if fin then .streamEnd else .bufError, s)
  else mzDeflateLoop big dbg j fuel fin s.inp.length s.availOut fuel s

/-- zip.cpp:66-79, the inner loop: `deflate` is called with a fresh output buffer until it leaves room in it.
`assert(ret != Z_STREAM_ERROR)` (line 70) and `assert(strm.avail_in == 0)` (line 79) are checked when `dbg`. -/
def npyDeflateInner (big : Bool) (dbg : Bool) (j : Junk) (fuel : Nat) (fin : Bool) :
    Nat → DeflStream → Bytes → Except Err (MzRet × DeflStream × Bytes)
  | 0, _, _ => .error .diverge
  | f + 1, s, output =>
    match mzDeflate big dbg j fuel fin { s with availOut := CHUNK, out := [] } with
    | .error e => .error e
    | .ok (ret, s) =>
      if dbg ∧ ret = .dataError then .error .abort
      else
        let output := output ++ s.out
        if s.availOut = 0 then npyDeflateInner big dbg j fuel fin f s output
        else if dbg ∧ s.inp ≠ [] then .error .abort
        else .ok (ret, s, output)

/-- zip.cpp:50-83, the outer loop; `assert(ret == Z_STREAM_END)` when `dbg` -/
def npyDeflateOuter (big : Bool) (dbg : Bool) (j : Junk) (fuel : Nat) : Nat → DeflStream → IStream → Bytes → Except Err Bytes
  | 0, _, _, _ => .error .diverge
  | f + 1, s, input, output =>
    match IStream.read CHUNK input with
    | (.error e, _) => .error e
    | (.ok chunk, input) =>
      match npyDeflateInner big dbg j fuel input.eof fuel { s with inp := chunk } output with
      | .error e => .error e
      | .ok (ret, s, output) =>
        if input.eof then if dbg ∧ ret ≠ .streamEnd then .error .abort else .ok output
        else npyDeflateOuter big dbg j fuel f s input output

/-- zip.cpp:28-89 `npy_deflate`. An `istringstream` that is not at its end never fails, and an `ostringstream` never does:
the throws of lines 57 and 76 are left out. -/
def npyDeflate (big : Bool) (dbg : Bool) (j : Junk) (fuel : Nat) (bytes : Bytes) : Except Err Bytes :=
  npyDeflateOuter big dbg j fuel fuel { d := Tdefl.init j, prev := .okay, inp := [], availOut := 0, out := [] }
    (IStream.ofBytes bytes) []

end Npy
