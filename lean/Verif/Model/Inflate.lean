import Verif.Model.Stream
/-!
# Decompression: miniz `tinfl`, `mz_inflate` and `npy_inflate`

`tinfl_decompress` (miniz.cpp:507-777) is a coroutine: it returns when its input is used up or its output buffer is
full, and the next call goes on where it stopped. It is modelled as a program `Co` whose effects are the accesses to the
two buffers; a suspended coroutine is the rest of the program. `Co.resume` is one call.

The flags are those `npy_inflate` causes: raw DEFLATE (window bits -15: no zlib header), `TINFL_FLAG_HAS_MORE_INPUT`
always (flush is `MZ_NO_FLUSH`), wrapping output buffer of 32768 bytes, 64-bit bit buffer. The Adler-32 sum, which is
computed and not used, is left out.
-/

namespace Npy

/-- Why the coroutine stops for good without being done. (miniz.cpp:439) -/
inductive CoStop
  /-- `TINFL_CR_RETURN_FOREVER(.., TINFL_STATUS_FAILED)` -/
  | failed
  /-- undefined behaviour: access outside of a buffer, or use of a byte that was never written -/
  | ub
  /-- the fuel of the model ran out -/
  | diverge
  deriving DecidableEq, Repr, Inhabited

/-- The coroutine, from some point on. (miniz.cpp:437-440, 507-777) -/
inductive Co (α : Type)
  | pure (a : α)
  | stop (r : CoStop)
  /-- miniz.cpp:444-458 `TINFL_GET_BYTE`: takes one byte of input; suspends with `NEEDS_MORE_INPUT` while there is none -/
  | getByte (k : UInt8 → Co α)
  /-- `pIn_buf_end - pIn_buf_cur` -/
  | availIn (k : Nat → Co α)
  /-- `pOut_buf_end - pOut_buf_cur` -/
  | availOut (k : Nat → Co α)
  /-- `while (pOut_buf_cur >= pOut_buf_end) { TINFL_CR_RETURN(.., TINFL_STATUS_HAS_MORE_OUTPUT); }` -/
  | waitOut (k : Co α)
  /-- `*pOut_buf_cur++ = b` -/
  | put (b : UInt8) (k : Co α)
  /-- `*pOut_buf_cur++ = pOut_buf_start[(cur - dist) & 32767]` -/
  | putBack (dist : Nat) (k : Co α)

namespace Co

/-- Sequencing of coroutines: model infrastructure, no counterpart in the code beyond `;` (miniz.cpp:437-440). -/
def bind {α β : Type} : Co α → (α → Co β) → Co β
  | .pure a, f => f a
  | .stop r, _ => .stop r
  | .getByte k, f => .getByte fun b => bind (k b) f
  | .availIn k, f => .availIn fun n => bind (k n) f
  | .availOut k, f => .availOut fun n => bind (k n) f
  | .waitOut k, f => .waitOut (bind k f)
  | .put b k, f => .put b (bind k f)
  | .putBack d k, f => .putBack d (bind k f)

instance : Monad Co where
  pure := .pure
  bind := bind

end Co

/-- miniz.cpp:444-458 `TINFL_GET_BYTE` -/
def coByte : Co UInt8 := .getByte .pure
/-- miniz.cpp:490, 636: `pIn_buf_end - pIn_buf_cur` -/
def coAvailIn : Co Nat := .availIn .pure
/-- miniz.cpp:636: `pOut_buf_end - pOut_buf_cur` -/
def coAvailOut : Co Nat := .availOut .pure
/-- miniz.cpp:547, 553, 641, 705: waits for room in the output buffer -/
def coWaitOut : Co Unit := .waitOut (.pure ())
/-- miniz.cpp:548, 566, 642, 673, 680: one byte is put -/
def coPut (b : UInt8) : Co Unit := .put b (.pure ())
/-- miniz.cpp:706, 735-745: one byte of a match is put -/
def coPutBack (d : Nat) : Co Unit := .putBack d (.pure ())

/-! ### The bit buffer -/

/-- `bit_buf` and `num_bits`. The buffer is 64 bits wide; `num_bits` never exceeds 62, so nothing is shifted out. (miniz.cpp:516) -/
structure BitBuf where
  buf : Nat
  num : Nat
  deriving DecidableEq, Repr

/-- miniz.cpp:460 `bit_buf |= (((tinfl_bit_buf_t)c) << num_bits); num_bits += 8;` -/
def BitBuf.feed (b : BitBuf) (c : UInt8) : BitBuf := ⟨b.buf ||| (c.toNat <<< b.num), b.num + 8⟩

/-- `bit_buf >>= n; num_bits -= n;` (miniz.cpp:461) -/
def BitBuf.drop (b : BitBuf) (n : Nat) : BitBuf := ⟨b.buf >>> n, b.num - n⟩

/-- miniz.cpp:460 `TINFL_NEED_BITS`. At most `n` rounds (fuel `n + 1`): each brings 8 bits. -/
def needBits (n : Nat) : Nat → BitBuf → Co BitBuf
  | 0, _ => .stop .diverge
  | f + 1, b => do
    let c ← coByte
    let b := b.feed c
    if b.num < n then needBits n f b else pure b

/-- miniz.cpp:461-462 `if (num_bits < (mz_uint)(n)) { TINFL_NEED_BITS(state_index, n); }` -/
def ensureBits (n : Nat) (b : BitBuf) : Co BitBuf := if b.num < n then needBits n (n + 1) b else pure b

/-- miniz.cpp:462 `TINFL_GET_BITS` -/
def getBits (n : Nat) (b : BitBuf) : Co (Nat × BitBuf) := do
  let b ← ensureBits n b
  pure (b.buf &&& ((1 <<< n) - 1), b.drop n)

/-! ### Huffman tables -/

/-- miniz.h:795-799 `tinfl_huff_table` without `m_code_size`: 1024 entries `m_look_up`, 576 entries `m_tree`. -/
structure HuffTable where
  look : List Int
  tree : List Int
  deriving DecidableEq, Repr

/-- `m_look_up[bit_buf & (TINFL_FAST_LOOKUP_SIZE - 1)]` (miniz.cpp:470, 496, 652, 665) -/
def HuffTable.lookAt (t : HuffTable) (buf : Nat) : Int := t.look.getD (buf &&& 1023) 0

/-- `m_tree[~temp + ((bit_buf >> code_len) & 1)]` (miniz.cpp:478, 499, 656, 669) -/
def HuffTable.treeAt (t : HuffTable) (temp : Int) (buf codeLen : Nat) : Int :=
  t.tree.getD ((-temp - 1).toNat + ((buf >>> codeLen) &&& 1)) 0

/-- miniz.cpp:496-499 (and 652-657, 665-670): the decoding of a symbol from the bit buffer: `temp` and `code_len`.
The loop ends after at most 5 rounds in the trees that `buildTable` makes; the fuel is 16. -/
def walkTree (t : HuffTable) (buf : Nat) : Nat → Int → Nat → Int × Nat
  | 0, temp, codeLen => (temp, codeLen)
  | f + 1, temp, codeLen =>
    let temp := t.treeAt temp buf codeLen
    let codeLen := codeLen + 1
    if temp < 0 then walkTree t buf f temp codeLen else (temp, codeLen)

/-- The symbol as the code has it in `temp`/`sym2` (in the table entries, the length of the code is still in the bits
from 9 on) and the length of its code. (miniz.cpp:496-500, 652-658, 665-671) -/
def decodeRaw (t : HuffTable) (buf : Nat) : Nat × Nat :=
  let temp := t.lookAt buf
  if temp ≥ 0 then (temp.toNat, temp.toNat >>> 9)
  else let (temp, codeLen) := walkTree t buf 16 temp 10; (temp.toNat, codeLen)

/-- miniz.cpp:477-479, the loop in `TINFL_HUFF_BITBUF_FILL`:
`do { temp = m_tree[~temp + ((bit_buf >> code_len++) & 1)]; } while ((temp < 0) && (num_bits >= (code_len + 1)))`;
the fuel is `num_bits`, as `code_len` grows by one in each round. -/
def fillWalk (t : HuffTable) (b : BitBuf) : Nat → Int → Nat → Int
  | 0, temp, _ => temp
  | f + 1, temp, codeLen =>
    let temp := t.treeAt temp b.buf codeLen
    let codeLen := codeLen + 1
    if temp < 0 ∧ b.num ≥ codeLen + 1 then fillWalk t b f temp codeLen else temp

/-- miniz.cpp:470-479: the bits in the buffer are a whole code. -/
def fillEnough (t : HuffTable) (b : BitBuf) : Bool :=
  let temp := t.lookAt b.buf
  if temp ≥ 0 then
    let codeLen := temp.toNat >>> 9
    codeLen ≠ 0 && b.num ≥ codeLen
  else if b.num > 10 then fillWalk t b b.num temp 10 ≥ 0
  else false

/-- miniz.cpp:468-481 `TINFL_HUFF_BITBUF_FILL`; at most two rounds take a byte (fuel 16: `num_bits` grows by 8 in
each). -/
def huffFill (t : HuffTable) : Nat → BitBuf → Co BitBuf
  | 0, _ => .stop .diverge
  | f + 1, b =>
    if fillEnough t b then pure b
    else do
      let c ← coByte
      let b := b.feed c
      if b.num < 15 then huffFill t f b else pure b

/-- miniz.cpp:489-495, the first half of `TINFL_HUFF_DECODE`: enough bits are brought into the buffer. -/
def huffRefill (t : HuffTable) (b : BitBuf) : Co BitBuf :=
  if b.num < 15 then do
    let n ← coAvailIn
    if n < 2 then huffFill t 16 b
    else do
      let c0 ← coByte
      let c1 ← coByte
      pure ((b.feed c0).feed c1)
  else pure b

/-- miniz.cpp:487-500 `TINFL_HUFF_DECODE` -/
def huffDecode (t : HuffTable) (b : BitBuf) : Co (Nat × BitBuf) := do
  let b ← huffRefill t b
  let (temp, codeLen) := decodeRaw t b.buf
  pure (temp &&& 511, b.drop codeLen)

/-- State of the construction of a table: the table, `tree_next`, `next_code[]`. (miniz.cpp:589-590) -/
structure TableBuild where
  look : List Int
  tree : List Int
  treeNext : Int
  next : List Nat

/-- miniz.cpp:601 `for (l = code_size; l > 0; l--, cur_code >>= 1) rev_code = (rev_code << 1) | (cur_code & 1);` -/
def revCode : Nat → Nat → Nat → Nat
  | 0, rev, _ => rev
  | l + 1, rev, cur => revCode l ((rev <<< 1) ||| (cur &&& 1)) (cur >>> 1)

/-- miniz.cpp:602 `while (rev_code < TINFL_FAST_LOOKUP_SIZE) { m_look_up[rev_code] = k; rev_code += (1 << code_size); }`;
at most 1024 rounds. -/
def fillLook (k : Int) (size : Nat) : Nat → Nat → List Int → List Int
  | 0, _, look => look
  | f + 1, rev, look =>
    if rev < 1024 then fillLook k size f (rev + (1 <<< size)) (look.set rev k) else look

/-- miniz.cpp:605-609: the loop that goes down the tree to the parent of the leaf, making nodes on the way; `n` is
`code_size - 11`. Returns the tree, `tree_next`, `tree_cur`, `rev_code`. -/
def treePath : Nat → List Int → Int → Int → Nat → List Int × Int × Int × Nat
  | 0, tree, treeNext, treeCur, rev => (tree, treeNext, treeCur, rev)
  | n + 1, tree, treeNext, treeCur, rev =>
    let rev := rev >>> 1
    let treeCur := treeCur - ((rev &&& 1 : Nat) : Int)
    let slot := (-treeCur - 1).toNat
    if tree.getD slot 0 = 0 then treePath n (tree.set slot treeNext) (treeNext - 2) treeNext rev
    else treePath n tree treeNext (tree.getD slot 0) rev

/-- miniz.cpp:600-610: one symbol goes into the table. -/
def insertSym (st : TableBuild) (sym size : Nat) : TableBuild :=
  if size = 0 then st
  else
    let cur := st.next.getD size 0
    let next := st.next.set size (cur + 1)
    let rev := revCode size 0 cur
    if size ≤ 10 then
      { st with look := fillLook (((size <<< 9) ||| sym : Nat) : Int) size 1024 rev st.look, next := next }
    else
      let at10 := rev &&& 1023
      let fresh := st.look.getD at10 0 = 0
      let look := if fresh then st.look.set at10 st.treeNext else st.look
      let treeCur := if fresh then st.treeNext else st.look.getD at10 0
      let treeNext := if fresh then st.treeNext - 2 else st.treeNext
      let (tree, treeNext, treeCur, rev) := treePath (size - 11) st.tree treeNext treeCur (rev >>> 9)
      let rev := rev >>> 1
      let treeCur := treeCur - ((rev &&& 1 : Nat) : Int)
      { look := look, tree := tree.set (-treeCur - 1).toNat (sym : Int), treeNext := treeNext, next := next }

/-- miniz.cpp:598-611: symbols `sym`, `sym + 1`, ... with the given code sizes. -/
def insertSyms : TableBuild → Nat → List Nat → TableBuild
  | st, _, [] => st
  | st, sym, size :: sizes => insertSyms (insertSym st sym size) (sym + 1) sizes

/-- miniz.cpp:593 `used_syms += total_syms[i]; next_code[i + 1] = (total = ((total + total_syms[i]) << 1));` for
`i`, `i + 1`, ..., 15 (`n` rounds): the list `next_code[i + 1 ..]` and the last `total`. -/
def nextCodes (sizes : List Nat) : Nat → Nat → Nat → List Nat × Nat
  | 0, _, total => ([], total)
  | n + 1, i, total =>
    let total := (total + sizes.count i) <<< 1
    let (l, t) := nextCodes sizes n (i + 1) total
    (total :: l, t)

/-- miniz.cpp:590-611: the table for the code sizes `m_code_size[0 .. m_table_sizes - 1]`; `none` is
`TINFL_CR_RETURN_FOREVER(35, TINFL_STATUS_FAILED)`. -/
def buildTable (sizes : List Nat) : Option HuffTable :=
  let (l, total) := nextCodes sizes 15 1 0
  let usedSyms := sizes.countP (· ≠ 0)
  if total ≠ 65536 ∧ usedSyms > 1 then none
  else
    let st := insertSyms ⟨List.replicate 1024 0, List.replicate 576 0, -1, 0 :: 0 :: l⟩ 0 sizes
    some { look := st.look, tree := st.tree }

/-- miniz.cpp:590-611: a table, or failure -/
def coTable (sizes : List Nat) : Co HuffTable :=
  match buildTable sizes with
  | none => .stop .failed
  | some t => pure t

/-! ### The decompressor -/

/-- miniz.cpp:509-512, the tables. -/
def sLengthBase : List Nat :=
  [3,4,5,6,7,8,9,10,11,13,15,17,19,23,27,31,35,43,51,59,67,83,99,115,131,163,195,227,258,0,0]
/-- miniz.cpp:510 -/
def sLengthExtra : List Nat := [0,0,0,0,0,0,0,0,1,1,1,1,2,2,2,2,3,3,3,3,4,4,4,4,5,5,5,5,0,0,0]
/-- miniz.cpp:511 -/
def sDistBase : List Nat :=
  [1,2,3,4,5,7,9,13,17,25,33,49,65,97,129,193,257,385,513,769,1025,1537,2049,3073,4097,6145,8193,12289,16385,24577,0,0]
/-- miniz.cpp:512 -/
def sDistExtra : List Nat := [0,0,0,0,1,1,2,2,3,3,4,4,5,5,6,6,7,7,8,8,9,9,10,10,11,11,12,12,13,13,0,0]
/-- miniz.cpp:513 -/
def sLengthDezigzag : List Nat := [16,17,18,0,8,7,9,6,10,5,11,4,12,3,13,2,14,1,15]

/-- `n` bytes of a match, one after the other. (miniz.cpp:703-707, 733-746) -/
def copyMatch (dist : Nat) : Nat → Co Unit
  | 0 => pure ()
  | n + 1 => do
    coWaitOut
    coPutBack dist
    copyMatch dist n

/-- miniz.cpp:687, 691: `num_extra` bits are added, if there are any. -/
def extraBits (n base : Nat) (b : BitBuf) : Co (Nat × BitBuf) :=
  if n ≠ 0 then do
    let (e, b) ← getBits n b
    pure (base + e, b)
  else pure (base, b)

/-- miniz.cpp:701-746: a match of `counter` bytes is copied. The three ways of copying (byte by byte when the match
may run over the end of the buffer; 8 bytes at a time; 3 bytes at a time) put the same bytes: a source byte is read
before its cell is overwritten by the same match unless the match overlaps itself, which happens only in the byte-wise
and 3-byte-wise loops that write before they read (`Model/InflateMem` has the three of them, on the memory of the code;
`npyInflateM_eq` in `Proofs/InflateMem` proves that the result is the same). A `counter` of 0 (symbols 286 and 287) is below the end of the buffer
wherever the cursor is and goes to the loop `do { .. 3 bytes .. } while ((int)(counter -= 3) > 2)`, which copies three
bytes without regard to the end of the buffer. -/
def putMatch (counter dist : Nat) : Co Unit :=
  if counter = 0 then do
    let room ← coAvailOut
    let cur := 32768 - room
    let src := (cur + 32768 - dist) &&& 32767
    if room < 3 ∨ src + 3 > 32768 then .stop .ub
    else copyMatch dist 3
  else copyMatch dist counter

/-- miniz.cpp:686-746: what follows a symbol 257..287. -/
def doMatch (dist : HuffTable) (sym : Nat) (b : BitBuf) : Co BitBuf := do
  let (counter, b) ← extraBits (sLengthExtra.getD (sym - 257) 0) (sLengthBase.getD (sym - 257) 0) b
  let (d, b) ← huffDecode dist b
  let (d, b) ← extraBits (sDistExtra.getD d 0) (sDistBase.getD d 0) b
  putMatch counter d
  pure b

/-- miniz.cpp:648 `bit_buf |= (MZ_READ_LE32(pIn_buf_cur)) << num_bits; pIn_buf_cur += 4; num_bits += 32;`. As miniz.h:197-199
defines `MINIZ_LITTLE_ENDIAN` whatever the host, `MZ_READ_LE32` (miniz.cpp:31) loads a word in the order of the host: `big` says
that the first byte is the most significant one. -/
def refill4 (big : Bool) (b : BitBuf) : Co BitBuf :=
  if b.num < 30 then do
    let c0 ← coByte
    let c1 ← coByte
    let c2 ← coByte
    let c3 ← coByte
    pure (if big then (((b.feed c3).feed c2).feed c1).feed c0 else (((b.feed c0).feed c1).feed c2).feed c3)
  else pure b

/-- miniz.cpp:631-747, the loop over the symbols of a block, both the slow and the fast way. -/
def symLoop (big : Bool) (lit dist : HuffTable) : Nat → BitBuf → Co BitBuf
  | 0, _ => .stop .diverge
  | f + 1, b => do
    let nIn ← coAvailIn
    let nOut ← coAvailOut
    if nIn < 4 ∨ nOut < 2 then do
      let (c, b) ← huffDecode lit b
      if c ≥ 256 then
        if c = 256 then pure b
        else do
          let b ← doMatch dist c b
          symLoop big lit dist f b
      else do
        coWaitOut
        coPut (UInt8.ofNat c)
        symLoop big lit dist f b
    else do
      let b ← refill4 big b
      let (c, codeLen) := decodeRaw lit b.buf
      let b := b.drop codeLen
      if c &&& 256 ≠ 0 then
        if c &&& 511 = 256 then pure b
        else do
          let b ← doMatch dist (c &&& 511) b
          symLoop big lit dist f b
      else do
        let (c2, codeLen) := decodeRaw lit b.buf
        let b := b.drop codeLen
        coPut (UInt8.ofNat c)
        if c2 &&& 256 ≠ 0 then
          if c2 &&& 511 = 256 then pure b
          else do
            let b ← doMatch dist (c2 &&& 511) b
            symLoop big lit dist f b
        else do
          coPut (UInt8.ofNat c2)
          symLoop big lit dist f b

/-- miniz.cpp:542 `if (num_bits) TINFL_GET_BITS(6, .., 8); else TINFL_GET_BYTE(7, ..);` -/
def rawByte (b : BitBuf) : Co (Nat × BitBuf) :=
  if b.num ≠ 0 then getBits 8 b
  else do
    let c ← coByte
    pure (c.toNat, b)

/-- miniz.cpp:544-550 `while ((counter) && (num_bits))`: bytes of a stored block that are already in the bit buffer;
returns the rest of `counter`. -/
def storedBits : Nat → BitBuf → Co (Nat × BitBuf)
  | 0, b => pure (0, b)
  | n + 1, b =>
    if b.num ≠ 0 then do
      let (d, b) ← getBits 8 b
      coWaitOut
      coPut (UInt8.ofNat d)
      storedBits n b
    else pure (n + 1, b)

/-- miniz.cpp:551-567 `while (counter)`: the other bytes. The `memcpy` of as many bytes as the buffers allow is modelled
as that many rounds of the loop. -/
def storedBytes : Nat → Co Unit
  | 0 => pure ()
  | n + 1 => do
    coWaitOut
    let c ← coByte
    coPut c
    storedBytes n

/-- miniz.cpp:541-567 -/
def storedBlock (b : BitBuf) : Co BitBuf := do
  let b := b.drop (b.num &&& 7)
  let (h0, b) ← rawByte b
  let (h1, b) ← rawByte b
  let (h2, b) ← rawByte b
  let (h3, b) ← rawByte b
  let counter := h0 ||| (h1 <<< 8)
  if counter ≠ (0xFFFF ^^^ (h2 ||| (h3 <<< 8))) then .stop .failed
  else do
    let (counter, b) ← storedBits counter b
    storedBytes counter
    pure b

/-- miniz.cpp:577-579 -/
def staticLit : List Nat :=
  List.replicate 144 8 ++ List.replicate 112 9 ++ List.replicate 24 7 ++ List.replicate 8 8
/-- miniz.cpp:578 -/
def staticDist : List Nat := List.replicate 32 5

/-- miniz.cpp:584 `m_code_size[s_length_dezigzag[counter]] = s` for `counter`, ..., `m_table_sizes[2] - 1` -/
def readClLens : List Nat → List Nat → BitBuf → Co (List Nat × BitBuf)
  | [], sizes, b => pure (sizes, b)
  | i :: is, sizes, b => do
    let (s, b) ← getBits 3 b
    readClLens is (sizes.set i s) b

/-- miniz.cpp:614-623: the code lengths; `acc` is `m_len_codes[0 .. counter - 1]`. Every round makes `counter` larger, so
that `total` rounds are enough. -/
def readLens (t : HuffTable) (total : Nat) : Nat → List Nat → BitBuf → Co (List Nat × BitBuf)
  | 0, acc, b => if acc.length < total then .stop .diverge else pure (acc, b)
  | f + 1, acc, b =>
    if acc.length < total then do
      let (d, b) ← huffDecode t b
      if d < 16 then readLens t total f (acc ++ [d]) b
      else if d = 16 ∧ acc.length = 0 then .stop .failed
      else do
        let (s, b) ← getBits ([2, 3, 7].getD (d - 16) 0) b
        let s := s + [3, 3, 11].getD (d - 16) 0
        readLens t total f (acc ++ List.replicate s (if d = 16 then acc.getLast?.getD 0 else 0)) b
    else pure (acc, b)

/-- miniz.cpp:583-630: the tables of a dynamic block (literals and lengths, distances). The order in which the tables
are made is that of the code: code lengths, distances, literals. -/
def dynamicTables (b : BitBuf) : Co (HuffTable × HuffTable × BitBuf) := do
  let (n0, b) ← getBits 5 b
  let n0 := n0 + 257
  let (n1, b) ← getBits 5 b
  let n1 := n1 + 1
  let (n2, b) ← getBits 4 b
  let n2 := n2 + 4
  let (cl, b) ← readClLens (sLengthDezigzag.take n2) (List.replicate 19 0) b
  let t2 ← coTable cl
  let (lens, b) ← readLens t2 (n0 + n1) (n0 + n1) [] b
  if n0 + n1 ≠ lens.length then .stop .failed
  else do
    let t1 ← coTable (lens.drop n0)
    let t0 ← coTable (lens.take n0)
    pure (t0, t1, b)

/-- miniz.cpp:539-748, one block after its three first bits. -/
def inflateBlock (big : Bool) (fuel : Nat) (type : Nat) (b : BitBuf) : Co BitBuf :=
  if type = 0 then storedBlock b
  else if type = 3 then .stop .failed
  else if type = 1 then do
    let t1 ← coTable staticDist
    let t0 ← coTable staticLit
    symLoop big t0 t1 fuel b
  else do
    let (t0, t1, b) ← dynamicTables b
    symLoop big t0 t1 fuel b

/-- miniz.cpp:536-749 `do { .. } while (!(r->m_final & 1));` -/
def blockLoop (big : Bool) (fuel : Nat) : Nat → BitBuf → Co Unit
  | 0, _ => .stop .diverge
  | f + 1, b => do
    let (h, b) ← getBits 3 b
    let b ← inflateBlock big fuel (h >>> 1) b
    if h &&& 1 = 0 then blockLoop big fuel f b else pure ()

/-- miniz.cpp:507-755 from `m_state` 0 -/
def tinfl (big : Bool) (fuel : Nat) : Co Unit := blockLoop big fuel fuel ⟨0, 0⟩

/-! ### One call of `tinfl_decompress` -/

/-- `tinfl_status`; the last two are not statuses of the code but stand for what the model cannot go on from. (miniz.h:770-778) -/
inductive TStatus
  | failed | done | needsMoreInput | hasMoreOutput | ub | diverge
  deriving DecidableEq, Repr, Inhabited

/-- The state of a call: the coroutine, the input that is left, the dictionary, the room left in it.

The dictionary `m_dict` is a cyclic buffer of 32768 bytes; `hist` has all the bytes that were ever written to it, newest
first, so that the cell `(cur - dist) & 32767` holds the byte number `(dist - 1) mod 32768` of it; a cell never written
is not initialised (`malloc`). (`Model/InflateMem` has the buffer itself.) (miniz.h:813-820; miniz.cpp:517-519) -/
structure TState where
  co : Co Unit
  inp : Bytes
  hist : Bytes
  room : Nat

/-- miniz.cpp:507-777: runs until the coroutine stops or suspends. -/
def Co.resume : Co Unit → Bytes → Bytes → Nat → TStatus × TState
  | .pure a, inp, hist, room => (.done, ⟨.pure a, inp, hist, room⟩)
  | .stop .failed, inp, hist, room => (.failed, ⟨.stop .failed, inp, hist, room⟩)
  | .stop .ub, inp, hist, room => (.ub, ⟨.stop .ub, inp, hist, room⟩)
  | .stop .diverge, inp, hist, room => (.diverge, ⟨.stop .diverge, inp, hist, room⟩)
  | .getByte k, [], hist, room => (.needsMoreInput, ⟨.getByte k, [], hist, room⟩)
  | .getByte k, c :: inp, hist, room => (k c).resume inp hist room
  | .availIn k, inp, hist, room => (k inp.length).resume inp hist room
  | .availOut k, inp, hist, room => (k room).resume inp hist room
  | .waitOut k, inp, hist, 0 => (.hasMoreOutput, ⟨.waitOut k, inp, hist, 0⟩)
  | .waitOut k, inp, hist, room + 1 => k.resume inp hist (room + 1)
  | .put _ _, inp, hist, 0 => (.ub, ⟨.stop .ub, inp, hist, 0⟩)
  | .put c k, inp, hist, room + 1 => k.resume inp (c :: hist) room
  | .putBack _ _, inp, hist, 0 => (.ub, ⟨.stop .ub, inp, hist, 0⟩)
  | .putBack d k, inp, hist, room + 1 =>
    match hist[(d + 32767) % 32768]? with
    | none => (.ub, ⟨.stop .ub, inp, hist, room + 1⟩)
    | some c => k.resume inp (c :: hist) room

/-! ### `mz_inflate` -/

/-- miniz.cpp:243-249 `inflate_state`, with the fields of `mz_stream` that `npy_inflate` uses. -/
structure InflateState where
  co : Co Unit
  hist : Bytes
  dictOfs : Nat
  dictAvail : Nat
  lastStatus : TStatus
  /-- `next_in`, `avail_in` -/
  inp : Bytes
  /-- `avail_out` -/
  availOut : Nat
  /-- what was put at `next_out` -/
  out : Bytes

/-- The return values of `mz_inflate` that occur. (miniz.h:315) -/
inductive MzRet
  | ok | streamEnd | dataError | bufError
  deriving DecidableEq, Repr, Inhabited

/-- miniz.cpp:333-336 and 353-356: as much of the dictionary as fits goes to the output. The unread bytes of the
dictionary are the `dictAvail` newest ones. -/
def InflateState.flush (s : InflateState) : InflateState :=
  let n := min s.dictAvail s.availOut
  { s with
    out := s.out ++ (s.hist.take s.dictAvail).reverse.take n
    availOut := s.availOut - n
    dictAvail := s.dictAvail - n
    dictOfs := (s.dictOfs + n) &&& 32767 }

/-- miniz.cpp:340-373 `for ( ; ; )` with `flush == MZ_NO_FLUSH` -/
def mzInflateLoop (origAvailIn : Nat) : Nat → InflateState → Except Err MzRet × InflateState
  | 0, s => (.error .diverge, s)
  | f + 1, s =>
    let room := 32768 - s.dictOfs
    let (status, t) := s.co.resume s.inp s.hist room
    let s := { s with co := t.co, inp := t.inp, hist := t.hist, lastStatus := status, dictAvail := room - t.room }
    let s := s.flush
    match status with
    | .ub => (.error .ub, s)
    | .diverge => (.error .diverge, s)
    | .failed => (.ok .dataError, s)
    | status =>
      if status = .needsMoreInput ∧ origAvailIn = 0 then (.ok .bufError, s)
      else if status = .done ∨ s.inp = [] ∨ s.availOut = 0 ∨ s.dictAvail ≠ 0 then
        (.ok (if status = .done ∧ s.dictAvail = 0 then .streamEnd else .ok), s)
      else mzInflateLoop origAvailIn f s

/-- miniz.cpp:287-376 `mz_inflate(pStream, MZ_NO_FLUSH)` -/
def mzInflate (fuel : Nat) (s : InflateState) : Except Err MzRet × InflateState :=
  if s.lastStatus = .failed then (.ok .dataError, s)
  else if s.dictAvail ≠ 0 then
    let s := s.flush
    (.ok (if s.lastStatus = .done ∧ s.dictAvail = 0 then .streamEnd else .ok), s)
  else mzInflateLoop s.inp.length fuel s

/-! ### `npy_inflate` -/

/-- zip.cpp:14 -/
def CHUNK : Nat := 1048576

/-- zip.cpp:128-148, the inner loop: `inflate` is called with a fresh output buffer until it leaves room in it. -/
def npyInflateInner (fuel : Nat) : Nat → InflateState → Bytes → Except Err (MzRet × InflateState × Bytes)
  | 0, _, _ => .error .diverge
  | f + 1, s, output =>
    match mzInflate fuel { s with availOut := CHUNK, out := [] } with
    | (.error e, _) => .error e
    | (.ok .dataError, _) => .error (.throw (.runtimeError .inflateError))
    | (.ok ret, s) =>
      let output := output ++ s.out
      if s.availOut = 0 then npyInflateInner fuel f s output else .ok (ret, s, output)

/-- zip.cpp:113-161, the outer loop and the end of the function. -/
def npyInflateOuter (fuel : Nat) : Nat → InflateState → IStream → Bytes → Except Err Bytes
  | 0, _, _, _ => .error .diverge
  | f + 1, s, input, output =>
    match IStream.read CHUNK input with
    | (.error e, _) => .error e
    | (.ok chunk, input) =>
      if input.fail && !input.eof then .error (.throw (.runtimeError .inflateError))
      else if chunk = [] then .error (.throw (.runtimeError .inflateError))
      else match npyInflateInner fuel fuel { s with inp := chunk } output with
        | .error e => .error e
        | .ok (ret, s, output) =>
          if ret = .streamEnd then .ok output else npyInflateOuter fuel f s input output

/-- miniz.cpp:251-280 `mz_inflateInit2` -/
def inflateInit (big : Bool) (fuel : Nat) : InflateState :=
  { co := tinfl big fuel, hist := [], dictOfs := 0, dictAvail := 0, lastStatus := .needsMoreInput, inp := [], availOut := 0,
    out := [] }

/-- zip.cpp:91-161 `npy_inflate`. When the loop is left because no input came, `ret` is not `Z_STREAM_END` and the
function throws. -/
def npyInflate (big : Bool) (fuel : Nat) (bytes : Bytes) : Except Err Bytes :=
  npyInflateOuter fuel fuel (inflateInit big fuel) (IStream.ofBytes bytes) []

end Npy
