import Verif.Model.Inflate
/-!
# Compression: miniz `tdefl`, Huffman codes and blocks

The part of `tdefl` that turns recorded literals and matches into blocks (miniz.cpp:846-1243). The variant is the one for
x86-64 (`MINIZ_USE_UNALIGNED_LOADS_AND_STORES`, `MINIZ_LITTLE_ENDIAN`, `MINIZ_HAS_64BIT_REGISTERS`, miniz.h:242-260) with
`TDEFL_LESS_MEMORY` 0 (miniz.h:825). Arrays that are read and written in place are functions from indices; `rdArr`,
`wrArr` and `inArr` compare the index with the size of the array and give `.ub` outside of it (`Props/Memory`: C73).

`MZ_ASSERT` is `assert` (miniz.cpp:13). A failed assertion in a function that writes bits is noted in `BitOut.bad` and ends
the program at the next `BitOut.check` when assertions are compiled in (`dbg`).
-/

namespace Npy

/-- A list given by its runs (only used to write down constant tables). (notation for the tables at miniz.cpp:850-898) -/
def runs (l : List (Nat × Nat)) : List Nat := l.flatMap fun p => List.replicate p.1 p.2

/-- One cell of an array is overwritten. (notation for `a[i] = v`, as in miniz.cpp:912, 926-934, 976) -/
@[noinline] def setAt {α : Type} (f : Nat → α) (i : Nat) (v : α) : Nat → α := fun j => if j = i then v else f j

/-- `a[i]` of an array with `size` elements; outside of the array it is undefined. (notation, as in miniz.cpp:912, 926-929) -/
def rdArr {α : Type} (size : Nat) (f : Nat → α) (i : Nat) : Except Err α := if i < size then .ok (f i) else .error .ub

/-- `a[i] = v` for an array with `size` elements. (notation, as in miniz.cpp:912, 926-929, 1599-1601) -/
def wrArr {α : Type} (size : Nat) (f : Nat → α) (i : Nat) (v : α) : Except Err (Nat → α) :=
  if i < size then .ok (setAt f i v) else .error .ub

/-- Everything up to index `size` is in the array. (notation, as for `packed_code_sizes` at miniz.cpp:1022) -/
def inArr (c : Prop) [Decidable c] : Except Err Unit := if c then .ok () else .error .ub

/-! ### Tables -/

/-- miniz.cpp:850-858 `s_tdefl_len_sym`, 256 entries, written as runs. -/
def lenSymTab : List Nat :=
  runs [(1, 257), (1, 258), (1, 259), (1, 260), (1, 261), (1, 262), (1, 263), (1, 264), (2, 265), (2, 266),
    (2, 267), (2, 268), (4, 269), (4, 270), (4, 271), (4, 272), (8, 273), (8, 274), (8, 275), (8, 276),
    (16, 277), (16, 278), (16, 279), (16, 280), (32, 281), (32, 282), (32, 283), (31, 284), (1, 285)]

/-- miniz.cpp:860-864 `s_tdefl_len_extra`, 256 entries, written as runs. -/
def lenExtraTab : List Nat :=
  runs [(8, 0), (8, 1), (16, 2), (32, 3), (64, 4), (127, 5), (1, 0)]

/-- miniz.cpp:866-878 `s_tdefl_small_dist_sym`, 512 entries, written as runs. -/
def smallDistSym : List Nat :=
  runs [(1, 0), (1, 1), (1, 2), (1, 3), (2, 4), (2, 5), (4, 6), (4, 7), (8, 8), (8, 9), (16, 10), (16, 11),
    (32, 12), (32, 13), (64, 14), (64, 15), (128, 16), (128, 17)]

/-- miniz.cpp:880-888 `s_tdefl_small_dist_extra`, 512 entries, written as runs. -/
def smallDistExtra : List Nat :=
  runs [(4, 0), (4, 1), (8, 2), (16, 3), (32, 4), (64, 5), (128, 6), (256, 7)]

/-- miniz.cpp:890-893 `s_tdefl_large_dist_sym`, 128 entries, written as runs. -/
def largeDistSym : List Nat :=
  runs [(2, 0), (1, 18), (1, 19), (2, 20), (2, 21), (4, 22), (4, 23), (8, 24), (8, 25), (16, 26), (16, 27),
    (32, 28), (32, 29)]

/-- miniz.cpp:895-898 `s_tdefl_large_dist_extra`, 128 entries, written as runs. -/
def largeDistExtra : List Nat :=
  runs [(2, 0), (2, 8), (4, 9), (8, 10), (16, 11), (32, 12), (64, 13)]

/-! ### Bit output -/

/-- miniz.h:895 `TDEFL_OUT_BUF_SIZE` -/
def OUT_BUF_SIZE : Nat := 85196
/-- miniz.cpp:1254 `m_pOutput_buf_end - m_pOutput_buf` at the beginning of a block -/
def OUT_LIMIT : Nat := OUT_BUF_SIZE - 16

/-- The output position of a block: the bytes written since the block was begun (from `pOutput_buf_start` to
`m_pOutput_buf`), `m_bit_buffer` and `m_bits_in`; `bad`: an assertion has failed. (miniz.h:924-925; miniz.cpp:1250-1260) -/
structure BitOut where
  out : Bytes
  buf : Nat
  n : Nat
  bad : Bool := false
  deriving DecidableEq, Repr, Inhabited

/-- miniz.cpp:992-997 `while (d->m_bits_in >= 8)`: a byte that does not fit is dropped. At most 4 rounds, as the buffer has
32 bits. -/
def BitOut.drain : Nat → BitOut → BitOut
  | 0, w => w
  | k + 1, w =>
    if 8 ≤ w.n then
      drain k { out := if w.out.length < OUT_LIMIT then w.out ++ [UInt8.ofNat w.buf] else w.out
                buf := w.buf >>> 8
                n := w.n - 8
                bad := w.bad }
    else w

/-- `MZ_ASSERT(c)` (miniz.cpp:13, 990) -/
def BitOut.require (w : BitOut) (c : Bool) : BitOut := { w with bad := w.bad || !c }

/-- The program ends if an assertion has failed and assertions are compiled in (`dbg`). (miniz.cpp:13) -/
def BitOut.check (dbg : Bool) (w : BitOut) : Except Err BitOut := if dbg && w.bad then .error .abort else .ok w

/-- miniz.cpp:989-998 `TDEFL_PUT_BITS(b, l)` with `MZ_ASSERT(bits <= ((1U << len) - 1U))` -/
def BitOut.put (w : BitOut) (b l : Nat) : BitOut :=
  BitOut.drain 4 { w.require (decide (b ≤ (1 <<< l) - 1)) with buf := (w.buf ||| (b <<< w.n)) % 2 ^ 32, n := w.n + l }

/-! ### Huffman codes -/

/-- miniz.cpp:901 `tdefl_sym_freq` -/
structure SymFreq where
  key : Nat
  sym : Nat
  deriving DecidableEq, Repr, Inhabited

/-- The byte of the key a pass looks at: `(m_key >> pass_shift) & 0xFF`. (miniz.cpp:912) -/
def radixByte (shift : Nat) (s : SymFreq) : Nat := (s.key >>> shift) &&& 255

/-- miniz.cpp:905: `hist[]` of one of the two bytes -/
def radixHist (shift : Nat) (l : List SymFreq) : Nat → Nat :=
  l.foldl (fun h s => setAt h (radixByte shift s) (h (radixByte shift s) + 1)) fun _ => 0

/-- miniz.cpp:910-911: `offsets[]` and `cur_ofs` after `n` rounds -/
def radixOffsets (hist : Nat → Nat) (n : Nat) : (Nat → Nat) × Nat :=
  (List.range n).foldl (fun a i => (setAt a.1 i a.2, a.2 + hist i)) (fun _ => 0, 0)

/-- miniz.cpp:912: `pNew_syms[offsets[(pCur_syms[i].m_key >> pass_shift) & 0xFF]++] = pCur_syms[i]`; the two arrays afterwards.
`offsets` has 256 elements, of `pNew_syms` the first `n` may be used. -/
def radixScatter (shift n : Nat) : List SymFreq → (Nat → Nat) × (Nat → SymFreq) → Except Err ((Nat → Nat) × (Nat → SymFreq))
  | [], a => .ok a
  | s :: l, a => do
    let k ← rdArr 256 a.1 (radixByte shift s)
    let offsets ← wrArr 256 a.1 (radixByte shift s) (k + 1)
    let new ← wrArr n a.2 k s
    radixScatter shift n l (offsets, new)

/-- miniz.cpp:908-914: one pass; `new` is what `pNew_syms` holds before. The array is given as the list of its first `num_syms` elements. -/
def radixPass (shift : Nat) (hist : Nat → Nat) (new : Nat → SymFreq) (l : List SymFreq) : Except Err (List SymFreq) := do
  let a ← radixScatter shift l.length l ((radixOffsets hist 256).1, new)
  pure ((List.range l.length).map a.2)

/-- miniz.cpp:902-916 `tdefl_radix_sort_syms`: the second pass is left out when it has nothing to do (line 906). Both histograms are
taken from the unsorted array. (What is in the target array before a pass does not matter, `radixPass_eq`; here it is 0.) -/
def radixSort (l : List SymFreq) : Except Err (List SymFreq) := do
  let first ← radixPass 0 (radixHist 0 l) (fun _ => ⟨0, 0⟩) l
  if l.length = radixHist 8 l 0 then pure first else radixPass 8 (radixHist 8 l) (fun _ => ⟨0, 0⟩) first

/-- The variables of the first loop of `tdefl_calculate_minimum_redundancy`: `A[].m_key`, `root`, `leaf`. (miniz.cpp:921) -/
structure MrState where
  A : Nat → Nat
  root : Nat
  leaf : Nat

/-- miniz.cpp:926, the first half of a round; `A` has `n` elements in use -/
def mrFirst (n next : Nat) (s : MrState) : Except Err MrState := do
  let internal ← if s.leaf ≥ n then pure true else do
    let a ← rdArr n s.A s.root
    let b ← rdArr n s.A s.leaf
    pure (decide (a < b))
  if internal then do
    let a ← rdArr n s.A s.root
    let A ← wrArr n s.A next a
    let A ← wrArr n A s.root (next % 65536)
    pure { A := A, root := s.root + 1, leaf := s.leaf }
  else do
    let b ← rdArr n s.A s.leaf
    let A ← wrArr n s.A next b
    pure { A := A, root := s.root, leaf := s.leaf + 1 }

/-- miniz.cpp:927, the second half of a round -/
def mrSecond (n next : Nat) (s : MrState) : Except Err MrState := do
  let internal ← if s.leaf ≥ n then pure true else if s.root < next then do
      let a ← rdArr n s.A s.root
      let b ← rdArr n s.A s.leaf
      pure (decide (a < b))
    else pure false
  let w ← rdArr n s.A next
  if internal then do
    let a ← rdArr n s.A s.root
    let A ← wrArr n s.A next ((w + a) % 65536)
    let A ← wrArr n A s.root (next % 65536)
    pure { A := A, root := s.root + 1, leaf := s.leaf }
  else do
    let b ← rdArr n s.A s.leaf
    let A ← wrArr n s.A next ((w + b) % 65536)
    pure { A := A, root := s.root, leaf := s.leaf + 1 }

/-- miniz.cpp:924-928 `for (next=1; next < n-1; next++)`: the rounds `next`, `next + 1`, ... (`k` of them) -/
def mrTree (n : Nat) : Nat → Nat → MrState → Except Err MrState
  | 0, _, s => .ok s
  | k + 1, next, s => do
    let s ← mrFirst n next s
    let s ← mrSecond n next s
    mrTree n k (next + 1) s

/-- miniz.cpp:929 `for (next=n-3; next>=0; next--) A[next].m_key = A[A[next].m_key].m_key+1;`, from `next = k - 1` -/
def mrDepths (n : Nat) : Nat → (Nat → Nat) → Except Err (Nat → Nat)
  | 0, A => .ok A
  | k + 1, A => do
    let p ← rdArr n A k
    let depth ← rdArr n A p
    let A ← wrArr n A k ((depth + 1) % 65536)
    mrDepths n k A

/-- miniz.cpp:933 `while (root>=0 && (int)A[root].m_key==dpth) { used++; root--; }`; the first number is `root + 1`. -/
def mrUse (A : Nat → Nat) (dpth : Nat) : Nat → Nat → Nat × Nat
  | 0, used => (0, used)
  | r + 1, used => if A r = dpth then mrUse A dpth r (used + 1) else (r + 1, used)

/-- miniz.cpp:934 `while (avbl>used) { A[next--].m_key = (mz_uint16)(dpth); avbl--; }`: `k` rounds; `next1` is `next + 1`;
an access to `A[-1]` is undefined. -/
def mrFill (dpth : Nat) : Nat → Nat → (Nat → Nat) → Except Err (Nat × (Nat → Nat))
  | 0, next1, A => .ok (next1, A)
  | _ + 1, 0, _ => .error .ub
  | k + 1, next + 1, A => mrFill dpth k next (setAt A next (dpth % 65536))

/-- miniz.cpp:931-936 `while (avbl>0)` -/
def mrLevels : Nat → (avbl r next1 dpth : Nat) → (Nat → Nat) → Except Err (Nat → Nat)
  | 0, _, _, _, _, _ => .error .diverge
  | f + 1, avbl, r, next1, dpth, A =>
    if avbl = 0 then .ok A
    else
      match mrFill dpth (avbl - (mrUse A dpth r 0).2) next1 A with
      | .error e => .error e
      | .ok (next1, A') => mrLevels f (2 * (mrUse A dpth r 0).2) (mrUse A dpth r 0).1 next1 (dpth + 1) A'

/-- miniz.cpp:919-937 `tdefl_calculate_minimum_redundancy` on the keys `A[0 .. n-1]` -/
def minRedundancy (n : Nat) (A : Nat → Nat) : Except Err (Nat → Nat) :=
  if n = 0 then .ok A
  else if n = 1 then .ok (setAt A 0 1)
  else do
    let s ← mrTree n (n - 2) 1 { A := setAt A 0 ((A 0 + A 1) % 65536), root := 0, leaf := 2 }
    let A ← mrDepths n (n - 2) (setAt s.A (n - 2) 0)
    mrLevels (n + 1) 1 (n - 1) n 0 A

/-- miniz.cpp:949 `for (i = max_code_size - 1; i > 0; i--) if (pNum_codes[i])`: the `i` that is found -/
def findShorter (num : Nat → Nat) : Nat → Option Nat
  | 0 => none
  | i + 1 => if num (i + 1) ≠ 0 then some (i + 1) else findShorter num i

/-- miniz.cpp:949: what is done with it -/
def splitShorter (num : Nat → Nat) (limit : Nat) : Nat → Nat :=
  match findShorter num (limit - 1) with
  | none => num
  | some i => setAt (setAt num i (num i - 1)) (i + 1) (setAt num i (num i - 1) (i + 1) + 2)

/-- miniz.cpp:946-952 `while (total != (1UL << max_code_size))`. The counts are `int`s; the model stops with an error where
one would become negative (this is shown not to happen). -/
def enforceLoop (limit : Nat) : Nat → Nat → (Nat → Nat) → Except Err (Nat → Nat)
  | 0, _, _ => .error .diverge
  | f + 1, total, num =>
    if total = 2 ^ limit then .ok num
    else if num limit = 0 then .error .ub
    else enforceLoop limit f (total - 1) (splitShorter (setAt num limit (num limit - 1)) limit)

/-- miniz.cpp:944 `for (i = max_code_size + 1; i <= 32; i++) pNum_codes[max_code_size] += pNum_codes[i];` -/
def lumpLong (num : Nat → Nat) (limit : Nat) : Nat → Nat :=
  setAt num limit (num limit + ((List.range' (limit + 1) (32 - limit)).map num).sum)

/-- miniz.cpp:945 `for (i = max_code_size; i > 0; i--) total += (((mz_uint32)pNum_codes[i]) << (max_code_size - i));` -/
def weightSum (num : Nat → Nat) (limit : Nat) : Nat :=
  ((List.range' 1 limit).map fun i => num i <<< (limit - i)).sum

/-- miniz.cpp:941-952 `tdefl_huffman_enforce_max_code_size` -/
def enforceMaxCodeSize (num : Nat → Nat) (codes limit : Nat) : Except Err (Nat → Nat) :=
  if codes ≤ 1 then .ok num
  else
    let num := lumpLong num limit
    enforceLoop limit (weightSum num limit + 1) (weightSum num limit) num

/-- miniz.cpp:975-976: the symbols from the last of the sorted list on get the sizes in ascending order;
`pSyms[-1]` is undefined; `m_huff_code_sizes[t]` has 288 elements (miniz.h:895, 937). -/
def assignSizes : List SymFreq → List Nat → (Nat → Nat) → Except Err (Nat → Nat)
  | _, [], f => .ok f
  | [], _ :: _, _ => .error .ub
  | s :: ss, l :: ls, f => do
    let f ← wrArr 288 f s.sym l
    assignSizes ss ls f

/-- miniz.cpp:979 `next_code[1] = 0; for (j = 0, i = 2; i <= code_size_limit; i++) next_code[i] = j = ((j + num_codes[i - 1]) << 1);` -/
def firstCodes (num : Nat → Nat) : Nat → Nat
  | 0 => 0
  | 1 => 0
  | i + 2 => (firstCodes num (i + 1) + num (i + 1)) <<< 1

/-- miniz.cpp:981-986: the codes, as they are put into the output (the first bit lowest). `m_huff_codes` of a symbol without
a code is not used; it is 0 here. -/
def assignCodes : List Nat → (Nat → Nat) → List Nat
  | [], _ => []
  | l :: ls, next =>
    if l = 0 then 0 :: assignCodes ls next
    else revCode l 0 (next l) % 65536 :: assignCodes ls (setAt next l (next l + 1))

/-- `m_huff_code_sizes[t]` and `m_huff_codes[t]` (miniz.h:936-937) -/
structure HuffCode where
  sizes : List Nat
  codes : List Nat
  deriving DecidableEq, Repr, Inhabited

/-- miniz.cpp:964-966: the used symbols -/
def usedSyms (count : Nat → Nat) (len : Nat) : List SymFreq :=
  ((List.range len).filter fun i => count i ≠ 0).map fun i => ⟨count i, i⟩

/-- miniz.cpp:970 `for (i = 0; i < num_used_syms; i++) num_codes[pSyms[i].m_key]++;`; the array has 33 cells. -/
def countSizes (n : Nat) (A : Nat → Nat) : Except Err (Nat → Nat) :=
  let keys := (List.range n).map A
  let num := (List.range 33).map fun l => keys.count l
  if keys.all (· ≤ 32) then .ok fun l => num.getD l 0 else .error .ub

/-- miniz.cpp:962-977, `static_table == 0`: the code sizes and `num_codes` -/
def optimizedSizes (count : Nat → Nat) (len limit : Nat) : Except Err ((Nat → Nat) × (Nat → Nat)) := do
  let syms ← radixSort (usedSyms count len)
  let A ← minRedundancy syms.length fun i => (syms.getD i default).key
  let num ← countSizes syms.length A
  let num ← enforceMaxCodeSize num syms.length limit
  let sizes ← assignSizes syms.reverse ((List.range' 1 limit).flatMap fun i => List.replicate (num i) i) fun _ => 0
  pure (sizes, num)

/-- miniz.cpp:954-987 `tdefl_optimize_huffman_table(d, t, len, limit, MZ_FALSE)`; `count` is `m_huff_count[t]`. The code sizes
are indices of `next_code`, which has 33 elements (lines 956, 984). -/
def optimizeTable (count : Nat → Nat) (len limit : Nat) : Except Err HuffCode := do
  let (sizes, num) ← optimizedSizes count len limit
  let sizes := (List.range len).map sizes
  inArr (∀ l ∈ sizes, l < 33)
  let next := (List.range (limit + 1)).map (firstCodes num)
  pure { sizes := sizes, codes := assignCodes sizes fun l => next.getD l 0 }

/-- miniz.cpp:954-987 `tdefl_optimize_huffman_table(d, t, len, 15, MZ_TRUE)` -/
def staticTable (sizes : List Nat) : HuffCode :=
  let next := (List.range 16).map (firstCodes fun l => sizes.count l)
  { sizes := sizes, codes := assignCodes sizes fun l => next.getD l 0 }

/-- `TDEFL_PUT_BITS(d->m_huff_codes[t][s], d->m_huff_code_sizes[t][s])` (miniz.cpp:1076, 1187) -/
def BitOut.putSym (w : BitOut) (t : HuffCode) (s : Nat) : BitOut := w.put (t.codes.getD s 0) (t.sizes.getD s 0)

/-! ### Blocks -/

/-- The variables of the run length coder in `tdefl_start_dynamic_block`: `packed_code_sizes`, `m_huff_count[2]`,
`rle_z_count`, `rle_repeat_count`, `prev_code_size`. (miniz.cpp:1021-1022) -/
structure Rle where
  packed : List Nat
  cnt : Nat → Nat
  z : Nat
  r : Nat
  prev : Nat

/-- Writes `s` to `packed_code_sizes` and counts it, `k` times. (as in miniz.cpp:1002-1003, 1010, 1051) -/
def Rle.emit (st : Rle) (s k : Nat) : Rle :=
  { st with packed := st.packed ++ List.replicate k s, cnt := setAt st.cnt s ((st.cnt s + k) % 65536) }

/-- The same once, followed by the extra bits. (as in miniz.cpp:1005, 1012, 1014) -/
def Rle.emitExtra (st : Rle) (s e : Nat) : Rle :=
  { st with packed := st.packed ++ [s, e], cnt := setAt st.cnt s ((st.cnt s + 1) % 65536) }

/-- miniz.cpp:1000-1006 `TDEFL_RLE_PREV_CODE_SIZE` -/
def Rle.flushPrev (st : Rle) : Rle :=
  if st.r = 0 then st
  else if st.r < 3 then { st.emit st.prev st.r with r := 0 }
  else { st.emitExtra 16 (st.r - 3) with r := 0 }

/-- miniz.cpp:1008-1015 `TDEFL_RLE_ZERO_CODE_SIZE` -/
def Rle.flushZero (st : Rle) : Rle :=
  if st.z = 0 then st
  else if st.z < 3 then { st.emit 0 st.z with z := 0 }
  else if st.z ≤ 10 then { st.emitExtra 17 (st.z - 3) with z := 0 }
  else { st.emitExtra 18 (st.z - 11) with z := 0 }

/-- miniz.cpp:1040-1043, a code size 0 -/
def Rle.zero (st : Rle) : Rle :=
  let st := st.flushPrev
  let st := { st with z := st.z + 1 }
  if st.z = 138 then st.flushZero else st

/-- miniz.cpp:1046-1055, another code size -/
def Rle.nonzero (st : Rle) (size : Nat) : Rle :=
  let st := st.flushZero
  if size ≠ st.prev then st.flushPrev.emit size 1
  else
    let st := { st with r := st.r + 1 }
    if st.r = 6 then st.flushPrev else st

/-- miniz.cpp:1037-1058, one round of the loop -/
def Rle.step (st : Rle) (size : Nat) : Rle :=
  { (if size = 0 then st.zero else st.nonzero size) with prev := size }

/-- miniz.cpp:1036-1060: the packed code sizes and their counts -/
def rlePack (sizes : List Nat) : Rle :=
  let st := sizes.foldl Rle.step { packed := [], cnt := fun _ => 0, z := 0, r := 0, prev := 255 }
  if st.r ≠ 0 then st.flushPrev else st.flushZero

/-- miniz.cpp:1029, 1030 `for (num = n; num > lo; num--) if (d->m_huff_code_sizes[t][num - 1]) break;` -/
def lastUsed (sizes : List Nat) (lo : Nat) : Nat → Nat
  | 0 => 0
  | n + 1 => if n + 1 > lo then (if sizes.getD n 0 ≠ 0 then n + 1 else lastUsed sizes lo n) else n + 1

/-- miniz.cpp:1017 `s_tdefl_packed_code_size_syms_swizzle` -/
def swizzle : List Nat := [16, 17, 18, 0, 8, 7, 9, 6, 10, 5, 11, 4, 12, 3, 13, 2, 14, 1, 15]

/-- miniz.cpp:1069 `for (num_bit_lengths = 18; num_bit_lengths >= 0; num_bit_lengths--) if (..) break;`: the result plus
one -/
def lastSwizzle (sizes : List Nat) : Nat → Nat
  | 0 => 0
  | n + 1 => if sizes.getD (swizzle.getD n 0) 0 ≠ 0 then n + 1 else lastSwizzle sizes n

/-- miniz.cpp:1073-1078: the packed code sizes go out; `MZ_ASSERT(code < TDEFL_MAX_HUFF_SYMBOLS_2)` -/
def putPacked (t : HuffCode) : List Nat → BitOut → BitOut
  | [], w => w
  | [s], w => (w.require (decide (s < 19))).putSym t s
  | s :: e :: l, w =>
    if 16 ≤ s then putPacked t l (((w.require (decide (s < 19))).putSym t s).put e ([2, 3, 7].getD (s - 16) 0))
    else putPacked t (e :: l) ((w.require (decide (s < 19))).putSym t s)

/-- miniz.cpp:1019-1079 `tdefl_start_dynamic_block`; the counts are `m_huff_count[0]` and `m_huff_count[1]`.
`code_sizes_to_pack` and `packed_code_sizes` have 288 + 32 elements (line 1022). -/
def startDynamic (litCount distCount : Nat → Nat) (w : BitOut) : Except Err (HuffCode × HuffCode × BitOut) := do
  let lit ← optimizeTable (setAt litCount 256 1) 288 15
  let dist ← optimizeTable distCount 32 15
  let numLit := lastUsed lit.sizes 257 286
  let numDist := lastUsed dist.sizes 1 30
  inArr ((lit.sizes.take numLit ++ dist.sizes.take numDist).length ≤ 320)
  let st := rlePack (lit.sizes.take numLit ++ dist.sizes.take numDist)
  inArr (st.packed.length ≤ 320)
  let cl ← optimizeTable st.cnt 19 7
  let numBl := max 4 (lastSwizzle cl.sizes 19)
  let w := w.put 2 2
  let w := (w.put (numLit - 257) 5).put (numDist - 1) 5
  let w := w.put (numBl - 4) 4
  let w := (swizzle.take numBl).foldl (fun w s => w.put (cl.sizes.getD s 0) 3) w
  pure (lit, dist, putPacked cl st.packed w)

/-- miniz.cpp:1081-1097 `tdefl_start_static_block` -/
def startStatic (w : BitOut) : HuffCode × HuffCode × BitOut :=
  (staticTable (List.replicate 144 8 ++ List.replicate 112 9 ++ List.replicate 24 7 ++ List.replicate 8 8),
    staticTable (List.replicate 32 5), w.put 1 2)

/-- miniz.cpp:1111 `TDEFL_PUT_BITS_FAST(b, l)`: a 64-bit buffer -/
def BitOut.put64 (w : BitOut) (b l : Nat) : BitOut := { w with buf := (w.buf ||| (b <<< w.n)) % 2 ^ 64, n := w.n + l }

/-- miniz.cpp:1124-1125, 1136-1137, 1143-1144, 1150-1151, 1157-1158: `MZ_ASSERT(d->m_huff_code_sizes[t][s]);` and the code -/
def BitOut.put64Sym (w : BitOut) (t : HuffCode) (s : Nat) : BitOut :=
  (w.require (t.sizes.getD s 0 != 0)).put64 (t.codes.getD s 0) (t.sizes.getD s 0)

/-- miniz.cpp:1121-1138: a match; `len` is its length minus 3, `dist` its distance minus 1 -/
def lzMatch (lit dist : HuffCode) (mlen mdist : Nat) (w : BitOut) : BitOut :=
  let w := w.put64Sym lit (lenSymTab.getD mlen 0)
  let w := w.put64 (mlen &&& ((1 <<< lenExtraTab.getD mlen 0) - 1)) (lenExtraTab.getD mlen 0)
  let s0 := smallDistSym.getD (mdist &&& 511) 0
  let n0 := smallDistExtra.getD (mdist &&& 511) 0
  let s1 := largeDistSym.getD (mdist >>> 8) 0
  let n1 := largeDistExtra.getD (mdist >>> 8) 0
  let sym := if mdist < 512 then s0 else s1
  let extra := if mdist < 512 then n0 else n1
  let w := w.put64Sym dist sym
  w.put64 (mdist &&& ((1 <<< extra) - 1)) extra

/-- Little-endian bytes of a number. (miniz.cpp:1166, the store of `bit_buffer`) -/
def leTake : Nat → Nat → Bytes
  | 0, _ => []
  | k + 1, v => UInt8.ofNat v :: leTake k (v / 256)

/-- miniz.cpp:1163-1169: the whole bytes of the buffer go out (eight bytes are stored, the pointer moves on by as many as are
full); `none` when the output buffer is full. The buffer has `OUT_BUF_SIZE` bytes. The store is in the order of the host (`big`:
the most significant byte first), as miniz.h:197-199 chooses this variant whatever the host. -/
def BitOut.store64 (big : Bool) (w : BitOut) : Except Err (Option BitOut) := do
  if w.out.length ≥ OUT_LIMIT then pure none
  else do
    inArr (w.out.length + 8 ≤ OUT_BUF_SIZE)
    pure (some { w with out := w.out ++ (if big then (leTake 8 w.buf).reverse.take (w.n >>> 3) else leTake (w.n >>> 3) w.buf), buf := w.buf >>> (w.n - w.n % 8), n := w.n % 8 })

/-- miniz.cpp:1142-1160: a literal, and up to two more when their flags are there. The flags and the rest of the codes are
returned; reading behind the end of the codes is undefined. -/
def lzLits (lit : HuffCode) : Nat → Nat → Bytes → BitOut → Except Err (Nat × Bytes × BitOut)
  | _, _, [], _ => .error .ub
  | k, flags, c :: p, w =>
    let w := w.put64Sym lit c.toNat
    match k with
    | 0 => .ok (flags, p, w)
    | k + 1 => if flags &&& 2 = 0 ∧ p ≠ [] then lzLits lit k (flags >>> 1) p w else .ok (flags, p, w)

/-- miniz.cpp:1119-1161: the codes of one round; the distance is loaded in the order of the host (line 1121); `s_tdefl_large_dist_sym` and `s_tdefl_large_dist_extra` have 128 elements (lines
1131-1132) -/
def lzRound (big : Bool) (lit dist : HuffCode) (flags : Nat) (p : Bytes) (w : BitOut) : Except Err (Nat × Bytes × BitOut) :=
  if flags &&& 1 = 1 then
    match p with
    | l :: d0 :: d1 :: p => do
      let mdist := if big then d1.toNat + 256 * d0.toNat else d0.toNat + 256 * d1.toNat
      inArr (mdist >>> 8 < 128)
      pure (flags, p, lzMatch lit dist l.toNat mdist w)
    | _ => .error .ub
  else lzLits lit 2 flags p w

/-- miniz.cpp:1116-1117 `if (flags == 1) flags = *pLZ_codes++ | 0x100;` -/
def lzFlags (flags : Nat) (p : Bytes) : Nat × Bytes :=
  if flags = 1 then ((p.headD 0).toNat ||| 256, p.tail) else (flags, p)

/-- miniz.cpp:1114-1170, the loop; `none`: `return MZ_FALSE` because the output buffer is full -/
def lzLoop (big dbg : Bool) (lit dist : HuffCode) : Nat → Nat → Bytes → BitOut → Except Err (Option BitOut)
  | 0, _, _, _ => .error .diverge
  | f + 1, flags, p, w =>
    if p = [] then .ok (some w)
    else
      match lzRound big lit dist (lzFlags flags p).1 (lzFlags flags p).2 w with
      | .error e => .error e
      | .ok (flags, p, w) =>
        match w.check dbg with
        | .error e => .error e
        | .ok w =>
          match w.store64 big with
          | .error e => .error e
          | .ok none => .ok none
          | .ok (some w) => lzLoop big dbg lit dist f (flags >>> 1) p w

/-- miniz.cpp:1178-1184 `while (bits_in)`: the bits left in the 64-bit buffer, 16 at a time -/
def putRest : Nat → Nat → Nat → BitOut → BitOut
  | 0, _, _, w => w
  | f + 1, buf, n, w =>
    if n = 0 then w
    else putRest f (buf >>> min n 16) (n - min n 16) (w.put ((buf % 2 ^ 32) &&& ((1 <<< min n 16) - 1)) (min n 16))

/-- miniz.cpp:1102-1189 `tdefl_compress_lz_codes`. The first component is `m_pOutput_buf` etc. afterwards; when the loop stops
early they are as before. -/
def compressLzCodes (big dbg : Bool) (lit dist : HuffCode) (codes : Bytes) (w : BitOut) : Except Err (BitOut × Bool) :=
  match lzLoop big dbg lit dist (codes.length + 1) 1 codes w with
  | .error e => .error e
  | .ok none => .ok (w, false)
  | .ok (some w') =>
    let w := putRest 4 w'.buf w'.n { w' with buf := 0, n := 0 }
    match (w.putSym lit 256).check dbg with
    | .error e => .error e
    | .ok w => .ok (w, w.out.length < OUT_LIMIT)

/-- miniz.cpp:1236-1243 `tdefl_compress_block` -/
def compressBlock (big dbg : Bool) (litCount distCount : Nat → Nat) (codes : Bytes) (static : Bool) (w : BitOut) :
    Except Err (BitOut × Bool) := do
  let (lit, dist, w) ← if static then pure (startStatic w) else startDynamic litCount distCount w
  compressLzCodes big dbg lit dist codes w

end Npy
