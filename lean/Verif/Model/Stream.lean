import Verif.Model.Basic
/-!
# C++ streams, as libstdc++ implements them

Only the operations libnpy uses. `rest` is the part of the data not yet extracted, `all` the whole buffer
(needed for `seekg`).
-/

namespace Npy

/-- A `std::istringstream` or `std::ifstream` opened for binary reading. `badbit` is not modelled (no I/O errors while
reading). (used at npy.h:299, npy.cpp:85, npz.cpp:88, npy.h:589, 662) -/
structure IStream where
  /-- the whole contents -/
  all : Bytes
  /-- contents from the current position on -/
  rest : Bytes
  eof : Bool
  fail : Bool
  /-- `std::ifstream`: `is_open()`; `true` for string streams -/
  isOpen : Bool
  /-- `true` for `std::ifstream`: seeking past the end succeeds -/
  isFile : Bool
  deriving DecidableEq, Repr, Inhabited

/-- `std::istringstream(bytes)` (npy.cpp:65, 85; npy.h:571) -/
def IStream.ofBytes (bs : Bytes) : IStream :=
  { all := bs, rest := bs, eof := false, fail := false, isOpen := true, isFile := false }

/-- `std::ifstream(path, std::ios::binary)` on an existing file with these contents (npy.h:345; npy.cpp:129) -/
def IStream.ofFile (bs : Bytes) : IStream :=
  { all := bs, rest := bs, eof := false, fail := false, isOpen := true, isFile := true }

/-- Code that reads from a stream (npy.cpp:13-135, npz.cpp:56-425). -/
abbrev IM := SM IStream

/-- `good()` (libstdc++; decides whether the calls at npy.cpp:13-37 do anything) -/
def IStream.good (s : IStream) : Bool := !s.eof && !s.fail

/-- `setstate(failbit)` as the sentry does on a stream that is not good (libstdc++, at each of the calls at npy.cpp:13-37) -/
def IStream.setFail (s : IStream) : IStream := { s with fail := true }

/-- `setstate(eofbit | failbit)` (libstdc++, at each of the calls at npy.cpp:13-37) -/
def IStream.setEofFail (s : IStream) : IStream := { s with eof := true, fail := true }

/-- `input.get()` / `input.get(c)`: `none` is `EOF` (and `c` left unassigned). (npy.cpp:15, 28; npz.cpp:57-77; dtype.cpp:9) -/
def IStream.getc : IM (Option Byte) := .mk fun s =>
  if s.good then
    match s.rest with
    | [] => (.ok none, s.setEofFail)
    | b :: r => (.ok (some b), { s with rest := r })
  else (.ok none, s.setFail)

/-- `input.peek()`: `none` is `EOF`. (npy.cpp:27, 33, 52, 55, 73, 87) -/
def IStream.peek : IM (Option Byte) := .mk fun s =>
  if s.good then
    match s.rest with
    | [] => (.ok none, { s with eof := true })
    | b :: _ => (.ok (some b), s)
  else (.ok none, s.setFail)

/-- `input.read(buf, n)`: the bytes extracted (fewer than `n` at the end of the data; `gcount` is their number). (npy.cpp:20; npy.h:299, 311, 317; npz.cpp:88, 222, 274, 403; dtype.cpp:137) -/
def IStream.read (n : Nat) : IM Bytes := .mk fun s =>
  if s.good then
    if n ≤ s.rest.length then (.ok (s.rest.take n), { s with rest := s.rest.drop n })
    else (.ok s.rest, { s with rest := [], eof := true, fail := true })
  else (.ok [], s.setFail)

/-- `input.get(buf, n + 1, delim)`: extracts up to `n` characters before `delim`, which stays in the stream. (npy.cpp:37) -/
def IStream.getUntil (n : Nat) (delim : Byte) : IM Bytes := .mk fun s =>
  if s.good then
    let tok := (s.rest.take n).takeWhile (· != delim)
    let r := s.rest.drop tok.length
    (.ok tok, { s with rest := r, eof := r.isEmpty, fail := tok.isEmpty })
  else (.ok [], s.setFail)

/-- `input.seekg(off, std::ios::beg)`; `off` is the value after conversion to the signed `streamoff`.
Clears eofbit first (C++11). A string stream refuses positions past its end, a file does not; a closed file refuses
all. (npz.cpp:324, 394) -/
def IStream.seekg (off : Int) : IM Unit := .mk fun s =>
  let s := { s with eof := false }
  if s.fail then (.ok (), s)
  else if off < 0 || !s.isOpen then (.ok (), s.setFail)
  else if s.isFile || decide (off.toNat ≤ s.all.length) then
    (.ok (), { s with rest := s.all.drop off.toNat })
  else (.ok (), s.setFail)

/-- The current read position. (libstdc++, for npz.cpp:170) -/
def IStream.pos (s : IStream) : Nat := s.all.length - s.rest.length

/-- `input.seekg(off, std::ios::end)` (npz.cpp:321) -/
def IStream.seekgEnd (off : Int) : IM Unit := .mk fun s =>
  IStream.seekg (s.all.length + off) s

/-- `input.seekg(off, std::ios::cur)`. Simplification: a file position past the end is taken to be the end. (npz.cpp:170) -/
def IStream.seekgCur (off : Int) : IM Unit := .mk fun s =>
  IStream.seekg (s.pos + off) s

/-- `std::ifstream::close()`: nothing can be read any more; closing a closed stream sets failbit. (npz.cpp:578) -/
def IStream.close (s : IStream) : IStream := { s with rest := [], isOpen := false, fail := s.fail || !s.isOpen }

/-- `std::isspace` in the C locale. (npy.cpp:27) -/
def isSpace (b : Byte) : Bool := b == 32 || (9 ≤ b && b ≤ 13)

/-- Decimal digit. (libstdc++, for npy.cpp:71, 99) -/
def isDigit (b : Byte) : Bool := 48 ≤ b && b ≤ 57

/-- Value of a string of decimal digits. (libstdc++, for npy.cpp:71, 99) -/
def decValue (ds : Bytes) : Nat := ds.foldl (fun a d => 10 * a + (d.toNat - 48)) 0

/-- `stream >> x` for `size_t x` (libstdc++ `num_get::_M_extract_int<unsigned long>`, base 10, C locale): skips white
space, takes an optional sign and digits. No digits, or a value above `2^64 - 1`: failbit. A minus sign negates
modulo `2^64`. Returns `none` when failbit is set (the loop in `read_shape` only uses the value on success). (npy.cpp:71) -/
def IStream.extractSize : IM (Option Nat) := .mk fun s =>
  if s.good then
    let r := s.rest.dropWhile isSpace
    match r with
    | [] => (.ok none, { s with rest := [], eof := true, fail := true })
    | c :: r' =>
      let signed := c == 45 || c == 43
      let r1 := if signed then r' else r
      let ds := r1.takeWhile isDigit
      let r2 := r1.dropWhile isDigit
      let s' := { s with rest := r2, eof := r2.isEmpty }
      if ds.isEmpty then (.ok none, s'.setFail)
      else if decValue ds < SIZE then
        (.ok (some (if c == 45 then (SIZE - decValue ds) % SIZE else decValue ds)), s')
      else (.ok none, s'.setFail)
  else (.ok none, s.setFail)

/-! ### Output -/

/-- A `std::ostringstream` or `std::ofstream`. The device takes `cap` bytes (`none`: any number). (used at npy.h:216-219, 273, 532; npz.cpp:30-54) -/
structure OStream where
  /-- bytes that reached the device -/
  buf : Bytes
  /-- failbit or badbit is set -/
  bad : Bool
  /-- `std::ofstream`: the file is open; `true` for string streams -/
  isOpen : Bool
  cap : Option Nat
  deriving DecidableEq, Repr, Inhabited

/-- `std::ostringstream()` (npy.h:438, 512) -/
def OStream.empty : OStream := { buf := [], bad := false, isOpen := true, cap := none }

/-- A stream with healthy state and unlimited device. (a state of the streams of npy.h:273, 532; not code) -/
def OStream.Healthy (o : OStream) : Prop := o.bad = false ∧ o.isOpen = true ∧ o.cap = none

/-- `output.write(bs)`; also a sequence of `output.put`. Simplification: a full device takes the bytes that fit and sets
the stream's state at once (no buffering). (npy.h:216-219; npz.cpp:30-54, 178, 198, 204, 373; dtype.cpp:121) -/
def OStream.write (o : OStream) (bs : Bytes) : OStream :=
  if o.bad || !o.isOpen then { o with bad := true }
  else match o.cap with
    | none => { o with buf := o.buf ++ bs }
    | some c =>
      if o.buf.length + bs.length ≤ c then { o with buf := o.buf ++ bs }
      else { o with buf := (o.buf ++ bs).take c, bad := true }

/-- `static_cast<std::uint32_t>(output.tellp())`; `tellp` is `-1` on a failed or closed stream. (npz.cpp:337, 342, 369) -/
def OStream.tellp32 (o : OStream) : Nat :=
  if o.bad || !o.isOpen then 2 ^ 32 - 1 else o.buf.length % 2 ^ 32

end Npy
