import Verif.Spec.Npz
import Verif.Spec.Crc
/-!
# Specification: the ZIP file format, as far as NPZ archives use it

From the ZIP application note (local file header, central directory header, end of central directory record), without
ZIP64. Independent of the model's functions.
-/

namespace Npy.Spec

/-- `k` bytes of a number, least significant first. -/
def le (k n : Nat) : Bytes := (List.range k).map fun i => UInt8.ofNat (n / 256 ^ i % 256)

/-- The number stored least significant byte first in the `k` bytes from position `off`. Positions past the end count as
0xFF (what `istream::get` gives when cast to a character). -/
def leAt (bs : Bytes) (off k : Nat) : Nat :=
  ((List.range k).map fun i => ((bs[off + i]?).getD 0xFF).toNat * 256 ^ i).sum

/-- A file in a ZIP archive. -/
structure ZipItem where
  name : Bytes
  method : Nat
  crc : Nat
  size : Nat
  /-- the file's contents as stored (compressed) -/
  data : Bytes

/-- The part common to local and central headers: flags, method, time and date (1980-01-01), CRC-32, sizes, length of the
name. -/
def zipShared (z : ZipItem) : Bytes :=
  le 2 0 ++ le 2 z.method ++ le 2 0 ++ le 2 33 ++ le 4 z.crc ++ le 4 z.data.length ++ le 4 z.size ++ le 2 z.name.length

/-- Local file header (no extra field) and data. -/
def zipLocal (z : ZipItem) : Bytes :=
  [0x50, 0x4B, 3, 4] ++ le 2 20 ++ zipShared z ++ le 2 0 ++ z.name ++ z.data

/-- Central directory header for a file whose local header is at `offset`. -/
def zipCentral (z : ZipItem) (offset : Nat) : Bytes :=
  [0x50, 0x4B, 1, 2] ++ le 2 20 ++ le 2 20 ++ zipShared z ++ le 2 0 ++ le 2 0 ++ le 2 0 ++ le 2 0 ++
  [0x00, 0x00, 0x80, 0x01] ++ le 4 offset ++ z.name

/-- End of central directory record, without comment. -/
def zipEnd (count size offset : Nat) : Bytes :=
  [0x50, 0x4B, 5, 6] ++ le 2 0 ++ le 2 0 ++ le 2 count ++ le 2 count ++ le 4 size ++ le 4 offset ++ le 2 0

/-- The central directory of files whose local headers begin at `offset` and follow each other. -/
def zipDirectory : Nat → List ZipItem → Bytes
  | _, [] => []
  | offset, z :: zs => zipCentral z offset ++ zipDirectory (offset + (zipLocal z).length) zs

/-- A whole archive. -/
def zipArchive (zs : List ZipItem) : Bytes :=
  zs.flatMap zipLocal ++ zipDirectory 0 zs ++
    zipEnd zs.length (zipDirectory 0 zs).length (zs.flatMap zipLocal).length

/-- The values of 32-bit fields, where a field 0xFFFFFFFF stands for the next 64-bit number from position `x` on. -/
def zip64Values (b : Bytes) : Nat → List Nat → List Nat
  | _, [] => []
  | x, f :: fs => if f = 0xFFFFFFFF then leAt b x 8 :: zip64Values b (x + 8) fs else f :: zip64Values b x fs

/-- The values of the fields of a header whose extra field begins at `x` and has the recorded length `xlen`: without an extra
field, the fields themselves; otherwise the extra field must have the ZIP64 tag and a recorded size with room for one 64-bit number for each field 0xFFFFFFFF,
and those numbers are the values, in order. -/
def HeaderValues (b : Bytes) (xlen x : Nat) (fields values : List Nat) : Prop :=
  if xlen = 0 then values = fields
  else leAt b x 2 = 1 ∧ 8 * fields.count 0xFFFFFFFF ≤ leAt b (x + 2) 2 ∧ values = zip64Values b (x + 4) fields

/-- At position `p` of `b` there is a central directory header with this name, method, CRC-32, sizes and offset. -/
structure CentralAt (b : Bytes) (p : Nat) (name : Bytes) (method crc csize usize offset : Nat) : Prop where
  sig : (b.drop p).take 4 = [0x50, 0x4B, 1, 2]
  version : leAt b (p + 6) 2 ≤ 45
  method : leAt b (p + 10) 2 = method
  crc : leAt b (p + 16) 4 = crc
  nameLength : leAt b (p + 28) 2 = name.length
  nameBytes : p + 46 + name.length ≤ b.length → (b.drop (p + 46)).take name.length = name
  values : HeaderValues b (leAt b (p + 30) 2) (p + 46 + name.length)
    [leAt b (p + 24) 4, leAt b (p + 20) 4, leAt b (p + 42) 4] [usize, csize, offset]

/-- At position `p` of `b` there is a local header with this name, method, CRC-32 and sizes. -/
structure LocalAt (b : Bytes) (p : Nat) (name : Bytes) (method crc csize usize : Nat) : Prop where
  sig : (b.drop p).take 4 = [0x50, 0x4B, 3, 4]
  version : leAt b (p + 4) 2 ≤ 45
  method : leAt b (p + 8) 2 = method
  crc : leAt b (p + 14) 4 = crc
  nameLength : leAt b (p + 26) 2 = name.length
  nameBytes : p + 30 + name.length ≤ b.length → (b.drop (p + 30)).take name.length = name
  values : HeaderValues b (leAt b (p + 28) 2) (p + 30 + name.length)
    [leAt b (p + 22) 4, leAt b (p + 18) 4] [usize, csize]

/-- Number of bytes from the local header at `p` to the data: the fixed part, the name and the extra field, by its own size. -/
def localSize (b : Bytes) (p : Nat) : Nat :=
  let x := 30 + leAt b (p + 26) 2
  if leAt b (p + 28) 2 = 0 then x else x + 4 + leAt b (p + x + 2) 2

end Npy.Spec
