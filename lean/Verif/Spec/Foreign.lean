import Verif.Spec.Zip
/-!
# Specification: ZIP archives made by other programs

From the ZIP application note, and from Python's `zipfile` module and `numpy.savez`. The fields an NPZ reader has no use for
(flags, time stamps, attributes, versions up to 4.5) are free. Independent of the model's functions.
-/

namespace Npy.Spec

/-- How the sizes are given in a local header. -/
inductive LocalForm
  /-- in the 32-bit fields, no extra field -/
  | plain
  /-- in a ZIP64 extra field; the 32-bit fields are 0xFFFFFFFF (Python's `force_zip64` since 3.11.4) -/
  | zip64
  /-- in the 32-bit fields, and again in a ZIP64 extra field (Python's `force_zip64` before 3.11.4) -/
  | both
  deriving DecidableEq, Repr

/-- A file in an archive. -/
structure ForeignItem where
  name : Bytes
  method : Nat
  crc : Nat
  /-- size of the contents before compression -/
  size : Nat
  /-- the contents as stored (compressed) -/
  data : Bytes
  /-- position of the local header in the archive -/
  offset : Nat
  form : LocalForm
  localVersion : Nat
  madeBy : Nat
  version : Nat
  flags : Nat
  time : Nat
  date : Nat
  disk : Nat
  internalAttr : Nat
  externalAttr : Nat
  deriving DecidableEq

/-- Local file header and data. -/
def foreignLocal (z : ForeignItem) : Bytes :=
  [0x50, 0x4B, 3, 4] ++ le 2 z.localVersion ++ le 2 z.flags ++ le 2 z.method ++ le 2 z.time ++ le 2 z.date ++ le 4 z.crc ++
  (if z.form = .zip64 then le 4 0xFFFFFFFF ++ le 4 0xFFFFFFFF else le 4 z.data.length ++ le 4 z.size) ++
  le 2 z.name.length ++ le 2 (if z.form = .plain then 0 else 20) ++ z.name ++
  (if z.form = .plain then [] else le 2 1 ++ le 2 16 ++ le 8 z.size ++ le 8 z.data.length) ++ z.data

/-- Central directory header, without extra field and comment. -/
def foreignCentral (z : ForeignItem) : Bytes :=
  [0x50, 0x4B, 1, 2] ++ le 2 z.madeBy ++ le 2 z.version ++ le 2 z.flags ++ le 2 z.method ++ le 2 z.time ++ le 2 z.date ++
  le 4 z.crc ++ le 4 z.data.length ++ le 4 z.size ++ le 2 z.name.length ++ le 2 0 ++ le 2 0 ++ le 2 z.disk ++
  le 2 z.internalAttr ++ le 4 z.externalAttr ++ le 4 z.offset ++ z.name

/-- The fields have values that fit. Files of 4 GiB - 1 and more are left out. -/
structure ForeignItem.Ok (z : ForeignItem) : Prop where
  name : z.name.length < 2 ^ 16
  method : z.method < 2 ^ 16
  crc : z.crc < 2 ^ 32
  size : z.size < 0xFFFFFFFF
  data : z.data.length < 0xFFFFFFFF
  offset : z.offset < 2 ^ 32
  localVersion : z.localVersion ≤ 45
  version : z.version ≤ 45

/-- The archive ends with the central directory of these files and the end record (without comment). Anything may be in front,
and between them (ZIP allows a comment of the last file, a signature, and ZIP64 records there). -/
structure ForeignDirectory (b : Bytes) (zs : List ForeignItem) : Prop where
  ok : ∀ z ∈ zs, z.Ok
  count : zs.length < 2 ^ 16
  directory : ∃ front gap size, front.length < 2 ^ 32 ∧ size < 2 ^ 32 ∧
    b = front ++ zs.flatMap foreignCentral ++ gap ++ zipEnd zs.length size front.length

/-- `b` is an archive of these files: each has its local header and data at its offset, and the central directory and the
end record (without comment) end the archive. Anything else may be in front of the directory and between the records. -/
structure ForeignArchive (b : Bytes) (zs : List ForeignItem) : Prop extends ForeignDirectory b zs where
  records : ∀ z ∈ zs, ∃ rest, b.drop z.offset = foreignLocal z ++ rest

/-! ### Optional parts of the format -/

/-- Central directory header with an extra field and a comment. -/
def foreignCentralWith (z : ForeignItem) (extra comment : Bytes) : Bytes :=
  [0x50, 0x4B, 1, 2] ++ le 2 z.madeBy ++ le 2 z.version ++ le 2 z.flags ++ le 2 z.method ++ le 2 z.time ++ le 2 z.date ++
  le 4 z.crc ++ le 4 z.data.length ++ le 4 z.size ++ le 2 z.name.length ++ le 2 extra.length ++ le 2 comment.length ++
  le 2 z.disk ++ le 2 z.internalAttr ++ le 4 z.externalAttr ++ le 4 z.offset ++ z.name ++ extra ++ comment

/-- A record written to an output that cannot be rewound: sizes and CRC-32 are zero in the local header, and follow
the data in a data descriptor. -/
def streamedLocal (z : ForeignItem) : Bytes :=
  [0x50, 0x4B, 3, 4] ++ le 2 z.localVersion ++ le 2 z.flags ++ le 2 z.method ++ le 2 z.time ++ le 2 z.date ++ le 4 0 ++
  le 4 0 ++ le 4 0 ++ le 2 z.name.length ++ le 2 0 ++ z.name ++ z.data ++
  [0x50, 0x4B, 7, 8] ++ le 4 z.crc ++ le 4 z.data.length ++ le 4 z.size

/-- The last file with this name. -/
def lastNamed (zs : List ForeignItem) (name : Bytes) : Option ForeignItem := zs.reverse.find? fun z => z.name = name

/-- What a reader finds under a name: the last file with exactly that name, else the last one with ".npy" appended. -/
def foreignLookup (zs : List ForeignItem) (name : Bytes) : Option ForeignItem :=
  match lastNamed zs name with
  | some z => some z
  | none => lastNamed zs (name ++ b!".npy")

/-! ### numpy.savez -/

/-- An array given to `numpy.savez` or `numpy.savez_compressed`: its key, its NPY file, and the compressed file. -/
structure NumpyItem where
  key : Bytes
  file : Bytes
  packed : Bytes

/-- The member `numpy.savez` makes of an array, at this offset. `modern` tells apart Python's two forms of the local header.
The CRC-32 is that of the NPY file; the method is 8 (DEFLATE) for `savez_compressed`; the name is the key with ".npy"
appended; version, system (3, Unix), attributes (0o600 in the upper half) and date (1980-01-01) are Python's defaults. -/
def numpyMember (compressed modern : Bool) (offset : Nat) (a : NumpyItem) : ForeignItem where
  name := a.key ++ b!".npy"
  method := if compressed then 8 else 0
  crc := crc32 a.file
  size := a.file.length
  data := if compressed then a.packed else a.file
  offset := offset
  form := if modern then .zip64 else .both
  localVersion := if modern then 45 else 20
  madeBy := (if modern then 45 else 20) + 3 * 256
  version := if modern then 45 else 20
  flags := 0
  time := 0
  date := 33
  disk := 0
  internalAttr := 0
  externalAttr := 0o600 * 65536

/-- The members of an archive, one after the other from `offset` on. -/
def numpyMembers (compressed modern : Bool) : Nat → List NumpyItem → List ForeignItem
  | _, [] => []
  | offset, a :: as =>
    numpyMember compressed modern offset a ::
      numpyMembers compressed modern (offset + (foreignLocal (numpyMember compressed modern offset a)).length) as

/-- The archive of `numpy.savez(path, **arrays)` (`numpy.savez_compressed` if `compressed`). -/
def numpyArchive (compressed modern : Bool) (as : List NumpyItem) : Bytes :=
  let zs := numpyMembers compressed modern 0 as
  zs.flatMap foreignLocal ++ zs.flatMap foreignCentral ++
    zipEnd zs.length (zs.flatMap foreignCentral).length (zs.flatMap foreignLocal).length

end Npy.Spec
