import Verif.Spec.Zip
/-!
# Specification: how the directory of any byte string is walked

What a reader that only looks at the last 22 bytes and at the records they point to sees in a byte string, valid archive
or not. Fields past the end count as 0xFF bytes (`leAt`). Independent of the model's functions.
-/

namespace Npy.Spec

/-- The extra field at `x`, of recorded length `xlen`, can be used: there is none, or it has the ZIP64 tag and room for a
64-bit number for each field that is 0xFFFFFFFF. -/
def ExtraOk (b : Bytes) (xlen x : Nat) (fields : List Nat) : Prop :=
  xlen = 0 ∨ leAt b x 2 = 1 ∧ 8 * fields.count 0xFFFFFFFF ≤ leAt b (x + 2) 2

/-- A central directory header can be read at `p`. -/
structure CentralOk (b : Bytes) (p : Nat) : Prop where
  sig : (b.drop p).take 4 = [0x50, 0x4B, 1, 2]
  version : leAt b (p + 6) 2 ≤ 45
  extra : ExtraOk b (leAt b (p + 30) 2) (p + 46 + leAt b (p + 28) 2) [leAt b (p + 24) 4, leAt b (p + 20) 4, leAt b (p + 42) 4]

/-- The name in the header at `p`; zeros for what is missing at the end of the data. -/
def centralName (b : Bytes) (p : Nat) : Bytes :=
  (b.drop (p + 46)).take (leAt b (p + 28) 2) ++ List.replicate (leAt b (p + 28) 2 - (b.length - (p + 46))) 0

/-- Number of bytes from the header at `p` to where the next one is looked for: the fixed part, the name and the extra field,
by its own size. (A comment is not skipped.) -/
def centralSize (b : Bytes) (p : Nat) : Nat :=
  let x := 46 + leAt b (p + 28) 2
  if leAt b (p + 30) 2 = 0 then x else x + 4 + leAt b (p + x + 2) 2

/-- Number of headers: the count in the last 22 bytes (the entries on this disk). -/
def dirCount (b : Bytes) : Nat := leAt b (b.length - 22 + 8) 2

/-- Position of header `k`: the offset in the last 22 bytes, moved by the headers before. -/
def dirPos (b : Bytes) : Nat → Nat
  | 0 => leAt b (b.length - 22 + 16) 4
  | k + 1 => dirPos b k + centralSize b (dirPos b k)

/-- A local header can be read at `p`. -/
structure LocalOk (b : Bytes) (p : Nat) : Prop where
  sig : (b.drop p).take 4 = [0x50, 0x4B, 3, 4]
  version : leAt b (p + 4) 2 ≤ 45
  extra : ExtraOk b (leAt b (p + 28) 2) (p + 30 + leAt b (p + 26) 2) [leAt b (p + 22) 4, leAt b (p + 18) 4]

/-- The name in the local header at `p`; zeros for what is missing at the end of the data. -/
def localName (b : Bytes) (p : Nat) : Bytes :=
  (b.drop (p + 30)).take (leAt b (p + 26) 2) ++ List.replicate (leAt b (p + 26) 2 - (b.length - (p + 30))) 0

/-- The last header of the directory with this name. -/
def dirFind (b : Bytes) (name : Bytes) : Option Nat :=
  (List.range (dirCount b)).reverse.find? fun k => centralName b (dirPos b k) = name

/-- The name under which something asked for is stored: that name, else with ".npy" appended. -/
def dirResolve (b : Bytes) (name : Bytes) : Option (Nat × Bytes) :=
  match dirFind b name with
  | some k => some (k, name)
  | none => (dirFind b (name ++ b!".npy")).map fun k => (k, name ++ b!".npy")

/-- The data of an entry of recorded size `csize` whose local header is at `q`; zeros for what is missing at the end. -/
def entryData (b : Bytes) (q csize : Nat) : Bytes :=
  (b.drop (q + localSize b q)).take csize ++ List.replicate (csize - (b.length - (q + localSize b q))) 0

end Npy.Spec
