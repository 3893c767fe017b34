import Verif.Spec.Layout
import Verif.Spec.Npy
import Verif.Model.Header
/-!
# Specification: which header texts are accepted, and what they mean

A grammar of everything the header parser takes, well formed or not. `strict` is true for builds in which `assert` is active:
there the punctuation is checked; otherwise any character is taken for it. Independent of the model's functions.
-/

namespace Npy.Spec

/-- Is white space. -/
def WhiteChar (b : Byte) : Prop := b.toNat = 32 ∨ (9 ≤ b.toNat ∧ b.toNat ≤ 13)

/-- `c` is taken for the punctuation mark `expected`. -/
def Mark (strict : Bool) (expected c : Byte) : Prop := strict = true → c = expected

/-- No sign, plus or minus. -/
def Sign (sg : Bytes) : Prop := sg = [] ∨ sg = b!"+" ∨ sg = b!"-"

/-- A number with a sign, modulo `2^64`. -/
def wrapped (sg : Bytes) (n : Nat) : Nat := if sg = b!"-" then (2 ^ 64 - n) % 2 ^ 64 else n

/-- The extents found in the text between the parentheses: numbers up to the first place where none can be read, each with at most one
comma after it. -/
inductive ShapeRead : List Nat → Bytes → Prop
  | stop {ws r} : White ws → NoExtent r → ShapeRead [] (ws ++ r)
  | comma {ws sg ds r n ns} : White ws → Sign sg → IsNumeral ds n → n < 2 ^ 64 → ShapeRead ns r →
      ShapeRead (wrapped sg n :: ns) (ws ++ (sg ++ (ds ++ 44 :: r)))
  | next {ws sg ds r n ns} : White ws → Sign sg → IsNumeral ds n → n < 2 ^ 64 → NotDigitFirst r → r.head? ≠ some 44 →
      ShapeRead ns r → ShapeRead (wrapped sg n :: ns) (ws ++ (sg ++ (ds ++ r)))

/-- `tok` is what is found before a character `q` taken for the closing mark `d`: the text up to the first `d`, at most 65535
characters of it. -/
def Token (d : Byte) (tok : Bytes) (q : Byte) : Prop := d ∉ tok ∧ tok.length ≤ 65535 ∧ (q = d ∨ tok.length = 65535)

/-- Text of a value. -/
inductive ValueRead (strict : Bool) : Field → Bytes → Prop
  | descr {q q' code} : Mark strict 39 q → Mark strict 39 q' → Token 39 code q' → ValueRead strict (.descr code) (q :: (code ++ [q']))
  | isTrue {a b c} : (strict = true → [a, b, c] = b!"rue") → ValueRead strict (.fortranOrder true) (84 :: [a, b, c])
  | isFalse {a b c d} : (strict = true → [a, b, c, d] = b!"alse") → ValueRead strict (.fortranOrder false) (70 :: [a, b, c, d])
  | shape {q q' text ns} : Mark strict 40 q → Mark strict 41 q' → Token 41 text q' → ShapeRead ns text →
      ValueRead strict (.shape ns) (q :: (text ++ [q']))

/-- Does not begin with white space, and is not empty. -/
def BeginsDark (r : Bytes) : Prop := ∃ b r', r = b :: r' ∧ ¬WhiteChar b

/-- From a text, zero or more items with their commas are read, and `tail` is left. -/
inductive ItemsRead (strict : Bool) : List Field → Bytes → Bytes → Prop
  | nil {tail} : ItemsRead strict [] tail tail
  | cons {f fs w1 w2 w3 w4 q c d v rest tail} : White w1 → White w2 → White w3 → White w4 →
      Mark strict 39 q → ¬WhiteChar q → (w1 = [] → q ≠ 125) → Mark strict 58 c → ¬WhiteChar c →
      ValueRead strict f v → BeginsDark v → Mark strict 44 d → BeginsDark rest → ItemsRead strict fs rest tail →
      ItemsRead strict (f :: fs) (w1 ++ q :: (f.key ++ 39 :: (w2 ++ c :: (w3 ++ (v ++ d :: (w4 ++ rest)))))) tail

/-- The whole dictionary, followed by anything. -/
def DictRead (strict : Bool) (fs : List Field) (text : Bytes) : Prop :=
  ∃ c rest padding, text = c :: rest ∧ Mark strict 123 c ∧ ItemsRead strict fs rest (125 :: padding)

/-! ### What the items mean -/

/-- The endianness reported for a type: NATIVE for single bytes. -/
def reportedOrder (t : DType) (big : Bool) : Endian := if itemSize t = 1 then .native else if big then .big else .little

/-- The text of `descr` is taken for this type, byte order and (for strings) length. Unknown texts are taken for INT8. -/
inductive DescrRead : Bytes → DType → Endian → Nat → Prop
  | known {t big} : t ≠ .unicode → DescrRead (descr t big) t (reportedOrder t big) 0
  | unknown {code} : code ≠ [] → code[1]? ≠ some 85 → (∀ t, t ≠ DType.unicode → ∀ big, code ≠ descr t big) →
      DescrRead code .int8 .native 0
  | text {c ws sg ds r n} : White ws → Sign sg → IsNumeral ds n → NotDigitFirst r →
      (if sg = b!"-" then n ≤ 2 ^ 31 else n < 2 ^ 31) →
      DescrRead (c :: 85 :: (ws ++ (sg ++ (ds ++ r)))) .unicode (if c = 62 then .big else .little) (wrapped sg n)

/-- All `descr` items can be taken for a type. -/
def DescrsFine (fs : List Field) : Prop := ∀ code, .descr code ∈ fs → ∃ t e m, DescrRead code t e m

/-- The last `descr`. -/
def lastDescr (fs : List Field) : Option Bytes := fs.reverse.findSome? fun | .descr code => some code | _ => none
/-- The last `fortran_order`. -/
def lastOrder (fs : List Field) : Option Bool := fs.reverse.findSome? fun | .fortranOrder b => some b | _ => none
/-- The last `shape`. -/
def lastShape (fs : List Field) : Option (List Nat) := fs.reverse.findSome? fun | .shape ns => some ns | _ => none

/-- The header the items describe: the last item of each kind counts; what no item gives stays unassigned (`none`), except the shape. -/
structure Describes (fs : List Field) (info : HeaderInfo) : Prop where
  shape : info.shape = (lastShape fs).getD []
  order : info.fortranOrder = lastOrder fs
  noDescr : lastDescr fs = none → info.dtype = none ∧ info.endianness = none ∧ info.maxElementLength = none
  descr : ∀ code, lastDescr fs = some code → ∃ t e m, DescrRead code t e m ∧
    info.dtype = some t ∧ info.endianness = some e ∧ info.maxElementLength = some m

/-- Texts after the key `descr` in which no value is found: they end before it, or it is empty. -/
inductive NoDescr : Bytes → Prop
  | quote : NoDescr []
  | colon {w} : White w → NoDescr (39 :: w)
  | value {w c w'} : White w → ¬WhiteChar c → White w' → NoDescr (39 :: (w ++ c :: w'))
  | opened {w c w' q} : White w → ¬WhiteChar c → White w' → ¬WhiteChar q → NoDescr (39 :: (w ++ c :: (w' ++ [q])))
  | empty {w c w' q r} : White w → ¬WhiteChar c → White w' → ¬WhiteChar q → NoDescr (39 :: (w ++ c :: (w' ++ q :: 39 :: r)))

/-- After items that are fine, a `descr` without a value. -/
def EmptyDescr (text : Bytes) : Prop :=
  ∃ c rest fs w q z, text = c :: rest ∧ ItemsRead false fs rest (w ++ q :: (b!"descr" ++ z)) ∧ DescrsFine fs ∧
    White w ∧ ¬WhiteChar q ∧ (w = [] → q ≠ 125) ∧ NoDescr z

/-! ### Whole files -/

/-- The first `n` bytes; zeros for those that are missing. -/
def zeroPadded (n : Nat) (rest : Bytes) : Bytes := rest.take n ++ List.replicate (n - rest.length) 0

/-- `dict` is the text taken for the dictionary of a file and `data` is what follows: the six bytes in front are not looked at here;
in format version 2.0 the length has four bytes, and lengths from `2^31` are not accepted; in other versions the text is empty. -/
inductive FileParts : Bytes → Bytes → Bytes → Prop
  | v1 {m b8 b9 rest n} : m.length = 6 → n = b8.toNat + 256 * b9.toNat →
      FileParts (m ++ 1 :: 0 :: b8 :: b9 :: rest) (zeroPadded n rest) (rest.drop n)
  | v2 {m b8 b9 b10 b11 rest n} : m.length = 6 → b11.toNat < 128 →
      n = b8.toNat + 256 * b9.toNat + 256 ^ 2 * b10.toNat + 256 ^ 3 * b11.toNat →
      FileParts (m ++ 2 :: 0 :: b8 :: b9 :: b10 :: b11 :: rest) (zeroPadded n rest) (rest.drop n)
  | other {m u v b8 b9 rest} : m.length = 6 → ¬((u = 1 ∨ u = 2) ∧ v = 0) → FileParts (m ++ u :: v :: b8 :: b9 :: rest) [] rest

/-- The file ends before the dictionary begins. -/
def HeaderCut (bytes : Bytes) : Prop :=
  bytes.length < 10 ∨ ∃ m b8 b9 rest, bytes = m ++ 2 :: 0 :: b8 :: b9 :: rest ∧ m.length = 6 ∧ rest.length < 2

/-- The header of a file is accepted and means `info`; `data` is what follows it. Only builds with `assert` look at the first six bytes. -/
def HeaderOf (cfg : Cfg) (bytes : Bytes) (info : HeaderInfo) (data : Bytes) : Prop :=
  (cfg.ndebug = true ∨ bytes.take 6 = [0x93] ++ b!"NUMPY") ∧
  ∃ dict fs, FileParts bytes dict data ∧ DictRead (!cfg.ndebug) fs dict ∧ DescrsFine fs ∧ Describes fs info

/-- The first `n` bytes of the data; missing ones are zero when elements are read as one block, and 0xFF when they are read byte by
byte, which is done for elements of several bytes in the order that is not the host's. -/
def filled (cfg : Cfg) (t : DType) (big : Bool) (n : Nat) (data : Bytes) : Bytes :=
  data.take n ++ List.replicate (n - data.length) (if itemSize t = 1 ∨ big = cfg.nativeBig then 0 else 0xFF)

/-- The first `n` bytes of the data of a tensor of strings; missing ones are 0xFF. -/
def filledWide (n : Nat) (data : Bytes) : Bytes := data.take n ++ List.replicate (n - data.length) 0xFF

end Npy.Spec
