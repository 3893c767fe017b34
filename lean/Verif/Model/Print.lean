import Verif.Model.Locale
/-!
# Printing data types and byte orders

`operator<<` for `data_type_t` and `endian_t` prints the value as an `int`; the text depends on the format of the stream:
base, sign, prefix, width, fill character and locale (libstdc++ `num_put::_M_insert_int`).
-/

namespace Npy

/-- `basefield` of a stream: `std::dec`, `std::oct`, `std::hex`. (the streams at dtype.cpp:68, 73) -/
inductive Radix | dec | oct | hex
  deriving DecidableEq, Repr, Inhabited

/-- `adjustfield` of a stream: `std::left`, `std::right` (also if none is set), `std::internal`. (the streams at dtype.cpp:68, 73) -/
inductive Adjust | left | right | internal
  deriving DecidableEq, Repr, Inhabited

/-- What the printed text of an integer depends on: the flags `basefield`, `showbase`, `showpos`, `uppercase` and `adjustfield`,
`width()`, `fill()` and the stream's locale. (the streams at dtype.cpp:68, 73) -/
structure Format where
  radix : Radix
  showbase : Bool
  showpos : Bool
  uppercase : Bool
  adjust : Adjust
  width : Nat
  fill : Byte
  loc : Locale
  deriving DecidableEq, Repr, Inhabited

/-- The format of a new stream. (the streams at dtype.cpp:68, 73) -/
def Format.initial (loc : Locale) : Format := ⟨.dec, false, false, false, .right, 0, 32, loc⟩

/-- `static_cast<int>(value)` of an `endian_t` (dtype.cpp:73): position in the enumeration npy.h:40-48 -/
def Endian.idx : Endian → Nat
  | .native => 0 | .big => 1 | .little => 2

/-- A digit of a base up to 16. (libstdc++ `__num_base::_S_atoms_out`, for dtype.cpp:68, 73) -/
def radixDigit (upper : Bool) (d : Nat) : Byte :=
  if d < 10 then UInt8.ofNat (48 + d) else UInt8.ofNat ((if upper then 55 else 87) + d)

/-- Digits, the last one first; fuel: more than the value. (libstdc++ `__int_to_char`, for dtype.cpp:68, 73) -/
def radixDigitsRev (upper : Bool) (b : Nat) : Nat → Nat → Bytes
  | 0, _ => []
  | fuel + 1, n => radixDigit upper (n % b) :: if n / b = 0 then [] else radixDigitsRev upper b fuel (n / b)

/-- The digits of a number in a base. (libstdc++ `__int_to_char`, for dtype.cpp:68, 73) -/
def radixDigits (upper : Bool) (n : Nat) : Radix → Bytes
  | .dec => decimal n
  | .oct => (radixDigitsRev upper 8 (n + 1) n).reverse
  | .hex => (radixDigitsRev upper 16 (n + 1) n).reverse

/-- The digits of a number in the base of the stream. (libstdc++ `num_put::_M_insert_int`, for dtype.cpp:68, 73) -/
def Format.digits (f : Format) (n : Nat) : Bytes := radixDigits f.uppercase n f.radix

/-- The locale's separators. (libstdc++ `num_put::_M_group_int`, for dtype.cpp:68, 73) -/
def Format.group (f : Format) (ds : Bytes) : Bytes :=
  match f.loc with
  | none => ds
  | some p => addGrouping p.sep ds.length (p.group :: p.more) ds

/-- Sign or base in front of the digits of a number that is not negative. (libstdc++ `num_put::_M_insert_int`, for dtype.cpp:68, 73) -/
def Format.lead (f : Format) (n : Nat) : Bytes :=
  match f.radix with
  | .dec => if f.showpos then b!"+" else []
  | .oct => if f.showbase && n != 0 then b!"0" else []
  | .hex => if f.showbase && n != 0 then (if f.uppercase then b!"0X" else b!"0x") else []

/-- libstdc++ `__pad::_S_pad`: `std::internal` fills after a sign or `0x`. (for dtype.cpp:68, 73) -/
def Format.pad (f : Format) (s : Bytes) : Bytes :=
  if f.width ≤ s.length then s
  else match f.adjust with
    | .left => s ++ List.replicate (f.width - s.length) f.fill
    | .right => List.replicate (f.width - s.length) f.fill ++ s
    | .internal =>
      let keep := match s with
        | c :: d :: _ => if c = 43 || c = 45 then 1 else if c = 48 && (d = 120 || d = 88) then 2 else 0
        | [c] => if c = 43 || c = 45 then 1 else 0
        | [] => 0
      s.take keep ++ List.replicate (f.width - s.length) f.fill ++ s.drop keep

/-- The text `os << n` writes for an `int` that is not negative. (libstdc++ `num_put::_M_insert_int`, for dtype.cpp:68, 73) -/
def Format.text (f : Format) (n : Nat) : Bytes := f.pad (f.lead n ++ f.group (f.digits n))

/-- An output stream with its format. (the streams at dtype.cpp:68, 73) -/
structure PrintStream where
  out : OStream
  fmt : Format
  deriving DecidableEq, Repr, Inhabited

/-- `os << static_cast<int>(value)`: nothing is written to a stream that has failed, and its width stays; otherwise the width is 0
afterwards. (`std::ostream::_M_insert`, for dtype.cpp:68, 73) -/
def PrintStream.putInt (s : PrintStream) (n : Nat) : PrintStream :=
  if s.out.bad then s
  else ⟨s.out.write (s.fmt.text n), { s.fmt with width := 0 }⟩

/-- dtype.cpp:67-70 `operator<<(std::ostream&, const data_type_t&)` -/
def PrintStream.putDType (s : PrintStream) (t : DType) : PrintStream := s.putInt t.idx

/-- dtype.cpp:72-75 `operator<<(std::ostream&, const endian_t&)` -/
def PrintStream.putEndian (s : PrintStream) (e : Endian) : PrintStream := s.putInt e.idx

end Npy
