import Verif.Model.Program
import Verif.Props.Peek
/-!
# Specification: a file system that holds arrays and archives of arrays

What a user has in mind: `save` puts an array under a path, `load` gets it; an archive on a path is a list of named arrays.
-/

namespace Npy
namespace Spec

/-- What is under a path: an array saved in some byte order, an archive, or something the program has not made. -/
inductive Content
  | array (e : Endian) (t : AnyTensor)
  | archive (e : Endian) (puts : List (Bytes × AnyTensor))
  | foreign

/-- What is under every path; `none` if there is nothing. -/
abbrev Disk := Bytes → Option Content

/-- The paths a program may read and write. -/
structure Access where
  readable : Bytes → Bool
  writable : Bytes → Bool

/-- What is on the disk after a call. -/
def next (a : Access) (d : Disk) : PCall → Disk
  | .save t e p => if a.writable p then fun q => if q = p then some (.array e t) else d q else d
  | .pack _ e p puts => if a.writable p then fun q => if q = p then some (.archive e puts) else d q else d
  | _ => d

/-- The path a call writes to, if it does. -/
def target : PCall → Option Bytes
  | .save _ _ p => some p
  | .pack _ _ p _ => some p
  | _ => none

/-- The element types of the library: the fixed-size ones and strings. -/
inductive LibKind : ElemKind → Prop
  | fixed (t : DType) : t ≠ .unicode → LibKind ⟨Elem, fixedOps t⟩
  | wide : LibKind ⟨WStr, wideOps⟩

/-- The element type of a tensor. -/
def kindOf (t : AnyTensor) : ElemKind := ⟨t.α, t.ops⟩

/-- The most that `n` bytes can take in an archive. -/
def packed (method n : Nat) : Nat := if method = STORED then n else 3 * n + 9

/-- Tensors that an archive can hold: less than 65536 of them, with names of less than 65536 bytes, each of which can be saved, together
less than 4 GiB; and, if they are compressed, on a little-endian host and of the
sizes for which compression can be undone (C52). -/
structure Packable (cfg : Cfg) (method : Nat) (e : Endian) (puts : List (Bytes × AnyTensor)) : Prop where
  storable : ∀ p ∈ puts, Storable cfg e p.2
  count : puts.length < 65536
  names : ∀ p ∈ puts, (storedName p.1).length < 65536
  way : method = STORED ∨ method = DEFLATED ∧ cfg.nativeBig = false ∧
    ∀ p ∈ puts, ∀ f, saveToString cfg p.2.ops p.2.x e = .ok f → Deflate.SafeSize f.length
  size : ∃ size : Bytes × AnyTensor → Nat, (∀ p ∈ puts, ∀ f, saveToString cfg p.2.ops p.2.x e = .ok f → f.length ≤ size p) ∧
    (puts.map fun p => 50 + (storedName p.1).length + packed method (size p)).sum < 2 ^ 32

/-- The calls on a reader that the specification describes: those with element types of the library. -/
def ProperRd : RdCall → Prop
  | .read α ops _ => LibKind ⟨α, ops⟩
  | _ => True

/-- The calls that the specification describes: what is saved can be saved, archives are within the limits, and nothing is read that was
not written as what it is read as (or does not exist, or may not be read). -/
def Proper (cfg : Cfg) (a : Access) (d : Disk) : PCall → Prop
  | .save t e _ => Storable cfg e t
  | .load k p => LibKind k ∧ (a.readable p = true → d p = none ∨ ∃ e t, d p = some (.array e t))
  | .peek p => a.readable p = true → d p = none ∨ ∃ e t, d p = some (.array e t)
  | .pack method e _ puts => Packable cfg method e puts
  | .unpack p calls => (∀ c ∈ calls, ProperRd c) ∧ (a.readable p = true → d p = none ∨ ∃ e puts, d p = some (.archive e puts))

/-- What reading an array as an element type gives: the array itself, or an exception if its element type is another. -/
inductive LoadsAs (t : AnyTensor) (k : ElemKind) : (r : Except Err (Tensor k.α)) → Prop
  | same (h : k = kindOf t) : LoadsAs t k (.ok (h ▸ t.x))
  | other (err : Exn) : k.ops.dtype ≠ t.ops.dtype → LoadsAs t k (.error (.throw err))

/-- The exception for a path that cannot be opened. -/
def noPath : Err := .throw (.invalidArgument .path)

/-- The exception for a name that is not in an archive. -/
def noName : Err := .throw (.invalidArgument .filename)

/-- What a call on a reader of an archive gives. -/
inductive RdMeets (cfg : Cfg) (e : Endian) (puts : List (Bytes × AnyTensor)) : RdCall → RdOut → Prop
  | read {α ops name t r} : lookup puts name = some t → LoadsAs t ⟨α, ops⟩ r → RdMeets cfg e puts (.read α ops name) (.read α r)
  | readNone {α ops name} : lookup puts name = none → RdMeets cfg e puts (.read α ops name) (.read α (.error noName))
  | peek {name t info} : lookup puts name = some t → Announces cfg e t info → RdMeets cfg e puts (.peek name) (.peek (.ok info))
  | peekNone {name} : lookup puts name = none → RdMeets cfg e puts (.peek name) (.peek (.error noName))
  | contains {name b} : (b = true ↔ ∃ p ∈ puts, storedName p.1 = name) → RdMeets cfg e puts (.contains name) (.contains b)
  | keys {names} : names.Perm (puts.map fun p => storedName p.1) → names.Pairwise (· ≤ ·) → RdMeets cfg e puts .keys (.keys names)

/-- What a call gives. -/
inductive Meets (cfg : Cfg) (a : Access) (d : Disk) : PCall → POut → Prop
  | save {t e p} : a.writable p = true → Meets cfg a d (.save t e p) (.save (.ok ()))
  | saveNot {t e p} : a.writable p = false → Meets cfg a d (.save t e p) (.save (.error noPath))
  | load {k p e t r} : a.readable p = true → d p = some (.array e t) → LoadsAs t k r → Meets cfg a d (.load k p) (.load k.α r)
  | loadNot {k p} : a.readable p = false ∨ d p = none → Meets cfg a d (.load k p) (.load k.α (.error noPath))
  | peek {p e t info} : a.readable p = true → d p = some (.array e t) → Announces cfg e t info →
      Meets cfg a d (.peek p) (.peek (.ok info))
  | peekNot {p} : a.readable p = false ∨ d p = none → Meets cfg a d (.peek p) (.peek (.error noPath))
  | pack {method e p puts} : Meets cfg a d (.pack method e p puts) (.pack (puts.map fun _ => .ok ()))
  | unpack {p calls e puts outs} : a.readable p = true → d p = some (.archive e puts) →
      List.Forall₂ (RdMeets cfg e puts) calls outs → Meets cfg a d (.unpack p calls) (.unpack (.ok outs))
  | unpackNot {p calls} : a.readable p = false ∨ d p = none →
      Meets cfg a d (.unpack p calls) (.unpack (.error (.throw (.invalidArgument .fileNotFound))))

/-- Every call of the program is one the specification describes, in the state it is made in. -/
def ProperAll (cfg : Cfg) (a : Access) : Disk → List PCall → Prop
  | _, [] => True
  | d, c :: calls => Proper cfg a d c ∧ ProperAll cfg a (next a d c) calls

/-- Every call of the program gives what the specification says. -/
def MeetsAll (cfg : Cfg) (a : Access) : Disk → List PCall → List POut → Prop
  | _, [], outs => outs = []
  | d, c :: calls, outs => ∃ o rest, outs = o :: rest ∧ Meets cfg a d c o ∧ MeetsAll cfg a (next a d c) calls rest

end Spec
end Npy
