/-!
# Bytes, outcomes and the execution monad

Shared vocabulary of the model. Nothing here is specific to libnpy except the list of throw sites.
-/

namespace Npy

/-- A C++ `char`/`unsigned char`, as an unsigned 8-bit value. (the `char` of npy.cpp:13, the `std::uint8_t` of npy.h:298) -/
abbrev Byte := UInt8

/-- A `std::string`, `std::vector<char>` or raw buffer. (as in npy.h:202, 316) -/
abbrev Bytes := List UInt8

/-- `b!"..."` is the list of the (ASCII) bytes of a string literal, written out as numerals. -/
macro:max "b!" s:str : term => do
  let nums : Array (Lean.TSyntax `term) :=
    s.getString.toUTF8.toList.toArray.map fun b => Lean.quote b.toNat
  `(([$nums,*] : List UInt8))

/-- Exceptions the library throws, one constructor per C++ class; the argument is the throw site. (the sites are cited one by one) -/
inductive Msg
  /-- npy.cpp:60 "Dictionary value is not a boolean" -/
  | notBool
  /-- npy.cpp:110 "Unsupported key: " -/
  | unsupportedKey
  /-- npy.h:748 "requested dtype does not match stream's dtype" -/
  | dtypeMismatch
  /-- npz.cpp:95 "Invalid signature (Not a valid NPZ file)" -/
  | badSignature
  /-- npz.cpp:143 "Invalid tag (expected ZIP64)" -/
  | badTag
  /-- npz.cpp:165 "ZIP64 extra info missing" -/
  | extraMissing
  /-- npz.cpp:214, 261 "Unsupported NPZ version" -/
  | badVersion
  /-- npz.cpp:398 "Central directory and local headers disagree" -/
  | headersDisagree
  /-- npz.cpp:421 "CRC mismatch" -/
  | crcMismatch
  /-- npy.h:435 / 509 "Stream is closed" -/
  | streamClosed
  /-- npz.cpp:453 / 495 "NPZ file has been closed" -/
  | npzClosed
  /-- zip.cpp:139, 160 "Error inflating stream" -/
  | inflateError
  /-- dtype.cpp:49 "U dtype must be computed dynamically" -/
  | uDtype
  /-- npy.h:275 / 347, npy.cpp:131 "path" -/
  | path
  /-- npz.cpp:389 "filename" -/
  | filename
  /-- npy.h:944, 958 "multi_index" -/
  | multiIndex
  /-- npy.h:845 "nitems" -/
  | nitems
  /-- npy.h:855, 865 "source.size" -/
  | sourceSize
  /-- npz.cpp:361 "Unsupported compression method" -/
  | unsupportedCompression
  /-- npz.cpp:555 "File not found" -/
  | fileNotFound
  /-- thrown by a tensor class of the user (npy.h:669-685; examples/custom_tensors/custom.cpp:38, 104, 141) -/
  | user
  /-- thrown by the standard library: `std::stoi`, `std::vector`, `std::string::substr` -/
  | std
  deriving DecidableEq, Repr, Inhabited

/-- The C++ exception classes that can leave the library. (npy.h:275, 748; std exceptions come from npy.cpp:99 and from containers) -/
inductive Exn
  | runtimeError (m : Msg)
  | invalidArgument (m : Msg)
  | outOfRange (m : Msg)
  | lengthError (m : Msg)
  deriving DecidableEq, Repr, Inhabited

/-- How a call can end other than by returning a value. (`assert` as in npy.h:300-305) -/
inductive Err
  /-- a C++ exception leaves the call -/
  | throw (e : Exn)
  /-- an `assert` fails (only in builds without `NDEBUG`) -/
  | abort
  /-- undefined behaviour: from here on the program may do anything -/
  | ub
  /-- the model ran out of fuel -/
  | diverge
  deriving DecidableEq, Repr, Inhabited

/-- State-and-outcome monad. The state survives an exception, as in C++. (model infrastructure) -/
structure SM (σ α : Type) where
  mk ::
  run : σ → Except Err α × σ

namespace SM
variable {σ α β : Type}

/-- `x s` runs `x` in state `s`. -/
instance : CoeFun (SM σ α) (fun _ => σ → Except Err α × σ) := ⟨SM.run⟩

/-- Model infrastructure: return. -/
def pure (a : α) : SM σ α := .mk fun s => (.ok a, s)

/-- Model infrastructure: sequencing; an error ends the computation. -/
def bind (x : SM σ α) (f : α → SM σ β) : SM σ β := .mk fun s =>
  match x s with
  | (.ok a, s') => f a s'
  | (.error e, s') => (.error e, s')

instance : Monad (SM σ) where
  pure := SM.pure
  bind := SM.bind

/-- Model infrastructure: a failure, as `throw` in npy.h:748. -/
def fail (e : Err) : SM σ α := .mk fun s => (.error e, s)
/-- Model infrastructure: read the state. -/
def get : SM σ σ := .mk fun s => (.ok s, s)
/-- Model infrastructure: replace the state. -/
def set (s : σ) : SM σ Unit := .mk fun _ => (.ok (), s)
/-- Model infrastructure: change the state. -/
def modify (f : σ → σ) : SM σ Unit := .mk fun s => (.ok (), f s)
/-- Lift a computation that does not touch the state. (model infrastructure) -/
def lift (x : Except Err α) : SM σ α := .mk fun s => (x, s)

@[simp] theorem pure_apply (a : α) (s : σ) : (Pure.pure a : SM σ α) s = (.ok a, s) := rfl
@[simp] theorem fail_apply (e : Err) (s : σ) : (fail e : SM σ α) s = (.error e, s) := rfl
@[simp] theorem lift_apply (x : Except Err α) (s : σ) : (lift x : SM σ α) s = (x, s) := rfl
@[simp] theorem get_apply (s : σ) : (get : SM σ σ) s = (.ok s, s) := rfl
@[simp] theorem set_apply (s s' : σ) : (set s' : SM σ Unit) s = (.ok (), s') := rfl
@[simp] theorem modify_apply (f : σ → σ) (s : σ) : (modify f : SM σ Unit) s = (.ok (), f s) := rfl

theorem bind_apply (x : SM σ α) (f : α → SM σ β) (s : σ) :
    (x >>= f) s = match x s with
      | (.ok a, s') => f a s'
      | (.error e, s') => (.error e, s') := rfl

/-- Stepping rule: the first action returned `a`. -/
theorem bind_ok {x : SM σ α} {f : α → SM σ β} {s s' : σ} {a : α} (h : x s = (.ok a, s')) :
    (x >>= f) s = f a s' := by
  rw [bind_apply, h]

/-- Stepping rule: the first action failed. -/
theorem bind_error {x : SM σ α} {f : α → SM σ β} {s s' : σ} {e : Err} (h : x s = (.error e, s')) :
    (x >>= f) s = (.error e, s') := by
  rw [bind_apply, h]

/-- Inversion of a successful sequence. -/
theorem of_bind_ok {x : SM σ α} {f : α → SM σ β} {s s'' : σ} {b : β}
    (h : (x >>= f) s = (.ok b, s'')) : ∃ a s', x s = (.ok a, s') ∧ f a s' = (.ok b, s'') := by
  rw [bind_apply] at h
  match hx : x s with
  | (.ok a, s') => rw [hx] at h; exact ⟨a, s', rfl, h⟩
  | (.error e, s') => rw [hx] at h; simp at h

end SM

/-- What the platform and the build decide. (npy.h:52-59; `assert` in npy.cpp:16; `wchar_t` in dtype.cpp:577) -/
structure Cfg where
  /-- the host stores integers most significant byte first (npy.h:52-59 finds out at run time) -/
  nativeBig : Bool
  /-- built with `NDEBUG`: every `assert` is removed -/
  ndebug : Bool
  /-- `wchar_t` has 16 bits (Windows) instead of 32 -/
  wchar16 : Bool
  deriving DecidableEq, Repr, Inhabited

/-- Modulus of `size_t` (64-bit platforms). (npy.h:306, 997) -/
def SIZE : Nat := 2 ^ 64

/-! ### Integers as bytes -/

/-- The `k` bytes of `n` (reduced modulo `256^k`), least significant first. (as in npz.cpp:29-54) -/
def leBytes : Nat → Nat → Bytes
  | 0, _ => []
  | k + 1, n => UInt8.ofNat n :: leBytes k (n / 256)

/-- The value of bytes read least significant first. (as in npz.cpp:56-82) -/
def leValue : Bytes → Nat
  | [] => 0
  | b :: bs => b.toNat + 256 * leValue bs

/-- The memory image of an unsigned integer of `k` bytes on the host. (the `reinterpret_cast`s of dtype.cpp:121-512) -/
def hostBytes (cfg : Cfg) (k n : Nat) : Bytes :=
  if cfg.nativeBig then (leBytes k n).reverse else leBytes k n

/-- The integer whose memory image on the host is the given one. (the `reinterpret_cast`s of dtype.cpp:136-512) -/
def hostValue (cfg : Cfg) (bs : Bytes) : Nat :=
  if cfg.nativeBig then leValue bs.reverse else leValue bs

end Npy
