import Verif.Model.History
/-!
# Tensor objects as owners of storage

In `Model/Tensor` a tensor is its values. In the code it owns a buffer on the heap (the `std::vector<T>` at npy.h:991), and
clients hold pointers, references and iterators into that buffer: `data()`, `begin()`, `operator()`, `get`, `values()`. Here
buffers have an identity: they are allocated, handed over by moves, and freed. A buffer that was freed is never used again
under the same identity (in C++, an old pointer stays invalid even if the allocator hands out the same address).

Simplifications: enough memory (`Model/TensorMem` is about its lack); the buffers of `m_shape` and `m_ravel_strides` have no
identity (only const references to them leave the class); `copy_from` reads its source before it writes (its source is
either disjoint from the target or the target itself).
-/

namespace Npy

/-- A pointer, reference or iterator to an element: which buffer, and which position in it. (npy.h:772-810, 821-824, 872-875) -/
structure Ptr where
  buf : Nat
  off : Nat
  deriving DecidableEq, Repr, Inhabited

/-- A buffer: room for `cap` elements, of which the first are in use. (`std::vector<T>` at npy.h:991) -/
structure Storage (α : Type) where
  cap : Nat
  elems : List α
  deriving DecidableEq, Repr, Inhabited

/-- Where a program keeps vectors: inside a tensor variable, or in a variable of its own. (npy.h:991, 853, 863) -/
inductive Slot
  | tensor (v : Nat)
  | vec (w : Nat)
  deriving DecidableEq, Repr, Inhabited

/-- The heap, and which vector owns which buffer. `own s = none`: there is no vector at `s`; `own s = some none`: it has no
buffer. (`std::vector<T>` at npy.h:991) -/
structure Vecs (α : Type) where
  next : Nat
  bufs : Nat → Option (Storage α)
  own : Slot → Option (Option Nat)

namespace Vecs
variable {α : Type}

/-- (heap update) for `std::vector<T>` at npy.h:991 -/
def setBuf (m : Vecs α) (b : Nat) (x : Option (Storage α)) : Vecs α := { m with bufs := fun c => if c = b then x else m.bufs c }

/-- (ownership update) for `std::vector<T>` at npy.h:991 -/
def setOwn (m : Vecs α) (s : Slot) (o : Option (Option Nat)) : Vecs α := { m with own := fun r => if r = s then o else m.own r }

/-- Give back the buffer of the vector at `s`. (`std::vector` destructor and assignments, npy.h:868, 911, 921) -/
def free (m : Vecs α) (s : Slot) : Vecs α := match m.own s with
  | some (some b) => m.setBuf b none
  | _ => m

/-- A new buffer, none for no elements. (`std::vector` constructors, npy.h:714, 720) -/
def alloc (m : Vecs α) (l : List α) : Vecs α × Option Nat :=
  if l.isEmpty then (m, none)
  else ({ m with next := m.next + 1, bufs := fun c => if c = m.next then some ⟨l.length, l⟩ else m.bufs c }, some m.next)

/-- A new vector at `s`; what was there is destroyed. (npy.h:714, 720) -/
def make (m : Vecs α) (s : Slot) (l : List α) : Vecs α :=
  let r := m.alloc l
  (r.1.free s).setOwn s (some r.2)

/-- The vector at `s` is destroyed. (destructor of the member at npy.h:991) -/
def destroy (m : Vecs α) (s : Slot) : Vecs α := (m.free s).setOwn s none

/-- Copy assignment to the vector at `s`: its buffer is kept if there is room. (libstdc++ `vector::operator=`, npy.h:911) -/
def assign (m : Vecs α) (s : Slot) (l : List α) : Vecs α := match m.own s with
  | some (some b) => match m.bufs b with
    | some x => if l.length ≤ x.cap then m.setBuf b (some { x with elems := l }) else m.make s l
    | none => m
  | _ => m.make s l

/-- Move construction and assignment: the buffer changes hands. A vector moved to itself is left empty.
(libstdc++ `vector(vector&&)`, `vector::operator=(vector&&)`, npy.h:727, 868, 921) -/
def move (m : Vecs α) (dst src : Slot) : Vecs α :=
  if dst = src then (m.free dst).setOwn src (some none) else ((m.free dst).setOwn dst (m.own src)).setOwn src (some none)

/-- `*p = x` (npy.h:787-796, 799, 807, 872) -/
def write (m : Vecs α) (p : Ptr) (x : α) : Except Err (Vecs α) := match m.bufs p.buf with
  | some y => if p.off < y.elems.length then .ok (m.setBuf p.buf (some { y with elems := y.elems.set p.off x })) else .error .ub
  | none => .error .ub

/-- `*p` (npy.h:772-810, 821-824, 872-875) -/
def read (m : Vecs α) (p : Ptr) : Except Err α := match m.bufs p.buf with
  | some y => match y.elems[p.off]? with
    | some x => .ok x
    | none => .error .ub
  | none => .error .ub

/-- The elements that can be read from `p` on. (npy.h:848) -/
def rest (m : Vecs α) (p : Ptr) : List α := match m.bufs p.buf with
  | some y => y.elems.drop p.off
  | none => []

/-- The pointer `data() + k` (npy.h:799, 807, 872); none if the vector has no buffer. -/
def ptr (m : Vecs α) (s : Slot) (k : Nat) : Option Ptr := match m.own s with
  | some (some b) => some ⟨b, k⟩
  | _ => none

/-- The elements of the vector at `s` (npy.h:838) -/
def elems (m : Vecs α) (s : Slot) : Option (List α) := match m.own s with
  | some (some b) => (m.bufs b).map (·.elems)
  | some none => some []
  | none => none

/-- Write element `k` of the vector at `s`. (`m_values[k] = value`, npy.h:816) -/
def put (m : Vecs α) (s : Slot) (k : Nat) (x : α) : Except Err (Vecs α) := match m.ptr s k with
  | some p => m.write p x
  | none => .error .ub

/-- `std::copy` over the elements of the vector at `s`. (npy.h:848, 858) -/
def fill (m : Vecs α) (s : Slot) (l : List α) : Vecs α := match m.own s with
  | some (some b) => match m.bufs b with
    | some y => m.setBuf b (some { y with elems := l ++ y.elems.drop l.length })
    | none => m
  | _ => m

end Vecs

/-- What a tensor object holds besides its values. (npy.h:987-990) -/
structure TInfo where
  shape : List Nat
  ravelStrides : List Nat
  fortranOrder : Bool
  dtype : DType
  deriving DecidableEq, Repr, Inhabited

/-- The state of a program with tensors, vectors and pointers. (client code of npy.h:686-1049) -/
structure PState (α : Type) where
  mem : Vecs α
  info : Nat → Option TInfo

namespace PState
variable {α : Type}

/-- No objects. (client code) -/
def start : PState α := ⟨⟨0, fun _ => none, fun _ => none⟩, fun _ => none⟩

/-- Change what variable `v` holds besides values. (client code) -/
def setInfo (s : PState α) (v : Nat) (i : Option TInfo) : PState α := { s with info := fun w => if w = v then i else s.info w }

/-- The tensor in variable `v`, as it is seen through its members. (npy.h:987-991) -/
def tensor (s : PState α) (v : Nat) : Option (Tensor α) := match s.info v, s.mem.elems (.tensor v) with
  | some i, some l => some ⟨i.shape, i.ravelStrides, i.fortranOrder, i.dtype, l⟩
  | _, _ => none

end PState

/-- What a tensor holds besides its values. (npy.h:987-990) -/
def Tensor.info {α : Type} (x : Tensor α) : TInfo := ⟨x.shape, x.ravelStrides, x.fortranOrder, x.dtype⟩

/-- The calls. (cited one by one) -/
inductive POp (α : Type)
  /-- npy.h:703-714 -/
  | construct (v : Nat) (shape : List Nat) (fortran : Bool)
  /-- npy.h:333-336 -/
  | load (v : Nat) (input : Bytes)
  /-- npy.h:815-817 -/
  | set (v : Nat) (idx : List Int) (val : α)
  /-- npy.h:794-796 -/
  | setU (v : Nat) (idx : List Nat) (val : α)
  /-- `*p = val` for a pointer, reference or iterator, npy.h:787-810, 872 -/
  | write (p : Ptr) (val : α)
  /-- npy.h:843-849, the source given by a pointer -/
  | copyFromPtr (v : Nat) (p : Ptr) (nitems : Nat)
  /-- npy.h:853-859, the source a vector variable or `values()` of a tensor (npy.h:838) -/
  | copyFrom (v : Nat) (src : Slot)
  /-- npy.h:863-869, `t.move_from(std::move(w))` -/
  | moveFrom (v w : Nat)
  /-- npy.h:717-720 copy construction -/
  | copyTensor (dst src : Nat)
  /-- npy.h:905-912 copy assignment -/
  | assign (dst src : Nat)
  /-- npy.h:723-727, 915-922: move construction or assignment -/
  | moveTensor (dst src : Nat)
  /-- the end of the life of a tensor (implicit destructor, npy.h:686-1031) -/
  | drop (v : Nat)
  /-- a new vector of the client, for npy.h:853, 863 -/
  | vec (w : Nat) (l : List α)

/-- One call. Using an object that does not exist, or a pointer that points nowhere, is undefined. (npy.h:703-727, 787-817, 843-869, 905-922, 333-336; cited one by one at `POp`) -/
def POp.step {α : Type} (cfg : Cfg) (ops : ElemOps α) (s : PState α) : POp α → Except Err (PState α)
  | .construct v shape f => match Tensor.new ops shape f with
    | .error e => .error e
    | .ok x => .ok ({ s with mem := s.mem.make (.tensor v) x.values }.setInfo v (some x.info))
  | .load v input => match (Npy.load cfg ops (IStream.ofBytes input)).1 with
    | .error e => .error e
    | .ok x => .ok ({ s with mem := s.mem.make (.tensor v) x.values }.setInfo v (some x.info))
  | .set v idx val => match s.tensor v with
    | none => .error .ub
    | some x => match x.ravelI idx with
      | .error e => .error e
      | .ok k => (s.mem.put (.tensor v) k val).map fun m => { s with mem := m }
  | .setU v idx val => match s.tensor v with
    | none => .error .ub
    | some x => match x.ravelU idx with
      | .error e => .error e
      | .ok k => (s.mem.put (.tensor v) k val).map fun m => { s with mem := m }
  | .write p val => (s.mem.write p val).map fun m => { s with mem := m }
  | .copyFromPtr v p n => match s.tensor v with
    | none => .error .ub
    | some x =>
      if n ≠ x.values.length then .error (.throw (.invalidArgument .nitems))
      else if (s.mem.rest p).length < n then .error .ub
      else .ok { s with mem := s.mem.fill (.tensor v) ((s.mem.rest p).take n) }
  | .copyFrom v src => match s.tensor v, s.mem.elems src with
    | some x, some l =>
      if l.length ≠ x.values.length then .error (.throw (.invalidArgument .sourceSize))
      else .ok { s with mem := s.mem.fill (.tensor v) l }
    | _, _ => .error .ub
  | .moveFrom v w => match s.tensor v, s.mem.elems (.vec w) with
    | some x, some l =>
      if l.length ≠ x.values.length then .error (.throw (.invalidArgument .sourceSize))
      else .ok { s with mem := s.mem.move (.tensor v) (.vec w) }
    | _, _ => .error .ub
  | .copyTensor dst src => match s.tensor src with
    | none => .error .ub
    | some x => .ok ({ s with mem := s.mem.make (.tensor dst) x.values }.setInfo dst (some x.info))
  | .assign dst src => match s.tensor dst, s.tensor src with
    | some _, some x =>
      if dst = src then .ok s
      else .ok ({ s with mem := s.mem.assign (.tensor dst) x.values }.setInfo dst (some x.info))
    | _, _ => .error .ub
  | .moveTensor dst src => match s.tensor src with
    | none => .error .ub
    | some x => .ok (({ s with mem := s.mem.move (.tensor dst) (.tensor src) }.setInfo dst (some x.info)).setInfo src
        (some { x.info with shape := [], ravelStrides := [] }))
  | .drop v => .ok ({ s with mem := s.mem.destroy (.tensor v) }.setInfo v none)
  | .vec w l => .ok { s with mem := s.mem.make (.vec w) l }

/-- A whole program: exceptions are caught; undefined behaviour ends it (`none`). (client code of npy.h:686-1049) -/
def POp.runAll {α : Type} (cfg : Cfg) (ops : ElemOps α) : List (POp α) → PState α → Option (PState α)
  | [], s => some s
  | op :: rest, s => match op.step cfg ops s with
    | .ok s' => runAll cfg ops rest s'
    | .error (.throw _) => runAll cfg ops rest s
    | .error _ => none

end Npy
