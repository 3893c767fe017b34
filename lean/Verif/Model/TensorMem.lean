import Verif.Model.History
/-!
# Tensor objects when memory runs out

`Model/Tensor` and `Model/History` follow `npy::tensor<T>` as long as every allocation succeeds. Here an allocation may fail
in each call, at any of the places where the code allocates; the call then throws `std::bad_alloc`, which the caller may
catch. A `std::vector` allocates when it is made with at least one element and when it is assigned more elements than it has
room for (libstdc++); the room of the three vectors of a tensor is part of the object here.

Simplifications: every copy of a string may allocate (short strings in fact do not); a call that only allocates before it
changes anything (`load`, `set`) has one place where it may fail; the vector given to `move_from` has no spare room.
-/

namespace Npy

/-- Which of the coming allocations fail, in their order; those after the end of the list succeed.
(`std::allocator::allocate`, for the vectors at npy.h:987-991) -/
abbrev Memory := List Bool

/-- How a call can end. (npy.h:686-1049) -/
inductive TFault
  /-- `std::bad_alloc` leaves the call -/
  | badAlloc
  /-- as without shortage -/
  | other (e : Err)
  deriving DecidableEq, Repr, Inhabited

/-- A tensor object with the capacities of its vectors. (npy.h:987-991) -/
structure Obj (α : Type) where
  t : Tensor α
  shapeCap : Nat
  stridesCap : Nat
  valuesCap : Nat
  deriving DecidableEq, Repr, Inhabited

/-- An object whose vectors have no spare room. (npy.h:711-714, 718-720) -/
def Obj.tight {α : Type} (x : Tensor α) : Obj α := ⟨x, x.shape.length, x.ravelStrides.length, x.values.length⟩

/-- Do elements own memory? Only those of `std::vector<std::wstring>` do. (npy.h:991) -/
def ownsMemory {α : Type} (ops : ElemOps α) : Bool := ops.dtype == .unicode

/-- The result of copying elements one by one. (libstdc++ `std::copy`, for npy.h:848, 858, 911) -/
structure Copied (β : Type) where
  ok : Bool
  /-- the elements copied -/
  done : List β
  mem : Memory

/-- Copying elements one by one until a copy cannot get memory. (libstdc++ `std::copy`, for npy.h:848, 858, 911) -/
def copyElems {β : Type} (owns : Bool) : Memory → List β → Copied β
  | m, [] => ⟨true, [], m⟩
  | m, v :: vs =>
    if owns then
      if m.headD false then ⟨false, [], m.tail⟩
      else
        let r := copyElems owns m.tail vs
        { r with done := v :: r.done }
    else
      let r := copyElems owns m vs
      { r with done := v :: r.done }

/-- The result of assigning to a vector. (libstdc++ `vector::operator=`, for npy.h:906-911) -/
structure Assigned (β : Type) where
  ok : Bool
  elems : List β
  cap : Nat
  mem : Memory

/-- `dst = src` for vectors. Without room, a new buffer is made and filled before the old one is given up; with room,
elements are assigned one by one, and then appended ones are taken away again if one of them fails.
(libstdc++ `vector::operator=`, for npy.h:906-911) -/
def vecAssign {β : Type} (owns : Bool) (m : Memory) (dst : List β) (cap : Nat) (src : List β) : Assigned β :=
  if cap < src.length then
    if m.headD false then ⟨false, dst, cap, m.tail⟩
    else
      let r := copyElems owns m.tail src
      if r.ok then ⟨true, src, src.length, r.mem⟩ else ⟨false, dst, cap, r.mem⟩
  else
    let r := copyElems owns m src
    if r.ok then ⟨true, src, cap, r.mem⟩
    else ⟨false, r.done.take dst.length ++ dst.drop r.done.length, cap, r.mem⟩

/-- The allocation of a new vector of `n` elements: none for an empty one. Whether it succeeds, and the coming allocations.
(libstdc++ `vector` constructors, for npy.h:711-714, 718-720, 1009) -/
def vecAlloc (m : Memory) (n : Nat) : Bool × Memory := if n = 0 then (true, m) else (!m.headD false, m.tail)

/-- npy.h:905-912 copy assignment: whether it returns, and the target afterwards in either case. -/
def Obj.assign {α : Type} (owns : Bool) (m : Memory) (a b : Obj α) : Bool × Obj α × Memory :=
  let s := vecAssign false m a.t.shape a.shapeCap b.t.shape
  let a := { a with t := { a.t with shape := s.elems }, shapeCap := s.cap }
  if s.ok then
    let r := vecAssign false s.mem a.t.ravelStrides a.stridesCap b.t.ravelStrides
    let a := { a with t := { a.t with ravelStrides := r.elems }, stridesCap := r.cap }
    if r.ok then
      let v := vecAssign owns r.mem a.t.values a.valuesCap b.t.values
      (v.ok, { a with t := { a.t with fortranOrder := b.t.fortranOrder, dtype := b.t.dtype, values := v.elems }, valuesCap := v.cap }, v.mem)
    else (false, a, r.mem)
  else (false, a, s.mem)

/-- npy.h:717-720 copy construction: whether it returns -/
def Obj.copyAlloc {α : Type} (owns : Bool) (m : Memory) (b : Tensor α) : Bool × Memory :=
  let s := vecAlloc m b.shape.length
  if s.1 then
    let r := vecAlloc s.2 b.ravelStrides.length
    if r.1 then
      let v := vecAlloc r.2 b.values.length
      if v.1 then
        let c := copyElems owns v.2 b.values
        (c.ok, c.mem)
      else v
    else r
  else s

/-- npy.h:710-714 construction: whether it returns, if the number of elements is not refused -/
def Obj.newAlloc (m : Memory) (shape : List Nat) : Bool × Memory :=
  let s := vecAlloc m shape.length
  if s.1 then
    let r := vecAlloc s.2 shape.length
    if r.1 then vecAlloc r.2 (Tensor.getSize shape) else r
  else s

/-- The calls: those of `TOp`, where `copyTensor` is copy construction of a new object, and copy assignment to an existing
one. (npy.h:686-1049) -/
inductive MOp (α : Type)
  | of (op : TOp α)
  /-- npy.h:905-912 -/
  | assign (dst src : Nat)

/-- The tensor variables of a program. (client code of npy.h:686-1049) -/
abbrev MEnv (α : Type) := Nat → Option (Obj α)

/-- Assign a variable. (client code) -/
def MEnv.put {α : Type} (env : MEnv α) (v : Nat) (x : Obj α) : MEnv α := fun w => if w = v then some x else env w

/-- The variables without the capacities. (client code) -/
def MEnv.tensors {α : Type} (env : MEnv α) : TEnv α := fun v => (env v).map (·.t)

/-- The outcome of a call, the variables and the coming allocations afterwards. (client code) -/
structure MStep (α : Type) where
  out : Except TFault Unit
  env : MEnv α
  mem : Memory

/-- A call that allocates, if it does (`may`), only before it changes anything: it fails, or goes on. (npy.h:333-336, 815-817, 787-796) -/
def memFirst {α : Type} (may : Bool) (m : Memory) (env : MEnv α) (k : Memory → MStep α) : MStep α :=
  if may then (if m.headD false then ⟨.error .badAlloc, env, m.tail⟩ else k m.tail) else k m

/-- A call that changes the tensor in variable `v` without allocation. (npy.h:815-817, 787-796, 843-869) -/
def memUpdate {α : Type} (m : Memory) (env : MEnv α) (v : Nat) (f : Tensor α → Except Err (Tensor α)) : MStep α :=
  match env v with
  | none => ⟨.error (.other .ub), env, m⟩
  | some a => match f a.t with
    | .error e => ⟨.error (.other e), env, m⟩
    | .ok y => ⟨.ok (), env.put v { a with t := y }, m⟩

/-- `copy_from` once the number of elements is known to be right: elements are assigned one by one. (npy.h:848, 858) -/
def memCopyFrom {α : Type} (owns : Bool) (m : Memory) (env : MEnv α) (v : Nat) (a : Obj α) (source : List α) : MStep α :=
  let r := copyElems owns m source
  let y := { a.t with values := r.done ++ a.t.values.drop r.done.length }
  ⟨if r.ok then .ok () else .error .badAlloc, env.put v { a with t := y }, r.mem⟩

/-- One call with the memory `m`. (the calls at npy.h:703-727, 787-817, 843-869, 905-922, 333-336; cited one by one at `TOp` and `MOp`) -/
def MOp.step {α : Type} (cfg : Cfg) (ops : ElemOps α) (m : Memory) (env : MEnv α) : MOp α → MStep α
  | .of (.construct v shape f) => match Tensor.new ops shape f with
    | .error e =>
      -- `m_shape` and `m_ravel_strides` come before `m_values` (npy.h:711-714)
      let s := vecAlloc m shape.length
      if s.1 then
        let r := vecAlloc s.2 shape.length
        if r.1 then ⟨.error (.other e), env, r.2⟩ else ⟨.error .badAlloc, env, r.2⟩
      else ⟨.error .badAlloc, env, s.2⟩
    | .ok x =>
      let r := Obj.newAlloc m shape
      if r.1 then ⟨.ok (), env.put v (.tight x), r.2⟩ else ⟨.error .badAlloc, env, r.2⟩
  | .of (.load v input) => memFirst true m env fun m =>
    match (Npy.load cfg ops (IStream.ofBytes input)).1 with
    | .error e => ⟨.error (.other e), env, m⟩
    | .ok x => ⟨.ok (), env.put v (.tight x), m⟩
  | .of (.set v idx val) => memFirst (!idx.isEmpty || ownsMemory ops) m env fun m => memUpdate m env v fun x => x.set idx val
  | .of (.setU v idx val) => memFirst (ownsMemory ops) m env fun m => memUpdate m env v fun x => x.setU idx val
  | .of (.poke v k val) => memFirst (ownsMemory ops) m env fun m => memUpdate m env v fun x =>
    if k < x.values.length then .ok { x with values := x.values.set k val } else .error .ub
  | .of (.copyFromPtr v source n) => match env v with
    | none => ⟨.error (.other .ub), env, m⟩
    | some a =>
      if n ≠ a.t.values.length then ⟨.error (.other (.throw (.invalidArgument .nitems))), env, m⟩
      else if source.length < n then ⟨.error (.other .ub), env, m⟩
      else memCopyFrom (ownsMemory ops) m env v a (source.take n)
  | .of (.copyFrom v source) => match env v with
    | none => ⟨.error (.other .ub), env, m⟩
    | some a =>
      if source.length ≠ a.t.values.length then ⟨.error (.other (.throw (.invalidArgument .sourceSize))), env, m⟩
      else memCopyFrom (ownsMemory ops) m env v a source
  | .of (.moveFrom v source) => match env v with
    | none => ⟨.error (.other .ub), env, m⟩
    | some a => match a.t.moveFrom source with
      | .error e => ⟨.error (.other e), env, m⟩
      | .ok y => ⟨.ok (), env.put v { a with t := y, valuesCap := source.length }, m⟩
  | .of (.copyTensor dst src) => match env src with
    | none => ⟨.error (.other .ub), env, m⟩
    | some b =>
      let r := Obj.copyAlloc (ownsMemory ops) m b.t
      if r.1 then ⟨.ok (), env.put dst (.tight b.t.copyFromTensor), r.2⟩ else ⟨.error .badAlloc, env, r.2⟩
  | .of (.moveTensor dst src) => match env src with
    | none => ⟨.error (.other .ub), env, m⟩
    | some b =>
      ⟨.ok (), (env.put dst { b with t := b.t.moveFromTensor.1 }).put src ⟨b.t.moveFromTensor.2, 0, 0, 0⟩, m⟩
  | .assign dst src => match env dst, env src with
    | some a, some b =>
      -- a vector assigned to itself is left alone (libstdc++ `vector::operator=`)
      if dst = src then ⟨.ok (), env, m⟩
      else
        let r := Obj.assign (ownsMemory ops) m a b
        ⟨if r.1 then .ok () else .error .badAlloc, env.put dst r.2.1, r.2.2⟩
    | _, _ => ⟨.error (.other .ub), env, m⟩

/-- A whole program: exceptions are caught; any other failure ends the program (`none`). (client code of npy.h:686-1049) -/
def MOp.runAll {α : Type} (cfg : Cfg) (ops : ElemOps α) : List (MOp α) → Memory → MEnv α → Option (MEnv α)
  | [], _, env => some env
  | op :: rest, m, env =>
    let r := op.step cfg ops m env
    match r.out with
    | .ok () => runAll cfg ops rest r.mem r.env
    | .error .badAlloc => runAll cfg ops rest r.mem r.env
    | .error (.other (.throw _)) => runAll cfg ops rest r.mem r.env
    | .error (.other _) => none

end Npy
