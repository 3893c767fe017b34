import Verif.Model.Tensor
/-!
# Programs over tensor objects

A program holds tensor objects of one element type in variables and calls the member functions of `npy::tensor<T>`
(npy.h:686-1049) and `npy::load` (npy.h:333-336) on them, in any order.
-/

namespace Npy

/-- The calls a program can make. (the calls are cited one by one) -/
inductive TOp (α : Type)
  /-- npy.h:703-714 constructors -/
  | construct (v : Nat) (shape : List Nat) (fortran : Bool)
  /-- npy.h:333-336 `load` from a stream over these bytes, initialising a new object -/
  | load (v : Nat) (input : Bytes)
  /-- npy.h:815-817 `set`; npy.h:787-789 assignment through `operator()(...)` -/
  | set (v : Nat) (idx : List Int) (val : α)
  /-- npy.h:794-796 assignment through `operator()(vector<size_t>)` -/
  | setU (v : Nat) (idx : List Nat) (val : α)
  /-- npy.h:799-810, 872 assignment through `begin()[k]` or `data()[k]` -/
  | poke (v : Nat) (k : Nat) (val : α)
  /-- npy.h:843-849 -/
  | copyFromPtr (v : Nat) (source : List α) (nitems : Nat)
  /-- npy.h:853-859 -/
  | copyFrom (v : Nat) (source : List α)
  /-- npy.h:863-869 -/
  | moveFrom (v : Nat) (source : List α)
  /-- npy.h:717-720, 905-912: copy construction or assignment of `dst` from `src` -/
  | copyTensor (dst src : Nat)
  /-- npy.h:723-727, 915-922: move construction or assignment of `dst` from `src` -/
  | moveTensor (dst src : Nat)

/-- The tensor variables of a program. (client code of npy.h:686-1049) -/
abbrev TEnv (α : Type) := Nat → Option (Tensor α)

/-- Assign a variable. (client code) -/
def TEnv.put {α : Type} (env : TEnv α) (v : Nat) (x : Tensor α) : TEnv α := fun w => if w = v then some x else env w

/-- One call: the outcome, and the variables afterwards when it returns. Using a variable that holds no object is
undefined. (client code; the calls are cited at `TOp`) -/
def TOp.step {α : Type} (cfg : Cfg) (ops : ElemOps α) (env : TEnv α) : TOp α → Except Err (TEnv α)
  | .construct v shape f => (Tensor.new ops shape f).map (env.put v)
  | .load v input => (Npy.load cfg ops (IStream.ofBytes input)).1.map (env.put v)
  | .set v idx val => match env v with
    | some x => (x.set idx val).map (env.put v)
    | none => .error .ub
  | .setU v idx val => match env v with
    | some x => (x.setU idx val).map (env.put v)
    | none => .error .ub
  | .poke v k val => match env v with
    | some x => if k < x.values.length then .ok (env.put v { x with values := x.values.set k val }) else .error .ub
    | none => .error .ub
  | .copyFromPtr v src n => match env v with
    | some x => (x.copyFromPtr src n).map (env.put v)
    | none => .error .ub
  | .copyFrom v src => match env v with
    | some x => (x.copyFrom src).map (env.put v)
    | none => .error .ub
  | .moveFrom v src => match env v with
    | some x => (x.moveFrom src).map (env.put v)
    | none => .error .ub
  | .copyTensor dst src => match env src with
    | some x => .ok (env.put dst x.copyFromTensor)
    | none => .error .ub
  | .moveTensor dst src => match env src with
    | some x => .ok ((env.put dst x.moveFromTensor.1).put src x.moveFromTensor.2)
    | none => .error .ub

/-- A whole program: a call that throws is caught and leaves the variables as they were; a call with any other failure
ends the program (`none`). (client code) -/
def TOp.runAll {α : Type} (cfg : Cfg) (ops : ElemOps α) : List (TOp α) → TEnv α → Option (TEnv α)
  | [], env => some env
  | op :: rest, env => match op.step cfg ops env with
    | .ok env' => runAll cfg ops rest env'
    | .error (.throw _) => runAll cfg ops rest env
    | .error _ => none

end Npy
