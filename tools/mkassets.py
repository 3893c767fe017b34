#!/usr/bin/env python3
"""Writes lean/Verif/Validation.lean: the repository's own test assets as byte
literals, and kernel-checked comparisons of the model with them."""
import os,struct
A='/repo/assets/test/'
def b(f): return list(open(A+f,'rb').read())
def lit(l,ind='   '):
    out=[];line=ind
    for i,x in enumerate(l):
        s=str(x)+(', ' if i<len(l)-1 else '')
        if len(line)+len(s)>96: out.append(line.rstrip());line=ind
        line+=s
    out.append(line)
    return '[\n'+'\n'.join(out)+']'
f32=lambda n: struct.unpack('<I',struct.pack('<f',n))[0]
f64=lambda n: struct.unpack('<Q',struct.pack('<d',n))[0]
fv=[0,10,20,30,40,5,15,25,35,45,1,11,21,31,41,6,16,26,36,46,2,12,22,32,42,7,17,27,37,47,3,13,23,33,43,8,18,28,38,48,4,14,24,34,44,9,19,29,39,49]
r=list(range(50))
sh=[5,2,5]
def L(v): return '['+', '.join(map(str,v))+']'
cases=[]
for t in ['uint8','int8','uint16','int16','uint32','int32','uint64','int64']:
    cases.append((t,t,sh,False,[[x] for x in r],'native' if t.endswith('8') else 'little'))
cases+= [('uint8_fortran','uint8',sh,True,[[x] for x in fv],'native'),
 ('int32_big','int32',sh,False,[[x] for x in r],'big'),
 ('int32_scalar','int32',[],False,[[42]],'little'),
 ('int32_array','int32',[25],False,[[x] for x in range(25)],'little'),
 ('float32','float32',sh,False,[[f32(x)] for x in r],'little'),
 ('float64','float64',sh,False,[[f64(x)] for x in r],'little'),
 ('complex64','complex64',sh,False,[[f32(x),0] for x in r],'little'),
 ('complex128','complex128',sh,False,[[f64(x),0] for x in r],'little'),
 ('bool','bool',sh,False,[[x%2] for x in r],'native'),
 ('unicode',None,sh,False,[[ord(c) for c in str(x)] for x in r],'little')]
o=[]
w=o.append
w('''import Verif.Model.Npz
import Verif.Model.History
import Verif.Model.NpzClient

/-!
# Validation of the model against the repository's own test assets

GENERATED by `tools/mkassets.py`.  **These are tests of the model, not proofs of
properties**: nothing in `MANIFEST.json` rests on this file.  Each definition
`f_…` is the content, byte for byte, of a file in `/repo/assets/test`, and each
`t_…` is the tensor that `/repo/test/libnpy_tests.h` compares it with.  The
examples let the kernel evaluate the model of `save`, `load` and of the archive
reader and writer on them: saving the tensor gives exactly the asset, and loading
the asset gives exactly the tensor.  They are evidence that the definitions in
`Verif/Model` describe the code in `/repo`.
-/

set_option maxRecDepth 20000

namespace Npy.Validation

/-- A release build on a little-endian machine. -/
def cfg : Cfg := ⟨false, true, false⟩

/-- The tensor of the given element type, shape, order and values. -/
def mk {α : Type} (ops : ElemOps α) (shape : List Nat) (fortran : Bool) (vs : List α) :
    Except Err (Tensor α) :=
  (Tensor.new ops shape fortran).map fun x => { x with values := vs }

/-- `npy::save` of the tensor into an empty string stream. -/
def saved {α : Type} (ops : ElemOps α) (x : Except Err (Tensor α)) (e : Endian) :
    Except Err Bytes :=
  x.bind fun x => (save cfg ops x e OStream.empty).map (·.buf)

/-- What `npy::load` makes of the bytes: shape, order and values. -/
def loaded {α : Type} (ops : ElemOps α) (b : Bytes) : Except Err (List Nat × Bool × List α) :=
  ((load cfg ops (IStream.ofBytes b)).1).map fun x => (x.shape, x.fortranOrder, x.values)
''')
for (n,t,s,f,v,e) in cases:
    ops='wideOps' if t is None else f'(fixedOps .{t})'
    by=b(n+'.npy')
    w(f'/-- `/repo/assets/test/{n}.npy` ({len(by)} bytes). -/\ndef f_{n} : Bytes := {lit(by)}\n')
    w(f'/-- The values of the tensor in `{n}.npy`. -/\ndef v_{n} : List (List Nat) := {lit([L(x) for x in v])}\n')
    F='true' if f else 'false'
    w(f'example : saved {ops} (mk {ops} {L(s)} {F} v_{n}) .{e} = .ok f_{n} := by\n  decide +kernel\n')
    w(f'example : loaded {ops} f_{n} = .ok ({L(s)}, {F}, v_{n}) := by\n  decide +kernel\n')
npz=b('test.npz')
w(f'/-- `/repo/assets/test/test.npz` ({len(npz)} bytes). -/\ndef f_npz : Bytes := {lit(npz)}\n')
w(f'/-- `test_tensor<float>({{5, 5}})`. -/\ndef v_depth : List (List Nat) := {lit([L([f32(x)]) for x in range(25)])}\n')
w("""/-- No entry is compressed. -/
def codec : Codec := ⟨fun _ => .error .abort, fun _ => .error .abort⟩

/-- The archive written by `/repo/test/npz_write.cpp:41-47`. -/
def writeNpz : Except Err Bytes := do
  let color ← mk (fixedOps .uint8) [5, 5, 3] false ((List.range 75).map ([·]))
  let depth ← mk (fixedOps .float32) [5, 5] false v_depth
  let unicode ← mk wideOps [5, 2, 5] false v_unicode
  pure (Writer.after cfg codec (Writer.newString STORED .little)
    [.write ⟨_, fixedOps .uint8, color⟩ "color".toUTF8.toList,
      .write ⟨_, fixedOps .float32, depth⟩ "depth.npy".toUTF8.toList,
      .write ⟨_, wideOps, unicode⟩ "unicode.npy".toUTF8.toList, .close]).str

-- it is exactly the asset
example : writeNpz = .ok f_npz := by decide +kernel

/-- `npzstringreader(f_npz).read<…>(name)`: shape, order and values. -/
def readNpz {α : Type} (ops : ElemOps α) (name : String) : Except Err (List Nat × Bool × List α) :=
  (Reader.open (IStream.ofBytes f_npz)).bind fun r =>
    (Reader.read cfg codec ops name.toUTF8.toList r).1.map fun x => (x.shape, x.fortranOrder, x.values)

-- `/repo/test/npz_read.cpp:37-59`
example : readNpz (fixedOps .uint8) "color.npy" = .ok ([5, 5, 3], false, (List.range 75).map ([·])) := by
  decide +kernel
example : readNpz (fixedOps .float32) "depth" = .ok ([5, 5], false, v_depth) := by decide +kernel
example : readNpz wideOps "unicode" = .ok ([5, 2, 5], false, v_unicode) := by decide +kernel
""")
w('end Npy.Validation')
open('/verif/lean/Verif/Validation.lean','w').write('\n'.join(o)+'\n')
