#!/usr/bin/env python3
"""Runs the model of npy_deflate and npy_inflate on the three compressed entries of
/repo/assets/test/test_compressed.npz, which the library's own test (npz_write.cpp:12-33)
requires to be reproduced byte for byte.  A test of the model, not part of the build.

The model keeps arrays as functions; to run it, the text of Model/DeflateHuff.lean and
Model/Deflate.lean is copied to a scratch file in which these functions are hash maps.
usage: cd /verif/lean && python3 ../tools/validate_deflate.py"""
import re,struct,subprocess,tempfile,zipfile,os
M='/verif/lean/Verif/Model/'
T=tempfile.mkdtemp()
h=open(M+'DeflateHuff.lean').read(); d=open(M+'Deflate.lean').read()
hd='''import Verif.Model.Inflate
import Std.Data.HashMap
namespace Npy
structure Arr (α : Type) where
  base : Nat → α
  m : Std.HashMap Nat α := {}
instance : CoeFun (Arr α) (fun _ => Nat → α) := ⟨fun a i => match a.m[i]? with | some v => v | none => a.base i⟩
instance : Coe (Nat → α) (Arr α) := ⟨fun f => ⟨f, {}⟩⟩
def setAt {α : Type} (f : Arr α) (i : Nat) (v : α) : Arr α := { f with m := f.m.insert i v }
end Npy
'''
def tr(s):
    s=re.sub(r'/-!.*?-/','',s,flags=re.S)
    s=re.sub(r'import .*','',s)
    s=re.sub(r'/-- One cell of.*?\n.*?\n','',s)
    for t in ['Nat','UInt8','SymFreq']:
        s=s.replace('(Nat → %s)'%t,'(Arr %s)'%t)
        s=re.sub(r': Nat → %s\b(?! →)'%t,': Arr %s'%t,s)
        s=re.sub(r'(\) :|→) Nat → %s :='%t,r'\1 Arr %s :='%t,s)
    for f in ['firstCodes','lastUsed','lastSwizzle','findShorter']:
        s=re.sub(r'(def %s [^\n]*): Arr Nat$'%f,r'\1: Nat → Nat',s,flags=re.M)
    s=s.replace('fun _ => 0',"(⟨fun _ => 0, {}⟩ : Arr Nat)")
    s=s.replace('fun _ => ⟨0, 0⟩','(⟨fun _ => ⟨0, 0⟩, {}⟩ : Arr SymFreq)')
    return s
p='/repo/assets/test/test_compressed.npz'
raw=open(p,'rb').read()
z=zipfile.ZipFile(p)
for i,f in enumerate(z.infolist()):
    o=f.header_offset
    n,e=struct.unpack('<HH',raw[o+26:o+30])
    open(f'{T}/c{i}','wb').write(raw[o+30+n+e:o+30+n+e+f.compress_size]); open(f'{T}/u{i}','wb').write(z.read(f))
open(T+'/G.lean','w').write(hd+tr(h)+tr(d)+f'''
open Npy
def jj : Junk := ⟨(⟨fun i => UInt8.ofNat (i*7), {{}}⟩ : Arr UInt8), (⟨fun i => i*13, {{}}⟩ : Arr Nat), 0x5a⟩
def go : IO Unit := do
  for i in [0,1,2] do
    let u ← IO.FS.readBinFile s!"{T}/u{{i}}"
    let c ← IO.FS.readBinFile s!"{T}/c{{i}}"
    match npyDeflate false true jj 100000 u.toList with
    | .ok z => IO.println s!"entry {{i}}: deflate gives the asset's bytes: {{z == c.toList}}"
    | .error e => IO.println s!"{{repr e}}"
    match npyInflate false 100000 c.toList with
    | .ok z => IO.println s!"entry {{i}}: inflate gives them back: {{z == u.toList}}"
    | .error e => IO.println s!"{{repr e}}"
#eval go
''')
subprocess.run(['lake','env','lean',T+'/G.lean'])
