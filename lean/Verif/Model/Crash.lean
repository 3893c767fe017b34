import Verif.Model.Fs
/-!
# A process that ends in the middle

What is on disk when the process is killed while it saves to a path (npy.h:271-279) or while it has an archive open for writing
(npz.cpp:467-508).
-/

namespace Npy

/-- The states a file system can be left in when the process ends during `save(path, tensor, endianness)` (npy.h:271-279): not opened
yet; or opened, which empties the file, and then a beginning of what is written (`file` streams write their buffer in order, so what has
reached the file is a beginning of what was given to the stream). A `save` that throws leaves the file empty. Simplification: what the
operating system has taken stays (a process is killed; the machine keeps running). -/
inductive SaveCrash {α : Type} (cfg : Cfg) (ops : ElemOps α) (t : Tensor α) (e : Endian) (p : Bytes) (fs : Fs) : Fs → Prop
  | unopened : SaveCrash cfg ops t e p fs fs
  | opened : (fs.openOut p).1.isOpen = true → SaveCrash cfg ops t e p fs (fs.put p [])
  | writing {out : OStream} (k : Nat) : (fs.openOut p).1.isOpen = true → save cfg ops t e (fs.openOut p).1 = .ok out →
      SaveCrash cfg ops t e p fs (fs.put p (out.buf.take k))

/-- The states a file system can be left in when the process ends while an `npzfilewriter` on a path is alive (npz.cpp:467-508) and
some of the `calls` have been made: the file is not opened yet, or holds a beginning of what the calls `done` so far and the next one
(the last of `done`) write, or of that and the directory, when the writer is being destroyed. -/
inductive ArchiveCrash (cfg : Cfg) (codec : Codec) (method : Nat) (e : Endian) (p : Bytes) (calls : List WrCall) (fs : Fs) : Fs → Prop
  | unopened : ArchiveCrash cfg codec method e p calls fs fs
  | writing (done : List WrCall) (k : Nat) : done <+: calls → (fs.openOut p).1.isOpen = true →
      ArchiveCrash cfg codec method e p calls fs
        (fs.put p ((Writer.after cfg codec (Writer.newFile (fs.openOut p).1 method e) done).output.buf.take k))
  | closing (k : Nat) : (fs.openOut p).1.isOpen = true →
      ArchiveCrash cfg codec method e p calls fs
        (fs.put p ((Writer.destroy (Writer.after cfg codec (Writer.newFile (fs.openOut p).1 method e) calls)).2.output.buf.take k))

end Npy
