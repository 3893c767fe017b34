import Verif.Model.Locale
import Verif.Model.Npz
/-!
# Archives and the program's locale

`write` of the archive writers calls `npy::save`, and `read` and `peek` of the readers call `npy::load` and `npy::peek`; the ZIP
format itself is written in binary (zip.cpp, npz.cpp) and does not depend on the locale.
-/

namespace Npy

/-- npy.h:432-449 / 506-523 `write(filename, tensor)` in a program running in this locale -/
def Writer.writeL {α : Type} (loc : Locale) (cfg : Cfg) (codec : Codec) (ops : ElemOps α) (filename : Bytes) (t : Tensor α) :
    WM Unit := .mk fun w =>
  if w.closed then (.error (.throw (.runtimeError .streamClosed)), w)
  else match saveL loc cfg ops t w.endianness OStream.empty with
    | .error e => (.error e, w)
    | .ok out => Writer.writeFile codec (entryName filename) out.buf w

/-- npy.h:570-573 / 635-638 `read<T>(filename)` in a program running in this locale -/
def Reader.readL {α : Type} (loc : Locale) (cfg : Cfg) (codec : Codec) (ops : ElemOps α) (filename : Bytes) : RM (Tensor α) := do
  let bytes ← Reader.readFile codec filename
  SM.lift (loadL loc cfg ops (IStream.ofBytes bytes)).1

/-- npz.cpp:533-536 / 571-574 `peek(filename)` in a program running in this locale -/
def Reader.peekL (loc : Locale) (cfg : Cfg) (codec : Codec) (filename : Bytes) : RM HeaderInfo := do
  let bytes ← Reader.readFile codec filename
  SM.lift (Npy.peekL loc cfg (IStream.ofBytes bytes)).1

end Npy
